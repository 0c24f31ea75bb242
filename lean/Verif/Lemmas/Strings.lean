import Verif.Model.Strings
import Verif.Spec.Strings
set_option linter.unusedSectionVars false
namespace Verif.Strings
open Verif.Spec

variable {α : Type} [DecidableEq α]

theorem occursAt_zero {pat s : List α} : OccursAt pat s 0 ↔ pat <+: s := by
  constructor
  · rintro ⟨p, q, rfl, hp⟩
    have : p = [] := List.length_eq_zero_iff.1 hp
    subst this
    exact ⟨q, by simp⟩
  · rintro ⟨q, rfl⟩
    exact ⟨[], q, by simp, rfl⟩

theorem occursAt_succ {pat cs : List α} {c : α} {i : Nat} :
    OccursAt pat (c :: cs) (i + 1) ↔ OccursAt pat cs i := by
  constructor
  · rintro ⟨p, q, h, hp⟩
    cases p with
    | nil => simp at hp
    | cons a p =>
      simp at h hp
      exact ⟨p, q, by simp [h.2], hp⟩
  · rintro ⟨p, q, rfl, hp⟩
    exact ⟨c :: p, q, by simp, by simp [hp]⟩

theorem occursAt_nil_succ {pat : List α} {i : Nat} : ¬ OccursAt pat ([] : List α) (i + 1) := by
  rintro ⟨p, q, h, hp⟩
  have : p = [] := by
    have := congrArg List.length h; simp at this
    exact List.length_eq_zero_iff.1 (by omega)
  subst this; simp at hp

theorem find_spec (pat : List α) (s : List α) :
    match find pat s with
    | some i => OccursAt pat s i ∧ ∀ j, j < i → ¬ OccursAt pat s j
    | none => ∀ i, ¬ OccursAt pat s i := by
  induction s with
  | nil =>
    unfold find
    by_cases h : pat.isPrefixOf ([] : List α)
    · simp only [h, if_true]
      exact ⟨occursAt_zero.2 (List.isPrefixOf_iff_prefix.1 h), fun j hj => absurd hj (Nat.not_lt_zero _)⟩
    · simp only [h]
      intro i
      cases i with
      | zero => exact fun h' => h (List.isPrefixOf_iff_prefix.2 (occursAt_zero.1 h'))
      | succ i => exact occursAt_nil_succ
  | cons c cs ih =>
    unfold find
    by_cases h : pat.isPrefixOf (c :: cs)
    · simp only [h, if_true]
      exact ⟨occursAt_zero.2 (List.isPrefixOf_iff_prefix.1 h), fun j hj => absurd hj (Nat.not_lt_zero _)⟩
    · simp only [h]
      have h0 : ¬ OccursAt pat (c :: cs) 0 :=
        fun h' => h (List.isPrefixOf_iff_prefix.2 (occursAt_zero.1 h'))
      cases hf : find pat cs with
      | none =>
        rw [hf] at ih
        simp only [Option.map_none] at ih ⊢
        intro i
        cases i with
        | zero => exact h0
        | succ i => rw [occursAt_succ]; exact ih i
      | some k =>
        rw [hf] at ih
        simp only [Option.map_some] at ih ⊢
        refine ⟨occursAt_succ.2 ih.1, ?_⟩
        intro j hj
        cases j with
        | zero => exact h0
        | succ j => rw [occursAt_succ]; exact ih.2 j (by simpa using hj)

theorem find_some_iff {pat s : List α} {i : Nat} :
    find pat s = some i ↔ OccursAt pat s i ∧ ∀ j, j < i → ¬ OccursAt pat s j := by
  have h := find_spec pat s
  cases hf : find pat s with
  | none =>
    rw [hf] at h
    simp only [reduceCtorEq, false_iff]
    exact fun h' => h i h'.1
  | some k =>
    rw [hf] at h
    simp only [Option.some.injEq]
    constructor
    · rintro rfl; exact h
    · rintro ⟨h1, h2⟩
      rcases Nat.lt_trichotomy k i with hl | hl | hl
      · exact absurd h.1 (h2 k hl)
      · exact hl
      · exact absurd h1 (h.2 i hl)

theorem find_none_iff {pat s : List α} : find pat s = none ↔ ¬ Contains pat s := by
  have h := find_spec pat s
  cases hf : find pat s with
  | none => rw [hf] at h; simpa [Contains] using h
  | some k => rw [hf] at h; simp only [reduceCtorEq, false_iff]; exact fun hn => hn ⟨k, h.1⟩

theorem find_leftmost {pat s : List α} {i : Nat} (h : find pat s = some i) :
    LeftmostAt pat s (s.take i) (s.drop (i + pat.length)) := by
  obtain ⟨⟨p, q, hs, hp⟩, h2⟩ := find_some_iff.1 h
  subst hp
  refine ⟨?_, ?_⟩
  · subst hs; simp
  · intro j hj; exact h2 j (by simp at hj; omega)

theorem leftmost_find {pat s p q : List α} (h : LeftmostAt pat s p q) :
    find pat s = some p.length :=
  find_some_iff.2 ⟨⟨p, q, h.1, rfl⟩, h.2⟩

theorem leftmost_unique {pat s p q p' q' : List α} (h : LeftmostAt pat s p q)
    (h' : LeftmostAt pat s p' q') : p = p' ∧ q = q' := by
  have e := leftmost_find h
  rw [leftmost_find h'] at e
  have el : p'.length = p.length := by simpa using e
  have := h.1.symm.trans h'.1
  rw [List.append_assoc, List.append_assoc] at this
  obtain ⟨a, b⟩ := List.append_inj this el.symm
  exact ⟨a, by simpa using b⟩

theorem contains_iff_infix {pat s : List α} : Contains pat s ↔ pat <:+: s := by
  constructor
  · rintro ⟨i, p, q, h, _⟩; exact ⟨p, q, h.symm⟩
  · rintro ⟨p, q, h⟩; exact ⟨p.length, p, q, h.symm, rfl⟩

omit [DecidableEq α] in
theorem contains_nil (s : List α) : Contains [] s := ⟨0, [], s, by simp, rfl⟩

theorem exists_leftmost {pat s : List α} (h : Contains pat s) : ∃ p q, LeftmostAt pat s p q := by
  cases hf : find pat s with
  | none => exact absurd h (find_none_iff.1 hf)
  | some i => exact ⟨_, _, find_leftmost hf⟩

/-! ### replace_first -/

theorem replaceFirst_of_leftmost {st a b p q : List α} (h : LeftmostAt a st p q) :
    replaceFirst st a b = (true, p ++ b ++ q) := by
  unfold replaceFirst
  rw [leftmost_find h]
  have := h.1
  subst this
  simp

theorem replaceFirst_of_not {st a b : List α} (h : ¬ Contains a st) :
    replaceFirst st a b = (false, st) := by
  unfold replaceFirst
  rw [find_none_iff.2 h]

/-! ### replace_all -/

theorem replaceAllFuel_mono {a b : List α} {fuel st n r}
    (h : replaceAllFuel a b fuel st n = some r) (k : Nat) :
    replaceAllFuel a b (fuel + k) st n = some r := by
  induction fuel generalizing st n with
  | zero => simp [replaceAllFuel] at h
  | succ fuel ih =>
    rw [Nat.add_right_comm]
    unfold replaceAllFuel at h ⊢
    split
    · rename_i heq; rw [heq] at h; exact h
    · rename_i heq; rw [heq] at h; exact ih h

theorem replaceAllFuel_det {a b : List α} {f1 f2 st n r1 r2}
    (h1 : replaceAllFuel a b f1 st n = some r1) (h2 : replaceAllFuel a b f2 st n = some r2) :
    r1 = r2 := by
  have e1 := replaceAllFuel_mono h1 f2
  have e2 := replaceAllFuel_mono h2 f1
  rw [Nat.add_comm f2 f1, e1] at e2
  simpa using e2

theorem replaceAllFuel_sound {a b : List α} {fuel st n m st'}
    (h : replaceAllFuel a b fuel st n = some (m, st')) :
    ∃ k, m = n + k ∧ Replacements a b k st st' ∧ ¬ Contains a st' := by
  induction fuel generalizing st n with
  | zero => simp [replaceAllFuel] at h
  | succ fuel ih =>
    unfold replaceAllFuel at h
    by_cases hc : Contains a st
    · obtain ⟨p, q, hl⟩ := exists_leftmost hc
      rw [replaceFirst_of_leftmost hl] at h
      obtain ⟨k, hk, hr, hn⟩ := ih h
      exact ⟨k + 1, by omega, .one hl hr, hn⟩
    · rw [replaceFirst_of_not hc] at h
      simp at h
      obtain ⟨rfl, rfl⟩ := h
      exact ⟨0, rfl, .none _, hc⟩

theorem replaceAllFuel_complete {a b : List α} {k st st'} (hr : Replacements a b k st st')
    (hn : ¬ Contains a st') (n : Nat) :
    replaceAllFuel a b (k + 1) st n = some (n + k, st') := by
  induction hr generalizing n with
  | none s => simp [replaceAllFuel, replaceFirst_of_not hn]
  | one hl _ ih =>
    unfold replaceAllFuel
    rw [replaceFirst_of_leftmost hl]
    show replaceAllFuel a b _ _ _ = _
    rw [ih hn]
    congr 2
    omega

theorem replaceAllReturns_iff {st a b : List α} {n st'} :
    ReplaceAllReturns st a b n st' ↔ Replacements a b n st st' ∧ ¬ Contains a st' := by
  constructor
  · rintro ⟨fuel, h⟩
    obtain ⟨k, hk, hr, hn⟩ := replaceAllFuel_sound h
    have : n = k := by omega
    subst this; exact ⟨hr, hn⟩
  · rintro ⟨hr, hn⟩
    exact ⟨n + 1, by simpa using replaceAllFuel_complete hr hn 0⟩

theorem replaceAllReturns_det {st a b : List α} {n st' m st''} (h : ReplaceAllReturns st a b n st')
    (h' : ReplaceAllReturns st a b m st'') : n = m ∧ st' = st'' := by
  obtain ⟨f, h⟩ := h
  obtain ⟨g, h'⟩ := h'
  simpa using replaceAllFuel_det h h'

theorem replaceAll_diverges_of_invariant {a b : List α} (P : List α → Prop)
    (hc : ∀ s, P s → Contains a s) (hp : ∀ s p q, P s → LeftmostAt a s p q → P (p ++ b ++ q))
    {st : List α} (h : P st) : ReplaceAllDiverges st a b := by
  intro fuel
  suffices H : ∀ n, replaceAllFuel a b fuel st n = none from H 0
  induction fuel generalizing st with
  | zero => intro n; rfl
  | succ fuel ih =>
    intro n
    unfold replaceAllFuel
    obtain ⟨p, q, hl⟩ := exists_leftmost (hc _ h)
    rw [replaceFirst_of_leftmost hl]
    exact ih (hp _ _ _ h hl) _

theorem replaceAll_terminates_of_measure {a b : List α} (μ : List α → Nat)
    (hμ : ∀ s p q, LeftmostAt a s p q → μ (p ++ b ++ q) < μ s) (st : List α) :
    ∃ n st', ReplaceAllReturns st a b n st' := by
  suffices H : ∀ m st, μ st = m → ∃ n st', Replacements a b n st st' ∧ ¬ Contains a st' by
    obtain ⟨n, st', h⟩ := H _ st rfl
    exact ⟨n, st', replaceAllReturns_iff.2 h⟩
  intro m
  induction m using Nat.strongRecOn with
  | _ m ih =>
    intro st hm
    by_cases hc : Contains a st
    · obtain ⟨p, q, hl⟩ := exists_leftmost hc
      obtain ⟨n, st', hr, hn⟩ := ih _ (hm ▸ hμ _ _ _ hl) _ rfl
      exact ⟨n + 1, st', .one hl hr, hn⟩
    · exact ⟨0, st, .none _, hc⟩

/-! ### replace_all as simultaneous replacement -/

theorem occursAt_getElem? {a s : List α} {j : Nat} (h : OccursAt a s j) (i : Nat) (hi : i < a.length) :
    s[j + i]? = a[i]? := by
  obtain ⟨p, q, rfl, rfl⟩ := h
  rw [List.append_assoc, List.getElem?_append_right (by omega), Nat.add_sub_cancel_left,
    List.getElem?_append_left hi]

theorem occursAt_append_right {a s t : List α} {j : Nat} (h : OccursAt a s j) :
    OccursAt a (s ++ t) j := by
  obtain ⟨p, q, rfl, rfl⟩ := h
  exact ⟨p, q ++ t, by simp, rfl⟩

theorem occursAt_append_left_iff {a s t : List α} {j : Nat} :
    OccursAt a (t ++ s) (t.length + j) ↔ OccursAt a s j := by
  constructor
  · rintro ⟨p, q, h, hp⟩
    have : (t ++ s).drop t.length = (p ++ a ++ q).drop t.length := by rw [h]
    rw [List.drop_left, List.append_assoc, List.drop_append_of_le_length (by omega)] at this
    exact ⟨p.drop t.length, q, by simpa using this, by simp; omega⟩
  · rintro ⟨p, q, rfl, rfl⟩
    exact ⟨t ++ p, q, by simp, by simp⟩

theorem occursAt_of_take {a s : List α} {j k : Nat} (h : OccursAt a s j) (hk : j + a.length ≤ k) :
    OccursAt a (s.take k) j := by
  obtain ⟨p, q, rfl, rfl⟩ := h
  refine ⟨p, q.take (k - p.length - a.length), ?_, rfl⟩
  rw [List.append_assoc, List.take_append, List.take_append, List.take_of_length_le (by omega),
    List.take_of_length_le (by omega), List.append_assoc]

/-- No new occurrence is created by replacing the leftmost one. -/
def NoNew (a b : List α) : Prop :=
  ∀ p q, LeftmostAt a (p ++ a ++ q) p q → ∀ j, OccursAt a (p ++ b ++ q) j → p.length + b.length ≤ j

theorem noNew_of_disjoint {a b : List α} (ha : a ≠ []) (hd : ∀ c ∈ b, c ∉ a)
    (hb : b ≠ [] ∨ a.length = 1) : NoNew a b := by
  intro p q hl j hj
  have hal : 0 < a.length := List.length_pos_iff.2 ha
  refine Nat.le_of_not_lt fun hlt => ?_
  by_cases h1 : j + a.length ≤ p.length
  · have := occursAt_of_take hj h1
    rw [List.append_assoc, List.take_left' rfl] at this
    have h2 := occursAt_append_right (t := a ++ q) this
    rw [← List.append_assoc] at h2
    exact hl.2 j (by omega) h2
  · have hbl : b ≠ [] → 0 < b.length := List.length_pos_iff.2
    have hk : p.length ≤ j ∨ b ≠ [] := by
      rcases hb with h | h
      · exact .inr h
      · left; omega
    obtain ⟨k, hk1, hk2, hk3, hk4⟩ : ∃ k, j ≤ k ∧ k < j + a.length ∧ p.length ≤ k ∧
        k < p.length + b.length := by
      rcases Nat.le_total p.length j with h | h
      · exact ⟨j, by omega, by omega, h, hlt⟩
      · rcases hk with h' | h'
        · exact ⟨j, by omega, by omega, h', hlt⟩
        · exact ⟨p.length, h, by omega, by omega, by have := hbl h'; omega⟩
    have e := occursAt_getElem? hj (k - j) (by omega)
    rw [show j + (k - j) = k by omega, List.append_assoc,
      List.getElem?_append_right hk3, List.getElem?_append_left (by omega)] at e
    rw [List.getElem?_eq_getElem (by omega), List.getElem?_eq_getElem (by omega)] at e
    have e' := Option.some.inj e
    exact hd _ (List.getElem_mem (l := b) (n := k - p.length) (by omega))
      (e' ▸ List.getElem_mem (l := a) (n := k - j) (by omega))

theorem replacements_simul {a b : List α} (hn : NoNew a b) {s ps} (hc : LeftmostCut a s ps)
    (x : List α) (hx : ∀ j, OccursAt a (x ++ s) j → x.length ≤ j) :
    Replacements a b (ps.length - 1) (x ++ s) (x ++ List.intercalate b ps) ∧
      ¬ Contains a (x ++ List.intercalate b ps) := by
  induction hc generalizing x with
  | last hns =>
    refine ⟨by simpa [List.intercalate] using Replacements.none _, ?_⟩
    rintro ⟨j, hj⟩
    simp only [List.intercalate, List.intersperse, List.flatten_cons, List.flatten_nil,
      List.append_nil] at hj
    have := hx j hj
    rw [show j = x.length + (j - x.length) by omega, occursAt_append_left_iff] at hj
    exact hns ⟨_, hj⟩
  | cut hl hc ih =>
    rename_i s p q ps
    have hs := hl.1
    have hl' : LeftmostAt a (x ++ p ++ a ++ q) (x ++ p) q := by
      refine ⟨rfl, ?_⟩
      intro j hj hoc
      rw [show x ++ p ++ a ++ q = x ++ s by rw [hs]; simp] at hoc
      have := hx j hoc
      rw [show j = x.length + (j - x.length) by omega, occursAt_append_left_iff] at hoc
      exact hl.2 _ (by simp at hj; omega) hoc
    have hx' := hn (x ++ p) q hl'
    obtain ⟨h1, h2⟩ := ih (x ++ p ++ b) (by intro j hj; have := hx' j hj; simp at this ⊢; omega)
    obtain ⟨y, ys, rfl⟩ := List.exists_cons_of_ne_nil (show ps ≠ [] by cases hc <;> simp)
    have e1 : x ++ p ++ b ++ List.intercalate b (y :: ys) = x ++ List.intercalate b (p :: y :: ys) := by
      simp [List.intercalate, List.intersperse]
    rw [e1] at h1 h2
    refine ⟨?_, h2⟩
    have h3 := Replacements.one hl' h1
    rw [show x ++ p ++ a ++ q = x ++ s by rw [hs]; simp] at h3
    simpa using h3

theorem exists_leftmostCut {a : List α} (ha : a ≠ []) (s : List α) : ∃ ps, LeftmostCut a s ps := by
  suffices H : ∀ n (s : List α), s.length = n → ∃ ps, LeftmostCut a s ps from H _ s rfl
  intro n
  induction n using Nat.strongRecOn with
  | _ n ih =>
    intro s hs
    have hal : 0 < a.length := List.length_pos_iff.2 ha
    by_cases hc : Contains a s
    · obtain ⟨p, q, hl⟩ := exists_leftmost hc
      have := congrArg List.length hl.1
      simp at this
      obtain ⟨ps, hps⟩ := ih q.length (by omega) q rfl
      exact ⟨p :: ps, .cut hl hps⟩
    · exact ⟨[s], .last hc⟩

theorem replaceAll_simul {a b s : List α} {ps} (hn : NoNew a b) (hc : LeftmostCut a s ps) :
    ReplaceAllReturns s a b (ps.length - 1) (List.intercalate b ps) := by
  have := replacements_simul hn hc [] (by simp)
  exact replaceAllReturns_iff.2 (by simpa using this)

/-! ### strip: removing a single character is filtering -/

theorem contains_singleton {c : α} {s : List α} : Contains [c] s ↔ c ∈ s := by
  rw [contains_iff_infix]
  constructor
  · rintro ⟨p, q, rfl⟩; simp
  · intro h
    obtain ⟨p, q, rfl⟩ := List.append_of_mem h
    exact ⟨p, q, by simp⟩

theorem replaceAll_char_filter (c : α) (s : List α) :
    ReplaceAllReturns s [c] [] (s.count c) (s.filter (· ≠ c)) := by
  rw [replaceAllReturns_iff]
  refine ⟨?_, by rw [contains_singleton]; simp⟩
  suffices H : ∀ n (s : List α), s.count c = n → Replacements [c] [] n s (s.filter (· ≠ c)) from H _ s rfl
  intro n
  induction n with
  | zero =>
    intro s hs
    have : s.filter (· ≠ c) = s := by
      rw [List.filter_eq_self]
      intro x hx
      have : c ∉ s := List.count_eq_zero.1 hs
      simp; rintro rfl; exact this hx
    rw [this]; exact .none _
  | succ n ih =>
    intro s hs
    have hm : c ∈ s := List.count_pos_iff.1 (by omega)
    obtain ⟨p, q, hl⟩ := exists_leftmost (contains_singleton.2 hm)
    have e := hl.1
    have h1 := ih (p ++ [] ++ q) (by rw [e] at hs; simp at hs ⊢; omega)
    refine .one hl ?_
    have : s.filter (· ≠ c) = (p ++ [] ++ q).filter (· ≠ c) := by rw [e]; simp
    rw [this]; exact h1

/-! ### split -/

theorem splitFuel_mono {s d : List α} {fuel start acc r}
    (h : splitFuel s d fuel start acc = some r) (k : Nat) :
    splitFuel s d (fuel + k) start acc = some r := by
  induction fuel generalizing start acc with
  | zero => simp [splitFuel] at h
  | succ fuel ih =>
    rw [Nat.add_right_comm]
    unfold splitFuel at h ⊢
    split
    · rename_i heq; rw [heq] at h; exact h
    · rename_i heq; rw [heq] at h; exact ih h

theorem splitFuel_det {s d : List α} {f1 f2 start acc r1 r2}
    (h1 : splitFuel s d f1 start acc = some r1) (h2 : splitFuel s d f2 start acc = some r2) :
    r1 = r2 := by
  have e1 := splitFuel_mono h1 f2
  have e2 := splitFuel_mono h2 f1
  rw [Nat.add_comm f2 f1, e1] at e2
  simpa using e2

theorem splitFuel_spec {s d : List α} (hd : d ≠ []) (fuel start : Nat) (acc : List (List α))
    (hs : start ≤ s.length) (hf : s.length - start < fuel) :
    ∃ ps, splitFuel s d fuel start acc = some (acc ++ ps) ∧ LeftmostCut d (s.drop start) ps := by
  induction fuel generalizing start acc with
  | zero => omega
  | succ fuel ih =>
    have hdl : 0 < d.length := List.length_pos_iff.2 hd
    unfold splitFuel
    unfold findFrom
    simp only [hs, if_true]
    cases hfi : find d (s.drop start) with
    | none =>
      simp only [Option.map_none]
      exact ⟨_, rfl, .last (find_none_iff.1 hfi)⟩
    | some i =>
      simp only [Option.map_some]
      have hl := find_leftmost hfi
      have hlen := congrArg List.length hl.1
      have hil : i ≤ (s.drop start).length := by
        obtain ⟨⟨p, q, hs', hp⟩, -⟩ := find_some_iff.1 hfi
        rw [hs']; simp; omega
      have hle : i + start + d.length ≤ s.length := by
        simp at hlen hil
        omega
      obtain ⟨ps, h1, h2⟩ := ih (i + start + d.length)
        (acc ++ [(s.drop start).take (i + start - start)]) hle (by omega)
      refine ⟨(s.drop start).take i :: ps, ?_, .cut hl ?_⟩
      · rw [h1]; simp
      · rw [List.drop_drop]
        have : start + (i + d.length) = i + start + d.length := by omega
        rw [this]; exact h2

theorem split_spec {s d : List α} (hd : d ≠ []) :
    ∃ ps, split s d = some ps ∧ LeftmostCut d s ps := by
  obtain ⟨ps, h1, h2⟩ := splitFuel_spec (s := s) hd (s.length + 2) 0 [] (by omega) (by omega)
  exact ⟨ps, by simpa [split] using h1, by simpa using h2⟩

theorem splitReturns_iff_split {s d : List α} (hd : d ≠ []) {ps} :
    SplitReturns s d ps ↔ split s d = some ps := by
  obtain ⟨qs, h, -⟩ := split_spec (s := s) hd
  constructor
  · rintro ⟨f, hf⟩
    rw [h, splitFuel_det hf h]
  · intro h; exact ⟨_, h⟩

omit [DecidableEq α] in
theorem leftmostCut_ne_nil {d s : List α} {ps} (h : LeftmostCut d s ps) : ps ≠ [] := by
  cases h <;> simp

omit [DecidableEq α] in
theorem leftmostCut_join {d s : List α} {ps} (h : LeftmostCut d s ps) :
    List.intercalate d ps = s := by
  induction h with
  | last => simp [List.intercalate]
  | cut hl hc ih =>
    rename_i s p q ps
    have := leftmostCut_ne_nil hc
    obtain ⟨x, xs, rfl⟩ := List.exists_cons_of_ne_nil this
    rw [hl.1, ← ih]
    simp [List.intercalate, List.intersperse]

omit [DecidableEq α] in
theorem leftmostCut_pieces {d s : List α} {ps} (hd : d ≠ []) (h : LeftmostCut d s ps) :
    ∀ p ∈ ps, ¬ Contains d p := by
  induction h with
  | last h => simpa using h
  | cut hl hc ih =>
    rename_i s p q ps
    intro r hr
    rcases List.mem_cons.1 hr with rfl | hr
    · rintro ⟨j, x, y, rfl, hx⟩
      have : 0 < d.length := List.length_pos_iff.2 hd
      refine hl.2 j (by simp; omega) ⟨x, y ++ d ++ q, ?_, hx⟩
      rw [hl.1]; simp
    · exact ih r hr

theorem leftmostCut_unique {d s : List α} {ps qs} (h : LeftmostCut d s ps)
    (h' : LeftmostCut d s qs) : ps = qs := by
  induction h generalizing qs with
  | last hn =>
    cases h' with
    | last => rfl
    | cut hl => exact absurd ⟨_, _, _, hl.1, rfl⟩ hn
  | cut hl hc ih =>
    cases h' with
    | last hn => exact absurd ⟨_, _, _, hl.1, rfl⟩ hn
    | cut hl' hc' =>
      obtain ⟨rfl, rfl⟩ := leftmost_unique hl hl'
      rw [ih hc']

omit [DecidableEq α] in
theorem leftmostCut_infix {d s : List α} {ps} (h : LeftmostCut d s ps) : ∀ p ∈ ps, p <:+: s := by
  induction h with
  | last h => simp
  | cut hl hc ih =>
    rename_i s p q ps
    intro r hr
    rw [hl.1]
    rcases List.mem_cons.1 hr with rfl | hr
    · exact ⟨[], d ++ q, by simp⟩
    · obtain ⟨x, y, hxy⟩ := ih r hr
      exact ⟨p ++ d ++ x, y, by rw [← hxy]; simp⟩

end Verif.Strings
