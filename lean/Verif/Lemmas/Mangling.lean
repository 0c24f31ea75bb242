import Verif.Model.Mangling
import Verif.Lemmas.Strings
/-!
Facts about `rfind`, and closed forms of the two replacements used by the mangling code.
-/
namespace Verif.Mangling
open Verif.Strings Verif.Spec

theorem isPrefixOf_iff' {p s : Str} : p.isPrefixOf s = true ↔ p <+: s := List.isPrefixOf_iff_prefix

theorem rfind_spec (pat s : Str) :
    match rfind pat s with
    | some i => OccursAt pat s i ∧ ∀ j, i < j → ¬ OccursAt pat s j
    | none => ∀ i, ¬ OccursAt pat s i := by
  induction s with
  | nil =>
    unfold rfind
    by_cases h : pat.isPrefixOf ([] : Str)
    · rw [if_pos h]
      refine ⟨occursAt_zero.2 (isPrefixOf_iff'.1 h), ?_⟩
      intro j hj
      obtain ⟨k, rfl⟩ : ∃ k, j = k + 1 := ⟨j - 1, by omega⟩
      exact occursAt_nil_succ
    · rw [if_neg h]
      intro i
      cases i with
      | zero => intro hh; exact h (isPrefixOf_iff'.2 (occursAt_zero.1 hh))
      | succ i => exact occursAt_nil_succ
  | cons c cs ih =>
    unfold rfind
    cases hr : rfind pat cs with
    | some i =>
      rw [hr] at ih
      refine ⟨occursAt_succ.2 ih.1, ?_⟩
      intro j hj
      obtain ⟨k, rfl⟩ : ∃ k, j = k + 1 := ⟨j - 1, by omega⟩
      rw [occursAt_succ]
      exact ih.2 k (by omega)
    | none =>
      rw [hr] at ih
      simp only
      by_cases h : pat.isPrefixOf (c :: cs)
      · rw [if_pos h]
        refine ⟨occursAt_zero.2 (isPrefixOf_iff'.1 h), ?_⟩
        intro j hj
        obtain ⟨k, rfl⟩ : ∃ k, j = k + 1 := ⟨j - 1, by omega⟩
        rw [occursAt_succ]; exact ih k
      · rw [if_neg h]
        intro i
        cases i with
        | zero => intro hh; exact h (isPrefixOf_iff'.2 (occursAt_zero.1 hh))
        | succ i => rw [occursAt_succ]; exact ih i

theorem rfind_some_iff {pat s : Str} {i : Nat} :
    rfind pat s = some i ↔ OccursAt pat s i ∧ ∀ j, i < j → ¬ OccursAt pat s j := by
  have h := rfind_spec pat s
  cases hf : rfind pat s with
  | none =>
    rw [hf] at h
    simp only [reduceCtorEq, false_iff]
    exact fun hh => h i hh.1
  | some k =>
    rw [hf] at h
    simp only [Option.some.injEq]
    constructor
    · rintro rfl; exact h
    · rintro ⟨h1, h2⟩
      rcases Nat.lt_trichotomy k i with hlt | rfl | hlt
      · exact absurd h1 (h.2 i hlt)
      · rfl
      · exact absurd h.1 (h2 k hlt)

theorem rfind_none_iff {pat s : Str} : rfind pat s = none ↔ ¬ Contains pat s := by
  have h := rfind_spec pat s
  cases hf : rfind pat s with
  | none => rw [hf] at h; simpa [Contains] using h
  | some k => rw [hf] at h; simp only [reduceCtorEq, false_iff]; exact fun hn => hn ⟨k, h.1⟩

theorem occursAt_le {pat s : Str} {i : Nat} (h : OccursAt pat s i) : i + pat.length ≤ s.length := by
  obtain ⟨p, q, rfl, rfl⟩ := h
  simp

theorem rfind_append (p pat : Str) : rfind pat (p ++ pat) = some p.length := by
  rw [rfind_some_iff]
  refine ⟨⟨p, [], by simp, rfl⟩, ?_⟩
  intro j hj h
  have := occursAt_le h
  rw [List.length_append] at this; omega

/-- A found suffix is at the end exactly when the text ends with it. -/
theorem rfind_end {pat s : Str} {i : Nat} (h : rfind pat s = some i) :
    s.length - i - pat.length = 0 ↔ s = s.take i ++ pat := by
  obtain ⟨⟨p, q, hs, hp⟩, _⟩ := rfind_some_iff.1 h
  subst hp
  rw [hs]
  simp

/-! ### "/" -> "::" -/

/-- Every slash doubled into two colons. -/
def slashToColons (s : Str) : Str := s.flatMap fun c => if c = '/' then [':', ':'] else [c]

theorem slashToColons_cons (c : Char) (s : Str) :
    slashToColons (c :: s) = (if c = '/' then [':', ':'] else [c]) ++ slashToColons s := by
  simp [slashToColons]

theorem slashToColons_append (s t : Str) :
    slashToColons (s ++ t) = slashToColons s ++ slashToColons t := by
  simp [slashToColons]

theorem slashToColons_id {s : Str} (h : '/' ∉ s) : slashToColons s = s := by
  induction s with
  | nil => rfl
  | cons c s ih =>
    simp at h
    rw [slashToColons_cons, if_neg (fun e => h.1 e.symm), ih h.2]; rfl

theorem replacements_slash (s : Str) : ∀ p : Str, '/' ∉ p →
    Replacements c!"/" c!"::" (s.count '/') (p ++ s) (p ++ slashToColons s) := by
  induction s with
  | nil => intro p _; simpa [slashToColons] using Replacements.none _
  | cons c s ih =>
    intro p hp
    by_cases h : c = '/'
    · subst h
      have hl : LeftmostAt c!"/" (p ++ '/' :: s) p s := by
        refine ⟨by simp, ?_⟩
        intro j hj hoc
        have := occursAt_getElem? hoc 0 (by simp)
        rw [Nat.add_zero, List.getElem?_append_left hj] at this
        exact hp (List.mem_of_getElem? this)
      have h2 := ih (p ++ c!"::") (by simp [hp])
      rw [slashToColons_cons]
      simp only [List.count_cons_self, if_true]
      have := Replacements.one hl h2
      simpa using this
    · have h2 := ih (p ++ [c]) (by simp [hp]; exact fun e => h e.symm)
      rw [slashToColons_cons, List.count_cons_of_ne (by simpa using h)]
      simpa [h] using h2

theorem slash_not_mem (s : Str) : '/' ∉ slashToColons s := by
  simp only [slashToColons, List.mem_flatMap, not_exists, not_and]
  intro c _
  split
  · decide
  · rename_i h; simpa using fun e => h e.symm

theorem replaceAllC_of_returns {st a b st' : Str} {n : Nat} (hn : n ≤ st.length)
    (h : Replacements a b n st st') (hc : ¬ Contains a st') : replaceAllC st a b = st' := by
  have h1 := replaceAllFuel_complete h hc 0
  have h2 := replaceAllFuel_mono h1 (st.length - n)
  rw [show n + 1 + (st.length - n) = st.length + 1 by omega] at h2
  unfold replaceAllC
  rw [h2]

theorem replaceAllC_slash (s : Str) : replaceAllC s c!"/" c!"::" = slashToColons s := by
  refine replaceAllC_of_returns List.count_le_length (by simpa using replacements_slash s [] (by simp)) ?_
  rw [contains_singleton]; exact slash_not_mem s

/-! ### "::" -> "/" -/

/-- Double colons, from the left, turned into slashes. -/
def colonsToSlash : Str → Str
  | [] => []
  | [c] => [c]
  | c :: d :: s => if c = ':' ∧ d = ':' then '/' :: colonsToSlash s else c :: colonsToSlash (d :: s)

theorem not_occurs_colons {p s : Str} (h1 : ¬ Contains c!"::" p) (h2 : p.getLast? ≠ some ':') (j : Nat)
    (hj : j < p.length) : ¬ OccursAt c!"::" (p ++ s) j := by
  intro hoc
  have e0 := occursAt_getElem? hoc 0 (by simp)
  have e1 := occursAt_getElem? hoc 1 (by simp)
  by_cases hl : j + 1 < p.length
  · have := occursAt_of_take hoc (k := p.length) (by simp; omega)
    rw [List.take_left] at this
    exact h1 ⟨_, this⟩
  · apply h2
    rw [List.getLast?_eq_getElem?, show p.length - 1 = j + 0 by omega]
    rw [List.getElem?_append_left (by omega)] at e0
    simpa using e0

theorem contains_snoc_colon {p : Str} {c : Char} (h : Contains c!"::" (p ++ [c])) :
    Contains c!"::" p ∨ (p.getLast? = some ':' ∧ c = ':') := by
  obtain ⟨i, x, y, hxy, hi⟩ := h
  rcases List.eq_nil_or_concat y with rfl | ⟨y', d, rfl⟩
  · right
    have h1 : p ++ [c] = (x ++ [':']) ++ [':'] := by simpa using hxy
    obtain ⟨h2, h3⟩ := List.append_inj' h1 rfl
    exact ⟨by simp [h2], by simpa using h3⟩
  · left
    have h1 : p ++ [c] = (x ++ c!"::" ++ y') ++ [d] := by simpa using hxy
    exact ⟨_, x, y', (List.append_inj' h1 rfl).1, rfl⟩

theorem replacements_colons : ∀ (s p : Str), ¬ Contains c!"::" p →
    (p.getLast? = some ':' → s.head? ≠ some ':') →
    ∃ n, n ≤ s.length ∧ Replacements c!"::" c!"/" n (p ++ s) (p ++ colonsToSlash s) ∧
      ¬ Contains c!"::" (p ++ colonsToSlash s) := by
  intro s
  induction s using colonsToSlash.induct with
  | case1 =>
    intro p hp _
    exact ⟨0, by simp, by simpa [colonsToSlash] using Replacements.none _, by simpa [colonsToSlash] using hp⟩
  | case2 c =>
    intro p hp hb
    refine ⟨0, by simp, by simpa [colonsToSlash] using Replacements.none _, ?_⟩
    simp only [colonsToSlash]
    intro h
    rcases contains_snoc_colon h with h | ⟨hl, rfl⟩
    · exact hp h
    · exact hb hl rfl
  | case3 c d s h ih =>
    intro p hp hb
    obtain ⟨rfl, rfl⟩ := h
    have hlast : p.getLast? ≠ some ':' := fun e => hb e rfl
    have hl : LeftmostAt c!"::" (p ++ ':' :: ':' :: s) p s :=
      ⟨by simp, fun j hj => not_occurs_colons hp hlast j hj⟩
    obtain ⟨n, hn, h1, h2⟩ := ih (p ++ c!"/")
      (by intro h; rcases contains_snoc_colon h with h | ⟨_, h⟩
          · exact hp h
          · exact absurd h (by decide))
      (by simp)
    refine ⟨n + 1, by simp; omega, ?_, ?_⟩
    · have := Replacements.one hl h1
      simpa [colonsToSlash] using this
    · simpa [colonsToSlash] using h2
  | case4 c d s h ih =>
    intro p hp hb
    obtain ⟨n, hn, h1, h2⟩ := ih (p ++ [c])
      (by intro h'; rcases contains_snoc_colon h' with h' | ⟨hl, rfl⟩
          · exact hp h'
          · exact hb hl rfl)
      (by intro hc hd; simp at hc hd; exact h ⟨hc, hd⟩)
    refine ⟨n, by simp at hn ⊢; omega, ?_, ?_⟩
    · simpa [colonsToSlash, h] using h1
    · simpa [colonsToSlash, h] using h2

theorem replaceAllC_colons (s : Str) : replaceAllC s c!"::" c!"/" = colonsToSlash s := by
  obtain ⟨n, hn, h1, h2⟩ := replacements_colons s [] (by simp [Contains, OccursAt]) (by simp)
  exact replaceAllC_of_returns hn (by simpa using h1) (by simpa using h2)

theorem not_infix_tail {p s : Str} {c : Char} (h : ¬ p <:+: c :: s) : ¬ p <:+: s :=
  fun h' => h (h'.trans (List.suffix_cons c s).isInfix)

theorem colonsToSlash_cons {c : Char} {s : Str} (h : c ≠ ':') :
    colonsToSlash (c :: s) = c :: colonsToSlash s := by
  cases s with
  | nil => simp [colonsToSlash]
  | cons d s => simp [colonsToSlash, h]

/-- Turning slashes into colons and back. -/
theorem colons_slash_colons (s : Str) (h1 : ¬ c!"::" <:+: s) (h2 : ¬ c!":/" <:+: s) :
    colonsToSlash (slashToColons s) = s := by
  induction s with
  | nil => rfl
  | cons c s ih =>
    have ih := ih (not_infix_tail h1) (not_infix_tail h2)
    rw [slashToColons_cons]
    by_cases hs : c = '/'
    · subst hs
      simp [colonsToSlash, ih]
    · rw [if_neg hs]
      by_cases hc : c = ':'
      · subst hc
        cases s with
        | nil => rfl
        | cons d s =>
          have hd1 : d ≠ ':' := by
            rintro rfl; exact h1 ⟨[], s, by simp⟩
          have hd2 : d ≠ '/' := by
            rintro rfl; exact h2 ⟨[], s, by simp⟩
          rw [slashToColons_cons, if_neg hd2] at ih ⊢
          simp only [List.cons_append, List.nil_append] at ih ⊢
          simp only [colonsToSlash, hd1, and_false, if_false, ih]
      · simp only [List.cons_append, List.nil_append]
        rw [colonsToSlash_cons hc, ih]

/-! ### the position of "dds_::" -/

theorem dds_not_prefix (x r : Str) (h1 : ¬ c!"::" <:+: x) (h2 : ¬ c!":/" <:+: x)
    (h3 : ¬ c!"dds_/" <:+: x) (h4 : x.getLast? = some '/') :
    ¬ ddsNs <+: slashToColons x ++ (ddsNs ++ r) := by
  intro h
  have step : ∀ (c : Char) (x : Str) (t : Str), c ≠ ':' → c ≠ '/' → x.getLast? = some '/' →
      (c :: t) <+: slashToColons x ++ (ddsNs ++ r) →
      ∃ y, x = c :: y ∧ y.getLast? = some '/' ∧ t <+: slashToColons y ++ (ddsNs ++ r) := by
    intro c x t hc1 hc2 hx hp
    cases x with
    | nil => simp at hx
    | cons d y =>
      rw [slashToColons_cons] at hp
      by_cases hd : d = '/'
      · subst hd
        simp [List.cons_prefix_cons] at hp
        exact absurd hp.1 hc1
      · rw [if_neg hd] at hp
        simp only [List.cons_append, List.nil_append, List.cons_prefix_cons] at hp
        obtain ⟨rfl, hp⟩ := hp
        refine ⟨y, rfl, ?_, hp⟩
        cases y with
        | nil => simp at hx; exact absurd hx hc2
        | cons e z => simpa [List.getLast?_cons_cons] using hx
  obtain ⟨x1, rfl, hx1, g1⟩ := step 'd' x c!"ds_::" (by decide) (by decide) h4 h
  obtain ⟨x2, rfl, hx2, g2⟩ := step 'd' x1 c!"s_::" (by decide) (by decide) hx1 g1
  obtain ⟨x3, rfl, hx3, g3⟩ := step 's' x2 c!"_::" (by decide) (by decide) hx2 g2
  obtain ⟨x4, rfl, hx4, g4⟩ := step '_' x3 c!"::" (by decide) (by decide) hx3 g3
  clear h g1 g2 g3 hx1 hx2 hx3 h4
  cases x4 with
  | nil => simp at hx4
  | cons e x5 =>
    by_cases he : e = '/'
    · subst he; exact h3 ⟨[], x5, by simp⟩
    · rw [slashToColons_cons, if_neg he] at g4
      simp only [List.cons_append, List.nil_append, List.cons_prefix_cons] at g4
      obtain ⟨rfl, g5⟩ := g4
      cases x5 with
      | nil => simp at hx4
      | cons f x6 =>
        by_cases hf : f = '/'
        · subst hf; exact h2 ⟨c!"dds_", x6, by simp⟩
        · rw [slashToColons_cons, if_neg hf] at g5
          simp only [List.cons_append, List.nil_append, List.cons_prefix_cons] at g5
          obtain ⟨rfl, _⟩ := g5
          exact h1 ⟨c!"dds_", x6, by simp⟩

theorem dds_leftmost (x r : Str) (h1 : ¬ c!"::" <:+: x) (h2 : ¬ c!":/" <:+: x)
    (h3 : ¬ c!"dds_/" <:+: x) (h4 : x = [] ∨ x.getLast? = some '/') :
    LeftmostAt ddsNs (slashToColons x ++ ddsNs ++ r) (slashToColons x) r := by
  refine ⟨rfl, ?_⟩
  induction x with
  | nil => intro j hj; simp [slashToColons] at hj
  | cons c x ih =>
    intro j hj hoc
    have h4' : (c :: x).getLast? = some '/' := by simpa using h4
    have htail : x = [] ∨ x.getLast? = some '/' := by
      cases x with
      | nil => simp
      | cons d y => right; simpa [List.getLast?_cons_cons] using h4'
    have ih := ih (not_infix_tail h1) (not_infix_tail h2) (not_infix_tail h3) htail
    cases j with
    | zero =>
      have := occursAt_zero.1 hoc
      rw [List.append_assoc] at this
      exact dds_not_prefix _ r h1 h2 h3 h4' this
    | succ j =>
      rw [slashToColons_cons] at hj hoc
      by_cases hc : c = '/'
      · subst hc
        simp only [if_true, List.cons_append, List.nil_append] at hj hoc
        rw [occursAt_succ] at hoc
        cases j with
        | zero =>
          have := occursAt_zero.1 hoc
          simp [ddsNs, List.cons_prefix_cons] at this
        | succ j =>
          rw [occursAt_succ] at hoc
          exact ih j (by simp at hj; omega) (by simpa using hoc)
      · simp only [hc, if_false, List.cons_append, List.nil_append] at hj hoc
        rw [occursAt_succ] at hoc
        exact ih j (by simp at hj; omega) (by simpa using hoc)

end Verif.Mangling
