import Verif.Model.Qos
/-!
C36: the text of a QoS policy mask.
-/
namespace Verif.Qos

/-- Text of a list of names: separated by comma and space. -/
def commaText : List Str → Str
  | [] => []
  | [p] => p
  | p :: q :: rest => p ++ c!", " ++ commaText (q :: rest)

theorem commaText_snoc (ps : List Str) (p : Str) :
    commaText (ps ++ [p]) = if ps = [] then p else commaText ps ++ c!", " ++ p := by
  induction ps with
  | nil => rfl
  | cons a rest ih =>
    cases rest with
    | nil => simp [commaText]
    | cons b rest =>
      simp only [List.cons_append] at ih ⊢
      simp only [commaText, reduceCtorEq, if_false] at ih ⊢
      rw [ih]
      simp [List.append_assoc]

theorem maskLoop_spec (mask : Nat → Bool) (ids : List Nat) (done : List Str) :
    maskLoop mask ids done.isEmpty (commaText done) =
      commaText (done ++ (ids.filter mask).map idToString) := by
  induction ids generalizing done with
  | nil => simp [maskLoop]
  | cons id ids ih =>
    unfold maskLoop
    cases h : mask id with
    | false => simpa [h] using ih done
    | true =>
      have := ih (done ++ [idToString id])
      rw [commaText_snoc] at this
      simp only [h, if_true, List.filter_cons, List.map_cons]
      have e : done ++ idToString id :: List.map idToString (List.filter mask ids) =
          (done ++ [idToString id]) ++ List.map idToString (List.filter mask ids) := by simp
      rw [e, ← this]
      cases done <;> simp [commaText]

/-- C36: the text lists exactly the policies of the mask in increasing order; `Invalid` when none. -/
theorem C36_text (mask : Nat → Bool) :
    ((∀ id < 37, mask id = false) → maskToString mask = c!"Invalid") ∧
    ((∃ id < 37, mask id = true) → maskToString mask =
      commaText (((List.range 37).filter mask).map idToString)) := by
  constructor
  · intro h
    have : (List.range next).all (fun id => !mask id) = true := by
      simp only [List.all_eq_true, List.mem_range, Bool.not_eq_true', next]
      exact h
    simp only [maskToString, this, if_true]
    rfl
  · rintro ⟨id, hid, hm⟩
    have : ¬ (List.range next).all (fun id => !mask id) = true := by
      simp only [List.all_eq_true, List.mem_range, Bool.not_eq_true', next]
      intro h
      rw [h id hid] at hm
      cases hm
    simp only [maskToString, this, if_false]
    have := maskLoop_spec mask (List.range next) []
    simpa [commaText, next] using this

theorem names_comma_free : ∀ i, i < 37 → ',' ∉ idToString i := by decide +kernel

theorem names_nodup : ∀ i, i < 37 → ∀ j, j < 37 → idToString i = idToString j → i = j := by
  decide +kernel

theorem names_nonempty : ∀ i, i < 37 → idToString i ≠ [] := by decide +kernel

theorem takeWhile_comma (p rest : Str) (h : ',' ∉ p) :
    (p ++ ',' :: rest).takeWhile (· ≠ ',') = p ∧ p.takeWhile (· ≠ ',') = p ∧
    (p ++ ',' :: rest).dropWhile (· ≠ ',') = ',' :: rest ∧ p.dropWhile (· ≠ ',') = [] := by
  induction p with
  | nil => simp
  | cons a p ih =>
    simp only [List.mem_cons, not_or] at h
    have ha : a ≠ ',' := fun e => h.1 e.symm
    have := ih h.2
    simp only [List.cons_append, List.takeWhile_cons, List.dropWhile_cons, ha, ne_eq,
      not_false_eq_true, decide_true, if_true] at this ⊢
    simpa using this

theorem commaText_inj (ps qs : List Str) (hp : ∀ p ∈ ps, ',' ∉ p) (hq : ∀ q ∈ qs, ',' ∉ q)
    (np : ps ≠ []) (nq : qs ≠ []) (h : commaText ps = commaText qs) : ps = qs := by
  induction ps generalizing qs with
  | nil => exact absurd rfl np
  | cons p ps ih =>
    cases qs with
    | nil => exact absurd rfl nq
    | cons q qs =>
      have cp := hp p (by simp)
      have cq := hq q (by simp)
      cases ps with
      | nil =>
        cases qs with
        | nil => simpa [commaText] using h
        | cons q' qs =>
          exfalso
          simp only [commaText] at h
          rw [h] at cp
          simp at cp
      | cons p' ps =>
        cases qs with
        | nil =>
          exfalso
          simp only [commaText] at h
          rw [← h] at cq
          simp at cq
        | cons q' qs =>
          have h' : p ++ ',' :: (' ' :: commaText (p' :: ps)) =
              q ++ ',' :: (' ' :: commaText (q' :: qs)) := by simpa [commaText] using h
          have e1 := congrArg (List.takeWhile (· ≠ ',')) h'
          have e2 := congrArg (List.dropWhile (· ≠ ',')) h'
          rw [(takeWhile_comma p _ cp).1, (takeWhile_comma q _ cq).1] at e1
          rw [(takeWhile_comma p _ cp).2.2.1, (takeWhile_comma q _ cq).2.2.1] at e2
          have e3 : commaText (p' :: ps) = commaText (q' :: qs) := by simpa using e2
          have := ih (q' :: qs) (fun x hx => hp x (by simp [hx])) (fun x hx => hq x (by simp [hx]))
            (by simp) (by simp) e3
          rw [e1, this]

theorem map_names_inj (l m : List Nat) (hl : ∀ i ∈ l, i < 37) (hm : ∀ i ∈ m, i < 37)
    (h : l.map idToString = m.map idToString) : l = m := by
  induction l generalizing m with
  | nil => cases m with
    | nil => rfl
    | cons => cases h
  | cons a l ih =>
    cases m with
    | nil => cases h
    | cons b m =>
      simp only [List.map_cons, List.cons.injEq] at h
      rw [names_nodup a (hl a (by simp)) b (hm b (by simp)) h.1,
        ih m (fun i hi => hl i (by simp [hi])) (fun i hi => hm i (by simp [hi])) h.2]

/-- C36: masks with the same text agree on every real policy (ids 1..36). -/
theorem C36_injective (m n : Nat → Bool) (h : maskToString m = maskToString n) :
    ∀ id, 1 ≤ id → id < 37 → m id = n id := by
  have inv : maskToString (fun i => i == 0) = c!"Invalid" := by decide +kernel
  -- a mask with no policy has the text of the mask {0}
  have norm : ∀ m : Nat → Bool, ∃ m' : Nat → Bool, (∃ id < 37, m' id = true) ∧
      maskToString m' = maskToString m ∧ ∀ id, 1 ≤ id → m' id = m id ∨ ¬ id < 37 := by
    intro m
    by_cases hm : ∃ id < 37, m id = true
    · exact ⟨m, hm, rfl, fun _ _ => Or.inl rfl⟩
    · have hf : ∀ id < 37, m id = false := by
        intro id hid
        cases hb : m id with
        | false => rfl
        | true => exact absurd ⟨id, hid, hb⟩ hm
      refine ⟨fun i => i == 0, ⟨0, by decide, rfl⟩, ?_, ?_⟩
      · rw [inv, (C36_text m).1 hf]
      · intro id h1
        by_cases h37 : id < 37
        · left
          rw [hf id h37]
          simp only [beq_eq_false_iff_ne]
          omega
        · exact Or.inr h37
  obtain ⟨m', em, tm, am⟩ := norm m
  obtain ⟨n', en, tn, an⟩ := norm n
  rw [← tm, ← tn, (C36_text m').2 em, (C36_text n').2 en] at h
  have lt : ∀ f : Nat → Bool, ∀ i ∈ (List.range 37).filter f, i < 37 := by
    intro f i hi
    exact List.mem_range.1 (List.mem_filter.1 hi).1
  have cf : ∀ f : Nat → Bool, ∀ p ∈ ((List.range 37).filter f).map idToString, ',' ∉ p := by
    intro f p hp
    obtain ⟨i, hi, rfl⟩ := List.mem_map.1 hp
    exact names_comma_free i (lt f i hi)
  have ne : ∀ f : Nat → Bool, (∃ id < 37, f id = true) →
      ((List.range 37).filter f).map idToString ≠ [] := by
    rintro f ⟨id, hid, hf⟩ he
    have : id ∈ (List.range 37).filter f := List.mem_filter.2 ⟨List.mem_range.2 hid, hf⟩
    rw [List.map_eq_nil_iff.1 he] at this
    cases this
  have hl := map_names_inj _ _ (lt m') (lt n')
    (commaText_inj _ _ (cf m') (cf n') (ne m' em) (ne n' en) h)
  intro id h1 h37
  have hmem : id ∈ (List.range 37).filter m' ↔ id ∈ (List.range 37).filter n' := by rw [hl]
  simp only [List.mem_filter, List.mem_range, h37, true_and] at hmem
  have e' : m' id = n' id := Bool.eq_iff_iff.2 hmem
  rcases am id h1 with a | a
  · rcases an id h1 with b | b
    · rw [← a, ← b, e']
    · exact absurd h37 b
  · exact absurd h37 a

/-- Non-trivial case: three policies. -/
example : maskToString (fun i => i == 2 || i == 11 || i == 36) =
    c!"Durability, Reliability, Writer resource limits" := by decide +kernel

end Verif.Qos
