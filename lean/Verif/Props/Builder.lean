import Verif.Model.Builder
/-!
C34, C35: builders and enumerations.
-/
namespace Verif.Builder

variable {K V : Type} [DecidableEq K]

theorem fold_keys (ks : List K) (v : V) (m : Map K V) (k : K) :
    (ks.foldl (fun m k => m.assign k v) m) k = if k ∈ ks then some v else m k := by
  induction ks generalizing m with
  | nil => simp
  | cons a ks ih =>
    rw [List.foldl_cons, ih]
    by_cases h : k ∈ ks
    · simp [h]
    · simp only [h, if_false, Map.assign, List.mem_cons, or_false]

theorem indexed_snoc (values : List (V × List K)) (it : V × List K) (k : K) :
    indexed (values ++ [it]) k = if k ∈ it.2 then some it.1 else indexed values k := by
  unfold indexed
  rw [List.foldl_append]
  simp only [List.foldl_cons, List.foldl_nil]
  exact fold_keys _ _ _ _

/-- Induction from the end of a list. -/
theorem snocInd {α : Type} {motive : List α → Prop} (l : List α) (nil : motive [])
    (append_singleton : ∀ xs x, motive xs → motive (xs ++ [x])) : motive l := by
  have h : ∀ r : List α, motive r.reverse := by
    intro r
    induction r with
    | nil => exact nil
    | cons a r ih => rw [List.reverse_cons]; exact append_singleton _ _ ih
  have := h l.reverse
  rwa [List.reverse_reverse] at this

theorem indexed_none (values : List (V × List K)) (k : K) :
    indexed values k = none ↔ ∀ it ∈ values, k ∉ it.2 := by
  induction values using snocInd with
  | nil => simp [indexed]
  | append_singleton xs it ih =>
    rw [indexed_snoc]
    by_cases h : k ∈ it.2
    · simp only [h, if_true, reduceCtorEq, false_iff]
      intro hh
      exact hh it (by simp) h
    · simp only [h, if_false, ih, List.mem_append, List.mem_singleton]
      constructor
      · rintro hh x (hx | rfl)
        · exact hh x hx
        · exact h
      · intro hh x hx
        exact hh x (Or.inl hx)

/-- C34: the value found for a name is one it is registered under and no value it is registered under
is greater.  `lt` is the order of the `std::map`; its pairs come in increasing order. -/
theorem C34_value (lt : V → V → Prop) (irr : ∀ a, ¬ lt a a) (tr : ∀ a b c, lt a b → lt b c → lt a c)
    (values : List (V × List K)) (hs : values.Pairwise fun a b => lt a.1 b.1) (k : K) (v : V) :
    indexed values k = some v ↔
      (∃ ks, (v, ks) ∈ values ∧ k ∈ ks) ∧ ∀ it ∈ values, k ∈ it.2 → ¬ lt v it.1 := by
  induction values using snocInd with
  | nil => simp [indexed]
  | append_singleton xs it ih =>
    rw [List.pairwise_append] at hs
    obtain ⟨h1, -, h3⟩ := hs
    rw [indexed_snoc]
    by_cases h : k ∈ it.2
    · simp only [h, if_true, Option.some.injEq]
      constructor
      · rintro rfl
        refine ⟨⟨it.2, by simp, h⟩, ?_⟩
        intro x hx _ hl
        rw [List.mem_append, List.mem_singleton] at hx
        rcases hx with hx | rfl
        · exact irr _ (tr _ _ _ hl (h3 x hx it (by simp)))
        · exact irr _ hl
      · rintro ⟨⟨ks, hm, hk⟩, hmax⟩
        rw [List.mem_append, List.mem_singleton] at hm
        rcases hm with hm | rfl
        · exact absurd (h3 _ hm it (by simp)) (hmax it (by simp) h)
        · rfl
    · simp only [h, if_false, ih h1, List.mem_append, List.mem_singleton]
      constructor
      · rintro ⟨⟨ks, hm, hk⟩, hmax⟩
        refine ⟨⟨ks, Or.inl hm, hk⟩, ?_⟩
        rintro x (hx | rfl) hkx
        · exact hmax x hx hkx
        · exact absurd hkx h
      · rintro ⟨⟨ks, hm | rfl, hk⟩, hmax⟩
        · exact ⟨⟨ks, hm, hk⟩, fun x hx => hmax x (Or.inl hx)⟩
        · exact absurd hk h

/-- C34: lookup succeeds exactly for registered names; on failure the output is untouched and the
throwing version throws `ValueNotAllowedException`; on success both give the same value, whatever the
output held before. -/
theorem C34_find (values : List (V × List K)) (k : K) (old garbage : V) :
    ((find (indexed values) k old).1 = true ↔ ∃ it ∈ values, k ∈ it.2) ∧
    ((∀ it ∈ values, k ∉ it.2) → find (indexed values) k old = (false, old) ∧
      findThrow (indexed values) k garbage = .throw .valueNotAllowed) ∧
    ((∃ it ∈ values, k ∈ it.2) → ∃ v ks, (v, ks) ∈ values ∧ k ∈ ks ∧ indexed values k = some v ∧
      find (indexed values) k old = (true, v) ∧ findThrow (indexed values) k garbage = .ok v) := by
  have reg : ∀ v, indexed values k = some v → ∃ ks, (v, ks) ∈ values ∧ k ∈ ks := by
    intro v
    induction values using snocInd with
    | nil => simp [indexed]
    | append_singleton xs it ih =>
      rw [indexed_snoc]
      by_cases h : k ∈ it.2
      · simp only [h, if_true, Option.some.injEq]
        rintro rfl
        exact ⟨it.2, by simp, h⟩
      · simp only [h, if_false]
        intro hv
        obtain ⟨ks, hm, hk⟩ := ih hv
        exact ⟨ks, by simp [hm], hk⟩
  have hn := indexed_none values k
  cases hv : indexed values k with
  | none =>
    have h0 := hn.1 hv
    refine ⟨?_, ?_, ?_⟩
    · simp only [find, hv, Bool.false_eq_true, false_iff]
      rintro ⟨it, hi, hk⟩
      exact h0 it hi hk
    · intro _
      simp [find, findThrow, hv]
    · rintro ⟨it, hi, hk⟩
      exact absurd hk (h0 it hi)
  | some v =>
    obtain ⟨ks, hm, hk⟩ := reg v hv
    refine ⟨?_, ?_, ?_⟩
    · simp only [find, hv, true_iff]
      exact ⟨_, hm, hk⟩
    · intro h0
      exact absurd hk (h0 _ hm)
    · intro _
      exact ⟨v, ks, hm, hk, rfl, by simp [find, hv], by simp [findThrow, find, hv]⟩

/-- Non-trivial case: a name under two values, a name under one, an unregistered name. -/
example :
    let values : List (Nat × List Nat) := [(1, [10, 11]), (5, [11, 12])]
    values.Pairwise (fun a b => a.1 < b.1) ∧ indexed values 11 = some 5 ∧
      find (indexed values) 10 99 = (true, 1) ∧ find (indexed values) 13 99 = (false, 99) := by
  decide

/-! ### C35 -/

theorem forEach_length {A : Type} (args : List A) (h : args ≠ []) :
    forEach args.length args = some args := by
  induction args with
  | nil => exact absurd rfl h
  | cons x rest ih =>
    cases rest with
    | nil => rfl
    | cons y rest =>
      have := ih (by simp)
      simp only [List.length_cons] at this ⊢
      simp [forEach, this]

theorem countdown_get : ∀ i, i ≤ 18 → countdown[i]? = some (18 - i) := by decide

theorem count_eq {A : Type} (args : List A) (h : args.length ≤ 18) :
    countArguments args = some (.num args.length) := by
  unfold countArguments
  rw [List.getElem?_cons_succ, List.getElem?_append_right (by simpa using h), List.getElem?_map]
  simp only [List.length_map]
  rw [countdown_get _ (by omega)]
  simp only [Option.map_some, Option.some.injEq, Arg.num.injEq]
  omega

theorem countdown_init_get : ∀ i, i ≤ 17 → countdown.dropLast[i]? = some (18 - i) := by decide

theorem each_eq {A : Type} (args : List A) (h0 : args ≠ []) (h : args.length ≤ 18) :
    applyForEach args = some args := by
  have hl : 0 < args.length := List.length_pos_iff.2 h0
  unfold applyForEach
  rw [List.getElem?_append_right (by simpa using h), List.getElem?_map]
  simp only [List.length_map]
  rw [countdown_init_get _ (by omega)]
  simp only [Option.map_some]
  have : 18 - (18 - args.length) = args.length := by omega
  rw [this]
  exact forEach_length args h0

/-- C35: with one to eighteen distinct names the macro expands, and the enumeration has as many values
as arguments, listed in order. -/
theorem C35_expands (args : List Str) (h0 : args ≠ []) (h : args.length ≤ 18) (hd : args.Nodup) :
    ∃ e, enumeration args = some e ∧ e.count = args.length ∧
      e.allValues.length = args.length ∧ (∀ i, i ∈ e.allValues ↔ i < args.length) ∧
      ∀ i, e.toString i = args[i]? := by
  have hl : args.length ≠ 0 := by simpa using h0
  refine ⟨⟨args, args.length⟩, ?_, rfl, ?_, ?_, ?_⟩
  · simp [enumeration, count_eq args h, each_eq args h0 h, hl, hd, h0]
  · simp [Enum.allValues]
  · simp [Enum.allValues]
  · intro i; rfl

theorem enumeration_eq (args : List Str) (e : Enum) (h : args.length ≤ 18)
    (he : enumeration args = some e) : e = ⟨args, args.length⟩ ∧ args.Nodup ∧ args ≠ [] := by
  by_cases h0 : args = []
  · subst h0
    revert he
    simp [enumeration, count_eq, applyForEach, countdown]
  · have hl : args.length ≠ 0 := by simpa using h0
    simp only [enumeration, count_eq args h, each_eq args h0 h, hl, if_false] at he
    split at he
    · rename_i hd
      exact ⟨(Option.some.inj he).symm, hd, h0⟩
    · cases he

/-- C35: names and values convert back and forth, and every other string is rejected. -/
theorem C35_roundtrip (args : List Str) (e : Enum) (h : args.length ≤ 18)
    (he : enumeration args = some e) :
    (∀ i s, e.toString i = some s → e.fromString s = .ok i) ∧
    (∀ s i, e.fromString s = .ok i → e.toString i = some s ∧ i < args.length) ∧
    (∀ s ∈ args, ∃ i, e.fromString s = .ok i) ∧
    (∀ s, s ∉ args → e.fromString s = .throw .initialization ∧ e.stringToEnum s = none) := by
  obtain ⟨rfl, hd, -⟩ := enumeration_eq args e h he
  have key : ∀ i s, args[i]? = some s →
      Enum.stringToEnum ⟨args, args.length⟩ s = some i := by
    intro i s hi
    have hlt : i < args.length := (List.getElem?_eq_some_iff.1 hi).1
    unfold Enum.stringToEnum
    cases hf : (List.range args.length).find? (fun j => args[j]? == some s) with
    | none =>
      rw [List.find?_eq_none] at hf
      exact absurd (by simp [hi]) (hf i (List.mem_range.2 hlt))
    | some j =>
      have hj := List.find?_some hf
      simp only [beq_iff_eq] at hj
      have hjl : j < args.length := (List.getElem?_eq_some_iff.1 hj).1
      have := (List.getElem?_inj hjl hd).1 (hj.trans hi.symm)
      rw [this]
  have back : ∀ s i, Enum.stringToEnum ⟨args, args.length⟩ s = some i → args[i]? = some s := by
    intro s i hi
    have := List.find?_some hi
    simpa using this
  refine ⟨?_, ?_, ?_, ?_⟩
  · intro i s hi
    simp only [Enum.fromString, key i s hi]
  · intro s i hi
    unfold Enum.fromString at hi
    split at hi
    · rename_i j hj
      cases hi
      exact ⟨back s _ hj, (List.getElem?_eq_some_iff.1 (back s _ hj)).1⟩
    · cases hi
  · intro s hs
    obtain ⟨i, hi⟩ := List.getElem?_of_mem hs
    exact ⟨i, by simp only [Enum.fromString, key i s hi]⟩
  · intro s hs
    have hn : Enum.stringToEnum ⟨args, args.length⟩ s = none := by
      cases hf : Enum.stringToEnum ⟨args, args.length⟩ s with
      | none => rfl
      | some i => exact absurd (List.mem_of_getElem? (back s i hf)) hs
    exact ⟨by simp only [Enum.fromString, hn], hn⟩

/-- Non-trivial case: three names. -/
example : ∃ e, enumeration [c!"red", c!"green", c!"blue"] = some e ∧
    e.fromString c!"blue" = .ok 2 ∧ e.fromString c!"pink" = .throw .initialization := by
  obtain ⟨e, he, -⟩ := C35_expands [c!"red", c!"green", c!"blue"] (by decide) (by decide) (by decide)
  obtain ⟨rfl, -⟩ := enumeration_eq _ e (by decide) he
  exact ⟨_, he, by decide, by decide⟩

end Verif.Builder
