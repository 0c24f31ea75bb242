import Verif.Model.PtrSet
/-!
C19: sets of pointers compared by value.
-/
namespace Verif.PtrSet
variable {T : Type} [DecidableEq T]

/-- What a pointer stands for: nothing, or the value it points to. -/
def den (val : Ptr → T) (p : Ptr) : Option T := if p = 0 then none else some (val p)

/-- C19: `set_of_ptr_contains` is membership up to the value pointed to. -/
theorem C19_contains (val : Ptr → T) (set : List Ptr) (e : Ptr) :
    contains val set e = true ↔ ∃ p ∈ set, den val p = den val e := by
  unfold contains
  by_cases h : set.contains e
  · simp only [h, if_true, true_iff]
    exact ⟨e, by simpa using h, rfl⟩
  · simp only [h]
    have hne : e ∉ set := by simpa using h
    by_cases h0 : e = 0
    · subst h0
      simp only [if_true, den]
      constructor
      · simp
      · rintro ⟨p, hp, he⟩
        by_cases hp0 : p = 0
        · subst hp0; exact absurd hp hne
        · simp [hp0] at he
    · simp only [h0, if_false, den]
      constructor
      · intro h
        simp at h
        obtain ⟨p, hp, h1, h2⟩ := h
        exact ⟨p, hp, by simp [h1, h2]⟩
      · rintro ⟨p, hp, he⟩
        by_cases hp0 : p = 0
        · simp [hp0] at he
        · simp [hp0] at he
          simp; exact ⟨p, hp, hp0, he⟩

/-- Two sets point to the same values. -/
def SameValues (val : Ptr → T) (s1 s2 : List Ptr) : Prop :=
  ∀ v, (∃ p ∈ s1, den val p = v) ↔ (∃ p ∈ s2, den val p = v)

/-- C19 is false for `are_set_of_ptr_equal`: with two pointers to equal values it is
neither the equality of the value sets nor symmetric. -/
theorem C19_negation : ∃ (val : Ptr → Nat) (s1 s2 : List Ptr), s1.Nodup ∧ s2.Nodup ∧
    areEqual val s1 s2 = true ∧ areEqual val s2 s1 = false ∧ ¬ SameValues val s1 s2 := by
  refine ⟨fun p => if p = 4 then 2 else 1, [1, 2], [3, 4], by decide, by decide, by decide, by decide, ?_⟩
  intro h
  obtain ⟨p, hp, he⟩ := (h (some 2)).2 ⟨4, by decide, by decide⟩
  simp only [List.mem_cons, List.not_mem_nil, or_false] at hp
  rcases hp with rfl | rfl <;> simp [den] at he

theorem nodup_subset_length {β : Type} [DecidableEq β] (l1 : List β) :
    ∀ l2 : List β, l1.Nodup → (∀ x ∈ l1, x ∈ l2) → l1.length ≤ l2.length := by
  induction l1 with
  | nil => intros; simp
  | cons a l1 ih =>
    intro l2 hn hs
    have ha : a ∈ l2 := hs a (by simp)
    have := ih (l2.erase a) (List.nodup_cons.1 hn).2 (by
      intro x hx
      have : x ≠ a := by rintro rfl; exact (List.nodup_cons.1 hn).1 hx
      exact (List.mem_erase_of_ne this).2 (hs x (by simp [hx])))
    rw [List.length_erase_of_mem ha] at this
    have := List.length_pos_of_mem ha
    simp; omega

/-- C19, what holds: for sets without two pointers to equal values,
`are_set_of_ptr_equal` is equality of the sets of values (missing: sets with
value duplicates). -/
theorem C19_partial (val : Ptr → T) (s1 s2 : List Ptr)
    (h1 : (s1.map (den val)).Nodup) (h2 : (s2.map (den val)).Nodup) :
    areEqual val s1 s2 = true ↔ SameValues val s1 s2 := by
  have key : areEqual val s1 s2 = true ↔
      s1.length = s2.length ∧ ∀ x ∈ s1.map (den val), x ∈ s2.map (den val) := by
    unfold areEqual
    by_cases hl : s1.length = s2.length
    · simp only [hl, ne_eq, not_true, if_false, List.all_eq_true, true_and]
      constructor
      · intro h x hx
        obtain ⟨p, hp, rfl⟩ := List.mem_map.1 hx
        obtain ⟨q, hq, he⟩ := (C19_contains val s2 p).1 (h p hp)
        exact List.mem_map.2 ⟨q, hq, he⟩
      · intro h p hp
        obtain ⟨q, hq, he⟩ := List.mem_map.1 (h _ (List.mem_map_of_mem hp))
        exact (C19_contains val s2 p).2 ⟨q, hq, he⟩
    · simp [hl]
  rw [key]
  have mem : ∀ (s : List Ptr) (v), v ∈ s.map (den val) ↔ ∃ p ∈ s, den val p = v := by
    intro s v; exact List.mem_map
  constructor
  · rintro ⟨hl, hs⟩ v
    rw [← mem, ← mem]
    refine ⟨hs v, fun hv => ?_⟩
    by_cases hv1 : v ∈ s1.map (den val)
    · exact hv1
    · exfalso
      have := nodup_subset_length (v :: s1.map (den val)) (s2.map (den val))
        (List.nodup_cons.2 ⟨hv1, h1⟩) (by
          intro x hx
          rcases List.mem_cons.1 hx with rfl | hx
          · exact hv
          · exact hs x hx)
      simp at this; omega
  · intro h
    have a1 : ∀ x ∈ s1.map (den val), x ∈ s2.map (den val) := fun x hx => (mem _ _).2 ((h x).1 ((mem _ _).1 hx))
    have a2 : ∀ x ∈ s2.map (den val), x ∈ s1.map (den val) := fun x hx => (mem _ _).2 ((h x).2 ((mem _ _).1 hx))
    have l1 := nodup_subset_length _ _ h1 a1
    have l2 := nodup_subset_length _ _ h2 a2
    simp at l1 l2
    exact ⟨by omega, a1⟩

example : (([1, 2] : List Ptr).map (den fun p => p % 3)).Nodup ∧
    areEqual (fun p => p % 3) [1, 2] [4, 5] = true := by decide

end Verif.PtrSet
