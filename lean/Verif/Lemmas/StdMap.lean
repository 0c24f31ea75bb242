import Verif.Model.StdMap
/-!
Laws of `std::map`.
-/
namespace Verif.StdMap

section
variable {K V : Type} [LT K] [DecidableLT K] [DecidableEq K]

theorem get_put (k j : K) (v : V) (m : List (K × V)) :
    get j (put k v m) = if j = k then some v else get j m := by
  induction m with
  | nil => rfl
  | cons p m ih =>
    simp only [put]
    split
    · rfl
    · split
      · rename_i h
        subst h
        simp only [get]
        by_cases hj : j = p.1
        · simp [hj]
        · simp [hj]
      · rename_i h1 h
        simp only [get]
        by_cases hj : j = p.1
        · have : j ≠ k := fun e => h (e.symm.trans hj)
          rw [if_pos hj, if_neg this, if_pos hj]
        · rw [if_neg hj, if_neg hj, ih]

theorem get_del (k j : K) (m : List (K × V)) :
    get j (del k m) = if j = k then none else get j m := by
  induction m with
  | nil => simp [del, get]
  | cons p m ih =>
    by_cases hp : p.1 = k
    · have e : del k (p :: m) = del k m := by simp [del, hp]
      rw [e, ih]
      by_cases hj : j = k
      · simp [hj]
      · have : j ≠ p.1 := fun h => hj (h.trans hp)
        simp only [get, if_neg this, if_neg hj]
    · have e : del k (p :: m) = p :: del k m := by simp [del, hp]
      rw [e]
      simp only [get, ih]
      by_cases hj : j = p.1
      · have : j ≠ k := fun h => hp (hj.symm.trans h)
        rw [if_pos hj, if_neg this, if_pos hj]
      · rw [if_neg hj, if_neg hj]

theorem get_some_mem {k : K} {v : V} {m : List (K × V)} (h : get k m = some v) : (k, v) ∈ m := by
  induction m with
  | nil => cases h
  | cons p m ih =>
    simp only [get] at h
    split at h
    · rename_i e
      cases h
      subst e
      exact List.mem_cons_self
    · exact List.mem_cons_of_mem _ (ih h)

theorem get_none {k : K} {m : List (K × V)} : get k m = none ↔ ∀ v, (k, v) ∉ m := by
  induction m with
  | nil => simp [get]
  | cons p m ih =>
    simp only [get]
    split
    · rename_i e
      constructor
      · intro h; cases h
      · intro h
        exact absurd (by subst e; exact List.mem_cons_self) (h p.2)
    · rename_i e
      rw [ih]
      constructor
      · intro h v hv
        rcases List.mem_cons.1 hv with rfl | hv
        · exact e rfl
        · exact h v hv
      · intro h v hv
        exact h v (List.mem_cons_of_mem _ hv)

theorem mem_put {k j : K} {v w : V} {m : List (K × V)} (h : (j, w) ∈ put k v m) :
    (j, w) = (k, v) ∨ (j, w) ∈ m := by
  induction m with
  | nil =>
    rcases List.mem_cons.1 h with h | h
    · exact Or.inl h
    · cases h
  | cons p m ih =>
    simp only [put] at h
    split at h
    · rcases List.mem_cons.1 h with h | h
      · exact Or.inl h
      · exact Or.inr h
    · split at h
      · rcases List.mem_cons.1 h with h | h
        · exact Or.inl h
        · exact Or.inr (List.mem_cons_of_mem _ h)
      · rcases List.mem_cons.1 h with h | h
        · exact Or.inr (h ▸ List.mem_cons_self)
        · rcases ih h with h | h
          · exact Or.inl h
          · exact Or.inr (List.mem_cons_of_mem _ h)

theorem mem_del {k : K} {p : K × V} {m : List (K × V)} : p ∈ del k m ↔ p ∈ m ∧ p.1 ≠ k := by
  simp [del, List.mem_filter]

end

/-- Keys in strictly ascending order. -/
def Sorted {V : Type} (m : List (Nat × V)) : Prop := m.Pairwise fun p q => p.1 < q.1

variable {V : Type}

theorem sorted_nil : Sorted ([] : List (Nat × V)) := List.Pairwise.nil

theorem sorted_put {k : Nat} {v : V} {m : List (Nat × V)} (h : Sorted m) : Sorted (put k v m) := by
  induction m with
  | nil => exact List.pairwise_singleton _ _
  | cons p m ih =>
    obtain ⟨h1, h2⟩ := List.pairwise_cons.1 h
    simp only [put]
    split
    · rename_i hk
      refine List.pairwise_cons.2 ⟨?_, h⟩
      intro q hq
      rcases List.mem_cons.1 hq with rfl | hq
      · exact hk
      · exact Nat.lt_trans hk (h1 q hq)
    · split
      · rename_i e
        refine List.pairwise_cons.2 ⟨?_, h2⟩
        intro q hq
        show k < q.1
        rw [e]
        exact h1 q hq
      · rename_i h3 h4
        refine List.pairwise_cons.2 ⟨?_, ih h2⟩
        rintro ⟨j, w⟩ hq
        rcases mem_put hq with e | hq
        · cases e
          show p.1 < k
          omega
        · exact h1 _ hq

theorem sorted_del {k : Nat} {m : List (Nat × V)} (h : Sorted m) : Sorted (del k m) :=
  List.Pairwise.filter _ h

theorem get_of_mem {k : Nat} {v : V} {m : List (Nat × V)} (h : Sorted m) (hm : (k, v) ∈ m) :
    get k m = some v := by
  induction m with
  | nil => cases hm
  | cons p m ih =>
    obtain ⟨h1, h2⟩ := List.pairwise_cons.1 h
    simp only [get]
    rcases List.mem_cons.1 hm with rfl | hm
    · simp
    · have := h1 _ hm
      have : k ≠ p.1 := by
        show k ≠ p.1
        have : p.1 < k := this
        omega
      rw [if_neg this]
      exact ih h2 hm

end Verif.StdMap
