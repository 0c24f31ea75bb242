import Verif.Model.TaskId
/-!
C122: ids of tasks.
-/
namespace Verif.TaskId

theorem calls_length (c : Nat) (ts : List Nat) : (calls c ts).length = ts.length := by
  induction ts generalizing c with
  | nil => rfl
  | cons t ts ih => simp [calls, ih]

theorem calls_get (ts : List Nat) (c i : Nat) (hc : c < 2^32) (h : i < ts.length) :
    (calls c ts)[i]? = some (ts[i], (c + i) % 2^32) := by
  induction ts generalizing c i with
  | nil => simp at h
  | cons t ts ih =>
    cases i with
    | zero => simp [calls, newId, Nat.mod_eq_of_lt hc]
    | succ i =>
      simp only [calls, newId, List.getElem?_cons_succ, List.getElem_cons_succ]
      rw [ih _ i (Nat.mod_lt _ (by decide)) (by simpa using h)]
      congr 2
      omega

/-- C122 for the first 2^32 calls of the process (missing: later ones, see `C122_negation`).  Whichever threads
call the function in whatever order, no two calls return the same id. -/
theorem C122_unique_partial (threads : List Nat) (i j : Nat) (a b : Nat × Nat) (hlen : threads.length ≤ 2^32)
    (hi : (run threads)[i]? = some a) (hj : (run threads)[j]? = some b) (hne : i ≠ j) : a.2 ≠ b.2 := by
  obtain ⟨hi', -⟩ := List.getElem?_eq_some_iff.1 hi
  obtain ⟨hj', -⟩ := List.getElem?_eq_some_iff.1 hj
  unfold run at hi hj hi' hj'
  rw [calls_length] at hi' hj'
  rw [calls_get _ _ _ (by decide) hi'] at hi
  rw [calls_get _ _ _ (by decide) hj'] at hj
  injection hi with hi
  injection hj with hj
  subst hi hj
  simp only
  omega

/-- C122.  However many calls there have been, two calls return the same id only if a multiple of 2^32 calls lie
between them, and each call is answered to the thread that made it. -/
theorem C122_distance (threads : List Nat) (i j : Nat) (a b : Nat × Nat)
    (hi : (run threads)[i]? = some a) (hj : (run threads)[j]? = some b) :
    threads[i]? = some a.1 ∧ (a.2 = b.2 ↔ i % 2^32 = j % 2^32) := by
  obtain ⟨hi', -⟩ := List.getElem?_eq_some_iff.1 hi
  obtain ⟨hj', -⟩ := List.getElem?_eq_some_iff.1 hj
  unfold run at hi hj hi' hj'
  rw [calls_length] at hi' hj'
  rw [calls_get _ _ _ (by decide) hi'] at hi
  rw [calls_get _ _ _ (by decide) hj'] at hj
  injection hi with hi
  injection hj with hj
  subst hi hj
  simp [List.getElem?_eq_getElem hi']

/-- C122 is false in a process that makes more calls: the call 2^32 later returns the same id again. -/
theorem C122_negation : ∃ (threads : List Nat) (i j : Nat) (a b : Nat × Nat), i ≠ j ∧
    (run threads)[i]? = some a ∧ (run threads)[j]? = some b ∧ a.2 = b.2 := by
  refine ⟨List.replicate (2^32 + 1) 0, 0, 2^32, (0, 0), (0, 0), by decide, ?_, ?_, rfl⟩
  · rw [run, calls_get _ _ _ (by decide) (by rw [List.length_replicate]; decide), List.getElem_replicate]
  · rw [run, calls_get _ _ _ (by decide) (by rw [List.length_replicate]; omega), List.getElem_replicate]

example : run [7, 3, 7] = [(7, 0), (3, 1), (7, 2)] := by decide

example : (0 : Nat) ≠ 2 := C122_unique_partial [7, 3, 7] 0 2 (7, 0) (7, 2) (by decide) (by decide) (by decide) (by decide)

example : [7, 3, 7][1]? = some 3 ∧ ((1 : Nat) = 2 ↔ 1 % 2^32 = 2 % 2^32) :=
  C122_distance [7, 3, 7] 1 2 (3, 1) (7, 2) (by decide) (by decide)

end Verif.TaskId
