import Verif.Model.ConsumerThrow
/-!
C187: the values of a `DBQueueWaitHandler` when copies throw.
-/
namespace Verif.ConsumerThrow
open Verif.DBQueue

variable {T : Type}

structure Inv (s : State T) : Prop where
  all : s.produced = s.returned ++ (s.queue.fg ++ s.queue.bg)
  number : s.queue.fg.length + s.queue.bg.length = s.adding + s.count + s.taking + s.failed

theorem ready_all (q : Queue T) : (ready q).fg ++ (ready q).bg = q.fg ++ q.bg := by
  unfold ready empty swap
  cases h : q.fg <;> simp [h]

theorem ready_length (q : Queue T) : (ready q).fg.length + (ready q).bg.length = q.fg.length + q.bg.length := by
  have := congrArg List.length (ready_all q)
  simpa using this

theorem ready_empty {q : Queue T} (h : (ready q).fg = []) : q.fg.length + q.bg.length = 0 := by
  unfold ready empty swap at h
  cases hf : q.fg with
  | nil => simp [hf] at h; simp [h]
  | cons a l => simp [hf] at h

theorem inv_next {s s' : State T} {p : Piece T} (hi : Inv s) (h : next s p = some s') : Inv s' := by
  obtain ⟨ha, hn⟩ := hi
  cases p with
  | add v =>
    cases h
    refine ⟨?_, ?_⟩
    · simp [push, ha]
    · simp [push]; omega
  | addThrows v => cases h; exact ⟨ha, hn⟩
  | increment =>
    simp only [next] at h
    split at h
    · cases h
    · cases h; exact ⟨ha, by show s.queue.fg.length + s.queue.bg.length = s.adding - 1 + (s.count + 1) + s.taking + s.failed; omega⟩
  | decrement =>
    simp only [next] at h
    split at h
    · cases h
    · cases h; exact ⟨ha, by show s.queue.fg.length + s.queue.bg.length = s.adding + (s.count - 1) + (s.taking + 1) + s.failed; omega⟩
  | take =>
    have h1 := ready_all s.queue
    have h2 := ready_length s.queue
    simp only [next] at h
    split at h
    · cases h
    · split at h
      · cases h
      · rename_i v l hv
        cases h
        rw [hv] at h1 h2
        refine ⟨?_, ?_⟩
        · show s.produced = s.returned ++ [v] ++ (l ++ (ready s.queue).bg)
          rw [ha, ← h1]; simp
        · show l.length + (ready s.queue).bg.length = s.adding + s.count + (s.taking - 1) + s.failed
          rw [List.length_cons] at h2
          omega
  | takeThrows =>
    have h1 := ready_all s.queue
    have h2 := ready_length s.queue
    simp only [next] at h
    split at h
    · cases h
    · split at h
      · cases h
      · cases h
        refine ⟨?_, ?_⟩
        · show s.produced = s.returned ++ ((ready s.queue).fg ++ (ready s.queue).bg)
          rw [ha, h1]
        · show (ready s.queue).fg.length + (ready s.queue).bg.length = s.adding + s.count + (s.taking - 1) + (s.failed + 1)
          omega

theorem inv_run {ps : List (Piece T)} : ∀ {s s' : State T}, Inv s → run s ps = some s' → Inv s' := by
  induction ps with
  | nil => intro s s' hi h; cases h; exact hi
  | cons p ps ih =>
    intro s s' hi h
    simp only [run] at h
    cases hn : next s p with
    | none => rw [hn] at h; cases h
    | some s1 => rw [hn] at h; exact ih (inv_next hi hn) h

theorem inv_start {ps : List (Piece T)} {s : State T} (h : run {} ps = some s) : Inv s :=
  inv_run ⟨rfl, rfl⟩ h

theorem failed_run {ps : List (Piece T)} : ∀ {s s' : State T}, run s ps = some s' → s.failed ≤ s'.failed := by
  induction ps with
  | nil => intro s s' h; cases h; exact Nat.le_refl _
  | cons p ps ih =>
    intro s s' h
    simp only [run] at h
    cases hn : next s p with
    | none => rw [hn] at h; cases h
    | some s1 =>
      rw [hn] at h
      refine Nat.le_trans ?_ (ih h)
      cases p <;> simp only [next] at hn <;> repeat' split at hn
      all_goals first
        | cases hn; exact Nat.le_refl _
        | cases hn; exact Nat.le_succ _
        | cases hn

/-- C187: whatever copies throw, the values are returned in the order in which they were added, none twice, and none is
skipped. -/
theorem C187_order {ps : List (Piece T)} {s : State T} (h : run {} ps = some s) : s.returned <+: s.produced :=
  ⟨_, (inv_start h).all.symm⟩

/-- C187: `consume` never throws `InconsistencyException`: a call that got past the wait finds a value. -/
theorem C187_consistent {ps : List (Piece T)} {s : State T} (h : run {} ps = some s) (ht : s.taking ≠ 0) :
    (next s .take).isSome ∧ (next s .takeThrows).isSome := by
  have hn := (inv_start h).number
  have hr : (ready s.queue).fg ≠ [] := fun he => by
    have := ready_empty he
    omega
  simp only [next, if_neg ht]
  cases hq : (ready s.queue).fg with
  | nil => exact absurd hq hr
  | cons v l => exact ⟨rfl, rfl⟩

/-- C187: the number of values that were added and not returned, and what the counter says about it. -/
theorem C187_number {ps : List (Piece T)} {s : State T} (h : run {} ps = some s) :
    s.produced.length = s.returned.length + s.adding + s.count + s.taking + s.failed := by
  have h1 := congrArg List.length (inv_start h).all
  have h2 := (inv_start h).number
  rw [List.length_append, List.length_append] at h1
  omega

/-- C187, as far as it holds: if no copy in `consume` threw, then when no call is under way `elements_ready_to_consume` is the
number of values left, and when it is 0 (`wait_all_consumed`) all values have been returned.  Missing: see
`C187_negation`. -/
theorem C187_all_partial {ps : List (Piece T)} {s : State T} (h : run {} ps = some s) (hf : s.failed = 0)
    (ha : s.adding = 0) (ht : s.taking = 0) :
    s.produced.length = s.returned.length + s.count ∧ (s.count = 0 → s.returned = s.produced) := by
  have hn := C187_number h
  refine ⟨by omega, fun hc => (C187_order h).eq_of_length (by omega)⟩

/-- C187 is false: once the copy of a value threw in `consume`, then whatever is called later, at every time a value is left
that the counter does not count: when all calls have ended and the counter is 0, so that `consume` waits and
`wait_all_consumed` returns `condition_met`, not everything that was added has been returned. -/
theorem C187_negation {ps qs : List (Piece T)} {s1 s2 s : State T} (h1 : run {} ps = some s1)
    (h2 : next s1 .takeThrows = some s2) (h : run s2 qs = some s) :
    s.returned.length + s.count < s.produced.length ∧ s.returned ≠ s.produced := by
  have hi := inv_run (inv_next (inv_start h1) h2) h
  have hf := failed_run h
  have h0 : 1 ≤ s2.failed := by
    simp only [next] at h2
    repeat' split at h2
    all_goals first
      | cases h2; exact Nat.le_add_left _ _
      | cases h2
  have ha := congrArg List.length hi.all
  have hn := hi.number
  rw [List.length_append, List.length_append] at ha
  refine ⟨by omega, fun he => ?_⟩
  rw [he] at ha
  omega

/-- One value, one failed copy: the counter is 0, no call is under way, and the value is still in the queue; and with two
values and a later successful call. -/
example : ∃ s1 s2 : State Nat, run {} [.add 7, .increment, .decrement] = some s1 ∧ next s1 .takeThrows = some s2 ∧
    s2.count = 0 ∧ s2.adding = 0 ∧ s2.taking = 0 ∧ s2.returned = [] ∧ s2.queue = ⟨[7], []⟩ ∧
    ∃ s, run s2 [.add 8, .increment, .decrement, .take] = some s ∧ s.count = 0 ∧ s.returned = [7] ∧ s.queue = ⟨[], [8]⟩ :=
  ⟨_, _, rfl, rfl, rfl, rfl, rfl, rfl, rfl, _, rfl, rfl, rfl, rfl⟩

/-- For `C187_all_partial` and `C187_consistent`: two producers and two consumers mixed, one value left. -/
example : ∃ s : State Nat, run {} [.add 7, .add 8, .increment, .decrement, .increment, .addThrows 9, .take] = some s ∧
    s.failed = 0 ∧ s.adding = 0 ∧ s.taking = 0 ∧ s.count = 1 ∧ s.returned = [7] ∧
    ∃ s', next s .decrement = some s' ∧ s'.taking ≠ 0 :=
  ⟨_, rfl, rfl, rfl, rfl, rfl, rfl, _, rfl, by decide⟩

end Verif.ConsumerThrow
