import Verif.Model.Timed
/-!
C149-C152: the clocks forbid nothing but early timeouts, whatever the timeouts are.
-/
namespace Verif.Timed
open Verif.Threads

variable {S : System} {C : Clocked S}

/-- The same step next to the clocks, with the argument that `arg` gives to calls. -/
def stamp (arg : S.Op → C.Arg) : Label S.Op → TLabel C
  | .start i op => .start i op (arg op)
  | .run i => .run i
  | .spurious i => .spurious i
  | .timeout i => .timeout i

/-- Time passes. -/
def TLabel.isTime : TLabel C → Bool
  | .time _ _ => true
  | _ => false

theorem exec_append (s : State C) (l m : List (TLabel C)) : exec s (l ++ m) = (exec s l).bind fun t => exec t m := by
  induction l generalizing s with
  | nil => rfl
  | cons x l ih =>
    simp only [List.cons_append, exec]
    cases step s x with
    | none => rfl
    | some t => exact ih t

/-- One step of the program can be made next to the clocks, after some time for a timeout. -/
theorem step_real (arg : S.Op → C.Arg) (harg : ∀ op, C.admits op (arg op) = true) (s : State C) (l : Label S.Op)
    (b : S.State) (h : S.step s.base l = some b) :
    ∃ (tls : List (TLabel C)) (s' : State C), exec s tls = some s' ∧ s'.base = b ∧
      tls.filter (fun x => !x.isTime) = [stamp arg l] := by
  cases l with
  | start i op => exact ⟨[.start i op (arg op)], _, by simp only [exec, step, harg, h]; rfl, rfl, rfl⟩
  | run i => exact ⟨[.run i], _, by simp only [exec, step, h]; rfl, rfl, rfl⟩
  | spurious i => exact ⟨[.spurious i], _, by simp only [exec, step, h]; rfl, rfl, rfl⟩
  | timeout i =>
    have h1 : s.mono ≤ max s.mono (s.dl i) := by omega
    have h2 : s.dl i ≤ max s.mono (s.dl i) := by omega
    refine ⟨[.time (max s.mono (s.dl i)) (s.dl i), .timeout i],
      { s with base := b, mono := max s.mono (s.dl i), wall := s.dl i }, ?_, rfl, rfl⟩
    have hc : s.dl i ≤ State.clock { s with mono := max s.mono (s.dl i), wall := s.dl i } := by
      unfold State.clock
      split
      · exact Int.le_refl _
      · exact h2
    simp only [exec, step, if_pos h1, Option.bind_some, if_pos hc, h]
    rfl

/-- Whatever the program can do, it can do next to the clocks, if enough time passes before the timeouts. -/
theorem real (arg : S.Op → C.Arg) (harg : ∀ op, C.admits op (arg op) = true) (s : State C) (ls : List (Label S.Op))
    (b : S.State) (h : S.exec s.base ls = some b) :
    ∃ (tls : List (TLabel C)) (s' : State C), exec s tls = some s' ∧ s'.base = b ∧
      tls.filter (fun x => !x.isTime) = ls.map (stamp arg) := by
  induction ls generalizing s with
  | nil => exact ⟨[], s, rfl, Option.some.inj h, rfl⟩
  | cons l ls ih =>
    simp only [System.exec] at h
    cases hs : S.step s.base l with
    | none => rw [hs] at h; cases h
    | some c =>
      rw [hs] at h
      obtain ⟨t1, s1, h1, rfl, h2⟩ := step_real arg harg s l c hs
      obtain ⟨t2, s2, h3, h4, h5⟩ := ih s1 h
      refine ⟨t1 ++ t2, s2, ?_, h4, ?_⟩
      · rw [exec_append, h1]; exact h3
      · rw [List.filter_append, h2, h5]; rfl

/-- C149: the theorems about a `WaitHandler` next to the clocks are about everything it does: every execution happens next
to them, with any timeout, given in milliseconds, for the waits that have one and none for the others. -/
theorem C149_all_executions (T : Type) (ms : Nat) (h1 : 0 < ms) (h2 : ms < 2 ^ 32) (s : State (waitHandler T))
    (ls : List (Label (WaitHandler.Op T))) (b : (WaitHandler.system T).State)
    (h : (WaitHandler.system T).exec s.base ls = some b) :
    ∃ (tls : List (TLabel (waitHandler T))) (s' : State (waitHandler T)), exec s tls = some s' ∧ s'.base = b ∧
      tls.filter (fun x => !x.isTime) = ls.map fun
        | .start i (.wait p true) => .start i (.wait p true) ms
        | .start i op => .start i op (0 : Nat)
        | .run i => .run i
        | .spurious i => .spurious i
        | .timeout i => .timeout i := by
  obtain ⟨tls, s', a1, a2, a3⟩ := real (C := waitHandler T) (fun | .wait _ true => ms | _ => (0 : Nat))
    (by
      intro op
      cases op with
      | wait p t => cases t <;> simp [waitHandler, isDuration, h1, h2]
      | _ => simp [waitHandler, isDuration]) s ls b h
  refine ⟨tls, s', a1, a2, a3.trans (List.map_congr_left fun l _ => ?_)⟩
  cases l with
  | start i op =>
    cases op with
    | wait p t => cases t <;> rfl
    | _ => rfl
  | _ => rfl

/-- C149: and so for `CounterWaitHandler` and `ConsumerWaitHandler`. -/
theorem C149_counter_all_executions (T : Type) (ms : Nat) (h1 : 0 < ms) (h2 : ms < 2 ^ 32) (s : State (counter T))
    (ls : List (Label (Counter.Op T))) (b : (Counter.system T).State)
    (h : (Counter.system T).exec s.base ls = some b) :
    ∃ (tls : List (TLabel (counter T))) (s' : State (counter T)), exec s tls = some s' ∧ s'.base = b ∧
      tls.filter (fun x => !x.isTime) = ls.map fun
        | .start i (.waitDec true) => .start i (.waitDec true) ms
        | .start i (.waitThreshold true) => .start i (.waitThreshold true) ms
        | .start i (.consume true) => .start i (.consume true) ms
        | .start i op => .start i op (0 : Nat)
        | .run i => .run i
        | .spurious i => .spurious i
        | .timeout i => .timeout i := by
  obtain ⟨tls, s', a1, a2, a3⟩ := real (C := counter T)
    (fun | .waitDec true | .waitThreshold true | .consume true => ms | _ => (0 : Nat))
    (by
      intro op
      cases op with
      | waitDec t | waitThreshold t | consume t => cases t <;> simp [counter, isDuration, h1, h2]
      | _ => simp [counter, isDuration]) s ls b h
  refine ⟨tls, s', a1, a2, a3.trans (List.map_congr_left fun l _ => ?_)⟩
  cases l with
  | start i op =>
    cases op with
    | waitDec t | waitThreshold t | consume t => cases t <;> rfl
    | _ => rfl
  | _ => rfl

/-- C151: and so for the Python `WaitHandler`, with any timeout, also one of zero or less. -/
theorem C151_all_executions (T : Type) (t : Int) (s : State (pyWaitHandler T))
    (ls : List (Label (PyWaitHandler.Op T))) (b : (PyWaitHandler.prog T).system.State)
    (h : (PyWaitHandler.prog T).system.exec s.base ls = some b) :
    ∃ (tls : List (TLabel (pyWaitHandler T))) (s' : State (pyWaitHandler T)), exec s tls = some s' ∧ s'.base = b ∧
      tls.filter (fun x => !x.isTime) = ls.map fun
        | .start i (.wait p true) => .start i (.wait p true) (some t)
        | .start i op => .start i op (none : Option Int)
        | .run i => .run i
        | .spurious i => .spurious i
        | .timeout i => .timeout i := by
  obtain ⟨tls, s', a1, a2, a3⟩ := real (C := pyWaitHandler T) (fun | .wait _ true => some t | _ => (none : Option Int))
    (by
      intro op
      cases op with
      | wait p t => cases t <;> simp [pyWaitHandler]
      | _ => simp [pyWaitHandler]) s ls b h
  refine ⟨tls, s', a1, a2, a3.trans (List.map_congr_left fun l _ => ?_)⟩
  cases l with
  | start i op =>
    cases op with
    | wait p t => cases t <;> rfl
    | _ => rfl
  | _ => rfl

/-- C152: and so for `PeriodicEventHandler`, with any period. -/
theorem C152_all_executions (period : Nat) (s : State (periodic period)) (ls : List (Label Periodic.Op))
    (b : (Periodic.prog .plain).system.State) (h : (Periodic.prog .plain).system.exec s.base ls = some b) :
    ∃ (tls : List (TLabel (periodic period))) (s' : State (periodic period)), exec s tls = some s' ∧ s'.base = b ∧
      tls.filter (fun x => !x.isTime) = ls.map fun
        | .start i op => .start i op ()
        | .run i => .run i
        | .spurious i => .spurious i
        | .timeout i => .timeout i := by
  obtain ⟨tls, s', a1, a2, a3⟩ := real (C := periodic period) (fun _ => ()) (fun _ => rfl) s ls b h
  refine ⟨tls, s', a1, a2, a3.trans (List.map_congr_left fun l _ => ?_)⟩
  cases l <;> rfl

/-- Non-trivial case for `C149_counter_all_executions`: one thread waits with a timeout, another produces something, and the
first wait times out nevertheless. -/
example : ((Counter.system Nat).exec (Counter.init 0 0 true (fun _ => 0) 2)
    [.start 0 (.consume true), .run 0, .start 1 (.produce 5), .timeout 0, .run 0, .run 1]).isSome = true := rfl

/-- Non-trivial case for `C149_all_executions` and `C151_all_executions`. -/
example : ((WaitHandler.system Nat).exec (WaitHandler.init 0 true 2)
      [.start 0 (.wait (fun n => n == 3) true), .run 0, .start 1 (.wait (fun n => n == 4) false), .run 1,
       .timeout 0, .run 0]).isSome = true ∧
    ((PyWaitHandler.prog Nat).system.exec (PyWaitHandler.init 0 true 1)
      [.start 0 (.wait (fun n => some (n == 3)) true), .run 0, .run 0]).isSome = true := ⟨rfl, rfl⟩

/-- Non-trivial case for `C152_all_executions`. -/
example : ((Periodic.prog .plain).system.exec (Periodic.init .plain 1)
    [.start 1 .set, .run 1, .run 1, .run 1, .run 1]).isSome = true := rfl

end Verif.Timed
