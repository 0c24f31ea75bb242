import Verif.Model.WaitHandler
import Verif.Model.Counter
import Verif.Model.PyWaitHandler
import Verif.Model.Periodic
/-!
Clocks for the concurrent programs: how long waits with a timeout last.

A program of `Verif.Model.Threads` may let a timeout happen at any time.  Here it is run next to two clocks, both in
nanoseconds: `mono`, the time that really passes (`std::chrono::steady_clock`, `time.monotonic`), and `wall`
(`std::chrono::system_clock`), which follows it or is set by somebody to any value.  A wait with a timeout reads a clock
and computes its deadline when it begins; the timeout can happen from then on only at moments at which the same clock
shows the deadline or more (`std::condition_variable::wait_until` and `wait_for`, `threading.Condition.wait_for`).
Simplified: the clocks have no resolution and no range, and C++ additions of a duration to a time point do not overflow.
-/
namespace Verif.Timed
open Verif.Threads

/-- How a program uses a clock. -/
structure Clocked (S : System) where
  /-- the argument that says how long to wait -/
  Arg : Type
  /-- `wall` or `mono` -/
  system : Bool
  /-- the deadline, from the reading of the clock -/
  deadline : Int → Arg → Int
  /-- a call with this argument -/
  admits : S.Op → Arg → Bool
  /-- thread `i` begins to wait, and computes its deadline, with the step between these states -/
  arms : S.State → Nat → S.State → Bool

/-- A program next to its clocks; `arg` and `dl` belong to the calls that threads are inside of. -/
structure State {S : System} (C : Clocked S) where
  base : S.State
  mono : Int
  wall : Int
  arg : Nat → C.Arg
  dl : Nat → Int

/-- Steps of the program (the argument belongs to `start`), and time passing. -/
inductive TLabel {S : System} (C : Clocked S)
  | start (i : Nat) (op : S.Op) (a : C.Arg)
  | run (i : Nat)
  | spurious (i : Nat)
  | timeout (i : Nat)
  | time (mono wall : Int)

variable {S : System} {C : Clocked S}

/-- Reading of the clock used. -/
def State.clock (s : State C) : Int := if C.system then s.wall else s.mono

/-- One thread's entry of a table. -/
def upd {α : Type} (f : Nat → α) (i : Nat) (a : α) : Nat → α := fun j => if j = i then a else f j

/-- Transitions. -/
def step (s : State C) : TLabel C → Option (State C)
  | .start i op a =>
    if C.admits op a then
      (S.step s.base (.start i op)).map fun b => { s with base := b, arg := upd s.arg i a }
    else none
  | .run i => (S.step s.base (.run i)).map fun b =>
      { s with base := b, dl := if C.arms s.base i b then upd s.dl i (C.deadline s.clock (s.arg i)) else s.dl }
  | .spurious i => (S.step s.base (.spurious i)).map fun b => { s with base := b }
  | .timeout i =>
    if s.dl i ≤ s.clock then (S.step s.base (.timeout i)).map fun b => { s with base := b } else none
  | .time m w => if s.mono ≤ m then some { s with mono := m, wall := w } else none

/-- The state after a list of transitions. -/
def exec (s : State C) : List (TLabel C) → Option (State C)
  | [] => some s
  | l :: ls => (step s l).bind fun s' => exec s' ls

/-- An infinite execution; `none` is a moment at which nothing happens. -/
structure Run (C : Clocked S) where
  at_ : Nat → State C
  label : Nat → Option (TLabel C)
  ok : ∀ n, match label n with
    | none => at_ (n + 1) = at_ n
    | some l => step (at_ n) l = some (at_ (n + 1))

/-- A timeout that is possible again and again happens (a thread that finds the deadline passed when it is woken leaves
`wait_until` with a timeout). -/
def Run.Timely (e : Run C) : Prop :=
  ∀ i n, (∀ m, n ≤ m → ∃ k, m ≤ k ∧ (step (e.at_ k) (.timeout i)).isSome) →
    ∃ m, n ≤ m ∧ e.label m = some (.timeout i)

/-- Milliseconds in nanoseconds: `std::chrono::milliseconds` (time_utils.cpp:155-159) added to a `system_clock` or
`steady_clock` time point. -/
def nanos (ms : Nat) : Int := (ms : Int) * 1000000

/-- `Timestamp::max()`, time_utils.cpp:43-46: 64 bits of nanoseconds. -/
def endOfTime : Int := 2 ^ 63 - 1

/-- `time_to_wait_until`, WaitHandler.ipp:141-151 and CounterWaitHandler.cpp:81-91. -/
def deadlineMs (now : Int) (ms : Nat) : Int := if 0 < ms then now + nanos ms else endOfTime

/-- `Duration_ms`, time_utils.hpp:30. -/
def isDuration (ms : Nat) : Bool := decide (ms < 2 ^ 32)

/-- `WaitHandler<T>`: the wait is timed exactly when its `Duration_ms` is positive; the clock is read
when the thread has found itself not awake (WaitHandler.ipp:138-160; simplified: the clock is read before the
predicate, under the same mutex and without a step between). -/
def waitHandler (T : Type) : Clocked (WaitHandler.system T) where
  Arg := Nat
  system := true
  deadline := deadlineMs
  admits op ms := isDuration ms && (match op with | .wait _ timed => timed == decide (0 < ms) | _ => true)
  arms s i _ := match s.pcs[i]? with | some (.enter _ _) => true | _ => false

/-- `CounterWaitHandler` with `ConsumerWaitHandler`, CounterWaitHandler.cpp:41-119. -/
def counter (T : Type) : Clocked (Counter.system T) where
  Arg := Nat
  system := true
  deadline := deadlineMs
  admits op ms := isDuration ms && (match op with
    | .waitDec timed | .waitThreshold timed | .consume timed => timed == decide (0 < ms)
    | _ => true)
  arms s i _ := match s.pcs[i]? with | some (.enter _ _) | some (.thEnter _) => true | _ => false

/-- `WaitHandler` of Python: `timeout` in seconds, here in nanoseconds, or `None`; `wait_for` adds it to
`time.monotonic()`.  Simplified: it does so after the first evaluation of the predicate, here before, which allows more
timeouts than there are. -/
def pyWaitHandler (T : Type) : Clocked (PyWaitHandler.prog T).system where
  Arg := Option Int
  system := false
  deadline now t := now + t.getD 0
  admits op t := match op with | .wait _ timed => timed == t.isSome | _ => true
  arms s i _ := match s.pcs[i]? with | some (.body (.wait _ _)) => true | _ => false

/-- `PeriodicEventHandler` with plain callbacks: `wait_for` with `period_time_`, PeriodicEventHandler.cpp:67-76, reads
`steady_clock` when it is called.  The period is a member: it is the same for all threads and calls. -/
def periodic (period : Nat) : Clocked (Periodic.prog .plain).system where
  Arg := Unit
  system := false
  deadline now _ := now + nanos period
  admits _ _ := true
  arms s i _ := match s.pcs[i]? with | some .lock => true | _ => false

/-- A new object next to clocks that show anything. -/
def init (C : Clocked S) (b : S.State) (mono wall : Int) (a : C.Arg) : State C :=
  ⟨b, mono, wall, fun _ => a, fun _ => 0⟩

end Verif.Timed
