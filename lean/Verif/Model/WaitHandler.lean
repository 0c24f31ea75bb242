import Verif.Model.Threads
/-!
`WaitHandler<T>` (`cpp_utils/include/cpp_utils/wait/impl/WaitHandler.ipp`) as a concurrent program with
any number of threads.  Granularity: see `Verif.Model.Threads`.  Both mutexes are part of the state;
`wait_condition_variable_mutex_` is held between steps only by a thread that leaves a wait, since
`threads_waiting_`, which it has decremented then, is read without the mutex.
-/
namespace Verif.WaitHandler
open Verif.Threads

/-- `AwakeReason`, WaitHandler.hpp:35-41. -/
inductive Reason | disabled | timeout | conditionMet
deriving DecidableEq

/-- Calls that take `status_mutex_`. -/
inductive StatusOp | enable | disable | blockingDisable | stopAndContinue
deriving DecidableEq

/-- Public and protected calls.  `timed`: a positive timeout is given. -/
inductive Op (T : Type)
  | wait (pred : T → Bool) (timed : Bool)
  | setValue (v : T) (notify : Bool)
  /-- change of `value_` under the mutex followed by `notify_all`: `IntWaitHandler` `++` and `--`,
  IntWaitHandler.cpp:99-129 -/
  | update (f : T → T)
  | status (o : StatusOp)

/-- Where a thread is. -/
inductive PC (T : Type)
  /-- not inside a call; `last` is what the last wait returned -/
  | idle (last : Option Reason)
  /-- `blocking_wait_` before taking the mutex, WaitHandler.ipp:121-128 -/
  | enter (pred : T → Bool) (timed : Bool)
  /-- asleep in `wait_until`, WaitHandler.ipp:153-160 -/
  | asleep (pred : T → Bool) (timed : Bool)
  /-- woken (`late`: by the timeout), about to take the mutex again -/
  | ready (pred : T → Bool) (timed late : Bool)
  /-- leaving `blocking_wait_` with the mutex held, WaitHandler.ipp:131-135 (`finished = none`) and
  163-195 -/
  | leaving (pred : T → Bool) (timed : Bool) (finished : Option Bool)
  /-- `set_value` (with a constant `f`), `++` or `--` before taking the mutex, WaitHandler.ipp:204-213 -/
  | set (f : T → T) (notify : Bool)
  /-- `set_value` before `notify_all`, WaitHandler.ipp:215-218 -/
  | setNotify
  /-- before `status_mutex_` is taken, WaitHandler.ipp:54, 73, 97, 224 -/
  | acquire (o : StatusOp)
  /-- test of `enable`, WaitHandler.ipp:57 -/
  | enableTest (o : StatusOp)
  /-- WaitHandler.ipp:60-62 -/
  | enableStore (o : StatusOp)
  /-- test of `disable`, WaitHandler.ipp:76 -/
  | disableTest (o : StatusOp)
  /-- WaitHandler.ipp:78-83 -/
  | disableStore (o : StatusOp)
  /-- WaitHandler.ipp:86 -/
  | disableNotify (o : StatusOp)
  /-- loop test of `blocking_disable`, WaitHandler.ipp:103 -/
  | drainTest (o : StatusOp)
  /-- WaitHandler.ipp:106-108 -/
  | drainLock (o : StatusOp)
  /-- WaitHandler.ipp:111 -/
  | drainNotify (o : StatusOp)
  /-- test of `stop_and_continue`, WaitHandler.ipp:226 -/
  | stopTest (o : StatusOp)
  /-- about to release `status_mutex_` and return -/
  | release (o : StatusOp)

/-- `value_`, `enabled_`, `threads_waiting_`, the holders of `wait_condition_variable_mutex_` and
`status_mutex_`, and the threads. -/
structure State (T : Type) where
  value : T
  enabled : Bool
  waiting : Nat
  mutex : Option Nat
  status : Option Nat
  pcs : List (PC T)

variable {T : Type}

/-- Effect of `notify_all` on a thread. -/
def wake : PC T → PC T
  | .asleep p timed => .ready p timed false
  | pc => pc

/-- `notify_all`. -/
def notifyAll (s : State T) : State T := { s with pcs := s.pcs.map wake }

/-- Thread `i` goes to `pc`. -/
def goto (s : State T) (i : Nat) (pc : PC T) : State T := { s with pcs := s.pcs.set i pc }

/-- `threads_waiting_--` after `wait_until` returned `finished`, WaitHandler.ipp:162-164. -/
def endWait (s : State T) (i : Nat) (p : T → Bool) (timed finished : Bool) : State T :=
  goto { s with waiting := s.waiting - 1, mutex := some i } i (.leaving p timed (some finished))

/-- Reason given, WaitHandler.ipp:130-135 and 166-178. -/
def reason (s : State T) : Option Bool → Reason
  | none => .disabled
  | some finished => if !s.enabled then .disabled else if finished then .conditionMet else .timeout

/-- Predicate given to `wait_until`, WaitHandler.ipp:155-159. -/
def awake (s : State T) (pred : T → Bool) : Bool := !s.enabled || pred s.value

/-- Where `disable` returns to, WaitHandler.ipp:92 or 103. -/
def afterDisable : StatusOp → PC T
  | .blockingDisable => .drainTest .blockingDisable
  | .stopAndContinue => .drainTest .stopAndContinue
  | o => .release o

/-- Where the loop of `blocking_disable` ends, WaitHandler.ipp:113 or 230. -/
def afterDrain : StatusOp → PC T
  | .stopAndContinue => .enableTest .stopAndContinue
  | o => .release o

/-- First step of a call once `status_mutex_` is held. -/
def first : StatusOp → PC T
  | .enable => .enableTest .enable
  | .disable => .disableTest .disable
  | .blockingDisable => .disableTest .blockingDisable
  | .stopAndContinue => .stopTest .stopAndContinue

/-- Next step of thread `i`; `none` when it has none or is blocked on a mutex. -/
def run (s : State T) (i : Nat) : Option (State T) :=
  match s.pcs[i]? with
  | none => none
  | some pc =>
    match pc with
    | .idle _ => none
    | .asleep _ _ => none
    | .enter p timed =>
      if s.mutex.isSome then none
      else if !s.enabled then some (goto { s with mutex := some i } i (.leaving p timed none))
      else
        let s := { s with waiting := s.waiting + 1 }
        if awake s p then some (endWait s i p timed true) else some (goto s i (.asleep p timed))
    | .ready p timed late =>
      if s.mutex.isSome then none
      else if awake s p then some (endWait s i p timed true)
      else if late then some (endWait s i p timed false)
      else some (goto s i (.asleep p timed))
    | .leaving _ _ finished =>
      some (goto { s with mutex := none } i (.idle (some (reason s finished))))
    | .set f notify =>
      if s.mutex.isSome then none
      else some (goto { s with value := f s.value } i (if notify then .setNotify else .idle none))
    | .setNotify => some (goto (notifyAll s) i (.idle none))
    | .acquire o =>
      if s.status.isSome then none
      else some (goto { s with status := some i } i (first o))
    | .enableTest o => some (goto s i (if !s.enabled then .enableStore o else .release o))
    | .enableStore o =>
      if s.mutex.isSome then none else some (goto { s with enabled := true } i (.release o))
    | .disableTest o => some (goto s i (if s.enabled then .disableStore o else afterDisable o))
    | .disableStore o =>
      if s.mutex.isSome then none else some (goto { s with enabled := false } i (.disableNotify o))
    | .disableNotify o => some (goto (notifyAll s) i (afterDisable o))
    | .drainTest o => some (goto s i (if 0 < s.waiting then .drainLock o else afterDrain o))
    | .drainLock o => if s.mutex.isSome then none else some (goto s i (.drainNotify o))
    | .drainNotify o => some (goto (notifyAll s) i (.drainTest o))
    | .stopTest o => some (goto s i (if s.enabled then .disableTest o else .enableTest o))
    | .release _ => some (goto { s with status := none } i (.idle none))

/-- A client starts a call on an idle thread. -/
def start (s : State T) (i : Nat) (op : Op T) : Option (State T) :=
  match s.pcs[i]? with
  | some (.idle _) =>
    some (goto s i (match op with
      | .wait p timed => .enter p timed
      | .setValue v notify => .set (fun _ => v) notify
      | .update f => .set f true
      | .status o => .acquire o))
  | _ => none

/-- Transitions. -/
def step (s : State T) : Label (Op T) → Option (State T)
  | .start i op => start s i op
  | .run i => run s i
  | .spurious i =>
    match s.pcs[i]? with
    | some (.asleep p timed) => some (goto s i (.ready p timed false))
    | _ => none
  | .timeout i =>
    match s.pcs[i]? with
    | some (.asleep p true) => some (goto s i (.ready p true true))
    | _ => none

/-- The transition system. -/
def system (T : Type) : System := ⟨State T, Op T, step⟩

/-- A new object used by `n` threads, constructors WaitHandler.ipp:27-43. -/
def init (v : T) (enabled : Bool) (n : Nat) : State T :=
  ⟨v, enabled, 0, none, none, List.replicate n (.idle none)⟩

/-- Calls of `BooleanWaitHandler`. -/
inductive BoolCall
  | wait (timed : Bool)
  | open_
  | close

/-- BooleanWaitHandler.cpp:39-60. -/
def boolOp : BoolCall → Op Bool
  | .wait timed => .wait (fun v => v) timed
  | .open_ => .setValue true true
  | .close => .setValue false false

/-- Calls of `IntWaitHandler`. -/
inductive IntCall
  | waitEqual (n : Int) (timed : Bool)
  | waitGreater (n : Int) (timed : Bool)
  | waitGreaterEqual (n : Int) (timed : Bool)
  | waitLower (n : Int) (timed : Bool)
  | waitLowerEqual (n : Int) (timed : Bool)
  | inc
  | dec

/-- IntWaitHandler.cpp:39-129.  Simplified: unbounded integers (overflow of `int` is undefined). -/
def intOp : IntCall → Op Int
  | .waitEqual n timed => .wait (fun v => v == n) timed
  | .waitGreater n timed => .wait (fun v => decide (v > n)) timed
  | .waitGreaterEqual n timed => .wait (fun v => decide (v ≥ n)) timed
  | .waitLower n timed => .wait (fun v => decide (v < n)) timed
  | .waitLowerEqual n timed => .wait (fun v => decide (v ≤ n)) timed
  | .inc => .update (· + 1)
  | .dec => .update (· - 1)

end Verif.WaitHandler
