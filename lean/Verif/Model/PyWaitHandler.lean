import Verif.Model.Prog
/-!
`WaitHandler` of the Python library (`py_utils/py_utils/wait/WaitHandler.py`), with `IntWaitHandler` and
`BooleanWaitHandler`, as a concurrent program with any number of threads.

`threading.Lock` and `threading.Condition` are those of the Python library: `wait_for` evaluates its predicate,
and while that is false waits (releasing the lock) until it is notified or the time is over, and then evaluates
the predicate again; it returns the last value of the predicate.  A thread that is notified after its time was
over goes back to sleep here and is woken by the timeout at once, where `wait_for` leaves directly.  A thread may
also be woken for no reason, which `wait_for` cannot tell apart.  `T` is the type of the value; a predicate gives
`none` when it raises an exception.
-/
namespace Verif.PyWaitHandler
open Verif.Threads

/-- `AwakeReason`, WaitHandler.py:28-32. -/
inductive Reason | disabled | timeout | conditionMet
deriving DecidableEq

/-- Calls, WaitHandler.py:61-145.  `update f`: `set_value` (constant `f`), `increase` and `decrease`
(IntWaitHandler.py:47-57), `open` and `close` (BooleanWaitHandler.py:42-48).  `timed`: a timeout is given. -/
inductive Op (T : Type)
  | getValue
  | update (f : T → T)
  | enable
  | disable
  | blockingDisable
  | enabled
  | wait (p : T → Option Bool) (timed : Bool)

/-- What calls return. -/
inductive Ret (T : Type)
  | done
  | value (v : T)
  | bool (b : Bool)
  | reason (r : Reason)
  /-- the exception of the predicate -/
  | raised

/-- Places in the code. -/
inductive PC (T : Type)
  | idle (r : Option (Ret T))
  /-- `with self._lock` -/
  | acq (op : Op T)
  /-- the first statement under the lock, WaitHandler.py:64, 69, 76, 81, 87, 93, 132 -/
  | body (op : Op T)
  /-- evaluation of the predicate in `wait_for`, WaitHandler.py:134-136; `late`: the time is over -/
  | test (p : T → Option Bool) (timed late : Bool)
  /-- asleep in `Condition.wait` -/
  | asleep (p : T → Option Bool) (timed : Bool)
  /-- woken (`late`: by the timeout), about to take the lock again -/
  | again (p : T → Option Bool) (timed late : Bool)
  /-- WaitHandler.py:138, `met` is `awaken_reason` -/
  | leave (p : T → Option Bool) (timed met : Bool)
  /-- WaitHandler.py:140-145 -/
  | ret (p : T → Option Bool) (timed met : Bool)
  /-- `notify_all`, WaitHandler.py:70, 156, IntWaitHandler.py:51, 57 -/
  | notify
  /-- WaitHandler.py:162 -/
  | drainTest
  /-- WaitHandler.py:163 -/
  | drainNotify
  /-- end of the `with` block -/
  | rel (r : Ret T)

/-- `_value`, `_enabled`, `_n_waiting_threads`, the thread that has `_lock`, and the number of waits that ended
with an exception of their predicate (not in the code). -/
structure Sh (T : Type) where
  value : T
  enabled : Bool
  waiting : Nat
  lock : Option Nat
  raised : Nat

variable {T : Type}

/-- The predicate given to `wait_for`, WaitHandler.py:135: `not enabled or predicate(value)`. -/
def awake (s : Sh T) (p : T → Option Bool) : Option Bool := if s.enabled then p s.value else some true

/-- WaitHandler.py:140-145. -/
def reason (s : Sh T) (met : Bool) : Reason :=
  if s.enabled = false then .disabled else if met = false then .timeout else .conditionMet

/-- A client starts a call. -/
def start : PC T → Op T → Option (PC T)
  | .idle _, op => some (.acq op)
  | _, _ => none

/-- Next step of thread `i`, see `PC`. -/
def run (i : Nat) (s : Sh T) : PC T → Option (Sh T × PC T × Bool)
  | .idle _ => none
  | .asleep _ _ => none
  | .acq op => if s.lock.isSome then none else some ({ s with lock := some i }, .body op, false)
  | .body op =>
    match op with
    | .getValue => some (s, .rel (.value s.value), false)
    | .update f => some ({ s with value := f s.value }, .notify, false)
    | .enable => some ({ s with enabled := true }, .rel .done, false)
    | .disable => some ({ s with enabled := false }, .notify, false)
    | .blockingDisable => some ({ s with enabled := false }, .drainTest, false)
    | .enabled => some (s, .rel (.bool s.enabled), false)
    | .wait p timed => some ({ s with waiting := s.waiting + 1 }, .test p timed false, false)
  | .test p timed late =>
    match awake s p with
    | none => some ({ s with raised := s.raised + 1 }, .rel .raised, false)
    | some true => some (s, .leave p timed true, false)
    | some false =>
      if late then some (s, .leave p timed false, false)
      else some ({ s with lock := none }, .asleep p timed, false)
  | .again p timed late =>
    if s.lock.isSome then none else some ({ s with lock := some i }, .test p timed late, false)
  | .leave p timed met => some ({ s with waiting := s.waiting - 1 }, .ret p timed met, false)
  | .ret _ _ met => some ({ s with lock := none }, .idle (some (.reason (reason s met))), false)
  | .notify => some (s, .rel .done, true)
  | .drainTest => if s.waiting = 0 then some (s, .rel .done, false) else some (s, .drainNotify, false)
  | .drainNotify => some (s, .drainTest, true)
  | .rel r => some ({ s with lock := none }, .idle (some r), false)

/-- Where a thread goes on when it is notified. -/
def woken : PC T → Option (PC T)
  | .asleep p timed => some (.again p timed false)
  | _ => none

/-- Where a thread goes on when its time is over. -/
def late : PC T → Option (PC T)
  | .asleep p true => some (.again p true true)
  | _ => none

variable (T) in
/-- The program. -/
abbrev prog : Prog := ⟨Sh T, PC T, Op T, start, run, woken, late⟩

/-- A new handler (WaitHandler.py:43-58) and `n` threads. -/
def init (v : T) (enabled : Bool) (n : Nat) : Conf (prog T) :=
  (prog T).init ⟨v, enabled, 0, none, 0⟩ (.idle none) n

/-- `wait_equal`, IntWaitHandler.py:59-69. -/
def waitEqual (v : Int) (timed : Bool) : Op Int := .wait (fun x => some (decide (v = x))) timed

/-- `wait_greater_equal`, IntWaitHandler.py:71-73. -/
def waitGreaterEqual (v : Int) (timed : Bool) : Op Int := .wait (fun x => some (decide (x ≥ v))) timed

/-- `wait_greater`, IntWaitHandler.py:75-77. -/
def waitGreater (v : Int) (timed : Bool) : Op Int := .wait (fun x => some (decide (x > v))) timed

/-- `increase`, IntWaitHandler.py:47-51. -/
def increase (v : Int) : Op Int := .update (fun x => x + v)

/-- `decrease`, IntWaitHandler.py:53-57. -/
def decrease (v : Int) : Op Int := .update (fun x => x - v)

/-- `set_value`, WaitHandler.py:66-70. -/
def setValue (v : T) : Op T := .update (fun _ => v)

/-- `open`, BooleanWaitHandler.py:42-44. -/
def «open» : Op Bool := setValue true

/-- `close`, BooleanWaitHandler.py:46-48. -/
def close : Op Bool := setValue false

/-- `wait` of `BooleanWaitHandler`, BooleanWaitHandler.py:50-61. -/
def waitOpen (timed : Bool) : Op Bool := .wait (fun x => some x) timed

end Verif.PyWaitHandler
