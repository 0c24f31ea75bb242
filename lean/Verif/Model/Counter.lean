import Verif.Model.Threads
import Verif.Model.WaitHandler
import Verif.Model.DBQueue
/-!
`CounterWaitHandler` (`cpp_utils/src/cpp/wait/CounterWaitHandler.cpp`), `ConsumerWaitHandler` and
`DBQueueWaitHandler` (`cpp_utils/include/cpp_utils/wait/impl/`) as a concurrent program with any number
of threads.  Granularity: see `Verif.Model.Threads`; every critical section of
`wait_condition_variable_mutex_` is one step.  (Simplified in one point with respect to
`Verif.Model.WaitHandler`: `threads_waiting_--` and the release of the mutex are one step here.)
-/
namespace Verif.Counter
open Verif.Threads
open Verif.WaitHandler (Reason StatusOp)

/-- Calls.  `inc`, `waitDec`, `waitThreshold`: `CounterWaitHandler`; `produce`, `consume`:
`ConsumerWaitHandler` (its `wait_all_consumed` is `waitThreshold`). -/
inductive Op (T : Type)
  | inc
  | waitDec (timed : Bool)
  | waitThreshold (timed : Bool)
  | produce (v : T)
  | consume (timed : Bool)
  | status (o : StatusOp)

/-- What a call gave. -/
inductive Ret (T : Type)
  | reason (r : Reason)
  | value (v : T)
  | threw (e : Exc)

/-- Where a thread is.  `c` tells `consume` from `wait_and_decrement`. -/
inductive PC (T : Type)
  | idle (last : Option (Ret T))
  /-- `wait_and_decrement` before taking the mutex, CounterWaitHandler.cpp:41-54 -/
  | enter (c timed : Bool)
  /-- asleep on `wait_condition_variable_` -/
  | asleep (c timed : Bool)
  /-- woken (`late`: by the timeout), about to take the mutex -/
  | ready (c timed late : Bool)
  /-- `wait_threshold_reached` before taking the mutex, CounterWaitHandler.cpp:65-69 -/
  | thEnter (timed : Bool)
  /-- asleep on `threshold_reached_cv_`, CounterWaitHandler.cpp:93-100 -/
  | thAsleep (timed : Bool)
  | thReady (timed late : Bool)
  /-- `produce` before `add_value_`, ConsumerWaitHandler.ipp:43-57 -/
  | push (v : T)
  /-- `operator ++` before taking the mutex, CounterWaitHandler.cpp:121-128; `p`: within `produce` -/
  | inc (p : Bool)
  /-- `get_next_value_` before taking `pop_queue_mutex_`, DBQueueWaitHandler.ipp:42-46 -/
  | popLock
  /-- DBQueueWaitHandler.ipp:49-53 -/
  | popSwap
  /-- DBQueueWaitHandler.ipp:56-65 -/
  | popTake
  /-- status operations, as in `Verif.WaitHandler.PC`; a test of `enabled_` and the following store are
  one step, as only the holder of `status_mutex_` writes it -/
  | acquire (o : StatusOp)
  | enableTest (o : StatusOp)
  | disableTest (o : StatusOp)
  | disableNotify (o : StatusOp)
  | drainTest (o : StatusOp)
  | drainNotify (o : StatusOp)
  | stopTest (o : StatusOp)
  | release (o : StatusOp)

/-- `value_`, `threshold_`, `enabled_`, `threads_waiting_`, holder of `status_mutex_`, `queue_`, holder of
`pop_queue_mutex_`; which sleeper `notify_one` wakes is left to the arbitrary sequence `picks`; `incs`,
`grants`, `pushed`, `popped` record the history. -/
structure State (T : Type) where
  value : Nat
  threshold : Nat
  enabled : Bool
  waiting : Nat
  status : Option Nat
  queue : DBQueue.Queue T
  popMutex : Option Nat
  picks : Nat → Nat
  incs : Nat
  grants : Nat
  pushed : List T
  popped : List T
  pcs : List (PC T)

variable {T : Type}

/-- `CounterType` is `unsigned int`, CounterWaitHandler.hpp:32. -/
def wrap (n : Nat) : Nat := n % 2 ^ 32

/-- Thread `i` goes to `pc`. -/
def goto (s : State T) (i : Nat) (pc : PC T) : State T := { s with pcs := s.pcs.set i pc }

/-- Effect of `wait_condition_variable_.notify_all` on a thread. -/
def wake : PC T → PC T
  | .asleep c t => .ready c t false
  | pc => pc

/-- Effect of `threshold_reached_cv_.notify_all` on a thread. -/
def wakeTh : PC T → PC T
  | .thAsleep t => .thReady t false
  | pc => pc

/-- Asleep on `wait_condition_variable_`. -/
def PC.sleeping : PC T → Bool
  | .asleep _ _ => true
  | _ => false

/-- `wait_condition_variable_.notify_all`. -/
def notifyAll (s : State T) : State T := { s with pcs := s.pcs.map wake }

/-- `threshold_reached_cv_.notify_all`. -/
def notifyThreshold (s : State T) : State T := { s with pcs := s.pcs.map wakeTh }

/-- The threads asleep on `wait_condition_variable_`. -/
def sleepers (pcs : List (PC T)) : List Nat :=
  (List.range pcs.length).filter fun j => (pcs[j]?.map PC.sleeping).getD false

/-- `wait_condition_variable_.notify_one`: wakes one of the sleeping threads, if any. -/
def notifyOne (s : State T) : State T :=
  let l := sleepers s.pcs
  match l[s.picks 0 % l.length]? with
  | none => s
  | some k => { s with pcs := s.pcs.modify k wake, picks := fun n => s.picks (n + 1) }

/-- `operator ++`, CounterWaitHandler.cpp:126-136. -/
def increment (s : State T) : State T :=
  let v := wrap (s.value + 1)
  let s := { s with value := v, incs := s.incs + 1 }
  if v > s.threshold then notifyOne s else s

/-- `decrease_1_nts_`, CounterWaitHandler.cpp:141-155. -/
def decrease (s : State T) : State T :=
  let v := s.value - 1
  let s := { s with value := v, grants := s.grants + 1 }
  if v > s.threshold then notifyOne s else if v = s.threshold then notifyThreshold s else s

/-- Predicate of `wait_and_decrement`, CounterWaitHandler.cpp:48-51 and WaitHandler.ipp:155-159. -/
def awake (s : State T) : Bool := !s.enabled || s.value > s.threshold

/-- Predicate of `wait_threshold_reached`, CounterWaitHandler.cpp:96-100. -/
def awakeTh (s : State T) : Bool := !s.enabled || s.value = s.threshold

/-- Reason, WaitHandler.ipp:166-178 and CounterWaitHandler.cpp:107-118. -/
def reason (s : State T) (finished : Bool) : Reason :=
  if !s.enabled then .disabled else if finished then .conditionMet else .timeout

/-- Where a call goes with its reason: `wait_and_decrement` returns it; `consume` throws or takes the
element, ConsumerWaitHandler.ipp:63-78. -/
def afterWait (c : Bool) (r : Reason) : PC T :=
  match c, r with
  | false, r => .idle (some (.reason r))
  | true, .disabled => .idle (some (.threw .disabled))
  | true, .timeout => .idle (some (.threw .timeout))
  | true, .conditionMet => .popLock

/-- End of `wait_and_decrement`, CounterWaitHandler.cpp:56-62. -/
def leave (s : State T) (i : Nat) (c finished : Bool) : State T :=
  let r := reason s finished
  let s := goto { s with waiting := s.waiting - 1 } i (afterWait c r)
  if r = .conditionMet then decrease s else s

/-- Where `disable` returns to, WaitHandler.ipp:92 or 103. -/
def afterDisable : StatusOp → PC T
  | .blockingDisable => .drainTest .blockingDisable
  | .stopAndContinue => .drainTest .stopAndContinue
  | o => .release o

/-- Where the loop of `blocking_disable` ends, WaitHandler.ipp:113 or 230. -/
def afterDrain : StatusOp → PC T
  | .stopAndContinue => .enableTest .stopAndContinue
  | o => .release o

/-- First step of a call once `status_mutex_` is held. -/
def first : StatusOp → PC T
  | .enable => .enableTest .enable
  | .disable => .disableTest .disable
  | .blockingDisable => .disableTest .blockingDisable
  | .stopAndContinue => .stopTest .stopAndContinue

/-- Next step of thread `i`; `none` when it has none or is blocked on a mutex. -/
def run (s : State T) (i : Nat) : Option (State T) :=
  match s.pcs[i]? with
  | none => none
  | some pc =>
    match pc with
    | .idle _ => none
    | .asleep _ _ => none
    | .thAsleep _ => none
    | .enter c timed =>
      if !s.enabled then some (goto s i (afterWait c .disabled))
      else
        let s := { s with waiting := s.waiting + 1 }
        if awake s then some (leave s i c true) else some (goto s i (.asleep c timed))
    | .ready c timed late =>
      if awake s then some (leave s i c true)
      else if late then some (leave s i c false)
      else some (goto s i (.asleep c timed))
    | .thEnter timed =>
      if !s.enabled then some (goto s i (.idle (some (.reason .disabled))))
      else if awakeTh s then some (goto s i (.idle (some (.reason (reason s true)))))
      else some (goto { s with waiting := s.waiting + 1 } i (.thAsleep timed))
    | .thReady timed late =>
      if awakeTh s then
        some (goto { s with waiting := s.waiting - 1 } i (.idle (some (.reason (reason s true)))))
      else if late then
        some (goto { s with waiting := s.waiting - 1 } i (.idle (some (.reason (reason s false)))))
      else some (goto s i (.thAsleep timed))
    | .push v =>
      some (goto { s with queue := DBQueue.push s.queue v, pushed := s.pushed ++ [v] } i (.inc true))
    | .inc _ => some (increment (goto s i (.idle none)))
    | .popLock =>
      if s.popMutex.isSome then none
      else some (goto { s with popMutex := some i } i
        (if DBQueue.empty s.queue then .popSwap else .popTake))
    | .popSwap => some (goto { s with queue := DBQueue.swap s.queue } i .popTake)
    | .popTake =>
      if DBQueue.empty s.queue then
        some (goto { s with popMutex := none } i (.idle (some (.threw .inconsistency))))
      else
        match DBQueue.front s.queue, DBQueue.pop s.queue with
        | .ok v, .ok q =>
          some (goto { s with popMutex := none, queue := q, popped := s.popped ++ [v] } i
            (.idle (some (.value v))))
        | _, _ => none
    | .acquire o =>
      if s.status.isSome then none
      else some (goto { s with status := some i } i (first o))
    | .enableTest o => some (goto { s with enabled := true } i (.release o))
    | .disableTest o =>
      if s.enabled then some (goto { s with enabled := false } i (.disableNotify o))
      else some (goto s i (afterDisable o))
    | .disableNotify o => some (goto (notifyAll s) i (afterDisable o))
    | .drainTest o => some (goto s i (if 0 < s.waiting then .drainNotify o else afterDrain o))
    | .drainNotify o => some (goto (notifyAll s) i (.drainTest o))
    | .stopTest o => some (goto s i (if s.enabled then .disableTest o else .enableTest o))
    | .release _ => some (goto { s with status := none } i (.idle none))

/-- First step of a call. -/
def entry : Op T → PC T
  | .inc => .inc false
  | .waitDec timed => .enter false timed
  | .waitThreshold timed => .thEnter timed
  | .produce v => .push v
  | .consume timed => .enter true timed
  | .status o => .acquire o

/-- A client starts a call on an idle thread. -/
def start (s : State T) (i : Nat) (op : Op T) : Option (State T) :=
  match s.pcs[i]? with
  | some (.idle _) => some (goto s i (entry op))
  | _ => none

/-- Transitions. -/
def step (s : State T) : Label (Op T) → Option (State T)
  | .start i op => start s i op
  | .run i => run s i
  | .spurious i =>
    match s.pcs[i]? with
    | some (.asleep c t) => some (goto s i (.ready c t false))
    | some (.thAsleep t) => some (goto s i (.thReady t false))
    | _ => none
  | .timeout i =>
    match s.pcs[i]? with
    | some (.asleep c true) => some (goto s i (.ready c true true))
    | some (.thAsleep true) => some (goto s i (.thReady true true))
    | _ => none

/-- The transition system. -/
def system (T : Type) : System := ⟨State T, Op T, step⟩

/-- A new object used by `n` threads, CounterWaitHandler.cpp:28-35. -/
def init (threshold value : Nat) (enabled : Bool) (picks : Nat → Nat) (n : Nat) : State T :=
  ⟨value, threshold, enabled, 0, none, {}, none, picks, 0, 0, [], [], List.replicate n (.idle none)⟩

end Verif.Counter
