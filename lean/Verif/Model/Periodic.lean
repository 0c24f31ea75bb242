import Verif.Model.Prog
import Verif.Model.Basic
/-!
`PeriodicEventHandler` (`cpp_utils/src/cpp/event/PeriodicEventHandler.cpp`) with the parts of `EventHandler`
(`cpp_utils/include/cpp_utils/event/impl/EventHandler.ipp`) it is called through.

Thread 0 is the timer thread, all others are clients.  `wait_mutex_` of `EventHandler` is held only for single
statements here and is not modelled, nor is `wait_for_event` (`Model/EventHandler.lean` has both).  A timeout can happen
at any time: durations are not modelled.  Only the timer thread waits on the condition variable, so `notify_one` is
`notify_all`.
-/
namespace Verif.Periodic
open Verif.Threads

/-- Constructor, PeriodicEventHandler.cpp:30-45; `Duration_ms` is `uint32_t` (time_utils.hpp:30), `ok` carries the period
of the new handler. -/
def construct (period : Nat) : Res Nat := if period ≤ 0 then .throw .initialization else .ok period

/-- What the callback does with its own handler: nothing, `unset_callback`, `set_callback` of another callback. -/
inductive Callback
  | plain
  | unset
  | change
deriving DecidableEq

/-- Calls of clients.  The destructor, PeriodicEventHandler.cpp:55-58, is `unset`. -/
inductive Op
  | set
  | unset
  /-- `simulate_event_occurred`, EventHandler.ipp:170-175 -/
  | event
deriving DecidableEq

/-- `period_thread_`: not joinable; started, but not yet running; running; the routine has returned. -/
inductive Thread
  | none
  | spawned
  | running
  | ended
deriving DecidableEq

/-- Places in the code. -/
inductive PC
  /-- client outside any call -/
  | idle
  /-- EventHandler.ipp:52 -/
  | setLock
  /-- EventHandler.ipp:57 -/
  | setInternal
  /-- EventHandler.ipp:59-66 -/
  | setFlag
  /-- EventHandler.ipp:67-78, with `was_callback_set_before` -/
  | setRel (was : Bool)
  /-- PeriodicEventHandler.cpp:89-92 -/
  | setStart
  /-- PeriodicEventHandler.cpp:94-95 -/
  | setSpawn
  /-- EventHandler.ipp:79 -/
  | setOut
  /-- EventHandler.ipp:84 -/
  | unsetLock
  /-- EventHandler.ipp:88 -/
  | unsetTest
  /-- EventHandler.ipp:92 -/
  | unsetInternal
  /-- EventHandler.ipp:94-102 -/
  | unsetFlag
  /-- EventHandler.ipp:103 -/
  | unsetRel
  /-- PeriodicEventHandler.cpp:105-108 -/
  | unsetStop
  /-- PeriodicEventHandler.cpp:109 -/
  | unsetNotify
  /-- PeriodicEventHandler.cpp:112 -/
  | unsetJoin
  /-- EventHandler.ipp:118 -/
  | unsetOut
  /-- EventHandler.ipp:182 -/
  | eventLock
  /-- EventHandler.ipp:184 -/
  | eventTest
  /-- inside the callback and the counting after it, EventHandler.ipp:186-193 -/
  | eventCall
  /-- EventHandler.ipp:201-202 -/
  | eventRel
  /-- the timer thread does not exist, or does not run yet, or has ended -/
  | off
  /-- PeriodicEventHandler.cpp:62 -/
  | loop
  /-- PeriodicEventHandler.cpp:65 -/
  | lock
  /-- predicate of the wait, PeriodicEventHandler.cpp:71-76 -/
  | test
  /-- asleep in `wait_for`, PeriodicEventHandler.cpp:68 -/
  | asleep
  /-- woken, without the mutex yet -/
  | again
  /-- the period is over, without the mutex yet -/
  | late
  /-- PeriodicEventHandler.cpp:78 -/
  | check
  /-- PeriodicEventHandler.cpp:83, EventHandler.ipp:182 -/
  | timerLock
  /-- EventHandler.ipp:184 -/
  | timerTest
  /-- inside the callback and the counting after it, EventHandler.ipp:186-193 -/
  | timerCall
  /-- EventHandler.ipp:201-202 -/
  | timerRel
  /-- `lock` goes out of scope, PeriodicEventHandler.cpp:84 -/
  | unlock
  /-- the routine returns, PeriodicEventHandler.cpp:85 -/
  | finish
  /-- the callback calls `set_callback` or `unset_callback`: EventHandler.ipp:52, 84 -/
  | cbLock
  /-- EventHandler.ipp:57-67, 88-103 (`internal_callback_mutex_` is recursive and is the caller's already) -/
  | cbFlag
  /-- PeriodicEventHandler.cpp:105-108 -/
  | cbStop
  /-- PeriodicEventHandler.cpp:109 -/
  | cbNotify
  /-- PeriodicEventHandler.cpp:112 -/
  | cbJoin
  /-- EventHandler.ipp:79, 118, and the end of the callback -/
  | cbOut
deriving DecidableEq

/-- `is_callback_set_`; owners of `event_mutex_`, `internal_callback_mutex_` (EventHandler.hpp:202-208) and
`periodic_wait_mutex_`; `timer_active_` and `period_thread_` (PeriodicEventHandler.hpp:122-142); ghosts: calls of the callback so
far, and whether a thread was assigned to a joinable `std::thread` (which ends the process). -/
structure Sh where
  set : Bool
  event : Option Nat
  internal : Option Nat
  periodic : Option Nat
  active : Bool
  thread : Thread
  calls : Nat
  crashed : Bool

/-- A client starts a call. -/
def start : PC → Op → Option PC
  | .idle, .set => some .setLock
  | .idle, .unset => some .unsetLock
  | .idle, .event => some .eventLock
  | _, _ => none

/-- Next step of thread `i` when callbacks do `c`, see `PC`. -/
def run (c : Callback) (i : Nat) (s : Sh) : PC → Option (Sh × PC × Bool)
  | .idle | .asleep => none
  | .setLock => if s.event.isSome then none else some ({ s with event := some i }, .setInternal, false)
  | .setInternal => if s.internal.isSome then none else some ({ s with internal := some i }, .setFlag, false)
  | .setFlag => some ({ s with set := true }, .setRel s.set, false)
  | .setRel was => some ({ s with internal := none }, if was then .setOut else .setStart, false)
  | .setStart => if s.periodic.isSome then none else some ({ s with active := true }, .setSpawn, false)
  | .setSpawn =>
    some ({ s with thread := .spawned, crashed := s.crashed || decide (s.thread ≠ .none) }, .setOut, false)
  | .setOut => some ({ s with event := none }, .idle, false)
  | .unsetLock => if s.event.isSome then none else some ({ s with event := some i }, .unsetTest, false)
  | .unsetTest => some (s, if s.set then .unsetInternal else .unsetOut, false)
  | .unsetInternal => if s.internal.isSome then none else some ({ s with internal := some i }, .unsetFlag, false)
  | .unsetFlag => some ({ s with set := false }, .unsetRel, false)
  | .unsetRel => some ({ s with internal := none }, .unsetStop, false)
  | .unsetStop => if s.periodic.isSome then none else some ({ s with active := false }, .unsetNotify, false)
  | .unsetNotify => some (s, .unsetJoin, true)
  | .unsetJoin => if s.thread = .ended then some ({ s with thread := .none }, .unsetOut, false) else none
  | .unsetOut => some ({ s with event := none }, .idle, false)
  | .eventLock => if s.internal.isSome then none else some ({ s with internal := some i }, .eventTest, false)
  | .eventTest => some (s, if s.set then .eventCall else .eventRel, false)
  | .eventCall =>
    match c with
    | .plain => some ({ s with calls := s.calls + 1 }, .eventRel, false)
    | _ => some (s, .cbLock, false)
  | .eventRel => some ({ s with internal := none }, .idle, false)
  | .off => if s.thread = .spawned then some ({ s with thread := .running }, .loop, false) else none
  | .loop => some (s, if s.active then .lock else .finish, false)
  | .lock => if s.periodic.isSome then none else some ({ s with periodic := some i }, .test, false)
  | .test => if s.active then some ({ s with periodic := none }, .asleep, false) else some (s, .check, false)
  | .again => if s.periodic.isSome then none else some ({ s with periodic := some i }, .test, false)
  | .late => if s.periodic.isSome then none else some ({ s with periodic := some i }, .check, false)
  | .check => if s.active then some (s, .timerLock, false) else some ({ s with periodic := none }, .finish, false)
  | .timerLock => if s.internal.isSome then none else some ({ s with internal := some i }, .timerTest, false)
  | .timerTest => some (s, if s.set then .timerCall else .timerRel, false)
  | .timerCall =>
    match c with
    | .plain => some ({ s with calls := s.calls + 1 }, .timerRel, false)
    | _ => some (s, .cbLock, false)
  | .timerRel => some ({ s with internal := none }, .unlock, false)
  | .unlock => some ({ s with periodic := none }, .loop, false)
  | .finish => some ({ s with thread := .ended }, .off, false)
  | .cbLock =>
    if c = .plain then none
    else if s.event.isSome then none else some ({ s with event := some i }, .cbFlag, false)
  | .cbFlag =>
    match c with
    | .plain => none
    | .unset => some ({ s with set := false }, .cbStop, false)
    | .change => some (s, .cbOut, false)
  | .cbStop =>
    if c = .plain then none
    else if s.periodic.isSome then none else some ({ s with active := false }, .cbNotify, false)
  | .cbNotify => if c = .plain then none else some (s, .cbJoin, true)
  | .cbJoin =>
    if c = .plain then none
    else if s.thread = .ended then some ({ s with thread := .none }, .cbOut, false) else none
  | .cbOut =>
    if c = .plain then none
    else some ({ s with event := none, calls := s.calls + 1 }, if i = 0 then .timerRel else .eventRel, false)

/-- Waking the timer thread. -/
def woken : PC → Option PC
  | .asleep => some .again
  | _ => none

/-- The period is over. -/
def expired : PC → Option PC
  | .asleep => some .late
  | _ => none

/-- The program. -/
abbrev prog (c : Callback) : Prog := ⟨Sh, PC, Op, start, run c, woken, expired⟩

/-- A new handler without callback, and `n` clients, PeriodicEventHandler.cpp:30-45. -/
def init (c : Callback) (n : Nat) : Conf (prog c) :=
  ⟨⟨false, none, none, none, false, .none, 0, false⟩, .off :: List.replicate n .idle⟩

end Verif.Periodic
