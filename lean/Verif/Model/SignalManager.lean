import Verif.Model.Prog
import Verif.Model.StdMap
/-!
`SignalManager<SigVal>` (`cpp_utils/include/cpp_utils/event/impl/SignalManager.ipp`) as a concurrent
program.  Thread 0 is `signal_handler_thread_`; the other threads call the manager, and signals are
delivered to them.  (A signal that interrupts the handler thread or a thread that is inside a call is
modelled by a further thread; this only adds interleavings.)  `signal_received_cv_mutex_` is held by the
handler thread over several steps, and `active_callbacks_mutex_` while it calls the callbacks; the critical
sections of the other threads are one step each.  Callbacks return and do not call the manager.
-/
namespace Verif.SignalManager
open Verif.Threads

/-- Members, SignalManager.hpp:159-204, and ghosts: `registered` counts the
registrations, `delivered` the signals, `rounds` has for each
execution of `signal_handler_routine_` the callbacks called so far, `ended` tells that the thread has
finished. -/
structure Sh (C : Type) where
  received : Nat
  stop : Bool
  mutex : Bool
  cbMutex : Bool
  callbacks : List (Nat × C)
  lastId : Nat
  registered : Nat
  delivered : Nat
  rounds : List (List (Nat × C))
  ended : Bool

/-- What the threads do: a signal arrives, or a call. -/
inductive Op (C : Type)
  | signal
  | register (c : C)
  | unregister (id : Nat)
  | destroy

/-- What a call returned. -/
inductive Ret
  | void
  | id (n : Nat)
  | threw
deriving DecidableEq

/-- Where a thread is. -/
inductive PC (C : Type)
  | idle (r : Ret)
  /-- SignalManager.ipp:135 -/
  | sigInc
  /-- SignalManager.ipp:136 -/
  | sigNotify
  /-- SignalManager.ipp:83-86 -/
  | register (c : C)
  /-- SignalManager.ipp:98-103 -/
  | unregister (id : Nat)
  /-- SignalManager.ipp:67-70 -/
  | dStore
  /-- SignalManager.ipp:72 -/
  | dNotify
  /-- SignalManager.ipp:73 -/
  | dJoin
  /-- SignalManager.ipp:156 -/
  | hLoop
  /-- SignalManager.ipp:158 -/
  | hLock
  /-- SignalManager.ipp:163, first test of the predicate -/
  | hTest
  /-- SignalManager.ipp:164, second test of the predicate -/
  | hTest2
  /-- about to release the mutex and to sleep, inside `wait`, SignalManager.ipp:159 -/
  | hSleep
  | asleep
  /-- woken, about to take the mutex again -/
  | hReady
  /-- SignalManager.ipp:167 -/
  | hStop
  /-- SignalManager.ipp:171 -/
  | hMore
  /-- SignalManager.ipp:173 -/
  | hDec
  /-- SignalManager.ipp:142 -/
  | hCb
  /-- SignalManager.ipp:147-150, the callbacks still to be called -/
  | hCall (rest : List (Nat × C))
  /-- end of the loop body: the mutex is released, SignalManager.ipp:176 -/
  | hUnlock
  /-- SignalManager.ipp:169 -/
  | hBreak
  /-- the thread has finished -/
  | hEnd

variable {C : Type}

/-- Start of a call, or of a signal handler. -/
def start : PC C → Op C → Option (PC C)
  | .idle _, .signal => some .sigInc
  | .idle _, .register c => some (.register c)
  | .idle _, .unregister id => some (.unregister id)
  | .idle _, .destroy => some .dStore
  | _, _ => none

/-- `++` of a `uint32_t`. -/
def bump (n : Nat) : Nat := (n + 1) % 4294967296

/-- `--` of a `uint32_t`. -/
def drop (n : Nat) : Nat := (n + 4294967295) % 4294967296

/-- Adds a call to the last round. -/
def logCall (p : Nat × C) : List (List (Nat × C)) → List (List (Nat × C))
  | [] => []
  | [r] => [r ++ [p]]
  | r :: rs => r :: logCall p rs

/-- Next step of thread `i`. -/
def run (_ : Nat) (s : Sh C) : PC C → Option (Sh C × PC C × Bool)
  | .idle _ => none
  | .asleep => none
  | .hEnd => none
  | .sigInc => some ({ s with received := bump s.received, delivered := s.delivered + 1 }, .sigNotify, false)
  | .sigNotify => some (s, .idle .void, true)
  | .register c =>
    if s.cbMutex then none
    else
      some ({ s with lastId := bump s.lastId, callbacks := StdMap.put (bump s.lastId) c s.callbacks,
                     registered := s.registered + 1 }, .idle (.id (bump s.lastId)), false)
  | .unregister id =>
    if s.cbMutex then none
    else if (StdMap.get id s.callbacks).isSome then
      some ({ s with callbacks := StdMap.del id s.callbacks }, .idle .void, false)
    else some (s, .idle .threw, false)
  | .dStore => if s.mutex then none else some ({ s with stop := true }, .dNotify, false)
  | .dNotify => some (s, .dJoin, true)
  | .dJoin => if s.ended then some (s, .idle .void, false) else none
  | .hLoop => if s.stop then some ({ s with ended := true }, .hEnd, false) else some (s, .hLock, false)
  | .hLock => if s.mutex then none else some ({ s with mutex := true }, .hTest, false)
  | .hTest => some (s, if s.received > 0 then .hStop else .hTest2, false)
  | .hTest2 => some (s, if s.stop then .hStop else .hSleep, false)
  | .hSleep => some ({ s with mutex := false }, .asleep, false)
  | .hReady => if s.mutex then none else some ({ s with mutex := true }, .hTest, false)
  | .hStop => some (s, if s.stop then .hBreak else .hMore, false)
  | .hMore => some (s, if s.received > 0 then .hDec else .hUnlock, false)
  | .hDec => some ({ s with received := drop s.received }, .hCb, false)
  | .hCb =>
    if s.cbMutex then none
    else some ({ s with cbMutex := true, rounds := s.rounds ++ [[]] }, .hCall s.callbacks, false)
  | .hCall [] => some ({ s with cbMutex := false }, .hUnlock, false)
  | .hCall (p :: rest) => some ({ s with rounds := logCall p s.rounds }, .hCall rest, false)
  | .hUnlock => some ({ s with mutex := false }, .hLoop, false)
  | .hBreak => some ({ s with mutex := false, ended := true }, .hEnd, false)

/-- Where a sleeping thread goes on. -/
def woken : PC C → Option (PC C)
  | .asleep => some .hReady
  | _ => none

/-- The program. -/
abbrev prog (C : Type) : Prog := ⟨Sh C, PC C, Op C, start, run, woken, fun _ => none⟩

/-- A new manager, its thread, and `n` other threads, SignalManager.ipp:38-62. -/
def init (C : Type) (n : Nat) : Conf (prog C) :=
  ⟨⟨0, false, false, false, [], 0, 0, 0, [], false⟩, .hLoop :: List.replicate n (.idle .void)⟩

end Verif.SignalManager
