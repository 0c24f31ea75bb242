import Verif.Model.Prog
import Verif.Spec.EventHandler
/-!
`EventHandler<Args...>` (`cpp_utils/include/cpp_utils/event/impl/EventHandler.ipp`) as a concurrent
program.  `wait_mutex_` is not part of the state: each of its critical sections is one step.  The two
recursive mutexes are; callbacks do not call the handler themselves (simplification; for callbacks that
do see `Verif.Model.EventNested` and `Verif.Model.Reentrant`).  `callback_set_nts_`, `callback_change_nts_` and `callback_unset_nts_` do
nothing, as in the base class, EventHandler.ipp:219-235.
-/
namespace Verif.EventHandler
open Verif.Threads
open Verif.Spec.EventHandler (Call)

/-- Members, EventHandler.hpp:192-240, and ghosts: `calls` are the calls of `callback_` made (`none` is
`DEFAULT_CALLBACK_`, which aborts, EventHandler.ipp:30-37), `hist` the calls that took effect, with the
thread. -/
structure Sh (C A : Type) where
  set : Bool
  callback : Option C
  count : Nat
  waiting : Nat
  event : Option Nat
  internal : Option Nat
  calls : List (Option C × A)
  hist : List (Nat × Call C A)

/-- Public calls, and `event_occurred_`, which is what `simulate_event_occurred` calls. -/
inductive Op (C A : Type)
  | setCallback (c : C)
  | unsetCallback
  | event (a : A)
  | wait (n : Nat)
  | reset
  | decrement
  | eventCount

/-- What a call returned. -/
inductive Ret
  | void
  | waited (b : Bool)
  | count (n : Nat)
deriving DecidableEq

/-- Where a thread is. -/
inductive PC (C A : Type)
  | idle (r : Ret)
  /-- EventHandler.ipp:124 -/
  | waitTest (n : Nat)
  /-- before `wait_mutex_`, EventHandler.ipp:126 -/
  | waitLock (n : Nat)
  /-- asleep in `wait`, EventHandler.ipp:130-137 -/
  | asleep (n : Nat)
  /-- woken, about to take `wait_mutex_` again -/
  | ready (n : Nat)
  /-- EventHandler.ipp:144 -/
  | waitRet (n : Nat)
  /-- before `event_mutex_`, EventHandler.ipp:52 -/
  | setEvent (c : C)
  /-- before `internal_callback_mutex_`, EventHandler.ipp:57 -/
  | setInternal (c : C)
  /-- EventHandler.ipp:62-63 -/
  | setFlag (c : C)
  /-- EventHandler.ipp:66-67 -/
  | setStore (c : C)
  /-- EventHandler.ipp:70-79 -/
  | setHook
  /-- before `event_mutex_`, EventHandler.ipp:84 -/
  | unsetEvent
  /-- EventHandler.ipp:88 -/
  | unsetTest
  /-- before `internal_callback_mutex_`, EventHandler.ipp:92 -/
  | unsetInternal
  /-- EventHandler.ipp:97-98 -/
  | unsetFlag
  /-- EventHandler.ipp:102-103 -/
  | unsetStore
  /-- EventHandler.ipp:113 -/
  | unsetHook
  /-- EventHandler.ipp:211 -/
  | unsetNotify
  /-- EventHandler.ipp:212-215 -/
  | unsetExit
  /-- EventHandler.ipp:118 -/
  | unsetRelease
  /-- before `internal_callback_mutex_`, EventHandler.ipp:182 -/
  | evInternal (a : A)
  /-- EventHandler.ipp:184-186: the callback is called -/
  | evTest (a : A)
  /-- inside the callback -/
  | evIn (a : A)
  /-- EventHandler.ipp:191-192 -/
  | evCount (a : A)
  /-- EventHandler.ipp:201 -/
  | evNotify
  /-- EventHandler.ipp:202 -/
  | evRelease
  /-- EventHandler.ipp:156-157 -/
  | reset
  /-- EventHandler.ipp:163-167 -/
  | decrement
  /-- EventHandler.ipp:150 -/
  | readCount

variable {C A : Type}

/-- Start of a call. -/
def start : PC C A → Op C A → Option (PC C A)
  | .idle _, .setCallback c => some (.setEvent c)
  | .idle _, .unsetCallback => some .unsetEvent
  | .idle _, .event a => some (.evInternal a)
  | .idle _, .wait n => some (.waitTest n)
  | .idle _, .reset => some .reset
  | .idle _, .decrement => some .decrement
  | .idle _, .eventCount => some .readCount
  | _, _ => none

/-- Predicate of the wait, EventHandler.ipp:136. -/
def awake (s : Sh C A) (n : Nat) : Bool := decide (s.count ≥ n) || !s.set

/-- `++` of an `atomic<uint32_t>`. -/
def bump (n : Nat) : Nat := (n + 1) % 4294967296

/-- Next step of thread `i`. -/
def run (i : Nat) (s : Sh C A) : PC C A → Option (Sh C A × PC C A × Bool)
  | .idle _ => none
  | .asleep _ => none
  | .waitTest n => some (s, if s.set then .waitLock n else .waitRet n, false)
  | .waitLock n =>
    if awake s n then some (s, .waitRet n, false)
    else some ({ s with waiting := s.waiting + 1 }, .asleep n, false)
  | .ready n =>
    if awake s n then some ({ s with waiting := s.waiting - 1 }, .waitRet n, false)
    else some (s, .asleep n, false)
  | .waitRet n => some (s, .idle (.waited (decide (s.count ≥ n))), false)
  | .setEvent c =>
    if s.event.isSome then none else some ({ s with event := some i }, .setInternal c, false)
  | .setInternal c =>
    if s.internal.isSome then none else some ({ s with internal := some i }, .setFlag c, false)
  | .setFlag c => some ({ s with set := true }, .setStore c, false)
  | .setStore c =>
    some ({ s with callback := some c, internal := none, hist := s.hist ++ [(i, .set c)] }, .setHook, false)
  | .setHook => some ({ s with event := none }, .idle .void, false)
  | .unsetEvent =>
    if s.event.isSome then none else some ({ s with event := some i }, .unsetTest, false)
  | .unsetTest =>
    if s.set then some (s, .unsetInternal, false)
    else some ({ s with hist := s.hist ++ [(i, .unset)] }, .unsetRelease, false)
  | .unsetInternal =>
    if s.internal.isSome then none else some ({ s with internal := some i }, .unsetFlag, false)
  | .unsetFlag => some ({ s with set := false, hist := s.hist ++ [(i, .unset)] }, .unsetStore, false)
  | .unsetStore => some ({ s with callback := none, internal := none }, .unsetHook, false)
  | .unsetHook => some (s, .unsetNotify, false)
  | .unsetNotify => some (s, .unsetExit, true)
  | .unsetExit => some (s, if s.waiting = 0 then .unsetRelease else .unsetNotify, false)
  | .unsetRelease => some ({ s with event := none }, .idle .void, false)
  | .evInternal a =>
    if s.internal.isSome then none else some ({ s with internal := some i }, .evTest a, false)
  | .evTest a =>
    if s.set then some ({ s with calls := s.calls ++ [(s.callback, a)] }, .evIn a, false)
    else some ({ s with hist := s.hist ++ [(i, .event a)] }, .evNotify, false)
  | .evIn a => some (s, .evCount a, false)
  | .evCount a =>
    some ({ s with count := bump s.count, hist := s.hist ++ [(i, .event a)] }, .evNotify, false)
  | .evNotify => some (s, .evRelease, true)
  | .evRelease => some ({ s with internal := none }, .idle .void, false)
  | .reset => some ({ s with count := 0, hist := s.hist ++ [(i, .reset)] }, .idle .void, false)
  | .decrement =>
    some ({ s with count := if s.count > 0 then s.count - 1 else s.count,
                   hist := s.hist ++ [(i, .decrement)] }, .idle .void, false)
  | .readCount => some (s, .idle (.count s.count), false)

/-- Where a sleeping thread goes on. -/
def woken : PC C A → Option (PC C A)
  | .asleep n => some (.ready n)
  | _ => none

/-- The program. -/
abbrev prog (C A : Type) : Prog := ⟨Sh C A, PC C A, Op C A, start, run, woken, fun _ => none⟩

/-- A new handler used by `n` threads, EventHandler.ipp:39-46. -/
def init (C A : Type) (n : Nat) : Conf (prog C A) :=
  (prog C A).init ⟨false, none, 0, 0, none, none, [], []⟩ (.idle .void) n

end Verif.EventHandler
