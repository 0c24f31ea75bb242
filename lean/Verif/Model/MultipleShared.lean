import Verif.Model.Prog
/-!
`MultipleEventHandler` (`cpp_utils/src/cpp/event/MultipleEventHandler.cpp`,
`cpp_utils/include/cpp_utils/event/impl/MultipleEventHandler.ipp`) with the handlers registered in it, used by several
threads: events of the handlers inside, each of which calls `event_occurred_` of the outer one
(`cpp_utils/include/cpp_utils/event/impl/EventHandler.ipp`), calls of the outer one by clients, and its destruction.

The handlers inside are numbers.  What their classes have in common is kept: an event is raised by a thread of the source
of the handler; the destructor clears the callback (EventHandler.ipp:81-118) and, in `callback_unset_nts_`, stops the
source and waits until no thread of it is within an event (PeriodicEventHandler.cpp:102-129, FileWatcherHandler.cpp:88-110,
SignalEventHandler.ipp:70-77, StdinEventHandler.cpp:578-582; how each does is the subject of their own models).
`LogEventHandler` does not stop its source there, see `Verif.Model.LogDestroy`, and is not one of these handlers.

Simplified: all handlers are registered at the beginning; the callback and the counting after it are one step, as are the
lock, store and release of a flag by the destructor of a handler inside; `event_mutex_` of the handlers inside is used
by that destructor only and left out; `wait_for_event` is left out (see C47 and C171).
-/
namespace Verif.MultipleShared
open Verif.Threads

/-- A handler inside: `is_callback_set_`; whether its source has been told to stop; owner of `internal_callback_mutex_`
(EventHandler.hpp:192-208); threads of the source within an event; `number_of_events_registered_`. -/
structure Ch where
  set : Bool
  stopped : Bool
  internal : Option Nat
  busy : Nat
  count : Nat

/-- Number of handlers registered (`handlers_registered_`, MultipleEventHandler.hpp:103), the handlers inside, and of the
outer one: `is_callback_set_`, owners of `event_mutex_` and `internal_callback_mutex_`,
`number_of_events_registered_` (EventHandler.hpp:192-240).  Ghosts: calls of its callback so far, and events (of handlers
inside, or simulated) that have ended. -/
structure Sh where
  kids : Nat
  ch : Nat → Ch
  set : Bool
  event : Option Nat
  internal : Option Nat
  count : Nat
  calls : Nat
  ended : Nat

/-- What threads do: an event of a handler inside; `simulate_event_occurred`, `set_callback`, `unset_callback` and
destruction of the outer one. -/
inductive Op
  | child (i : Nat)
  | event
  | set
  | unset
  | destroy
deriving DecidableEq

/-- Places in the code.  Where an event of the outer handler goes on is an argument: `some i` within an event of handler
`i`, `none` in `simulate_event_occurred`.  Where `unset_callback` does: `true` within the destructor. -/
inductive PC
  | idle
  /-- the source of handler `i` is about to raise an event, if it has not been stopped -/
  | cEnter (i : Nat)
  /-- EventHandler.ipp:182, of handler `i` -/
  | cLock (i : Nat)
  /-- EventHandler.ipp:184, of handler `i` -/
  | cTest (i : Nat)
  /-- EventHandler.ipp:188-193, of handler `i` -/
  | cCount (i : Nat)
  /-- EventHandler.ipp:201-202, of handler `i` -/
  | cRel (i : Nat)
  /-- MultipleEventHandler.ipp:37, EventHandler.ipp:182 -/
  | pLock (k : Option Nat)
  /-- EventHandler.ipp:184 -/
  | pTest (k : Option Nat)
  /-- EventHandler.ipp:186-193 -/
  | pCall (k : Option Nat)
  /-- EventHandler.ipp:201-202 -/
  | pRel (k : Option Nat)
  /-- EventHandler.ipp:52 -/
  | sEvent
  /-- EventHandler.ipp:57 -/
  | sInternal
  /-- EventHandler.ipp:59-66 -/
  | sFlag
  /-- EventHandler.ipp:67 -/
  | sRel
  /-- EventHandler.ipp:79 -/
  | sOut
  /-- EventHandler.ipp:84 -/
  | uEvent (d : Bool)
  /-- EventHandler.ipp:88 -/
  | uTest (d : Bool)
  /-- EventHandler.ipp:92 -/
  | uInternal (d : Bool)
  /-- EventHandler.ipp:94-102 -/
  | uFlag (d : Bool)
  /-- EventHandler.ipp:103 -/
  | uRel (d : Bool)
  /-- EventHandler.ipp:118 -/
  | uOut (d : Bool)
  /-- MultipleEventHandler.cpp:47-50: before the handlers from number `k` on have been destroyed -/
  | dNext (k : Nat)
  /-- MultipleEventHandler.cpp:49, EventHandler.ipp:92-103 of handler `k` -/
  | dLock (k : Nat)
  /-- EventHandler.ipp:113 of handler `k`: its source is stopped -/
  | dStop (k : Nat)
  /-- EventHandler.ipp:113 of handler `k`: its source is waited for -/
  | dJoin (k : Nat)
  /-- the destructor has returned -/
  | gone
deriving DecidableEq

/-- Start of a call, or of an event. -/
def start : PC → Op → Option PC
  | .idle, .child i => some (.cEnter i)
  | .idle, .event => some (.pLock none)
  | .idle, .set => some .sEvent
  | .idle, .unset => some (.uEvent false)
  | .idle, .destroy => some (.dNext 0)
  | _, _ => none

/-- `++` of a `uint32_t`, EventHandler.ipp:192. -/
def bump (n : Nat) : Nat := (n + 1) % 4294967296

/-- Changes handler `i`. -/
def Sh.put (s : Sh) (i : Nat) (x : Ch) : Sh := { s with ch := fun j => if j = i then x else s.ch j }

/-- Next step of thread `t`, see `PC`. -/
def run (t : Nat) (s : Sh) : PC → Option (Sh × PC × Bool)
  | .idle | .gone => none
  | .cEnter i =>
    if i < s.kids ∧ (s.ch i).stopped = false then
      some (s.put i { s.ch i with busy := (s.ch i).busy + 1 }, .cLock i, false)
    else some (s, .idle, false)
  | .cLock i =>
    if (s.ch i).internal.isSome then none
    else some (s.put i { s.ch i with internal := some t }, .cTest i, false)
  | .cTest i => some (s, if (s.ch i).set then .pLock (some i) else .cRel i, false)
  | .cCount i =>
    some ({ s.put i { s.ch i with count := bump (s.ch i).count } with ended := s.ended + 1 }, .cRel i, false)
  | .cRel i => some (s.put i { s.ch i with internal := none, busy := (s.ch i).busy - 1 }, .idle, false)
  | .pLock k => if s.internal.isSome then none else some ({ s with internal := some t }, .pTest k, false)
  | .pTest k => some (s, if s.set then .pCall k else .pRel k, false)
  | .pCall k => some ({ s with calls := s.calls + 1, count := bump s.count }, .pRel k, false)
  | .pRel (some i) => some ({ s with internal := none }, .cCount i, false)
  | .pRel none => some ({ s with internal := none, ended := s.ended + 1 }, .idle, false)
  | .sEvent => if s.event.isSome then none else some ({ s with event := some t }, .sInternal, false)
  | .sInternal => if s.internal.isSome then none else some ({ s with internal := some t }, .sFlag, false)
  | .sFlag => some ({ s with set := true }, .sRel, false)
  | .sRel => some ({ s with internal := none }, .sOut, false)
  | .sOut => some ({ s with event := none }, .idle, false)
  | .uEvent d => if s.event.isSome then none else some ({ s with event := some t }, .uTest d, false)
  | .uTest d => some (s, if s.set then .uInternal d else .uOut d, false)
  | .uInternal d => if s.internal.isSome then none else some ({ s with internal := some t }, .uFlag d, false)
  | .uFlag d => some ({ s with set := false }, .uRel d, false)
  | .uRel d => some ({ s with internal := none }, .uOut d, false)
  | .uOut d => some ({ s with event := none }, if d then .gone else .idle, false)
  | .dNext k => some (s, if k < s.kids then .dLock k else .uEvent true, false)
  | .dLock k =>
    if (s.ch k).internal.isSome then none else some (s.put k { s.ch k with set := false }, .dStop k, false)
  | .dStop k => some (s.put k { s.ch k with stopped := true }, .dJoin k, false)
  | .dJoin k => if (s.ch k).busy = 0 then some (s, .dNext (k + 1), false) else none

/-- The program. -/
abbrev prog : Prog := ⟨Sh, PC, Op, start, run, fun _ => none, fun _ => none⟩

/-- `kids` handlers have been registered, MultipleEventHandler.ipp:28-43; the constructors set a callback,
MultipleEventHandler.cpp:26-42. -/
def init (kids n : Nat) : Conf prog :=
  prog.init ⟨kids, fun _ => ⟨true, false, none, 0, 0⟩, true, none, none, 0, 0, 0⟩ .idle n

end Verif.MultipleShared
