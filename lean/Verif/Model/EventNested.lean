import Verif.Model.Prog
/-!
`EventHandler<Args...>` (`cpp_utils/include/cpp_utils/event/impl/EventHandler.ipp`) used by several threads, with callbacks
that call their own handler.  As in `Verif.Model.EventHandler`, but the place of a thread is a stack of calls, and the two
mutexes are recursive (EventHandler.hpp:202-208).  `wait_mutex_` is not part of the state: each of its critical sections
is one step.  The hooks of derived classes do nothing, EventHandler.ipp:219-235.  What a callback does with its captured
variables is left out (see `Verif.Model.Reentrant`), as are the values that calls return.
-/
namespace Verif.EventNested
open Verif.Threads

/-- Members, EventHandler.hpp:192-240; a recursive mutex is its owner and how often it is locked. -/
structure Sh (C : Type) where
  set : Bool
  callback : Option C
  count : Nat
  waiting : Nat
  event : Option (Nat × Nat)
  internal : Option (Nat × Nat)

/-- Public calls, and `event_occurred_`, which is what `simulate_event_occurred` calls, EventHandler.ipp:48-175. -/
inductive Op (C A : Type)
  | setCallback (c : C)
  | unsetCallback
  | event (a : A)
  | wait (n : Nat)
  | reset
  | decrement
  | eventCount

/-- Where a call is. -/
inductive Fr (C A : Type)
  /-- EventHandler.ipp:124 -/
  | waitTest (n : Nat)
  /-- before `wait_mutex_`, EventHandler.ipp:126 -/
  | waitLock (n : Nat)
  /-- asleep in `wait`, EventHandler.ipp:130-137 -/
  | asleep (n : Nat)
  /-- woken, about to take `wait_mutex_` again -/
  | ready (n : Nat)
  /-- EventHandler.ipp:144 -/
  | waitRet (n : Nat)
  /-- before `event_mutex_`, EventHandler.ipp:52 -/
  | setEvent (c : C)
  /-- before `internal_callback_mutex_`, EventHandler.ipp:57 -/
  | setInternal (c : C)
  /-- EventHandler.ipp:62-63 -/
  | setFlag (c : C)
  /-- EventHandler.ipp:66-67 -/
  | setStore (c : C)
  /-- EventHandler.ipp:70-79 -/
  | setHook
  /-- before `event_mutex_`, EventHandler.ipp:84 -/
  | unsetEvent
  /-- EventHandler.ipp:88 -/
  | unsetTest
  /-- before `internal_callback_mutex_`, EventHandler.ipp:92 -/
  | unsetInternal
  /-- EventHandler.ipp:97-98 -/
  | unsetFlag
  /-- EventHandler.ipp:102-103 -/
  | unsetStore
  /-- EventHandler.ipp:113, 211 -/
  | unsetNotify
  /-- EventHandler.ipp:212-215 -/
  | unsetExit
  /-- EventHandler.ipp:118 -/
  | unsetRelease
  /-- before `internal_callback_mutex_`, EventHandler.ipp:182 -/
  | evInternal (a : A)
  /-- EventHandler.ipp:184-186: the callback is called -/
  | evTest (a : A)
  /-- inside the callback, which has still to do `rest`, EventHandler.ipp:186 -/
  | evIn (rest : List (Op C A))
  /-- EventHandler.ipp:191-192 -/
  | evCount
  /-- EventHandler.ipp:201 -/
  | evNotify
  /-- EventHandler.ipp:202 -/
  | evRelease
  /-- EventHandler.ipp:156-157 -/
  | reset
  /-- EventHandler.ipp:163-167 -/
  | decrement
  /-- EventHandler.ipp:150 -/
  | readCount

variable {C A : Type}

/-- First place of a call, EventHandler.ipp:48-182. -/
def enter : Op C A → Fr C A
  | .setCallback c => .setEvent c
  | .unsetCallback => .unsetEvent
  | .event a => .evInternal a
  | .wait n => .waitTest n
  | .reset => .reset
  | .decrement => .decrement
  | .eventCount => .readCount

/-- A client starts a call on a thread that is outside any call, EventHandler.ipp:48-175. -/
def start : List (Fr C A) → Op C A → Option (List (Fr C A))
  | [], op => some [enter op]
  | _ :: _, _ => none

/-- `lock` of a `recursive_mutex` by thread `i`; `none`: blocked. -/
def take (i : Nat) : Option (Nat × Nat) → Option (Option (Nat × Nat))
  | none => some (some (i, 1))
  | some (j, d) => if j = i then some (some (i, d + 1)) else none

/-- `unlock` of a `recursive_mutex`. -/
def release : Option (Nat × Nat) → Option (Nat × Nat)
  | some (j, d) => if d ≤ 1 then none else some (j, d - 1)
  | none => none

/-- Predicate of the wait, EventHandler.ipp:136. -/
def awake (s : Sh C) (n : Nat) : Bool := decide (s.count ≥ n) || !s.set

/-- What the function in `callback_` does when called with `a`, EventHandler.ipp:186; `DEFAULT_CALLBACK_`, which aborts
(EventHandler.ipp:30-37), is not called while the handler is used as here, see `C46_nested`. -/
def calls (body : C → A → List (Op C A)) (s : Sh C) (a : A) : List (Op C A) :=
  match s.callback with
  | some c => body c a
  | none => []

/-- Next step of the innermost call of thread `i`: the calls that take its place, and whether it notifies;
`body c a` is what callback `c` does when called with `a`. -/
def next (body : C → A → List (Op C A)) (i : Nat) (s : Sh C) : Fr C A → Option (Sh C × List (Fr C A) × Bool)
  | .asleep _ => none
  | .waitTest n => some (s, if s.set then [.waitLock n] else [.waitRet n], false)
  | .waitLock n =>
    if awake s n then some (s, [.waitRet n], false)
    else some ({ s with waiting := s.waiting + 1 }, [.asleep n], false)
  | .ready n =>
    if awake s n then some ({ s with waiting := s.waiting - 1 }, [.waitRet n], false)
    else some (s, [.asleep n], false)
  | .waitRet _ => some (s, [], false)
  | .setEvent c => (take i s.event).map fun m => ({ s with event := m }, [.setInternal c], false)
  | .setInternal c => (take i s.internal).map fun m => ({ s with internal := m }, [.setFlag c], false)
  | .setFlag c => some ({ s with set := true }, [.setStore c], false)
  | .setStore c => some ({ s with callback := some c, internal := release s.internal }, [.setHook], false)
  | .setHook => some ({ s with event := release s.event }, [], false)
  | .unsetEvent => (take i s.event).map fun m => ({ s with event := m }, [.unsetTest], false)
  | .unsetTest => some (s, if s.set then [.unsetInternal] else [.unsetRelease], false)
  | .unsetInternal => (take i s.internal).map fun m => ({ s with internal := m }, [.unsetFlag], false)
  | .unsetFlag => some ({ s with set := false }, [.unsetStore], false)
  | .unsetStore => some ({ s with callback := none, internal := release s.internal }, [.unsetNotify], false)
  | .unsetNotify => some (s, [.unsetExit], true)
  | .unsetExit => some (s, if s.waiting = 0 then [.unsetRelease] else [.unsetNotify], false)
  | .unsetRelease => some ({ s with event := release s.event }, [], false)
  | .evInternal a => (take i s.internal).map fun m => ({ s with internal := m }, [.evTest a], false)
  | .evTest a => some (s, if s.set then [.evIn (calls body s a)] else [.evNotify], false)
  | .evIn [] => some (s, [.evCount], false)
  | .evIn (op :: rest) => some (s, [enter op, .evIn rest], false)
  | .evCount => some ({ s with count := (s.count + 1) % 4294967296 }, [.evNotify], false)
  | .evNotify => some (s, [.evRelease], true)
  | .evRelease => some ({ s with internal := release s.internal }, [], false)
  | .reset => some ({ s with count := 0 }, [], false)
  | .decrement => some ({ s with count := if s.count > 0 then s.count - 1 else s.count }, [], false)
  | .readCount => some (s, [], false)

/-- Next step of thread `i`, EventHandler.ipp:48-217. -/
def run (body : C → A → List (Op C A)) (i : Nat) (s : Sh C) :
    List (Fr C A) → Option (Sh C × List (Fr C A) × Bool)
  | [] => none
  | f :: fs => (next body i s f).map fun r => (r.1, r.2.1 ++ fs, r.2.2)

/-- Where a sleeping thread goes on, EventHandler.ipp:130-137. -/
def woken : List (Fr C A) → Option (List (Fr C A))
  | .asleep n :: fs => some (.ready n :: fs)
  | _ => none

/-- The program, EventHandler.ipp:48-217. -/
abbrev prog (body : C → A → List (Op C A)) : Prog :=
  ⟨Sh C, List (Fr C A), Op C A, start, run body, woken, fun _ => none⟩

/-- A new handler used by `n` threads, EventHandler.ipp:39-46. -/
def init (body : C → A → List (Op C A)) (n : Nat) : Conf (prog body) :=
  (prog body).init ⟨false, none, 0, 0, none, none⟩ [] n

end Verif.EventNested
