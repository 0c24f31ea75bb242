import Verif.Model.Prog
import Verif.Model.StdMap
/-!
`SignalEventHandler<SigVal>` (`cpp_utils/include/cpp_utils/event/impl/SignalEventHandler.ipp`) objects, with the parts of
`EventHandler` (`cpp_utils/include/cpp_utils/event/impl/EventHandler.ipp`) and `SignalManager`
(`cpp_utils/include/cpp_utils/event/impl/SignalManager.ipp`) they are called through.

There is one manager and any number of handlers, which are numbers.  Thread 0 is the manager's thread, all others are
clients.  Simplified: the manager is not destroyed (it is a static object), so only its thread uses
`signal_received_cv_mutex_` over several steps and the mutex is not modelled; `wait_mutex_` is held only for single statements
here, and `wait_for_event` is left out (`Model/EventHandler.lean` has both).
-/
namespace Verif.SignalEvent
open Verif.Threads

/-- What a callback does with its own handler: nothing, `unset_callback`, `set_callback` of another callback. -/
inductive Callback
  | plain
  | unset
  | change
deriving DecidableEq

/-- Calls, and the arrival of a signal.  The destructor, SignalEventHandler.ipp:52-57, is `unset`, and the constructor,
SignalEventHandler.ipp:42-50, is `set`. -/
inductive Op
  | signal
  | set (h : Nat)
  | unset (h : Nat)
  /-- `simulate_event_occurred`, EventHandler.ipp:170-175 -/
  | event (h : Nat)
deriving DecidableEq

/-- A handler: `is_callback_set_`; `callback_set_in_manager_` and `callback_id_` (SignalEventHandler.hpp:104-107); owners of
`event_mutex_` and `internal_callback_mutex_` (EventHandler.hpp:202-208); ghost: calls of the callback so far. -/
structure H where
  set : Bool
  inMgr : Bool
  id : Nat
  event : Option Nat
  internal : Option Nat
  calls : Nat

/-- Members of the manager, SignalManager.hpp:159-204: `signals_received_`, the owner of `active_callbacks_mutex_`,
`active_callbacks_` (for each id the handler whose `signal_received_callback_` is bound), `current_last_id_`; the handlers;
ghosts: registrations so far, and whether an exception left a `noexcept` function (which ends the process). -/
structure Sh where
  received : Nat
  cb : Option Nat
  callbacks : List (Nat × Nat)
  lastId : Nat
  hs : Nat → H
  regs : Nat
  dead : Bool

/-- The pairs of `active_callbacks_` the manager's thread still has to call after the current one; `none` in a client. -/
abbrev Rest := Option (List (Nat × Nat))

/-- Places in the code. -/
inductive PC
  /-- client outside any call -/
  | idle
  /-- SignalManager.ipp:135 -/
  | sigInc
  /-- SignalManager.ipp:136 -/
  | sigNotify
  /-- EventHandler.ipp:52 -/
  | setLock (h : Nat)
  /-- EventHandler.ipp:57 -/
  | setInternal (h : Nat)
  /-- EventHandler.ipp:59-66 -/
  | setFlag (h : Nat)
  /-- EventHandler.ipp:67-78, with `was_callback_set_before` -/
  | setRel (h : Nat) (was : Bool)
  /-- SignalEventHandler.ipp:62 -/
  | setMgr (h : Nat)
  /-- SignalEventHandler.ipp:64-66, SignalManager.ipp:83-91 -/
  | setReg (h : Nat)
  /-- EventHandler.ipp:79 -/
  | setOut (h : Nat)
  /-- EventHandler.ipp:84 -/
  | unsetLock (h : Nat)
  /-- EventHandler.ipp:88 -/
  | unsetTest (h : Nat)
  /-- EventHandler.ipp:92 -/
  | unsetInternal (h : Nat)
  /-- EventHandler.ipp:94-102 -/
  | unsetFlag (h : Nat)
  /-- EventHandler.ipp:103 -/
  | unsetRel (h : Nat)
  /-- SignalEventHandler.ipp:73 -/
  | unsetMgr (h : Nat)
  /-- SignalEventHandler.ipp:75, SignalManager.ipp:98-103 -/
  | unsetReg (h : Nat)
  /-- EventHandler.ipp:118 -/
  | unsetOut (h : Nat)
  /-- EventHandler.ipp:182 -/
  | evLock (h : Nat) (k : Rest)
  /-- EventHandler.ipp:184 -/
  | evTest (h : Nat) (k : Rest)
  /-- inside the callback and the counting after it, EventHandler.ipp:186-193 -/
  | evCall (h : Nat) (k : Rest)
  /-- EventHandler.ipp:201-202 -/
  | evRel (h : Nat) (k : Rest)
  /-- predicate of the wait, SignalManager.ipp:163-164, 171 -/
  | hTest
  /-- about to sleep, inside `wait`, SignalManager.ipp:159 -/
  | hSleep
  | asleep
  /-- SignalManager.ipp:173 -/
  | hDec
  /-- SignalManager.ipp:142 -/
  | hCb
  /-- SignalManager.ipp:147-151, the callbacks still to be called -/
  | hCall (rest : List (Nat × Nat))
  /-- the callback calls `set_callback` or `unset_callback`: EventHandler.ipp:52, 84 -/
  | cbLock (h : Nat) (k : Rest)
  /-- EventHandler.ipp:57-67, 88-103 (`internal_callback_mutex_` is recursive and is the caller's already) -/
  | cbFlag (h : Nat) (k : Rest)
  /-- SignalEventHandler.ipp:73 -/
  | cbMgr (h : Nat) (k : Rest)
  /-- SignalEventHandler.ipp:75 -/
  | cbReg (h : Nat) (k : Rest)
  /-- EventHandler.ipp:79, 118, and the end of the callback -/
  | cbOut (h : Nat) (k : Rest)
deriving DecidableEq

/-- Start of a call, or of a signal handler. -/
def start : PC → Op → Option PC
  | .idle, .signal => some .sigInc
  | .idle, .set h => some (.setLock h)
  | .idle, .unset h => some (.unsetLock h)
  | .idle, .event h => some (.evLock h none)
  | _, _ => none

/-- `++` of a `uint32_t`. -/
def bump (n : Nat) : Nat := (n + 1) % 4294967296

/-- `--` of a `uint32_t`. -/
def drop (n : Nat) : Nat := (n + 4294967295) % 4294967296

/-- Changes handler `h`. -/
def Sh.put (s : Sh) (h : Nat) (x : H) : Sh := { s with hs := fun j => if j = h then x else s.hs j }

/-- `register_callback`, SignalManager.ipp:79-92, and the store of the id, SignalEventHandler.ipp:64. -/
def register (s : Sh) (h : Nat) : Sh :=
  { s.put h { s.hs h with id := bump s.lastId } with
    callbacks := StdMap.put (bump s.lastId) h s.callbacks, lastId := bump s.lastId, regs := s.regs + 1 }

/-- `unregister_callback`, SignalManager.ipp:94-107, called from a `noexcept` function. -/
def unregister (s : Sh) (h : Nat) : Sh :=
  if (StdMap.get (s.hs h).id s.callbacks).isSome then { s with callbacks := StdMap.del (s.hs h).id s.callbacks }
  else { s with dead := true }

/-- Where a thread goes on after `event_occurred_`. -/
def after : Rest → PC
  | none => .idle
  | some rest => .hCall rest

/-- Next step of thread `i` when callbacks do `c`, see `PC`. -/
def run (c : Callback) (i : Nat) (s : Sh) : PC → Option (Sh × PC × Bool)
  | .idle | .asleep => none
  | .sigInc => some ({ s with received := bump s.received }, .sigNotify, false)
  | .sigNotify => some (s, .idle, true)
  | .setLock h =>
    if (s.hs h).event.isSome then none
    else some (s.put h { s.hs h with event := some i }, .setInternal h, false)
  | .setInternal h =>
    if (s.hs h).internal.isSome then none
    else some (s.put h { s.hs h with internal := some i }, .setFlag h, false)
  | .setFlag h => some (s.put h { s.hs h with set := true }, .setRel h (s.hs h).set, false)
  | .setRel h was => some (s.put h { s.hs h with internal := none }, if was then .setOut h else .setMgr h, false)
  | .setMgr h => some (s.put h { s.hs h with inMgr := true }, if (s.hs h).inMgr then .setOut h else .setReg h, false)
  | .setReg h => if s.cb.isSome then none else some (register s h, .setOut h, false)
  | .setOut h => some (s.put h { s.hs h with event := none }, .idle, false)
  | .unsetLock h =>
    if (s.hs h).event.isSome then none
    else some (s.put h { s.hs h with event := some i }, .unsetTest h, false)
  | .unsetTest h => some (s, if (s.hs h).set then .unsetInternal h else .unsetOut h, false)
  | .unsetInternal h =>
    if (s.hs h).internal.isSome then none
    else some (s.put h { s.hs h with internal := some i }, .unsetFlag h, false)
  | .unsetFlag h => some (s.put h { s.hs h with set := false }, .unsetRel h, false)
  | .unsetRel h => some (s.put h { s.hs h with internal := none }, .unsetMgr h, false)
  | .unsetMgr h =>
    some (s.put h { s.hs h with inMgr := false }, if (s.hs h).inMgr then .unsetReg h else .unsetOut h, false)
  | .unsetReg h => if s.cb.isSome then none else some (unregister s h, .unsetOut h, false)
  | .unsetOut h => some (s.put h { s.hs h with event := none }, .idle, false)
  | .evLock h k =>
    if (s.hs h).internal.isSome then none
    else some (s.put h { s.hs h with internal := some i }, .evTest h k, false)
  | .evTest h k => some (s, if (s.hs h).set then .evCall h k else .evRel h k, false)
  | .evCall h k =>
    match c with
    | .plain => some (s.put h { s.hs h with calls := (s.hs h).calls + 1 }, .evRel h k, false)
    | _ => some (s, .cbLock h k, false)
  | .evRel h k => some (s.put h { s.hs h with internal := none }, after k, false)
  | .hTest => some (s, if s.received > 0 then .hDec else .hSleep, false)
  | .hSleep => some (s, .asleep, false)
  | .hDec => some ({ s with received := drop s.received }, .hCb, false)
  | .hCb => if s.cb.isSome then none else some ({ s with cb := some i }, .hCall s.callbacks, false)
  | .hCall [] => some ({ s with cb := none }, .hTest, false)
  | .hCall (p :: rest) => some (s, .evLock p.2 (some rest), false)
  | .cbLock h k =>
    if c = .plain then none
    else if (s.hs h).event.isSome then none
    else some (s.put h { s.hs h with event := some i }, .cbFlag h k, false)
  | .cbFlag h k =>
    match c with
    | .plain => none
    | .unset => some (s.put h { s.hs h with set := false }, .cbMgr h k, false)
    | .change => some (s, .cbOut h k, false)
  | .cbMgr h k =>
    if c ≠ .unset then none
    else some (s.put h { s.hs h with inMgr := false }, if (s.hs h).inMgr then .cbReg h k else .cbOut h k, false)
  | .cbReg h k =>
    if c ≠ .unset then none else if s.cb.isSome then none else some (unregister s h, .cbOut h k, false)
  | .cbOut h k =>
    if c = .plain then none
    else some (s.put h { s.hs h with event := none, calls := (s.hs h).calls + 1 }, .evRel h k, false)

/-- Waking the manager's thread. -/
def woken : PC → Option PC
  | .asleep => some .hTest
  | _ => none

/-- The program. -/
abbrev prog (c : Callback) : Prog := ⟨Sh, PC, Op, start, run c, woken, fun _ => none⟩

/-- A handler whose constructor has not run yet. -/
def H.new : H := ⟨false, false, 0, none, none, 0⟩

/-- A new manager with its thread, handlers, and `n` clients, SignalManager.ipp:38-62. -/
def init (c : Callback) (n : Nat) : Conf (prog c) :=
  ⟨⟨0, none, [], 0, fun _ => .new, 0, false⟩, .hTest :: List.replicate n .idle⟩

end Verif.SignalEvent
