import Verif.Spec.EventHandler
/-!
`MultipleEventHandler` (`cpp_utils/include/cpp_utils/event/impl/MultipleEventHandler.ipp`,
`cpp_utils/src/cpp/event/MultipleEventHandler.cpp`): an event handler that is triggered by the handlers inside it.

One call after the other: events hold the mutex `internal_callback_mutex_` of the child and then of the parent, so
those of one child, and the effects on the parent, are ordered; `Model/EventHandler.lean` has the interleavings of one
handler.  Registering handlers from several threads at once is not protected by the code and not modelled.
-/
namespace Verif.MultipleEvent

/-- A handler inside: whether it has a callback (`is_callback_set_`), whether that callback calls the parent, and its
own count. -/
structure Child where
  set : Bool
  redirected : Bool
  count : Nat

/-- The handler: callback, count and calls made (EventHandler.hpp:192-240), and the handlers inside. -/
structure State (C : Type) where
  callback : Option C
  count : Nat
  calls : List C
  children : List Child

variable {C : Type}

/-- `event_occurred_` of the parent, EventHandler.ipp:177-202. -/
def occurred (s : State C) : State C :=
  match s.callback with
  | some c => { s with calls := s.calls ++ [c], count := (s.count + 1) % 4294967296 }
  | none => s

/-- Calls. -/
inductive Op (C : Type)
  /-- `register_event_handler`, of a handler in this state, MultipleEventHandler.ipp:28-43 -/
  | register (c : Child)
  /-- an event of the handler registered at this position -/
  | child (i : Nat)
  /-- `simulate_event_occurred` of the parent -/
  | event
  | setCallback (c : C)
  | unsetCallback
  | reset
  | decrement

/-- Effect of a call. -/
def step (s : State C) : Op C → State C
  | .register c => { s with children := s.children ++ [{ c with set := true, redirected := true }] }
  | .child i =>
    match s.children[i]? with
    | none => s
    | some c =>
      if c.set then
        let s' := if c.redirected then occurred s else s
        { s' with children := s'.children.set i { c with count := (c.count + 1) % 4294967296 } }
      else s
  | .event => occurred s
  | .setCallback c => { s with callback := some c }
  | .unsetCallback => { s with callback := none }
  | .reset => { s with count := 0 }
  | .decrement => { s with count := s.count - 1 }

/-- A handler made with callback `c`, MultipleEventHandler.cpp:26-41. -/
def init (c : C) : State C := ⟨some c, 0, [], []⟩

/-- A history. -/
def run (s : State C) (h : List (Op C)) : State C := h.foldl step s

end Verif.MultipleEvent
