import Verif.Model.Basic
/-!
What an event handler does, one call after the other.
-/
namespace Verif.Spec.EventHandler

/-- Calls that have an effect, and events. -/
inductive Call (C A : Type)
  | set (c : C)
  | unset
  | event (a : A)
  | reset
  | decrement
deriving DecidableEq

/-- The callback set last and not unset since, the number of events, and the calls of callbacks. -/
structure State (C A : Type) where
  callback : Option C := none
  count : Nat := 0
  calls : List (C × A) := []

/-- Effect of a call: the callback set is called once for each event, events without a callback do
nothing. -/
def step {C A : Type} (s : State C A) : Call C A → State C A
  | .set c => { s with callback := some c }
  | .unset => { s with callback := none }
  | .event a =>
    match s.callback with
    | some c => { s with count := s.count + 1, calls := s.calls ++ [(c, a)] }
    | none => s
  | .reset => { s with count := 0 }
  | .decrement => { s with count := s.count - 1 }

/-- Effect of a history. -/
def run {C A : Type} (h : List (Call C A)) : State C A := h.foldl step {}

end Verif.Spec.EventHandler
