/-!
Callbacks of an `EventHandler` (`cpp_utils/include/cpp_utils/event/impl/EventHandler.ipp`) that use their own handler:
both mutexes are recursive (EventHandler.hpp:202-208), so a callback may set, unset or raise events itself.  What is
modelled is the life of the function objects: `callback_` holds one, which is called in place (EventHandler.ipp:186), and
an assignment to `callback_` (EventHandler.ipp:66, 102) destroys the one it held, also while that one is being executed.

One thread, which executes the calls of a client and the callbacks within (for several threads see
`Verif.Model.EventHandler`, `Verif.Model.Periodic`, `Verif.Model.SignalEvent`).  Simplified: function objects have data of
their own (captured variables) whose use after the destruction is undefined behaviour; what else a callback does is left
out, as are its arguments.
-/
namespace Verif.Reentrant

/-- What a callback, or the client, does: use of a captured variable, `set_callback` of a callback,
`unset_callback`, `simulate_event_occurred`. -/
inductive Act
  | use
  | set (c : Nat)
  | unset
  | fire
deriving DecidableEq

/-- `callback_` (the number of the function object, and which callback it is; `none` is `DEFAULT_CALLBACK_`, exactly while
`is_callback_set_` is not set), EventHandler.hpp:192-200; number of function objects so far; those that have been destroyed;
`number_of_events_registered_`; the calls in progress, innermost first: function object (`none` is the client) and what it
has still to do; whether undefined behaviour has occurred.  Ghosts: what has been done, and which callbacks have been
called. -/
structure State where
  cur : Option (Nat × Nat)
  next : Nat
  dead : List Nat
  count : Nat
  stack : List (Option Nat × List Act)
  ub : Bool
  hist : List Act
  called : List Nat

/-- A new handler, EventHandler.ipp:39-46, and a client that is going to do `client`. -/
def init (client : List Act) : State := ⟨none, 0, [], 0, [(none, client)], false, [], []⟩

/-- Function object that an assignment to `callback_` destroys, EventHandler.ipp:66, 102. -/
def State.old (s : State) : List Nat := (s.cur.map Prod.fst).toList

/-- Performs `a` in function object `f`, whose callers are `fs`; `bodies c` is what callback `c` does. -/
def perform (bodies : Nat → List Act) (s : State) (f : Option Nat) : Act → State
  /- the function object is gone -/
  | .use =>
    match f with
    | none => s
    | some k => if k ∈ s.dead then { s with ub := true } else s
  /- EventHandler.ipp:48-79 -/
  | .set c => { s with cur := some (s.next, c), next := s.next + 1, dead := s.dead ++ s.old }
  /- EventHandler.ipp:81-118 -/
  | .unset => { s with cur := none, dead := s.dead ++ s.old }
  /- EventHandler.ipp:177-186, 195-202 -/
  | .fire =>
    match s.cur with
    | none => s
    | some (k, c) => { s with stack := (some k, bodies c) :: s.stack, called := s.called ++ [c] }

/-- Next step; `none` at the end, or after undefined behaviour.  A callback that returns is counted,
EventHandler.ipp:188-193. -/
def step (bodies : Nat → List Act) (s : State) : Option State :=
  if s.ub then none
  else
    match s.stack with
    | [] => none
    | (none, []) :: _ => none
    | (some _, []) :: fs => some { s with count := (s.count + 1) % 4294967296, stack := fs }
    | (f, a :: rest) :: fs =>
      some (perform bodies { s with stack := (f, rest) :: fs, hist := s.hist ++ [a] } f a)

/-- The state after at most `n` steps, EventHandler.ipp:48-202. -/
def runs (bodies : Nat → List Act) : Nat → State → State
  | 0, s => s
  | n + 1, s =>
    match step bodies s with
    | none => s
    | some s' => runs bodies n s'

end Verif.Reentrant
