import Verif.Model.DBQueue
/-!
`ConsumerWaitHandler` over `DBQueueWaitHandler` (`cpp_utils/include/cpp_utils/wait/impl/`) when copying or moving a value
throws, called by any number of threads.

The calls are cut where they hold no mutex, and the pieces of different calls may be mixed in any order.  The body of
`get_next_value_` is one piece: `pop_queue_mutex_` excludes other calls of it, and `push`, which can happen in between, only
touches the background queue, which `get_next_value_` touches only in `swap`.  Waiting, timeouts and `disable` are left out:
a call that ends with `TimeoutException` or `DisabledException` changes nothing (ConsumerWaitHandler.ipp:66-73).  The
initial value of the counter is 0 (for others see C58).
-/
namespace Verif.ConsumerThrow
open Verif.DBQueue

/-- `queue_` and `value_`; the calls of `produce` between their two lines and of `consume` between the wait and
`get_next_value_`.  Not in the code: the values whose `add_value_` ended, the values returned, in order, and the number of
calls of `consume` that ended with the exception of a copy. -/
structure State (T : Type) where
  queue : Queue T := {}
  count : Nat := 0
  adding : Nat := 0
  taking : Nat := 0
  produced : List T := []
  returned : List T := []
  failed : Nat := 0

/-- Pieces of calls. -/
inductive Piece (T : Type)
  /-- `add_value_`, ConsumerWaitHandler.ipp:47 and 55, DBQueueWaitHandler.ipp:26-40 -/
  | add (v : T)
  /-- `add_value_` throws: the call ends -/
  | addThrows (v : T)
  /-- `operator ++`, ConsumerWaitHandler.ipp:48 and 56, CounterWaitHandler.cpp:121-139 -/
  | increment
  /-- `wait_and_decrement` that ends with `condition_met`, ConsumerWaitHandler.ipp:63, CounterWaitHandler.cpp:41-63; the
  threshold is 0 (ConsumerWaitHandler.ipp:32) -/
  | decrement
  /-- `get_next_value_`, DBQueueWaitHandler.ipp:42-66 -/
  | take
  /-- `get_next_value_` whose copy of the front throws (62) -/
  | takeThrows

variable {T : Type}

/-- The queue after DBQueueWaitHandler.ipp:48-53. -/
def ready (q : Queue T) : Queue T := if empty q then swap q else q

/-- One piece; `none`: it cannot happen in this state (no call is there, or `InconsistencyException`, which
`C187_consistent` excludes). -/
def next (s : State T) : Piece T → Option (State T)
  | .add v => some { s with queue := push s.queue v, adding := s.adding + 1, produced := s.produced ++ [v] }
  | .addThrows _ => some s
  | .increment =>
    if s.adding = 0 then none else some { s with adding := s.adding - 1, count := s.count + 1 }
  | .decrement =>
    if s.count = 0 then none else some { s with count := s.count - 1, taking := s.taking + 1 }
  | .take =>
    if s.taking = 0 then none
    else
      match (ready s.queue).fg with
      | [] => none
      | v :: l => some { s with queue := ⟨l, (ready s.queue).bg⟩, taking := s.taking - 1, returned := s.returned ++ [v] }
  | .takeThrows =>
    if s.taking = 0 then none
    else
      match (ready s.queue).fg with
      | [] => none
      | _ :: _ => some { s with queue := ready s.queue, taking := s.taking - 1, failed := s.failed + 1 }

/-- Pieces one after the other. -/
def run (s : State T) : List (Piece T) → Option (State T)
  | [] => some s
  | p :: ps => (next s p).bind fun s' => run s' ps

end Verif.ConsumerThrow
