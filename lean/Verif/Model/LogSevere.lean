import Verif.Model.LogConfig
/-!
`LogEventHandler`, `LogSevereEventHandler` (`cpp_utils/src/cpp/event/logging/`) and `LogChecker`
(`cpp_utils/src/cpp/testing/LogChecker.cpp`), with the log of Fast DDS that feeds them.

The log is external; assumed of it: an entry is queued if its kind passes the verbosity at the moment it is logged
(the macros; those of this library are in `Verif.Model.LogMacros`), a thread of the log hands queued entries in order to all consumers registered at that
moment, and `Flush` returns when the queue is empty.  Categories and filters are not modelled.  The steps of
constructors are separate events, since other threads may log between them.
-/
namespace Verif.LogSevere
open Verif.LogConfig (Kind)

/-- `a` is at least as severe as `b`: `a <= b` in the enumeration. -/
def atLeast (a b : Kind) : Bool := decide (a.toNat ≤ b.toNat)

/-- A `LogEventHandler`.  `threshold` is `none` while the object is (only) a `LogEventHandler`, so that virtual calls
reach `LogEventHandler::consume_`; `set` and `count` are those of `EventHandler` (EventHandler.ipp:177-202, unset
and reset are not modelled here), `consumed` is `entries_consumed_`, `alive` whether `connection_callback_` is still
owned. -/
structure Handler where
  threshold : Option Kind
  set : Bool
  count : Nat
  consumed : List Kind
  alive : Bool
deriving DecidableEq

/-- The log and all handlers made so far. -/
structure State where
  verbosity : Kind
  queue : List Kind
  handlers : List Handler
deriving DecidableEq

/-- `consume_`, LogSevereEventHandler.cpp:39-46, LogEventHandler.cpp:57-66, called through
LogConsumerConnection.cpp:36-48. -/
def consume (k : Kind) (h : Handler) : Handler :=
  if h.alive = false then h
  else
    match h.threshold with
    | some t =>
      if atLeast k t then
        { h with consumed := h.consumed ++ [k], count := if h.set then (h.count + 1) % 4294967296 else h.count }
      else h
    | none => { h with consumed := h.consumed ++ [k], count := if h.set then (h.count + 1) % 4294967296 else h.count }

/-- What happens. -/
inductive Event
  /-- constructor of `LogEventHandler`, LogEventHandler.cpp:30-42 -/
  | register
  /-- `set_callback`, LogEventHandler.cpp:44-50 -/
  | enable (h : Nat)
  /-- `threshold_(threshold)`, LogSevereEventHandler.cpp:26-30 -/
  | construct (h : Nat) (t : Kind)
  /-- LogSevereEventHandler.cpp:32-36 -/
  | raise (t : Kind)
  /-- destructor of a handler -/
  | destroy (h : Nat)
  /-- `Log::SetVerbosity` called by someone -/
  | setVerbosity (k : Kind)
  /-- an entry of this kind is logged -/
  | log (k : Kind)
  /-- the thread of the log takes the next entry -/
  | deliver
deriving DecidableEq

/-- The thread of the log handles one entry. -/
def deliver (s : State) : State :=
  match s.queue with
  | [] => s
  | k :: q => { s with queue := q, handlers := s.handlers.map (consume k) }

/-- Effect of an event, see `Event`. -/
def step (s : State) : Event → State
  | .register => { s with handlers := s.handlers ++ [⟨none, false, 0, [], true⟩] }
  | .enable h => { s with handlers := s.handlers.modify h fun x => { x with set := true } }
  | .construct h t => { s with handlers := s.handlers.modify h fun x => { x with threshold := some t } }
  | .raise t => if t.toNat > Kind.error.toNat then { s with verbosity := t } else s
  | .destroy h => { s with handlers := s.handlers.modify h fun x => { x with alive := false } }
  | .setVerbosity k => { s with verbosity := k }
  | .log k => if atLeast k s.verbosity then { s with queue := s.queue ++ [k] } else s
  | .deliver => deliver s

/-- A history. -/
def run (s : State) (es : List Event) : State := es.foldl step s

/-- `Log::Flush`. -/
def flush (s : State) : State := s.queue.foldl (fun s _ => deliver s) s

/-- Constructor of `LogSevereEventHandler`, LogSevereEventHandler.cpp:26-37; `n` handlers exist. -/
def create (n : Nat) (t : Kind) : List Event := [.register, .enable n, .construct n t, .raise t]

/-- `LogChecker::check_valid` after the flush, LogChecker.cpp:26-46, given the event count. -/
def checkValid (expected max count : Nat) : Bool :=
  decide (count ≥ expected) && decide (count ≤ Nat.max max expected)

end Verif.LogSevere
