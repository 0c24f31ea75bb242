import Verif.Model.Prog
import Verif.Model.Basic
/-!
`StdinEventHandler` (`cpp_utils/src/cpp/event/StdinEventHandler.cpp`) with the parts of `EventHandler`
(`cpp_utils/include/cpp_utils/event/impl/EventHandler.ipp`) it is called through, and `CommandReader`
(`cpp_utils/include/cpp_utils/user_interface/impl/CommandReader.ipp`) on top of it.

Thread 0 is the reading thread, all others are clients; one of them may be the user who types.  Input comes in whole
lines: what keys make of them is `Verif.Model.Editor`, the end of the input is there too.  `activation_times_`
(a `CounterWaitHandler`) and `commands_read_` (a `DBQueueWaitHandler`) are modelled by their effects, each call in one
step: `Verif.Model.Counter` has their threads, with C51, C54, C55 and C57 for what is used here.  `wait_mutex_` of
`EventHandler` is held for single statements only and is not modelled, nor are `wait_for_event` and
`simulate_event_occurred` (`Verif.Model.EventHandler`, `Verif.Model.Periodic`).
-/
namespace Verif.Stdin
open Verif.Threads

/-- What the callback does: nothing with the handler, ask for another line, put the line in the queue of a
`CommandReader` (CommandReader.ipp:90-95), `unset_callback`, `set_callback` of another callback. -/
inductive Callback
  | plain
  | more
  | produce
  | unset
  | change
deriving DecidableEq

/-- Calls of clients, and typing a line.  The destructor, StdinEventHandler.cpp:205-208, is `unset`. -/
inductive Op
  | set
  | unset
  /-- `read_one_more_line`, StdinEventHandler.cpp:210-213 -/
  | more
  /-- `CommandReader::read_next_command`, CommandReader.ipp:40-52 -/
  | next
  | type (t : Str)
deriving DecidableEq

/-- `stdin_listener_thread_`: not joinable; started, but not yet running; running; the routine has returned. -/
inductive Thread
  | none
  | spawned
  | running
  | ended
deriving DecidableEq

/-- Places in the code. -/
inductive PC
  /-- client outside any call -/
  | idle
  /-- EventHandler.ipp:52 -/
  | setLock
  /-- EventHandler.ipp:57 -/
  | setInternal
  /-- EventHandler.ipp:59-66 -/
  | setFlag
  /-- EventHandler.ipp:67-78, with `was_callback_set_before` -/
  | setRel (was : Bool)
  /-- StdinEventHandler.cpp:574 -/
  | setStart
  /-- StdinEventHandler.cpp:575 -/
  | setSpawn
  /-- EventHandler.ipp:79 -/
  | setOut
  /-- EventHandler.ipp:84 -/
  | unsetLock
  /-- EventHandler.ipp:88 -/
  | unsetTest
  /-- EventHandler.ipp:92 -/
  | unsetInternal
  /-- EventHandler.ipp:94-102 -/
  | unsetFlag
  /-- EventHandler.ipp:103 -/
  | unsetRel
  /-- StdinEventHandler.cpp:580 -/
  | unsetStop
  /-- StdinEventHandler.cpp:581 -/
  | unsetJoin
  /-- EventHandler.ipp:118 -/
  | unsetOut
  /-- StdinEventHandler.cpp:212 -/
  | more
  /-- CommandReader.ipp:44 -/
  | nextMore
  /-- CommandReader.ipp:45 -/
  | nextTake
  /-- the user has typed a line up to Enter -/
  | typing (t : Str)
  /-- the reading thread does not exist, or does not run yet, or has ended -/
  | off
  /-- `wait_and_decrement`, StdinEventHandler.cpp:272-273, 566 -/
  | wait
  /-- in `getchar`, StdinEventHandler.cpp:280-562 -/
  | read
  /-- a line has been read; StdinEventHandler.cpp:518, EventHandler.ipp:182 -/
  | evLock (t : Str)
  /-- EventHandler.ipp:184 -/
  | evTest (t : Str)
  /-- the callback is called, EventHandler.ipp:186 -/
  | evCall (t : Str)
  /-- the callback calls `read_one_more_line`, StdinEventHandler.cpp:212 -/
  | cbMore
  /-- the callback calls `set_callback` or `unset_callback`: EventHandler.ipp:52, 84 -/
  | cbLock
  /-- EventHandler.ipp:57-67, 88-103 (`internal_callback_mutex_` is recursive and is the caller's already) -/
  | cbFlag
  /-- StdinEventHandler.cpp:580 -/
  | cbStop
  /-- StdinEventHandler.cpp:581, by the thread that is joined -/
  | cbJoin
  /-- EventHandler.ipp:79, and the end of the callback -/
  | cbOut
  /-- EventHandler.ipp:201-202 -/
  | evRel
  /-- the routine returns, StdinEventHandler.cpp:570 -/
  | finish
  /-- `std::terminate` -/
  | dead
deriving DecidableEq

/-- `is_callback_set_`; owners of `event_mutex_` and `internal_callback_mutex_` (EventHandler.hpp:202-208); whether
`activation_times_` is enabled, and its value; `stdin_listener_thread_` (StdinEventHandler.hpp:146-149); lines typed and
not read; `commands_read_` (CommandReader.hpp:113).
Ghosts: `lines_to_read`; number of calls of `read_one_more_line`; lines asked for of which the reading has begun; all
lines typed; the lines read, in order, with whether the callback was called; the lines taken from `commands_read_`, with
the client; whether the process has ended. -/
structure Sh where
  set : Bool
  event : Option Nat
  internal : Option Nat
  enabled : Bool
  count : Int
  thread : Thread
  input : List Str
  queue : List Str
  lines : Int
  asked : Nat
  taken : Nat
  typed : List Str
  log : List (Str × Bool)
  results : List (Nat × Str)
  crashed : Bool

/-- A client starts a call. -/
def start : PC → Op → Option PC
  | .idle, .set => some .setLock
  | .idle, .unset => some .unsetLock
  | .idle, .more => some .more
  | .idle, .next => some .nextMore
  | .idle, .type t => some (.typing t)
  | _, _ => none

/-- Next step of thread `i` when callbacks do `c`, see `PC`. -/
def run (c : Callback) (i : Nat) (s : Sh) : PC → Option (Sh × PC × Bool)
  | .idle | .dead => none
  | .setLock => if s.event.isSome then none else some ({ s with event := some i }, .setInternal, false)
  | .setInternal => if s.internal.isSome then none else some ({ s with internal := some i }, .setFlag, false)
  | .setFlag => some ({ s with set := true }, .setRel s.set, false)
  | .setRel was => some ({ s with internal := none }, if was then .setOut else .setStart, false)
  | .setStart => some ({ s with enabled := true }, .setSpawn, false)
  | .setSpawn =>
    some ({ s with thread := .spawned, crashed := s.crashed || decide (s.thread ≠ .none) }, .setOut, false)
  | .setOut => some ({ s with event := none }, .idle, false)
  | .unsetLock => if s.event.isSome then none else some ({ s with event := some i }, .unsetTest, false)
  | .unsetTest => some (s, if s.set then .unsetInternal else .unsetOut, false)
  | .unsetInternal => if s.internal.isSome then none else some ({ s with internal := some i }, .unsetFlag, false)
  | .unsetFlag => some ({ s with set := false }, .unsetRel, false)
  | .unsetRel => some ({ s with internal := none }, .unsetStop, false)
  | .unsetStop => some ({ s with enabled := false }, .unsetJoin, false)
  | .unsetJoin => if s.thread = .ended then some ({ s with thread := .none }, .unsetOut, false) else none
  | .unsetOut => some ({ s with event := none }, .idle, false)
  | .more => some ({ s with count := s.count + 1, asked := s.asked + 1 }, .idle, false)
  | .nextMore => some ({ s with count := s.count + 1, asked := s.asked + 1 }, .nextTake, false)
  | .nextTake =>
    match s.queue with
    | [] => none
    | t :: rest => some ({ s with queue := rest, results := s.results ++ [(i, t)] }, .idle, false)
  | .typing t => some ({ s with input := s.input ++ [t], typed := s.typed ++ [t] }, .idle, false)
  | .off => if s.thread = .spawned then some ({ s with thread := .running }, .wait, false) else none
  | .wait =>
    if s.enabled then
      if 0 < s.count then some ({ s with count := s.count - 1, taken := s.taken + 1 }, .read, false) else none
    else some (s, .finish, false)
  | .read =>
    match s.input with
    | [] => none
    | t :: rest => some ({ s with input := rest }, .evLock t, false)
  | .evLock t => if s.internal.isSome then none else some ({ s with internal := some i }, .evTest t, false)
  | .evTest t =>
    if s.set then some (s, .evCall t, false) else some ({ s with log := s.log ++ [(t, false)] }, .evRel, false)
  | .evCall t =>
    match c with
    | .plain => some ({ s with log := s.log ++ [(t, true)] }, .evRel, false)
    | .more => some ({ s with log := s.log ++ [(t, true)] }, .cbMore, false)
    | .produce => some ({ s with log := s.log ++ [(t, true)], queue := s.queue ++ [t] }, .evRel, false)
    | _ => some ({ s with log := s.log ++ [(t, true)] }, .cbLock, false)
  | .cbMore => some ({ s with count := s.count + 1, asked := s.asked + 1 }, .evRel, false)
  | .cbLock => if s.event.isSome then none else some ({ s with event := some i }, .cbFlag, false)
  | .cbFlag =>
    match c with
    | .unset => some ({ s with set := false }, .cbStop, false)
    | _ => some (s, .cbOut, false)
  | .cbStop => some ({ s with enabled := false }, .cbJoin, false)
  | .cbJoin => some ({ s with crashed := true }, .dead, false)
  | .cbOut => some ({ s with event := none }, .evRel, false)
  | .evRel => some ({ s with internal := none }, .wait, false)
  | .finish => some ({ s with thread := .ended }, .off, false)

/-- The program. -/
abbrev prog (c : Callback) : Prog := ⟨Sh, PC, Op, start, run c, fun _ => none, fun _ => none⟩

/-- A new handler before the constructor sets the callback (StdinEventHandler.cpp:193-203), and `n` clients, the
constructing one among them. -/
def init (c : Callback) (lines : Int) (n : Nat) : Conf (prog c) :=
  ⟨⟨false, none, none, false, lines, .none, [], [], lines, 0, 0, [], [], [], false⟩, .off :: List.replicate n .idle⟩

end Verif.Stdin
