import Verif.Model.Prog
/-!
Destruction of a `LogEventHandler` (`cpp_utils/src/cpp/event/logging/LogEventHandler.cpp`) while the log hands entries
to its `LogConsumerConnection` (`LogConsumerConnection.cpp`).

The owner/lessee pair is reduced to its shared mutex and to whether the data is alive (`Model/OwnerPtr.lean` has
all of it).  `unset_callback` in the destructor waits only for a running event and is one step here; a handler in use
is not destroyed twice (the second destructor does not start).
-/
namespace Verif.LogDestroy
open Verif.Threads

/-- Calls: the log consumes an entry (LogConsumerConnection.cpp:36-48); the destructor, LogEventHandler.cpp:52-55. -/
inductive Op
  | consume
  | destroy
deriving DecidableEq

/-- Places in the code. -/
inductive PC
  | idle
  /-- `callback_.lock()`: before the shared lock, LogConsumerConnection.cpp:40 -/
  | lock
  /-- `if (callback_persistent)`, LogConsumerConnection.cpp:42 -/
  | check
  /-- LogEventHandler.cpp:60-63: `entries_consumed_` is used -/
  | push
  /-- LogEventHandler.cpp:65: members of `EventHandler` are used -/
  | event
  /-- destructor of `callback_persistent`, LogConsumerConnection.cpp:48 -/
  | unlock
  /-- `unset_callback`, LogEventHandler.cpp:54 -/
  | unset
  /-- members are destroyed in the inverse order of declaration (LogEventHandler.hpp:87-100): first
  `entries_consumed_` -/
  | dropEntries
  /-- then `connection_callback_`: `OwnerPtr` waits for the guards, InternalPtrData.ipp:46-50 -/
  | dropWait
  /-- and the data is gone -/
  | dropConnection
  /-- the members of `EventHandler` -/
  | dropBase
deriving DecidableEq

/-- Whether `entries_consumed_`, the callback shared with the connection, and the members of `EventHandler` exist;
the threads that hold the shared lock; whether the exclusive lock is held; the thread that executes (or has executed) the destructor. -/
structure Sh where
  entries : Bool
  connection : Bool
  base : Bool
  readers : List Nat
  writer : Bool
  destroying : Option Nat

/-- A call starts. -/
def start : PC → Op → Option PC
  | .idle, .consume => some .lock
  | .idle, .destroy => some .unset
  | _, _ => none

/-- Next step of thread `i`, see `PC`. -/
def run (i : Nat) (s : Sh) : PC → Option (Sh × PC × Bool)
  | .idle => none
  | .lock => if s.writer then none else some ({ s with readers := i :: s.readers }, .check, false)
  | .check => if s.connection then some (s, .push, false) else some (s, .unlock, false)
  | .push => some (s, .event, false)
  | .event => some (s, .unlock, false)
  | .unlock => some ({ s with readers := s.readers.erase i }, .idle, false)
  | .unset => if s.destroying.isSome then none else some ({ s with destroying := some i }, .dropEntries, false)
  | .dropEntries => some ({ s with entries := false }, .dropWait, false)
  | .dropWait =>
    if s.writer = false ∧ s.readers = [] then some ({ s with writer := true }, .dropConnection, false) else none
  | .dropConnection => some ({ s with connection := false, writer := false }, .dropBase, false)
  | .dropBase => some ({ s with base := false }, .idle, false)

/-- The program. -/
abbrev prog : Prog := ⟨Sh, PC, Op, start, run, fun _ => none, fun _ => none⟩

/-- A handler in use and `n` threads. -/
def init (n : Nat) : Conf prog := prog.init ⟨true, true, true, [], false, none⟩ .idle n

end Verif.LogDestroy
