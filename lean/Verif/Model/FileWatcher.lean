import Verif.Model.Prog
import Verif.Model.FileWatch
/-!
`FileWatcherHandler` (`cpp_utils/src/cpp/event/FileWatcherHandler.cpp`) with the parts of `EventHandler`
(`cpp_utils/include/cpp_utils/event/impl/EventHandler.ipp`) it is called through and the object
`filewatch::FileWatch<std::string>` (`thirdparty/filewatch/FileWatch.hpp`, the branch for `__unix__`) it owns.

Thread 0 is `_watch_thread` and thread 1 `_callback_thread` of the `FileWatch` object, if there is one; all others are
clients.  What happens in the file system is done by clients, too.  Simplified: `wait_mutex_` of `EventHandler` is held only for
single statements here and is not modelled, nor is `wait_for_event` (`Model/EventHandler.lean` has both); `read` of the
`inotify` descriptor only fails by blocking; the queue of the kernel does not overflow.
-/
namespace Verif.FileWatcher
open Verif.Threads
open Verif.FileWatch

/-- What the callback does with its own handler: nothing, `unset_callback`, `set_callback` of another callback. -/
inductive Callback
  | plain
  | unset
  | change
deriving DecidableEq

/-- What is fixed: the callback, what is watched, and how many events of a queue fit into the buffer. -/
structure Cfg where
  callback : Callback
  filter : Filter
  fit : List Ev → Nat

/-- Calls of clients.  The destructor, FileWatcherHandler.cpp:50-53, is `unset`. -/
inductive Op
  | set
  | unset
  /-- `simulate_event_occurred`, EventHandler.ipp:170-175 -/
  | event
  /-- something happens to a file in the watched directory -/
  | change (e : Ev)
  /-- from now on the path can be watched, or not -/
  | path (ok : Bool)
  /-- the watched directory is deleted -/
  | gone
deriving DecidableEq

/-- A `std::thread`: not joinable; started, but not yet running; running; the routine has returned. -/
inductive Thread
  | none
  | spawned
  | running
  | ended
deriving DecidableEq

/-- Places in the code. -/
inductive PC
  /-- client outside any call -/
  | idle
  /-- something happens to a file -/
  | fsChange (e : Ev)
  | fsPath (ok : Bool)
  | fsGone
  /-- EventHandler.ipp:52 -/
  | setLock
  /-- EventHandler.ipp:57 -/
  | setInternal
  /-- EventHandler.ipp:59-66 -/
  | setFlag
  /-- EventHandler.ipp:67-78, with `was_callback_set_before` -/
  | setRel (was : Bool)
  /-- FileWatcherHandler.cpp:98 -/
  | setHook
  /-- FileWatcherHandler.cpp:61, FileWatch.hpp:90-101, 219-261 -/
  | setMake
  /-- FileWatch.hpp:264 -/
  | setWait
  /-- FileWatcherHandler.cpp:83 -/
  | setStarted
  /-- EventHandler.ipp:79 -/
  | setOut
  /-- EventHandler.ipp:84 -/
  | unsetLock
  /-- EventHandler.ipp:88 -/
  | unsetTest
  /-- EventHandler.ipp:92 -/
  | unsetInternal
  /-- EventHandler.ipp:94-102 -/
  | unsetFlag
  /-- EventHandler.ipp:103 -/
  | unsetRel
  /-- FileWatcherHandler.cpp:106, and 90 -/
  | unsetHook
  /-- FileWatch.hpp:269 -/
  | dFlag
  /-- FileWatch.hpp:274 -/
  | dRemove
  /-- FileWatch.hpp:276 -/
  | dNotify
  /-- FileWatch.hpp:277 -/
  | dJoinW
  /-- FileWatch.hpp:278-283 -/
  | dJoinC
  /-- FileWatcherHandler.cpp:91 -/
  | unsetStopped
  /-- EventHandler.ipp:118 -/
  | unsetOut
  /-- `event_occurred_`, EventHandler.ipp:182, called by thread 1 (`true`) or a client -/
  | evLock (t : Bool)
  /-- EventHandler.ipp:184 -/
  | evTest (t : Bool)
  /-- inside the callback and the counting after it, EventHandler.ipp:186-193 -/
  | evCall (t : Bool)
  /-- EventHandler.ipp:201-202 -/
  | evRel (t : Bool)
  /-- thread 0 does not exist, or does not run yet, or has ended -/
  | wOff
  /-- FileWatch.hpp:555 -/
  | wRun
  /-- FileWatch.hpp:556 -/
  | wLoop
  /-- FileWatch.hpp:558-586 -/
  | wRead
  /-- FileWatch.hpp:589-592 -/
  | wPush
  /-- FileWatch.hpp:593 -/
  | wNotify
  /-- the routine returns, FileWatch.hpp:596 -/
  | wEnd
  /-- thread 1 does not exist, or does not run yet, or has ended -/
  | cOff
  /-- FileWatch.hpp:602 -/
  | cLoop
  /-- FileWatch.hpp:604 -/
  | cLock
  /-- FileWatch.hpp:605 -/
  | cIf
  /-- predicate of the wait, FileWatch.hpp:609 -/
  | cPred
  /-- about to sleep, inside `wait`, FileWatch.hpp:607 -/
  | cSleep
  | asleep
  /-- woken, without the mutex yet -/
  | cAgain
  /-- FileWatch.hpp:612-614 -/
  | cSwap
  /-- FileWatch.hpp:616-622, FileWatcherHandler.cpp:64-75 -/
  | cNext
  /-- the routine returns, FileWatch.hpp:630 -/
  | cEnd
  /-- the callback calls `set_callback` or `unset_callback`: EventHandler.ipp:52, 84 -/
  | cbLock (t : Bool)
  /-- EventHandler.ipp:57-67, 88-103 (`internal_callback_mutex_` is recursive and is the caller's already) -/
  | cbFlag (t : Bool)
  /-- FileWatch.hpp:269 -/
  | cbDestroy (t : Bool)
  /-- FileWatch.hpp:274 -/
  | cbRemove (t : Bool)
  /-- FileWatch.hpp:276 -/
  | cbNotify (t : Bool)
  /-- FileWatch.hpp:277 -/
  | cbJoinW (t : Bool)
  /-- FileWatch.hpp:278 -/
  | cbJoinC (t : Bool)
  /-- FileWatcherHandler.cpp:91, EventHandler.ipp:79, 118, and the end of the callback -/
  | cbOut (t : Bool)
deriving DecidableEq

/-- `is_callback_set_`; owners of `event_mutex_` and `internal_callback_mutex_` (EventHandler.hpp:202-208);
`filewatcher_started_` and whether `file_watch_handler_` holds an object (FileWatcherHandler.hpp:102-105); of that object
(FileWatch.hpp:171-183) `_destory`, whether `_running` is set, the owner of `_callback_mutex`, `_callback_information`,
the two threads and their local variables `parsed_information` and `callback_information` (from the file it is at);
of the kernel: whether the path can be watched, whether the watch exists, and the queue of `inotify`; ghosts: the events the
kernel has queued for this object, the paths this object has raised an event for, those for which the callback was called, and whether
an exception left a destructor (which ends the process). -/
structure Sh where
  set : Bool
  event : Option Nat
  internal : Option Nat
  started : Bool
  present : Bool
  destroy : Bool
  running : Bool
  cbm : Option Nat
  info : List (Str × Change)
  wt : Thread
  ct : Thread
  parsed : List (Str × Change)
  batch : List (Str × Change)
  path : Bool
  watch : Bool
  queue : List Ev
  fed : List Ev
  tried : List Str
  called : List Str
  dead : Bool

/-- The event with which the kernel says that a watch has been removed (`IN_IGNORED`). -/
def ignored : Ev := ⟨none, false, false, false⟩

/-- The kernel queues an event if there is a watch. -/
def Sh.feed (s : Sh) (e : Ev) : Sh :=
  if s.watch then { s with queue := s.queue ++ [e], fed := s.fed ++ [e] } else s

/-- The watch is removed: by `inotify_rm_watch`, or because the directory is deleted. -/
def Sh.unwatch (s : Sh) : Sh := { s.feed ignored with watch := false }

/-- A new `FileWatch` object with its threads, FileWatch.hpp:90-101, 219-261. -/
def Sh.make (s : Sh) : Sh :=
  { s with present := true, destroy := false, running := false, info := [], wt := .spawned, ct := .spawned,
           parsed := [], batch := [], watch := true, queue := [], fed := [], tried := [], called := [] }

/-- Thread 1 has raised the event for the first file of its list. -/
def Sh.next (s : Sh) (t : Bool) : Sh :=
  if t then { s with tried := s.tried ++ (s.batch.take 1).map Prod.fst, batch := s.batch.drop 1 } else s

/-- The callback was called. -/
def Sh.call (s : Sh) (t : Bool) : Sh :=
  if t then { s with called := s.called ++ (s.batch.take 1).map Prod.fst } else s

/-- A client starts a call, or something happens to a file. -/
def start : PC → Op → Option PC
  | .idle, .set => some .setLock
  | .idle, .unset => some .unsetLock
  | .idle, .event => some (.evLock false)
  | .idle, .change e => some (.fsChange e)
  | .idle, .path ok => some (.fsPath ok)
  | .idle, .gone => some .fsGone
  | _, _ => none

/-- Next step of thread `i`, see `PC`. -/
def run (c : Cfg) (i : Nat) (s : Sh) : PC → Option (Sh × PC × Bool)
  | .idle | .asleep => none
  | .fsChange e => some (s.feed e, .idle, false)
  | .fsPath ok => some ({ s with path := ok }, .idle, false)
  | .fsGone => some ({ s.unwatch with path := false }, .idle, false)
  | .setLock => if s.event.isSome then none else some ({ s with event := some i }, .setInternal, false)
  | .setInternal => if s.internal.isSome then none else some ({ s with internal := some i }, .setFlag, false)
  | .setFlag => some ({ s with set := true }, .setRel s.set, false)
  | .setRel was => some ({ s with internal := none }, if was then .setOut else .setHook, false)
  | .setHook => some (s, if s.started then .setOut else .setMake, false)
  | .setMake => if s.path then some (s.make, .setWait, false) else some (s, .setStarted, false)
  | .setWait => if s.running then some (s, .setStarted, false) else none
  | .setStarted => some ({ s with started := true }, .setOut, false)
  | .setOut => some ({ s with event := none }, .idle, false)
  | .unsetLock => if s.event.isSome then none else some ({ s with event := some i }, .unsetTest, false)
  | .unsetTest => some (s, if s.set then .unsetInternal else .unsetOut, false)
  | .unsetInternal => if s.internal.isSome then none else some ({ s with internal := some i }, .unsetFlag, false)
  | .unsetFlag => some ({ s with set := false }, .unsetRel, false)
  | .unsetRel => some ({ s with internal := none }, .unsetHook, false)
  | .unsetHook => some (s, if s.started then (if s.present then .dFlag else .unsetStopped) else .unsetOut, false)
  | .dFlag => some ({ s with destroy := true }, .dRemove, false)
  | .dRemove => some (s.unwatch, .dNotify, false)
  | .dNotify => some (s, .dJoinW, true)
  | .dJoinW => if s.wt = .ended then some ({ s with wt := .none }, .dJoinC, false) else none
  | .dJoinC => if s.ct = .ended then some ({ s with ct := .none, present := false }, .unsetStopped, false) else none
  | .unsetStopped => some ({ s with started := false }, .unsetOut, false)
  | .unsetOut => some ({ s with event := none }, .idle, false)
  | .evLock t => if s.internal.isSome then none else some ({ s with internal := some i }, .evTest t, false)
  | .evTest t => if s.set then some (s, .evCall t, false) else some (s.next t, .evRel t, false)
  | .evCall t =>
    match c.callback with
    | .plain => some ((s.call t).next t, .evRel t, false)
    | _ => some (s, .cbLock t, false)
  | .evRel t => some ({ s with internal := none }, if t then .cNext else .idle, false)
  | .wOff => if s.wt = .spawned then some ({ s with wt := .running }, .wRun, false) else none
  | .wRun => some ({ s with running := true }, .wLoop, false)
  | .wLoop => some (s, if s.destroy then .wEnd else .wRead, false)
  | .wRead =>
    if s.queue = [] then none
    else
      let k := max 1 (c.fit s.queue)
      some ({ s with parsed := notes c.filter (s.queue.take k), queue := s.queue.drop k }, .wPush, false)
  | .wPush =>
    if s.cbm.isSome then none else some ({ s with info := s.info ++ s.parsed, parsed := [] }, .wNotify, false)
  | .wNotify => some (s, .wLoop, true)
  | .wEnd => some ({ s with wt := .ended }, .wOff, false)
  | .cOff => if s.ct = .spawned then some ({ s with ct := .running }, .cLoop, false) else none
  | .cLoop => some (s, if s.destroy then .cEnd else .cLock, false)
  | .cLock => if s.cbm.isSome then none else some ({ s with cbm := some i }, .cIf, false)
  | .cIf => some (s, if s.info = [] ∧ s.destroy = false then .cPred else .cSwap, false)
  | .cPred => some (s, if s.info ≠ [] ∨ s.destroy = true then .cSwap else .cSleep, false)
  | .cSleep => some ({ s with cbm := none }, .asleep, false)
  | .cAgain => if s.cbm.isSome then none else some ({ s with cbm := some i }, .cPred, false)
  | .cSwap => some ({ s with batch := s.info, info := [], cbm := none }, .cNext, false)
  | .cNext =>
    match s.batch with
    | [] => some (s, .cLoop, false)
    | (_, .modified) :: _ => some (s, .evLock true, false)
    | _ :: rest => some ({ s with batch := rest }, .cNext, false)
  | .cEnd => some ({ s with ct := .ended }, .cOff, false)
  | .cbLock t =>
    if c.callback = .plain then none
    else if s.event.isSome then none else some ({ s with event := some i }, .cbFlag t, false)
  | .cbFlag t =>
    match c.callback with
    | .plain => none
    | .unset =>
      some ({ s with set := false }, if s.set && s.started && s.present then .cbDestroy t else .cbOut t, false)
    | .change => some (s, .cbOut t, false)
  | .cbDestroy t => if c.callback ≠ .unset then none else some ({ s with destroy := true }, .cbRemove t, false)
  | .cbRemove t => if c.callback ≠ .unset then none else some (s.unwatch, .cbNotify t, false)
  | .cbNotify t => if c.callback ≠ .unset then none else some (s, .cbJoinW t, true)
  | .cbJoinW t =>
    if c.callback ≠ .unset then none
    else if s.wt = .ended then some ({ s with wt := .none }, .cbJoinC t, false) else none
  | .cbJoinC t =>
    if c.callback ≠ .unset then none
    else if i = 1 then some ({ s with dead := true }, .cbOut t, false)
    else if s.ct = .ended then some ({ s with ct := .none, present := false, started := false }, .cbOut t, false)
    else none
  | .cbOut t =>
    if c.callback = .plain then none
    else some ({ (s.call t).next t with event := none }, .evRel t, false)

/-- Waking thread 1. -/
def woken : PC → Option PC
  | .asleep => some .cAgain
  | _ => none

/-- The program. -/
abbrev prog (c : Cfg) : Prog := ⟨Sh, PC, Op, start, run c, woken, fun _ => none⟩

/-- A new handler without callback, and `n` clients, FileWatcherHandler.cpp:31-40; `path`: whether the path can be watched. -/
def init (c : Cfg) (path : Bool) (n : Nat) : Conf (prog c) :=
  ⟨⟨false, none, none, false, false, false, false, none, [], .none, .none, [], [], path, false, [], [], [], [], false⟩,
    .wOff :: .cOff :: List.replicate n .idle⟩

end Verif.FileWatcher
