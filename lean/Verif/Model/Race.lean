import Verif.Model.Basic
/-!
Data races.  The other models of concurrent code let what is done under a mutex be one step; that is right only
if whatever it touches is not touched without that mutex.  Here calls are cut into single accesses: each mutex
operation and each access to a member that is neither atomic nor constant is a step, and nothing is assumed about
which thread holds what.

Simplified: which branch is taken, and how often a loop runs, is left open (every branch and every number of
rounds is an execution), so that there are more executions than those of the code; atomic members, condition
variables and logging are left out; a wait on a condition variable releases the mutex and takes it again, any
number of times; constructors and destructors do not run at the same time as other calls.
-/
namespace Verif.Race

/-- A mutex is held alone or, if it is a `std::shared_timed_mutex`, together with others. -/
inductive Mode
  | excl
  | shared
deriving DecidableEq

/-- What a call does, seen from outside.  `M` are mutexes, `V` members, `S` is the part of the object that decides
which member a pointer leads to. -/
inductive Cmd (M V S : Type)
  | skip
  | lock (m : M)
  | unlock (m : M)
  | lockShared (m : M)
  | unlockShared (m : M)
  /-- a member is read -/
  | read (l : S → V)
  /-- a member is written, after which pointers may lead elsewhere -/
  | write (l : S → V) (e : S → S)
  | seq (a b : Cmd M V S)
  /-- one or the other -/
  | alt (a b : Cmd M V S)
  /-- any number of times -/
  | loop (a : Cmd M V S)
  /-- a callback of the client: any number of calls of the same object, one after the other -/
  | client

/-- One after the other. -/
def seqs {M V S : Type} : List (Cmd M V S) → Cmd M V S
  | [] => .skip
  | [a] => a
  | a :: b => .seq a (seqs b)

/-- An object: the calls threads may make, and which of its mutexes may be taken again by the thread that holds
them. -/
structure Obj (M V S : Type) where
  calls : List (Cmd M V S)
  recursive : M → Bool

/-- A thread: the mutexes it holds and what it has still to do. -/
structure Thread (M V S : Type) where
  held : List (M × Mode)
  todo : List (Cmd M V S)

/-- A moment: the threads, as many as wanted, and where pointers lead. -/
structure State (M V S : Type) where
  data : S
  th : Nat → Thread M V S

variable {M V S : Type}

/-- Thread `i` becomes `t`. -/
def State.set (s : State M V S) (i : Nat) (t : Thread M V S) : State M V S :=
  { s with th := fun j => if j = i then t else s.th j }

/-- No other thread than `i` holds `m`. -/
def State.FreeFor (s : State M V S) (i : Nat) (m : M) : Prop :=
  ∀ j, j ≠ i → ∀ k, (m, k) ∉ (s.th j).held

/-- No other thread than `i` holds `m` alone. -/
def State.FreeForShared (s : State M V S) (i : Nat) (m : M) : Prop :=
  ∀ j, j ≠ i → (m, .excl) ∉ (s.th j).held

/-- Steps of thread `i`. -/
inductive Step [DecidableEq M] (o : Obj M V S) (s : State M V S) : State M V S → Prop
  /-- an idle thread makes a call -/
  | start (i : Nat) (c : Cmd M V S) (hc : c ∈ o.calls) (h : (s.th i).todo = []) :
      Step o s (s.set i ⟨(s.th i).held, [c]⟩)
  | skip (i : Nat) (k : List (Cmd M V S)) (h : (s.th i).todo = .skip :: k) :
      Step o s (s.set i ⟨(s.th i).held, k⟩)
  | lock (i : Nat) (m : M) (k : List (Cmd M V S)) (h : (s.th i).todo = .lock m :: k) (hf : s.FreeFor i m)
      (hr : o.recursive m = true ∨ ∀ x, (m, x) ∉ (s.th i).held) :
      Step o s (s.set i ⟨(m, .excl) :: (s.th i).held, k⟩)
  | unlock (i : Nat) (m : M) (k : List (Cmd M V S)) (h : (s.th i).todo = .unlock m :: k) :
      Step o s (s.set i ⟨(s.th i).held.erase (m, .excl), k⟩)
  | lockShared (i : Nat) (m : M) (k : List (Cmd M V S)) (h : (s.th i).todo = .lockShared m :: k)
      (hf : s.FreeForShared i m) (hr : (m, Mode.excl) ∉ (s.th i).held) :
      Step o s (s.set i ⟨(m, .shared) :: (s.th i).held, k⟩)
  | unlockShared (i : Nat) (m : M) (k : List (Cmd M V S)) (h : (s.th i).todo = .unlockShared m :: k) :
      Step o s (s.set i ⟨(s.th i).held.erase (m, .shared), k⟩)
  | read (i : Nat) (l : S → V) (k : List (Cmd M V S)) (h : (s.th i).todo = .read l :: k) :
      Step o s (s.set i ⟨(s.th i).held, k⟩)
  | write (i : Nat) (l : S → V) (e : S → S) (k : List (Cmd M V S)) (h : (s.th i).todo = .write l e :: k) :
      Step o s { s.set i ⟨(s.th i).held, k⟩ with data := e s.data }
  | seq (i : Nat) (a b : Cmd M V S) (k : List (Cmd M V S)) (h : (s.th i).todo = .seq a b :: k) :
      Step o s (s.set i ⟨(s.th i).held, a :: b :: k⟩)
  | left (i : Nat) (a b : Cmd M V S) (k : List (Cmd M V S)) (h : (s.th i).todo = .alt a b :: k) :
      Step o s (s.set i ⟨(s.th i).held, a :: k⟩)
  | right (i : Nat) (a b : Cmd M V S) (k : List (Cmd M V S)) (h : (s.th i).todo = .alt a b :: k) :
      Step o s (s.set i ⟨(s.th i).held, b :: k⟩)
  | again (i : Nat) (a : Cmd M V S) (k : List (Cmd M V S)) (h : (s.th i).todo = .loop a :: k) :
      Step o s (s.set i ⟨(s.th i).held, a :: .loop a :: k⟩)
  | done (i : Nat) (a : Cmd M V S) (k : List (Cmd M V S)) (h : (s.th i).todo = .loop a :: k) :
      Step o s (s.set i ⟨(s.th i).held, k⟩)
  | call (i : Nat) (c : Cmd M V S) (k : List (Cmd M V S)) (hc : c ∈ o.calls)
      (h : (s.th i).todo = .client :: k) : Step o s (s.set i ⟨(s.th i).held, c :: .client :: k⟩)
  | back (i : Nat) (k : List (Cmd M V S)) (h : (s.th i).todo = .client :: k) :
      Step o s (s.set i ⟨(s.th i).held, k⟩)

/-- Nobody has called anything yet. -/
def idle (d : S) : State M V S := ⟨d, fun _ => ⟨[], []⟩⟩

/-- What can happen. -/
inductive Reachable [DecidableEq M] (o : Obj M V S) (d : S) : State M V S → Prop
  | init : Reachable o d (idle d)
  | step {s s' : State M V S} : Reachable o d s → Step o s s' → Reachable o d s'

/-- The next thing thread `i` does is to write `v`. -/
def Writes (s : State M V S) (i : Nat) (v : V) : Prop :=
  ∃ l e k, (s.th i).todo = Cmd.write l e :: k ∧ l s.data = v

/-- The next thing thread `i` does is to read `v`. -/
def Reads (s : State M V S) (i : Nat) (v : V) : Prop := ∃ l k, (s.th i).todo = Cmd.read l :: k ∧ l s.data = v

/-- A data race: two threads are about to access the same member, at least one of them to write it. -/
def Race (s : State M V S) : Prop := ∃ i j v, i ≠ j ∧ Writes s i v ∧ (Writes s j v ∨ Reads s j v)

/-! ## The objects -/

section Shorthands
/-- A member that is always the same. -/
def rd (v : V) : Cmd M V S := .read fun _ => v
/-- A member that is always the same. -/
def wr (v : V) : Cmd M V S := .write (fun _ => v) id
/-- `std::lock_guard`, `std::unique_lock` for the rest of a block. -/
def guarded (m : M) (body : List (Cmd M V S)) : Cmd M V S := .seq (.lock m) (.seq (seqs body) (.unlock m))
/-- `std::shared_lock` for the rest of a block. -/
def guardedShared (m : M) (body : List (Cmd M V S)) : Cmd M V S :=
  .seq (.lockShared m) (.seq (seqs body) (.unlockShared m))
/-- A wait on a condition variable with the mutex `m` and a predicate: the predicate is evaluated, the mutex released
and taken again, any number of times. -/
def waitOn (m : M) (pred : Cmd M V S) : Cmd M V S := .seq pred (.loop (.seq (.unlock m) (.seq (.lock m) pred)))
/-- `if` -/
def when_ (body : List (Cmd M V S)) : Cmd M V S := .alt (seqs body) .skip
end Shorthands

/-- Mutexes of an `EventHandler` (include/cpp_utils/event/EventHandler.hpp:204-232), and of a
`PeriodicEventHandler` (include/cpp_utils/event/PeriodicEventHandler.hpp:142) and of a
`LogEventHandler` (`entries_consumed_` is its own mutex, LogEventHandler.hpp:100, Atomicable.hpp:42-58). -/
inductive EvM
  | event
  | internal
  | wait
  | periodic
  | entries
deriving DecidableEq

/-- Members of an `EventHandler`: `callback_`; of handlers derived from it, what `callback_set_nts_` and
`callback_unset_nts_` set: `period_thread_`, `callback_id_`, `file_watch_handler_`, `stdin_listener_thread_`;
`handlers_registered_` of a `MultipleEventHandler`; `entries_consumed_` of a `LogEventHandler` and `threshold_` of a
`LogSevereEventHandler`. -/
inductive EvV
  | callback
  | worker
  | handlers
  | entries
  | threshold
deriving DecidableEq

abbrev EvCmd := Cmd EvM EvV Unit

/-- include/cpp_utils/event/impl/EventHandler.ipp:48-79 -/
def setCallback (hook : EvCmd) : EvCmd :=
  guarded .event [
    guarded .internal [
      guarded .wait [],
      wr .callback],
    when_ [hook]]

/-- include/cpp_utils/event/impl/EventHandler.ipp:81-118, 204-217 -/
def unsetCallback (hook : EvCmd) : EvCmd :=
  guarded .event [
    when_ [
      guarded .internal [
        guarded .wait [],
        wr .callback]],
    when_ [
      hook,
      .loop (guarded .wait [])]]

/-- include/cpp_utils/event/impl/EventHandler.ipp:120-145 -/
def waitForEvent : EvCmd := when_ [guarded .wait [waitOn .wait .skip]]

/-- include/cpp_utils/event/impl/EventHandler.ipp:153-168, `reset_event_count` and `decrement_event_count` -/
def changeCount : EvCmd := guarded .wait []

/-- include/cpp_utils/event/impl/EventHandler.ipp:177-202 -/
def eventOccurred : EvCmd :=
  guarded .internal [
    when_ [
      rd .callback,
      .client,
      guarded .wait []]]

/-- Mutexes of `EventHandler`: EventHandler.hpp:204-208 declares two of them recursive. -/
def evRecursive : EvM → Bool
  | .event => true
  | .internal => true
  | _ => false

/-- A handler with what it does when its callback is set or unset, and the routine of its thread (that of a client for
handlers without thread; `event_occurred_` is public as `simulate_event_occurred`). -/
def handler (set unset : EvCmd) (more : List EvCmd) : Obj EvM EvV Unit :=
  ⟨[setCallback set, unsetCallback unset, waitForEvent, .skip, changeCount, eventOccurred] ++ more, evRecursive⟩

/-- src/cpp/event/PeriodicEventHandler.cpp:87-100; the thread itself is a thread of the model. -/
def startPeriod : EvCmd := seqs [guarded .periodic [], wr .worker]

/-- src/cpp/event/PeriodicEventHandler.cpp:102-117; `join` reads and resets the `std::thread`. -/
def stopPeriod : EvCmd := seqs [guarded .periodic [], rd .worker, wr .worker]

/-- src/cpp/event/PeriodicEventHandler.cpp:60-85 -/
def periodRoutine : EvCmd := .loop (guarded .periodic [waitOn .periodic .skip, when_ [eventOccurred]])

/-- `EventHandler` itself. -/
def eventHandler : Obj EvM EvV Unit := handler .skip .skip []

/-- `PeriodicEventHandler`. -/
def periodicHandler : Obj EvM EvV Unit := handler startPeriod stopPeriod [periodRoutine]

/-- `SignalEventHandler`, `FileWatcherHandler` and `StdinEventHandler`: src/cpp/event/FileWatcherHandler.cpp:55-110,
include/cpp_utils/event/impl/SignalEventHandler.ipp:59-77, src/cpp/event/StdinEventHandler.cpp:572-582.  Left out:
what their threads do besides raising events, and `activation_times_` (an object of its own, `queueHandler`). -/
def workerHandler : Obj EvM EvV Unit := handler (when_ [wr .worker]) (when_ [rd .worker, wr .worker]) []

/-- include/cpp_utils/event/impl/MultipleEventHandler.ipp:28-43: the list is changed without a mutex.  `set_callback` is
that of another object. -/
def registerEventHandler : EvCmd := wr .handlers

/-- `MultipleEventHandler`. -/
def multipleHandler : Obj EvM EvV Unit := handler .skip .skip [registerEventHandler]

/-- src/cpp/event/logging/LogEventHandler.cpp:57-66, called by the thread of the log; `threshold_` is constant once the
object is constructed.  The callback it is called through is an object of its own (`ownerLesseesLock`). -/
def logConsume : EvCmd := when_ [guarded .entries [wr .entries], eventOccurred]

/-- `LogEventHandler`, `LogSevereEventHandler`. -/
def logHandler : Obj EvM EvV Unit := handler .skip .skip [logConsume]

/-- src/cpp/event/logging/LogSevereEventHandler.cpp:39-46 -/
def severeConsume : EvCmd := seqs [rd .threshold, logConsume]

/-- src/cpp/event/logging/LogSevereEventHandler.cpp:26-37 with LogEventHandler.cpp:44-50, from when the consumer is
registered (LogEventHandler.cpp:41). -/
def severeConstruct : EvCmd := seqs [setCallback .skip, wr .threshold]

/-- `LogSevereEventHandler` that is being constructed: number 6 is what the constructor has still to do, once, number 7
what the thread of the log does. -/
def logConstructing : Obj EvM EvV Unit := handler .skip .skip [severeConstruct, severeConsume]

/-- Mutexes of a `DBQueueWaitHandler` (include/cpp_utils/wait/WaitHandler.hpp:198-205, `status_mutex_` (recursive) and
`wait_condition_variable_mutex_`; DBQueueWaitHandler.hpp:77; include/cpp_utils/queue/DBQueue.hpp:154-155).  `consumer`
is none: it stands for being the only consumer of a `DBQueue`. -/
inductive QM
  | status
  | cv
  | pop
  | fore
  | back
  | consumer
deriving DecidableEq

/-- Members: `value_`, the two pointers of a `DBQueue`, and for each of the two queues its structure (size, ends) and
its elements. -/
inductive QV
  | value
  | pointers
  | shape (alpha : Bool)
  | elements (alpha : Bool)
deriving DecidableEq

/-- Pointers of a `DBQueue`: whether `m_foreground_queue` is `m_queue_alpha`. -/
abbrev QCmd := Cmd QM QV Bool

/-- `*m_foreground_queue`; the pointer is read, then the queue. -/
def readFore : QCmd := seqs [rd .pointers, .read fun a => .shape a]

/-- `*m_foreground_queue` is changed and elements of it with it. -/
def writeFore : QCmd :=
  seqs [rd .pointers, .write (fun a => .shape a) id, .write (fun a => .elements a) id]

/-- `*m_background_queue` -/
def readBack : QCmd := seqs [rd .pointers, .read fun a => .shape !a]

/-- `*m_background_queue` is changed and elements of it with it. -/
def writeBack : QCmd :=
  seqs [rd .pointers, .write (fun a => .shape !a) id, .write (fun a => .elements !a) id]

/-- include/cpp_utils/queue/DBQueue.hpp:47-58 -/
def dbSwap : QCmd :=
  guarded .fore [
    guarded .back [
      writeFore,
      rd .pointers,
      .write (fun _ => .pointers) not]]

/-- include/cpp_utils/queue/DBQueue.hpp:61-74 -/
def dbPush : QCmd := guarded .back [writeBack]

/-- include/cpp_utils/queue/DBQueue.hpp:78-88: the reference is returned, what it refers to is read by the caller. -/
def dbFront : QCmd := guarded .fore [readFore]

/-- What the caller does with the reference `front` gave. -/
def useFront : QCmd := .read fun a => .elements a

/-- include/cpp_utils/queue/DBQueue.hpp:91-95 -/
def dbPop : QCmd := guarded .fore [writeFore]

/-- include/cpp_utils/queue/DBQueue.hpp:98-111; moving out of an element changes it. -/
def dbFrontAndPop : QCmd := guarded .fore [readFore, useFront, writeFore]

/-- include/cpp_utils/queue/DBQueue.hpp:114-118, 129-133, `empty` and `size` -/
def dbEmpty : QCmd := guarded .fore [readFore]

/-- include/cpp_utils/queue/DBQueue.hpp:121-126 -/
def dbBothEmpty : QCmd := guarded .fore [guarded .back [readFore, when_ [readBack]]]

/-- include/cpp_utils/queue/DBQueue.hpp:136-142 -/
def dbClear : QCmd := guarded .fore [guarded .back [writeFore, writeBack]]

/-- Only `status_mutex_` is recursive. -/
def qRecursive : QM → Bool
  | .status => true
  | _ => false

/-- A `DBQueue` used as documented, with many producers and one consumer at a time (DBQueue.hpp:31-33): it alone calls
`swap`, `front`, `pop`, `front_and_pop`, `clear`, and uses the reference `front` gives until it does so again. -/
def dbQueue : Obj QM QV Bool :=
  ⟨[dbPush, dbEmpty, dbBothEmpty,
    guarded .consumer [.loop (.alt dbSwap (.alt (seqs [dbFront, .loop useFront]) (.alt dbPop (.alt dbFrontAndPop dbClear))))]],
   qRecursive⟩

/-- A `DBQueue` used by any number of consumers. -/
def dbQueueMany : Obj QM QV Bool :=
  ⟨[dbPush, dbEmpty, dbBothEmpty, dbSwap, seqs [dbFront, .loop useFront], dbPop, dbFrontAndPop, dbClear], qRecursive⟩

/-- The same, without use of `front`. -/
def dbQueueNoFront : Obj QM QV Bool :=
  ⟨[dbPush, dbEmpty, dbBothEmpty, dbSwap, dbPop, dbFrontAndPop, dbClear], qRecursive⟩

/-- include/cpp_utils/wait/impl/WaitHandler.ipp:51-68 -/
def whEnable : QCmd := guarded .status [when_ [guarded .cv []]]

/-- include/cpp_utils/wait/impl/WaitHandler.ipp:70-92 -/
def whDisable : QCmd := guarded .status [when_ [guarded .cv []]]

/-- include/cpp_utils/wait/impl/WaitHandler.ipp:94-113 -/
def whBlockingDisable : QCmd := guarded .status [whDisable, .loop (guarded .cv [])]

/-- include/cpp_utils/wait/impl/WaitHandler.ipp:221-231 -/
def whStopAndContinue : QCmd := guarded .status [when_ [whBlockingDisable], whEnable]

/-- include/cpp_utils/wait/impl/WaitHandler.ipp:121-182 (the lock is that of the caller); the predicate gets a reference
to `value_`, and is code of the client. -/
def whBlockingWait (pred : QCmd) (after : List QCmd) : QCmd :=
  guarded .cv (when_ [waitOn .cv (when_ [rd .value, pred])] :: after)

/-- include/cpp_utils/wait/impl/WaitHandler.ipp:184-195 -/
def whWait : QCmd := whBlockingWait .client []

/-- include/cpp_utils/wait/impl/WaitHandler.ipp:197-202 -/
def whGet : QCmd := guarded .cv [rd .value]

/-- include/cpp_utils/wait/impl/WaitHandler.ipp:204-219 -/
def whSet : QCmd := guarded .cv [wr .value]

/-- src/cpp/wait/IntWaitHandler.cpp:99-129, `++` and `--` -/
def intChange : QCmd := guarded .cv [rd .value, wr .value]

/-- `WaitHandler`, `BooleanWaitHandler` (src/cpp/wait/BooleanWaitHandler.cpp:39-65) and `IntWaitHandler`
(src/cpp/wait/IntWaitHandler.cpp:39-129). -/
def waitHandler : Obj QM QV Bool :=
  ⟨[whEnable, whDisable, whBlockingDisable, .skip, whWait, whGet, whSet, whStopAndContinue, intChange], qRecursive⟩

/-- src/cpp/wait/CounterWaitHandler.cpp:41-63, 141-155; `threshold_` is constant -/
def waitAndDecrement : QCmd := whBlockingWait .skip [when_ [rd .value, wr .value, rd .value]]

/-- src/cpp/wait/CounterWaitHandler.cpp:65-119 -/
def waitThreshold : QCmd := guarded .cv [when_ [waitOn .cv (when_ [rd .value])]]

/-- src/cpp/wait/CounterWaitHandler.cpp:121-139 -/
def counterInc : QCmd := guarded .cv [rd .value, wr .value, rd .value]

/-- include/cpp_utils/wait/impl/DBQueueWaitHandler.ipp:42-66 -/
def getNextValue : QCmd :=
  guarded .pop [
    dbEmpty,
    when_ [dbSwap],
    dbEmpty,
    when_ [
      dbFront,
      useFront,
      dbPop]]

/-- `DBQueueWaitHandler`, and with it `CounterWaitHandler`: include/cpp_utils/wait/impl/ConsumerWaitHandler.ipp:37-86,
include/cpp_utils/wait/impl/DBQueueWaitHandler.ipp:26-40. -/
def queueHandler : Obj QM QV Bool :=
  ⟨[whEnable, whDisable, whBlockingDisable, .skip, whGet, whSet, whStopAndContinue, waitAndDecrement, waitThreshold,
    counterInc, seqs [dbPush, counterInc], seqs [waitAndDecrement, when_ [getNextValue]]], qRecursive⟩

/-- Objects with one mutex and one member. -/
abbrev OneCmd := Cmd Unit Unit Unit

/-- Calls of a `SafeDatabase` that change the map: include/cpp_utils/collection/database/impl/SafeDatabase.ipp:37-74,
131-151. -/
def sdbChange : OneCmd := guarded () [rd (), when_ [wr ()]]

/-- Calls that look something up: SafeDatabase.ipp:76-83, 114-129. -/
def sdbLookup : OneCmd := guardedShared () [rd ()]

/-- `find`, 85-92, 22-35: the iterator has its lock before `find` releases its own; while it exists the client reads
through it, moves it and calls what it likes. -/
def sdbFind : OneCmd :=
  seqs [.lockShared (), rd (), .lockShared (), .unlockShared (), .loop (.alt (rd ()) .client), .unlockShared ()]

/-- `begin`, 94-98: the argument `internal_db_.begin()` is evaluated before the constructor of the iterator takes the
lock. -/
def sdbBegin : OneCmd := seqs [rd (), .lockShared (), .loop (.alt (rd ()) .client), .unlockShared ()]

/-- `end`, 100-104: `internal_db_.end()` gives the address of the header of the map and reads nothing that changes. -/
def sdbEnd : OneCmd := seqs [.lockShared (), .loop .client, .unlockShared ()]

/-- `SafeDatabase`; iterators are not copied. -/
def safeDatabase : Obj Unit Unit Unit := ⟨[sdbChange, sdbLookup, sdbFind, sdbBegin, sdbEnd], fun _ => false⟩

/-- `SafeDatabase` whose clients do not call `begin`. -/
def safeDatabaseNoBegin : Obj Unit Unit Unit := ⟨[sdbChange, sdbLookup, sdbFind, sdbEnd], fun _ => false⟩

/-- `std_random_generator_` and `seed_random_generator_` of a `TSafeRandomManager`, which are their own mutexes
(include/cpp_utils/types/Atomicable.hpp:42-47); `true` is the first. -/
abbrev RndCmd := Cmd Bool Bool Unit

/-- src/cpp/math/random/TSafeRandomManager.cpp:40-59, `sequence_rand`, `seed`, `seeded_rand`; `pure_rand` (35-38) is left
out: `std::random_device` is taken to be thread safe, as the comment TSafeRandomManager.hpp:125-129 does. -/
def tsafeRandom : Obj Bool Bool Unit :=
  ⟨[guarded true [rd true, wr true], guarded true [wr true], guarded false [wr false, rd false, wr false]],
   fun _ => false⟩

/-- Mutexes of a `SignalManager` (include/cpp_utils/event/SignalManager.hpp:167-204): `active_callbacks_mutex_`,
`last_id_mutex_`, `signal_received_cv_mutex_`, `instance_mutex_`. -/
inductive SigM
  | active
  | lastId
  | received
  | instance_
deriving DecidableEq

/-- Members: `active_callbacks_`, `current_last_id_`. -/
inductive SigV
  | callbacks
  | lastId
deriving DecidableEq

abbrev SigCmd := Cmd SigM SigV Unit

/-- include/cpp_utils/event/impl/SignalManager.ipp:109-115 -/
def sigNewId : SigCmd := guarded .lastId [rd .lastId, wr .lastId, rd .lastId]

/-- SignalManager.ipp:79-92 -/
def sigRegister : SigCmd := guarded .active [sigNewId, rd .callbacks, wr .callbacks]

/-- SignalManager.ipp:94-107 -/
def sigUnregister : SigCmd := guarded .active [rd .callbacks, when_ [wr .callbacks]]

/-- SignalManager.ipp:139-151: callbacks may use the manager (and then block, `active_callbacks_mutex_` is not
recursive). -/
def sigRoutine : SigCmd := guarded .active [.loop (seqs [rd .callbacks, .client])]

/-- SignalManager.ipp:153-177 -/
def sigThread : SigCmd := .loop (guarded .received [waitOn .received .skip, when_ [sigRoutine]])

/-- `SignalManager`; `get_instance` 41-48. -/
def signalManager : Obj SigM SigV Unit :=
  ⟨[guarded .instance_ [], sigRegister, sigUnregister, sigThread], fun m => decide (m = .instance_)⟩

/-- The mutex of an `InternalPtrData` (include/cpp_utils/memory/impl/InternalPtrData.hpp:132); `owner` is none: it stands for
being the thread that uses the `OwnerPtr`. -/
inductive OwnM
  | data
  | owner
deriving DecidableEq

/-- The member `reference_` of an `InternalPtrData`. -/
abbrev OwnCmd := Cmd OwnM Unit Unit

/-- `OwnerPtr::reset()`, include/cpp_utils/memory/impl/OwnerPtr.ipp:79-88, 130-136, with `release_reference_`,
InternalPtrData.ipp:110-120; the deleter is code of the client. -/
def ownReset : OwnCmd := guarded .owner [rd (), when_ [guarded .data [rd (), when_ [rd (), .client, wr ()]]]]

/-- `get`, `->`, `*` and `operator bool` of an `OwnerPtr`, OwnerPtr.ipp:112-136 -/
def ownGet : OwnCmd := guarded .owner [rd ()]

/-- `lock` of a `LesseePtr`, LesseePtr.ipp:53-86, and the life of the `GuardedPtr` it gives, GuardedPtr.ipp:26-66; the
client does what it likes meanwhile. -/
def lesseeLock : OwnCmd := guardedShared .data [.loop (.alt (rd ()) .client)]

/-- `operator bool` of a `LesseePtr`, LesseePtr.ipp:88-92, InternalPtrData.ipp:91-95: no mutex. -/
def lesseeBool : OwnCmd := rd ()

/-- An `OwnerPtr` and its `LesseePtr`s. -/
def ownerLessees : Obj OwnM Unit Unit := ⟨[ownReset, ownGet, lesseeLock, lesseeBool], fun _ => false⟩

/-- The same, lessees being only used by `lock`, `->` and `*`. -/
def ownerLesseesLock : Obj OwnM Unit Unit := ⟨[ownReset, ownGet, lesseeLock], fun _ => false⟩

/-- `slots_mutex_` of a `SlotThreadPool`, and its members `threads_` (`false`) and `slots_` (`true`); the queue is an
object of its own (`queueHandler`), `enabled_` is atomic, `number_of_threads_` constant. -/
abbrev PoolCmd := Cmd Unit Bool Unit

/-- src/cpp/thread_pool/pool/SlotThreadPool.cpp:50-62: the thread that changes `enabled_` from false to true appends
to `threads_`. -/
def poolEnable : PoolCmd := when_ [.loop (wr false)]

/-- src/cpp/thread_pool/pool/SlotThreadPool.cpp:64-78 -/
def poolDisable : PoolCmd := when_ [.loop (rd false), wr false]

/-- src/cpp/thread_pool/pool/SlotThreadPool.cpp:80-96 -/
def poolEmit : PoolCmd := guarded () [rd true]

/-- src/cpp/thread_pool/pool/SlotThreadPool.cpp:98-115 -/
def poolSlot : PoolCmd := guarded () [rd true, when_ [wr true]]

/-- src/cpp/thread_pool/pool/SlotThreadPool.cpp:123-156; the task itself, used after the mutex is released, is part of an
element of the map, which is written once, before its identifier can be emitted; it is left out here (C60). -/
def poolRoutine : PoolCmd := .loop (seqs [guarded () [rd true], .client])

/-- `SlotThreadPool` that is enabled already and not disabled. -/
def poolRunning : Obj Unit Bool Unit := ⟨[poolEmit, poolSlot, .skip, poolRoutine], fun _ => false⟩

/-- `SlotThreadPool` -/
def pool : Obj Unit Bool Unit := ⟨[poolEnable, poolDisable, poolEmit, poolSlot, .skip, poolRoutine], fun _ => false⟩

end Verif.Race
