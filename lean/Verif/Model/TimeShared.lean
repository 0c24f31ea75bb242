import Verif.Model.Prog
import Verif.Model.LocalTime
/-!
`timestamp_to_string` and `time_to_timestamp` (`cpp_utils/src/cpp/time/time_utils.cpp`) called by any number of
threads.  `std::gmtime` and `std::localtime` give a pointer to one object of the library, the same for all threads
(C11 7.27.3; so in glibc and in the libraries of the BSDs, not in that of Windows, where each thread has its own).
The code reads it in a later step.  Writing and reading the whole object are one step each, which leaves out
the undefined behaviour of a data race (`Racing`) and texts mixed from two times.
-/
namespace Verif.TimeShared
open Verif.Threads Verif.TimeUtils
open Verif.LocalTime (Zone)

/-- Calls: `timestamp_to_string` in UTC or in local time, time_utils.cpp:91-119, and `time_to_timestamp`, 73-89, with
what `now()` gives. -/
inductive Op where
  | text (ns : Int) (fmt : List Item) (isLocal : Bool)
  | today (now : Int) (hour minute second : Nat)
deriving DecidableEq

/-- What a call gives. -/
inductive Result where
  | text (r : Res Str)
  | stamp (r : Res Int)
deriving DecidableEq

/-- What the library function called at time_utils.cpp:82, 102 and 106 computes. -/
def converted (z : Zone) : Op → Option Tm
  | .text ns _ true => LocalTime.localtime z (normalize .linux (toTimeT ns))
  | .text ns _ false => gmtime (normalize .linux (toTimeT ns))
  | .today now _ _ _ => gmtime (normalize .linux (toTimeT now))

/-- What the code does with the object the pointer refers to: time_utils.cpp:82-88 and 109-118 (`none` is the null
pointer). -/
def finish : Op → Option Tm → Result
  | .text _ fmt _, some tm => .text (.ok (putTime tm fmt))
  | .text _ _ _, none => .text (.throw .preconditionNotMet)
  | .today _ h m s, some tm => .stamp (fromTimeT (timegm { tm with sec := toInt s, min := toInt m, hour := toInt h }))
  | .today _ _ _ _, none => .stamp .ub

/-- The object of the library; a mutex of the user; `log` records the calls as they end and
`wrote` those that have written the object (a history: the code has neither). -/
structure Sh where
  tm : Tm
  lock : Option Nat
  log : List (Nat × Op × Result)
  wrote : List Op

/-- Outside any call; before the library function; with its pointer. -/
inductive PC where
  | idle
  | called (op : Op)
  | filled (op : Op)

/-- Next step of a thread (time_utils.cpp:82-88, 97-118).  If `guarded`, the user holds a mutex during every call, which
is no part of the library. -/
def run (z : Zone) (guarded : Bool) (i : Nat) (s : Sh) : PC → Option (Sh × PC × Bool)
  | .idle => none
  | .called op =>
    if guarded && s.lock.isSome then none
    else match converted z op with
      | none => some ({ s with log := s.log ++ [(i, op, finish op none)] }, .idle, false)
      | some tm => some ({ s with tm := tm, lock := if guarded then some i else none, wrote := s.wrote ++ [op] }, .filled op, false)
  | .filled op => some ({ s with lock := none, log := s.log ++ [(i, op, finish op (some s.tm))] }, .idle, false)

/-- The program; nobody sleeps (time_utils.cpp:73-119). -/
def prog (z : Zone) (guarded : Bool) : Prog where
  Sh := Sh
  PC := PC
  Op := Op
  start
    | .idle, op => some (.called op)
    | _, _ => none
  run := run z guarded
  woken _ := none
  late _ := none

/-- `n` threads; `tm` is what the object of the library happens to be (time_utils.cpp:82). -/
def init (z : Zone) (guarded : Bool) (tm : Tm) (n : Nat) : Conf (prog z guarded) :=
  (prog z guarded).init (⟨tm, none, [], []⟩ : Sh) PC.idle n

/-- A data race: a thread is about to write the object, another one to read it (time_utils.cpp:82, 106, 111). -/
def Racing (pcs : List PC) : Prop :=
  ∃ (i j : Nat) (a b : Op), i ≠ j ∧ pcs[i]? = some (.called a) ∧ pcs[j]? = some (.filled b)

end Verif.TimeShared
