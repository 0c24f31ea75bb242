import Verif.Model.Prog
import Verif.Model.StdMap
/-!
`SafeDatabase<Key, Value>` and its iterators (`cpp_utils/include/cpp_utils/collection/database/impl/
SafeDatabase.ipp`) as a concurrent program with any number of threads.

`std::map` is not thread safe, so an access to `internal_db_` is two steps: it begins and it ends, and when
a write is in progress together with another access the behaviour is undefined (`ub`).  Keys are numbers
(any order would do).  An iterator is a handle with the thread that obtained it and its position, a key or
the end; it is used by that thread only (as `std::shared_timed_mutex` demands of `unlock_shared`).
Dereferencing or advancing the end, and any use of an iterator after its destruction, are errors of the
client and not modelled (the step does nothing).

`std::shared_timed_mutex` does not say whether a waiting writer keeps new readers out: both are modelled
(`pref`; true in libc++ and in the portable implementation of libstdc++, false with glibc's
`pthread_rwlock_t`).
-/
namespace Verif.SafeDatabase
open Verif.Threads

/-- Calls.  `copy` is the implicit copy constructor of `SafeDatabaseIterator`, `destroy` its destructor. -/
inductive Op (V : Type)
  | add (k : Nat) (v : V)
  | modify (k : Nat) (v : V)
  | addOrModify (k : Nat) (v : V)
  | erase (k : Nat)
  | is (k : Nat)
  | at (k : Nat)
  | size
  | find (k : Nat)
  | begin
  | end_
  | copy (h : Nat)
  | destroy (h : Nat)
  | deref (h : Nat)
  | advance (h : Nat)

/-- Results: `outOfRange` is the exception of `at`, `pos` what `find` found, `iter` a handle, `item` a
dereferenced iterator. -/
inductive Ret (V : Type)
  | bool (b : Bool)
  | value (v : V)
  | outOfRange
  | num (n : Nat)
  | pos (p : Option Nat)
  | iter (h : Nat)
  | item (k : Nat) (v : V)
  | done

/-- Places in the code; lines of SafeDatabase.ipp. -/
inductive PC (V : Type)
  | idle (r : Option (Ret V))
  /-- the `unique_lock`s, 42, 54, 71, 136 -/
  | wAcq (op : Op V)
  /-- a writer that keeps new readers out and waits for the others -/
  | wDrain (op : Op V)
  /-- before the accesses 44, 56-62, 73, 138-149 -/
  | wBeg (op : Op V)
  /-- 44, 56, 73, 138 -/
  | wFind (op : Op V)
  /-- 44, 57-64, 73, 139-150; `p`: the key was found -/
  | wEnd (op : Op V) (p : Bool)
  /-- end of the scope of the `unique_lock` -/
  | wRel (r : Ret V)
  /-- the `shared_lock`s, 80, 118, 126 -/
  | rAcq (op : Op V)
  /-- before the accesses 82, 120, 128 -/
  | rBeg (op : Op V)
  /-- 82, 120, 128 -/
  | rEnd (op : Op V)
  /-- end of the scope of the `shared_lock` -/
  | rRel (r : Ret V)
  /-- `find`, 89 -/
  | fAcq (k : Nat)
  /-- `find`, before the access 91 -/
  | fBeg (k : Nat)
  /-- `find`, 91 -/
  | fEnd (k : Nat)
  /-- `find`, 28, constructor of the iterator, while the lock of 89 is held -/
  | fLock (p : Option Nat)
  /-- `find`, end of the scope of the `shared_lock` -/
  | fRel (h : Nat)
  /-- `begin`, before the access 97 -/
  | bBeg
  /-- `begin`, 97 -/
  | bEnd
  /-- `begin`, 28, and `end`, 103 (`internal_db_.end()` reads nothing that changes) and 28 -/
  | bLock (p : Option Nat)
  /-- copy of an iterator -/
  | copyIt (h : Nat)
  /-- 34 -/
  | destroyIt (h : Nat)
  /-- `*it` or `it->`, before and during the access -/
  | dBeg (h : Nat)
  | dEnd (h : Nat) (k : Nat)
  /-- `++it`, before and during the access -/
  | aBeg (h : Nat)
  | aEnd (h : Nat) (k : Nat)

/-- `internal_db_`; the thread that has or waits for `mutex_` exclusively and the number of shared locks;
the live iterators; accesses in progress; `log`: the calls in the order in which they took effect, with
their threads and results. -/
structure Sh (V : Type) where
  db : List (Nat × V)
  writer : Option Nat
  readers : Nat
  its : List (Nat × Nat × Option Nat)
  nextIt : Nat
  writing : Nat
  reading : Nat
  ub : Bool
  log : List (Nat × Op V × Ret V)

variable {V : Type}

/-- The key of a writing call. -/
def key : Op V → Nat
  | .add k _ | .modify k _ | .addOrModify k _ | .erase k => k
  | _ => 0

/-- Contains the key. -/
def has (k : Nat) (db : List (Nat × V)) : Bool := (StdMap.get k db).isSome

/-- The writing part of a call: 44 (`insert` does not overwrite), 57-64, 73, 139-150, given whether `find`
found the key; the last component: it wrote through an iterator to an element that is not there. -/
def write (op : Op V) (p : Bool) (db : List (Nat × V)) : List (Nat × V) × Ret V × Bool :=
  match op with
  | .add k v => if has k db then (db, .bool false, false) else (StdMap.put k v db, .bool true, false)
  | .modify k v => if p then (StdMap.put k v db, .bool true, !has k db) else (db, .bool false, false)
  | .addOrModify k v =>
    if p then (StdMap.put k v db, .bool false, !has k db)
    else if has k db then (db, .bool true, false) else (StdMap.put k v db, .bool true, false)
  | .erase k => (StdMap.del k db, .bool (has k db), false)
  | _ => (db, .done, false)

/-- The result of a reading call: 82, 120, 128 (`unsigned int` has 32 bits). -/
def read (op : Op V) (db : List (Nat × V)) : Ret V :=
  match op with
  | .is k => .bool (has k db)
  | .at k =>
    match StdMap.get k db with
    | some v => .value v
    | none => .outOfRange
  | .size => .num (db.length % 2 ^ 32)
  | _ => .done

/-- The position after key `k`. -/
def after (k : Nat) (db : List (Nat × V)) : Option Nat := (db.find? fun p => decide (k < p.1)).map Prod.fst

/-- The iterator `h` of thread `i`. -/
def lookup (h i : Nat) (its : List (Nat × Nat × Option Nat)) : Option (Option Nat) :=
  (its.find? fun t => t.1 == h && t.2.1 == i).map fun t => t.2.2

/-- A new iterator of thread `i`, with its shared lock, SafeDatabase.ipp:21-29. -/
def newIt (s : Sh V) (i : Nat) (p : Option Nat) : Sh V :=
  { s with readers := s.readers + 1, its := s.its ++ [(s.nextIt, i, p)], nextIt := s.nextIt + 1 }

/-- `unlock_shared`; undefined when there is no shared lock. -/
def unlockShared (s : Sh V) : Sh V := { s with readers := s.readers - 1, ub := s.ub || s.readers == 0 }

/-- A reading access begins. -/
def beginRead (s : Sh V) : Sh V := { s with reading := s.reading + 1, ub := s.ub || s.writing != 0 }

/-- A reading access ends. -/
def endRead (s : Sh V) : Sh V := { s with reading := s.reading - 1 }

/-- First step of a call. -/
def entry : Op V → PC V
  | .add k v => .wAcq (.add k v)
  | .modify k v => .wAcq (.modify k v)
  | .addOrModify k v => .wAcq (.addOrModify k v)
  | .erase k => .wAcq (.erase k)
  | .is k => .rAcq (.is k)
  | .at k => .rAcq (.at k)
  | .size => .rAcq .size
  | .find k => .fAcq k
  | .begin => .bBeg
  | .end_ => .bLock none
  | .copy h => .copyIt h
  | .destroy h => .destroyIt h
  | .deref h => .dBeg h
  | .advance h => .aBeg h

/-- A client starts a call. -/
def start : PC V → Op V → Option (PC V)
  | .idle _, op => some (entry op)
  | _, _ => none

/-- Next step of thread `i`, see `PC`. -/
def run (pref : Bool) (i : Nat) (s : Sh V) : PC V → Option (Sh V × PC V × Bool)
  | .idle _ => none
  | .wAcq op =>
    if s.writer.isSome then none
    else if s.readers = 0 then some ({ s with writer := some i }, .wBeg op, false)
    else if pref then some ({ s with writer := some i }, .wDrain op, false)
    else none
  | .wDrain op => if s.readers = 0 then some (s, .wBeg op, false) else none
  | .wBeg op =>
    some ({ s with writing := s.writing + 1, ub := s.ub || s.writing != 0 || s.reading != 0 }, .wFind op, false)
  | .wFind op => some (s, .wEnd op (has (key op) s.db), false)
  | .wEnd op p =>
    let w := write op p s.db
    some ({ s with db := w.1, writing := s.writing - 1, ub := s.ub || w.2.2,
                   log := s.log ++ [(i, op, w.2.1)] }, .wRel w.2.1, false)
  | .wRel r => some ({ s with writer := none }, .idle (some r), false)
  | .rAcq op => if s.writer.isSome then none else some ({ s with readers := s.readers + 1 }, .rBeg op, false)
  | .rBeg op => some (beginRead s, .rEnd op, false)
  | .rEnd op =>
    some ({ endRead s with log := s.log ++ [(i, op, read op s.db)] }, .rRel (read op s.db), false)
  | .rRel r => some (unlockShared s, .idle (some r), false)
  | .fAcq k => if s.writer.isSome then none else some ({ s with readers := s.readers + 1 }, .fBeg k, false)
  | .fBeg k => some (beginRead s, .fEnd k, false)
  | .fEnd k =>
    let p := if has k s.db then some k else none
    some ({ endRead s with log := s.log ++ [(i, .find k, .pos p)] }, .fLock p, false)
  | .fLock p => if s.writer.isSome then none else some (newIt s i p, .fRel s.nextIt, false)
  | .fRel h => some (unlockShared s, .idle (some (.iter h)), false)
  | .bBeg => some (beginRead s, .bEnd, false)
  | .bEnd => some (endRead s, .bLock (s.db.head?.map Prod.fst), false)
  | .bLock p => if s.writer.isSome then none else some (newIt s i p, .idle (some (.iter s.nextIt)), false)
  | .copyIt h =>
    match lookup h i s.its with
    | none => some (s, .idle none, false)
    | some p =>
      some ({ s with its := s.its ++ [(s.nextIt, i, p)], nextIt := s.nextIt + 1 }, .idle (some (.iter s.nextIt)), false)
  | .destroyIt h =>
    match lookup h i s.its with
    | none => some (s, .idle none, false)
    | some _ =>
      some (unlockShared { s with its := s.its.filter fun t => t.1 != h }, .idle (some .done), false)
  | .dBeg h =>
    match lookup h i s.its with
    | some (some k) => some (beginRead s, .dEnd h k, false)
    | _ => some (s, .idle none, false)
  | .dEnd _ k =>
    match StdMap.get k s.db with
    | some v => some (endRead s, .idle (some (.item k v)), false)
    | none => some ({ endRead s with ub := true }, .idle none, false)
  | .aBeg h =>
    match lookup h i s.its with
    | some (some k) => some (beginRead s, .aEnd h k, false)
    | _ => some (s, .idle none, false)
  | .aEnd h k =>
    if has k s.db then
      some ({ endRead s with its := s.its.map fun t => if t.1 = h then (t.1, t.2.1, after k s.db) else t },
        .idle (some .done), false)
    else some ({ endRead s with ub := true }, .idle none, false)

/-- The program. -/
abbrev prog (V : Type) (pref : Bool) : Prog :=
  ⟨Sh V, PC V, Op V, start, run pref, fun _ => none, fun _ => none⟩

/-- An empty database used by `n` threads. -/
def init (V : Type) (pref : Bool) (n : Nat) : Conf (prog V pref) :=
  (prog V pref).init ⟨[], none, 0, [], 0, 0, 0, false, []⟩ (.idle none) n

end Verif.SafeDatabase
