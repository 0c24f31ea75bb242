import Verif.Model.Prog
/-!
`OwnerPtr`, `LesseePtr` and `GuardedPtr` (`cpp_utils/include/cpp_utils/memory/impl/`) as a concurrent program
with any number of threads.

Data: every pointer given to an `OwnerPtr` is a new datum (clients give each datum away once) and gets its
own `InternalPtrData` object, so both have the same number.  Those objects are reference counted; in the model
they are never reclaimed (`~InternalPtrData`, InternalPtrData.ipp:46-51, would delete a datum that is still
there: `C67_released` shows that there is none).

Variables: owners and lessees are numbered; a variable that was never assigned, a moved-from and a destroyed
one are empty.  Guards are numbered in the order of their creation.  As usual in C++ one object is not used by
two threads at the same time when one of them changes it; so it makes no difference that `reset` takes the
`shared_ptr` out of the owner when it begins, although the code empties it when it ends.  A call that finds
its owner no longer empty where only such a misuse can have filled it does nothing, and so do calls on guards
that do not exist.
-/
namespace Verif.OwnerPtr
open Verif.Threads

/-- Calls.  `give`/`giveNull`: `reset(reference, deleter)` and the constructor; `reset`: also the destructor of
an owner; `moveOwner o o'`: `o = std::move(o')` and the move constructor; `copyLessee l l'`: `l = l'`;
`dropLessee`: destructor of a lessee; `access`: `l->f()` or `*l` used; `moveGuard`: move constructor of a
guard; `assignGuard g g'`: `g = std::move(g')`; `useGuard`: `g->f()`. -/
inductive Op
  | give (o : Nat)
  | giveNull (o : Nat)
  | reset (o : Nat)
  | moveOwner (o o' : Nat)
  | lease (o l : Nat)
  | copyLessee (l l' : Nat)
  | dropLessee (l : Nat)
  | valid (l : Nat)
  | lock (l : Nat)
  | lockExc (l : Nat)
  | access (l : Nat)
  | moveGuard (g : Nat)
  | assignGuard (g g' : Nat)
  | destroyGuard (g : Nat)
  | useGuard (g : Nat)
deriving DecidableEq, Repr

/-- Results: `used b` is a use of the datum, `b` tells that it was there (not deleted); `null` a use of a null
pointer. -/
inductive Ret
  | done
  | bool (b : Bool)
  | guard (g : Nat)
  | valueAccess
  | initialization
  | used (b : Bool)
  | null
deriving DecidableEq, Repr

/-- What follows the call of `reset()` in a member function of `OwnerPtr`. -/
inductive After
  | stop
  | give
  | null
  | move (o' : Nat)
deriving DecidableEq, Repr

/-- The functions that use `lock()`. -/
inductive Mode
  | plain
  | exc
  | access
deriving DecidableEq, Repr

/-- Places in the code. -/
inductive PC
  | idle (r : Option Ret)
  /-- OwnerPtr.ipp:82 -/
  | oTest (o : Nat) (k : After)
  /-- InternalPtrData.ipp:113 -/
  | rAcq (o d : Nat) (k : After)
  /-- InternalPtrData.ipp:114-116 -/
  | rDel (o d : Nat) (k : After)
  /-- InternalPtrData.ipp:117 -/
  | rNull (o d : Nat) (k : After)
  /-- InternalPtrData.ipp:119 and OwnerPtr.ipp:86 -/
  | rUnl (o d : Nat) (k : After)
  /-- after `reset()`: OwnerPtr.ipp:53, 62, 97-105 -/
  | oNext (o : Nat) (k : After)
  /-- OwnerPtr.ipp:72-77 -/
  | lease (o l : Nat)
  /-- LesseePtr.hpp:93 and 105 (defaulted) -/
  | copyLessee (l l' : Nat)
  /-- LesseePtr.hpp:71 (defaulted) -/
  | dropLessee (l : Nat)
  /-- LesseePtr.ipp:91, `data_reference_` -/
  | vTest (l : Nat)
  /-- LesseePtr.ipp:91, InternalPtrData.ipp:94 -/
  | vRead (d : Nat)
  /-- LesseePtr.ipp:56 -/
  | gTest (l : Nat) (m : Mode)
  /-- LesseePtr.ipp:59 -/
  | gAcq (d : Nat) (m : Mode)
  /-- LesseePtr.ipp:75 -/
  | gChk (d : Nat) (m : Mode)
  /-- LesseePtr.ipp:79, GuardedPtr.ipp:34-42 for the local guard -/
  | gFail (d : Nat)
  /-- LesseePtr.ipp:44, 50: the temporary guard is destroyed when the function returns -/
  | aUnl (d : Nat)
  /-- the client uses the pointer that was returned -/
  | aUse (d : Nat)
  /-- GuardedPtr.hpp:63 (defaulted) -/
  | moveGuard (g : Nat)
  /-- GuardedPtr.hpp:67 (defaulted) -/
  | assignGuard (g g' : Nat)
  /-- GuardedPtr.ipp:34-42 -/
  | destroyGuard (g : Nat)
  /-- GuardedPtr.ipp:44-60 -/
  | useGuard (g : Nat)
deriving DecidableEq, Repr

/-- Per datum: `reference_` is not null, `shared_mutex_` (number of shared locks, thread with the exclusive
lock); the number of data so far; `data_reference_` of owners, lessees and guards (of a guard that is destroyed:
`none`); calls of deleters in order. -/
structure Sh where
  alive : Nat → Bool
  readers : Nat → Nat
  writer : Nat → Option Nat
  next : Nat
  owners : Nat → Option Nat
  lessees : Nat → Option Nat
  guards : List (Option (Option Nat))
  deleted : List Nat

/-- Function update. -/
def upd {α : Type} (f : Nat → α) (a : Nat) (b : α) : Nat → α := fun x => if x = a then b else f x

/-- A new guard, GuardedPtr.ipp:26-32. -/
def newGuard (s : Sh) (c : Option Nat) : Sh := { s with guards := s.guards ++ [some c] }

/-- `unlock_shared`, InternalPtrData.ipp:63-67. -/
def unlockShared (s : Sh) (d : Nat) : Sh := { s with readers := upd s.readers d (s.readers d - 1) }

/-- First step of a call. -/
def entry : Op → PC
  | .give o => .oTest o .give
  | .giveNull o => .oTest o .null
  | .reset o => .oTest o .stop
  | .moveOwner o o' => .oTest o (.move o')
  | .lease o l => .lease o l
  | .copyLessee l l' => .copyLessee l l'
  | .dropLessee l => .dropLessee l
  | .valid l => .vTest l
  | .lock l => .gTest l .plain
  | .lockExc l => .gTest l .exc
  | .access l => .gTest l .access
  | .moveGuard g => .moveGuard g
  | .assignGuard g g' => .assignGuard g g'
  | .destroyGuard g => .destroyGuard g
  | .useGuard g => .useGuard g

/-- A client starts a call. -/
def start : PC → Op → Option PC
  | .idle _, op => some (entry op)
  | _, _ => none

/-- Next step of thread `i`, see `PC`. -/
def run (i : Nat) (s : Sh) : PC → Option (Sh × PC × Bool)
  | .idle _ => none
  | .oTest o k =>
    match s.owners o with
    | none => some (s, .oNext o k, false)
    | some d =>
      if s.alive d then some ({ s with owners := upd s.owners o none }, .rAcq o d k, false)
      else some (s, .oNext o k, false)
  | .rAcq o d k =>
    if s.writer d = none ∧ s.readers d = 0 then
      some ({ s with writer := upd s.writer d (some i) }, .rDel o d k, false)
    else none
  | .rDel o d k =>
    if s.alive d then some ({ s with deleted := s.deleted ++ [d] }, .rNull o d k, false)
    else some (s, .rUnl o d k, false)
  | .rNull o d k => some ({ s with alive := upd s.alive d false }, .rUnl o d k, false)
  | .rUnl o d k => some ({ s with writer := upd s.writer d none }, .oNext o k, false)
  | .oNext o k =>
    match k with
    | .stop => some (s, .idle (some .done), false)
    | .null => some (s, .idle (some .initialization), false)
    | .give =>
      if (s.owners o).isSome then some (s, .idle none, false)
      else some ({ s with owners := upd s.owners o (some s.next), alive := upd s.alive s.next true,
                          next := s.next + 1 }, .idle (some .done), false)
    | .move o' =>
      if (s.owners o).isSome then some (s, .idle none, false)
      else some ({ s with owners := upd (upd s.owners o' none) o (s.owners o') }, .idle (some .done), false)
  | .lease o l => some ({ s with lessees := upd s.lessees l (s.owners o) }, .idle (some .done), false)
  | .copyLessee l l' => some ({ s with lessees := upd s.lessees l (s.lessees l') }, .idle (some .done), false)
  | .dropLessee l => some ({ s with lessees := upd s.lessees l none }, .idle (some .done), false)
  | .vTest l =>
    match s.lessees l with
    | none => some (s, .idle (some (.bool false)), false)
    | some d => some (s, .vRead d, false)
  | .vRead d => some (s, .idle (some (.bool (s.alive d))), false)
  | .gTest l m =>
    match s.lessees l with
    | none =>
      if m = .plain then some (newGuard s none, .idle (some (.guard s.guards.length)), false)
      else some (s, .idle (some .valueAccess), false)
    | some d => some (s, .gAcq d m, false)
  | .gAcq d m =>
    if (s.writer d).isSome then none
    else
      let s' := { s with readers := upd s.readers d (s.readers d + 1) }
      if m = .plain then some (newGuard s' (some d), .idle (some (.guard s.guards.length)), false)
      else some (s', .gChk d m, false)
  | .gChk d m =>
    if s.alive d then
      if m = .access then some (s, .aUnl d, false)
      else some (newGuard s (some d), .idle (some (.guard s.guards.length)), false)
    else some (s, .gFail d, false)
  | .gFail d => some (unlockShared s d, .idle (some .valueAccess), false)
  | .aUnl d => some (unlockShared s d, .aUse d, false)
  | .aUse d => some (s, .idle (some (.used (decide (d ∉ s.deleted)))), false)
  | .moveGuard g =>
    match s.guards[g]? with
    | some (some c) =>
      some ({ s with guards := s.guards.set g (some none) ++ [some c] }, .idle (some (.guard s.guards.length)), false)
    | _ => some (s, .idle none, false)
  | .assignGuard g g' =>
    match s.guards[g]?, s.guards[g']? with
    | some (some _), some (some c) =>
      if g = g' then some (s, .idle (some .done), false)
      else some ({ s with guards := (s.guards.set g (some c)).set g' (some none) }, .idle (some .done), false)
    | _, _ => some (s, .idle none, false)
  | .destroyGuard g =>
    match s.guards[g]? with
    | some (some (some d)) =>
      some (unlockShared { s with guards := s.guards.set g none } d, .idle (some .done), false)
    | some (some none) => some ({ s with guards := s.guards.set g none }, .idle (some .done), false)
    | _ => some (s, .idle none, false)
  | .useGuard g =>
    match s.guards[g]? with
    | some (some (some d)) =>
      if s.alive d then some (s, .idle (some (.used (decide (d ∉ s.deleted)))), false)
      else some (s, .idle (some .null), false)
    | some (some none) => some (s, .idle (some .null), false)
    | _ => some (s, .idle none, false)

/-- The program. -/
abbrev prog : Prog := ⟨Sh, PC, Op, start, run, fun _ => none, fun _ => none⟩

/-- No data, `n` threads. -/
def init (n : Nat) : Conf prog :=
  prog.init ⟨fun _ => false, fun _ => 0, fun _ => none, 0, fun _ => none, fun _ => none, [], []⟩ (.idle none) n

end Verif.OwnerPtr
