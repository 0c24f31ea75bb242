import Verif.Model.Heritable
/-!
Who deletes the object of a `Heritable<T>`, and how
(`cpp_utils/include/cpp_utils/memory/impl/Heritable.ipp`:32-96).  `Verif.Model.Heritable` has what Heritables refer to;
here is what it leaves out: the control blocks of `std::shared_ptr`.  A Heritable made from a raw pointer makes a new
control block; copies, moves and conversions to other classes (also `static_pointer_cast`) share it; when the last of
them goes, the object is deleted as an object of the class with which the block was made.  `Heritable<T>(U* ptr)`
converts the pointer to `T*` before the `std::shared_ptr` sees it (Heritable.ipp:43), so that this class is `T`, not `U`.

`K` are the classes.
-/
namespace Verif.Heritable.Own

/-- An object: the class it was made with, and the classes as which it has been deleted, in order (once is right, twice
is undefined behaviour); the pointee of `data_ptr_`, Heritable.hpp:137-138. -/
structure Obj (K : Type) where
  cls : K
  deletes : List K
deriving DecidableEq

/-- A control block of `std::shared_ptr<T>` (Heritable.hpp:138): its object, the class `T`, whether some pointer shares
it. -/
structure Block (K : Type) where
  obj : Nat
  cls : K
  live : Bool
deriving DecidableEq

/-- Objects, control blocks and Heritables made so far: a Heritable is destroyed (`none`), empty (`some none`) or has a
block.  Heritable.hpp:138. -/
structure State (K : Type) where
  objs : List (Obj K)
  blocks : List (Block K)
  handles : List (Option (Option Nat))
deriving DecidableEq

variable {K : Type}

/-- Whether some Heritable shares the block, as its `use_count` tells (Heritable.hpp:138). -/
def State.used (s : State K) (b : Nat) : Bool := s.handles.any fun h => h == some (some b)

/-- A pointer to the block has gone: the last one deletes the object, Heritable.ipp:77-96. -/
def release (s : State K) : Option Nat → State K
  | none => s
  | some b =>
    if s.used b then s
    else
      match s.blocks[b]? with
      | none => s
      | some x =>
        { s with
          objs := s.objs.modify x.obj fun o => { o with deletes := o.deletes ++ [x.cls] }
          blocks := s.blocks.set b { x with live := false } }

/-- What a program does. -/
inductive Op (K : Type)
  /-- `new d`, by the user or in `make_heritable`, Heritable.ipp:187-193 -/
  | new (d : K)
  /-- `Heritable<k>(ptr)`, Heritable.ipp:32-45 -/
  | adopt (o : Nat) (k : K)
  /-- `Heritable<k>(other)`, Heritable.ipp:47-52, 61-67; also the move to another class (69-75) before C++20, where
  `std::static_pointer_cast` copies -/
  | copy (h : Nat)
  /-- `Heritable<k>(std::move(other))`, Heritable.ipp:54-59, and 69-75 since C++20 -/
  | move (h : Nat)
  /-- `h = other`, Heritable.ipp:77-83 -/
  | assign (h other : Nat)
  /-- `h = std::move(other)`, Heritable.ipp:85-91 -/
  | moveAssign (h other : Nat)
  /-- destructor, Heritable.ipp:93-96 -/
  | drop (h : Nat)

/-- Effect, `none` for what cannot be written (no such object or Heritable), Heritable.ipp:32-96. -/
def step (s : State K) : Op K → Option (State K)
  | .new d => some { s with objs := s.objs ++ [⟨d, []⟩] }
  | .adopt o k =>
    if o < s.objs.length then
      some { s with blocks := s.blocks ++ [⟨o, k, true⟩], handles := s.handles ++ [some (some s.blocks.length)] }
    else none
  | .copy h =>
    match s.handles[h]? with
    | some (some x) => some { s with handles := s.handles ++ [some x] }
    | _ => none
  | .move h =>
    match s.handles[h]? with
    | some (some x) => some { s with handles := s.handles.set h (some none) ++ [some x] }
    | _ => none
  | .assign h g =>
    match s.handles[h]?, s.handles[g]? with
    | some (some x), some (some y) => some (release { s with handles := s.handles.set h (some y) } x)
    | _, _ => none
  | .moveAssign h g =>
    match s.handles[h]?, s.handles[g]? with
    | some (some x), some (some y) =>
      if h = g then some s
      else some (release { s with handles := (s.handles.set g (some none)).set h (some y) } x)
    | _, _ => none
  | .drop h =>
    match s.handles[h]? with
    | some (some x) => some (release { s with handles := s.handles.set h none } x)
    | _ => none

/-- Histories, Heritable.ipp:32-96. -/
def run (s : State K) : List (Op K) → Option (State K)
  | [] => some s
  | op :: ops => (step s op).bind fun s' => run s' ops

/-- Nothing yet, Heritable.hpp:138. -/
def empty (K : Type) : State K := ⟨[], [], []⟩

/-- The objects given to constructors of Heritables, and the classes of those, Heritable.ipp:32-45. -/
def adopted : List (Op K) → List (Nat × K)
  | [] => []
  | .adopt o k :: ops => (o, k) :: adopted ops
  | _ :: ops => adopted ops

end Verif.Heritable.Own
