import Verif.Model.Basic
/-!
`Heritable<T>` (`cpp_utils/include/cpp_utils/memory/impl/Heritable.ipp`): shared objects with their class.

`V` are the values of objects, `K` the classes.  `std::shared_ptr` is taken as the standard describes it: an object
is destroyed as soon as no pointer refers to it; a pointer that was moved from is empty.
-/
namespace Verif.Heritable

/-- An object: value, the class it was made with, whether it still exists (the pointee of `data_ptr_`,
Heritable.hpp:137-138). -/
structure Obj (V K : Type) where
  value : V
  cls : K
  alive : Bool

/-- A `Heritable<T>`: `T`, and the object of `data_ptr_` (`none`: empty), Heritable.hpp:42-43, 138. -/
structure Handle (K : Type) where
  cls : K
  target : Option Nat

/-- Objects made so far, and the Heritables made so far (`none`: destroyed). -/
structure State (V K : Type) where
  objs : List (Obj V K)
  handles : List (Option (Handle K))

variable {V K : Type}

/-- The object of a Heritable. -/
def State.target (s : State V K) (h : Nat) : Option Nat :=
  match s.handles[h]? with
  | some (some x) => x.target
  | _ => none

/-- Whether some Heritable refers to the object. -/
def State.used (s : State V K) (o : Nat) : Bool :=
  s.handles.any fun
    | some x => x.target == some o
    | none => false

/-- Objects to which nothing refers are destroyed. -/
def State.collect (s : State V K) : State V K :=
  { s with objs := s.objs.mapIdx fun i o => { o with alive := o.alive && s.used i } }

/-- Calls. -/
inductive Op (V K : Type)
  /-- `Heritable<k>(new d(v))`, Heritable.ipp:32-45; with `d = k` also `make_heritable`, Heritable.ipp:187-193 -/
  | make (v : V) (d k : K)
  /-- `Heritable<k>(nullptr)`, Heritable.ipp:32-37 -/
  | null (k : K)
  /-- `Heritable<k>(other)`, Heritable.ipp:47-52, 61-67.  Also the move to another class (69-75) before C++20, where
  `static_pointer_cast` copies the pointer of an rvalue too. -/
  | copy (h : Nat) (k : K)
  /-- `Heritable<k>(std::move(other))`, Heritable.ipp:54-59, and 69-75 since C++20 -/
  | move (h : Nat) (k : K)
  /-- `h = other`, Heritable.ipp:77-83; an `other` of another class is converted first (61-75) -/
  | assign (h other : Nat)
  /-- `h = std::move(other)`, Heritable.ipp:85-91; with itself nothing changes, as for `std::shared_ptr` -/
  | moveAssign (h other : Nat)
  /-- a change of the object through `operator ->`, `operator *` or `get_reference`, Heritable.ipp:102-112, 150-154 -/
  | write (h : Nat) (v : V)
  /-- destructor, Heritable.ipp:93-96 -/
  | drop (h : Nat)

/-- Effect of a call, `none` if it is not allowed: the Heritable does not exist, or an empty one is used (undefined
behaviour).  `related d k`: `static_cast` between the two classes compiles. -/
def step (related : K → K → Bool) (s : State V K) : Op V K → Option (State V K)
  | .make v d k =>
    if related d k then
      some { objs := s.objs ++ [⟨v, d, true⟩], handles := s.handles ++ [some ⟨k, some s.objs.length⟩] }
    else none
  | .null k => some { s with handles := s.handles ++ [some ⟨k, none⟩] }
  | .copy h k =>
    match s.handles[h]? with
    | some (some x) =>
      if related x.cls k then some { s with handles := s.handles ++ [some ⟨k, x.target⟩] } else none
    | _ => none
  | .move h k =>
    match s.handles[h]? with
    | some (some x) =>
      if related x.cls k then
        some { s with handles := s.handles.set h (some { x with target := none }) ++ [some ⟨k, x.target⟩] }
      else none
    | _ => none
  | .assign h g =>
    match s.handles[h]?, s.handles[g]? with
    | some (some x), some (some y) =>
      if related y.cls x.cls then
        some (State.collect { s with handles := s.handles.set h (some { x with target := y.target }) })
      else none
    | _, _ => none
  | .moveAssign h g =>
    match s.handles[h]?, s.handles[g]? with
    | some (some x), some (some y) =>
      if related y.cls x.cls then
        if h = g then some s
        else some (State.collect { s with
          handles := (s.handles.set g (some { y with target := none })).set h (some { x with target := y.target }) })
      else none
    | _, _ => none
  | .write h v =>
    match s.target h with
    | some o => some { s with objs := s.objs.modify o fun x => { x with value := v } }
    | none => none
  | .drop h =>
    match s.handles[h]? with
    | some (some _) => some (State.collect { s with handles := s.handles.set h none })
    | _ => none

/-- Histories. -/
def run (related : K → K → Bool) (s : State V K) : List (Op V K) → Option (State V K)
  | [] => some s
  | op :: h => (step related s op).bind fun s' => run related s' h

/-- Nothing yet. -/
def empty (V K : Type) : State V K := ⟨[], []⟩

/-- The object read through a Heritable (`operator *`, Heritable.ipp:108-112); `none` for an empty one (undefined behaviour). -/
def State.read (s : State V K) (h : Nat) : Option V := (s.target h).bind fun o => s.objs[o]?.map Obj.value

/-- `operator ==` and `operator <` of two Heritables, Heritable.ipp:118-144, given that of `T`. -/
def compare (s : State V K) (f : V → V → Bool) (h g : Nat) : Option Bool :=
  (s.read h).bind fun a => (s.read g).map fun b => f a b

/-- `can_cast<k>`, Heritable.ipp:160-181: `sub` is the relation of derived classes. -/
def canCast (sub : K → K → Bool) (s : State V K) (h : Nat) (k : K) : Option Bool :=
  (s.target h).bind fun o => s.objs[o]?.map fun x => sub x.cls k

end Verif.Heritable
