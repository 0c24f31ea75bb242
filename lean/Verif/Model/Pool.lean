import Verif.Model.Basic
/-!
`UnboundedPool<T>` (`cpp_utils/include/cpp_utils/pool/impl/UnboundedPool.ipp`), not thread safe by
specification.  An element is the number of its allocation: `new_element_` gives memory that is not in use,
and no element is freed before the pool is destroyed.
-/
namespace Verif.Pool

/-- `initial_size` and `batch_size`, IPool.hpp:24-42 (`maximum_size` is not used by the class). -/
structure Config where
  initial : Nat
  batch : Nat

/-- `elements_` (the back of the vector is the end of the list), `reserved_` (UnboundedPool.hpp:119,
`unsigned int`), the number of elements allocated so far, and `configuration_.batch_size`. -/
structure Pool where
  free : List Nat
  reserved : Nat
  allocated : Nat
  batch : Nat
deriving DecidableEq, Repr

/-- `augment_free_values_(n)`, UnboundedPool.ipp:108-122. -/
def augment (n : Nat) (p : Pool) : Pool :=
  { p with free := p.free ++ List.range' p.allocated n, allocated := p.allocated + n,
           reserved := (p.reserved + n) % 2 ^ 32 }

/-- The constructor, UnboundedPool.ipp:30-44, followed, as documented (UnboundedPool.hpp:54-55), by
`initialize_vector_`, 124-128, in the constructor of the derived class. -/
def make (c : Config) : Res Pool :=
  if c.batch < 1 then .throw .initialization else .ok (augment c.initial ⟨[], 0, 0, c.batch⟩)

/-- `loan`, UnboundedPool.ipp:64-81; `back()` of an empty vector is undefined. -/
def loan (p : Pool) : Res (Nat × Pool) :=
  let p := if p.free.length = 0 then augment p.batch p else p
  match p.free.getLast? with
  | some e => .ok (e, { p with free := p.free.dropLast })
  | none => .ub

/-- `return_loan`, UnboundedPool.ipp:83-100. -/
def returnLoan (e : Nat) (p : Pool) : Res Pool :=
  if p.reserved = p.free.length then .throw .inconsistency else .ok { p with free := p.free ++ [e] }

/-- Which version of a virtual member function is called. -/
inductive Version
  | base
  | derived
deriving DecidableEq, Repr

/-- The class whose destructor is running. -/
inductive Class
  | pool
  | derived
deriving DecidableEq, Repr

/-- The version of a virtual member function that a destructor calls: while that of the base class runs the
derived part is already gone and an override is no longer seen ([class.cdtor]). -/
def called (running : Class) (overridden : Bool) : Version :=
  if running = .derived ∧ overridden = true then .derived else .base

/-- The elements deleted by the destructor, UnboundedPool.ipp:46-62, in order, each with the version of
`delete_element_` that is called.  `overridden`: the class of the object overrides `delete_element_`. -/
def destroy (overridden : Bool) (p : Pool) : List (Nat × Version) :=
  p.free.map fun e => (e, called .pool overridden)

end Verif.Pool
