import Verif.Model.Pool
/-!
`UnboundedPool<T>` (`cpp_utils/include/cpp_utils/pool/impl/UnboundedPool.ipp`) when the functions that a class derived from
it may override throw: `new_element_` (or the constructor of `T`) and `reset_element_`.
-/
namespace Verif.PoolThrow
open Verif.Pool (Pool Config)

/-- How a call ends. -/
inductive Out
  /-- `loan` returned `true` and this element -/
  | lent (e : Nat)
  /-- `return_loan` returned `true` -/
  | returned
  /-- the exception of `new_element_` or `reset_element_` -/
  | thrown
  /-- `InconsistencyException` -/
  | refused
  /-- `back()` of an empty vector -/
  | ub
deriving DecidableEq

/-- `augment_free_values_(n)`, UnboundedPool.ipp:108-122; `fail = some k`: the call number `k` of `new_element_`, counted from
0, throws if it is made: `elements_` has grown by then, and `reserved_` is not changed (117).  `true`: it has thrown. -/
def augment (n : Nat) (fail : Option Nat) (p : Pool) : Pool × Bool :=
  match fail with
  | some k =>
    if k < n then ({ p with free := p.free ++ List.range' p.allocated k, allocated := p.allocated + k }, true)
    else (Pool.augment n p, false)
  | none => (Pool.augment n p, false)

/-- `loan`, UnboundedPool.ipp:64-81. -/
def loan (fail : Option Nat) (p : Pool) : Pool × Out :=
  let r := if p.free.length = 0 then augment p.batch fail p else (p, false)
  if r.2 then (r.1, .thrown)
  else
    match r.1.free.getLast? with
    | some e => ({ r.1 with free := r.1.free.dropLast }, .lent e)
    | none => (r.1, .ub)

/-- `return_loan`, UnboundedPool.ipp:83-100; `fails`: `reset_element_` throws if it is called (96). -/
def returnLoan (fails : Bool) (e : Nat) (p : Pool) : Pool × Out :=
  if p.reserved = p.free.length then (p, .refused)
  else if fails then (p, .thrown)
  else ({ p with free := p.free ++ [e] }, .returned)

/-- The message of the destructor that not every element has been released, UnboundedPool.ipp:50-53. -/
def complains (p : Pool) : Bool := decide (p.free.length ≠ p.reserved)

end Verif.PoolThrow
