import Verif.Model.Basic
/-!
One datum of an `OwnerPtr` (`cpp_utils/include/cpp_utils/memory/impl/`) whose deleter may throw, used by any number of
threads through its owner and through lessees.

A call is one step; a call that has to wait for `shared_mutex_` is a step that changes nothing.  That is enough here: what
`Model/OwnerPtr.lean` says about the interleaving of calls is not repeated.  The owner is not given another datum: that is
`reset` with more after it (OwnerPtr.ipp:90-106), which is not reached when `reset` throws or waits.
-/
namespace Verif.OwnerThrow

/-- `data_reference_` of the owner is set, `reference_` is not null, the thread that locked `shared_mutex_`, the number of
shared locks of it (the guards), InternalPtrData.hpp:128-135; not in the code: how often the deleter was called. -/
structure State where
  owned : Bool := true
  alive : Bool := true
  writer : Option Nat := none
  guards : Nat := 0
  deleted : Nat := 0
deriving DecidableEq

/-- Calls; `throws`: the deleter throws if it is called. -/
inductive Call
  /-- `OwnerPtr::reset()` -/
  | reset (throws : Bool)
  /-- `~OwnerPtr`, and `owner = std::move(other)` -/
  | destroy (throws : Bool)
  /-- `operator bool` of the owner -/
  | ownerValid
  /-- `LesseePtr::lock()` -/
  | lock
  /-- `~GuardedPtr` -/
  | unguard
  /-- `operator bool` of a lessee -/
  | valid
deriving DecidableEq

/-- How a call ends; `blocked`: it waits for the mutex; `guard b`: a guard, `b` tells whether it is valid. -/
inductive Out
  | done
  | thrown
  | terminate
  | blocked
  | guard (b : Bool)
  | bool (b : Bool)
  /-- the thread locks a mutex that it has locked already -/
  | ub
deriving DecidableEq

/-- `OwnerPtr::operator bool`, OwnerPtr.ipp:130-136. -/
def ownerValid (s : State) : Bool := s.owned && s.alive

/-- `OwnerPtr::reset()`, OwnerPtr.ipp:79-88, with `release_reference_`, InternalPtrData.ipp:110-120: an exception of the
deleter (116) leaves it before the reference is cleared (117) and the mutex is unlocked (119). -/
def reset (t : Nat) (throws : Bool) (s : State) : State × Out :=
  if ownerValid s = false then (s, .done)
  else if s.writer = some t then (s, .ub)
  else if s.writer ≠ none ∨ s.guards ≠ 0 then (s, .blocked)
  else if throws then ({ s with writer := some t, deleted := s.deleted + 1 }, .thrown)
  else ({ s with owned := false, alive := false, deleted := s.deleted + 1 }, .done)

/-- A call by thread `t`.  The destructor (OwnerPtr.hpp:76, no `noexcept(false)`) and the move assignment (OwnerPtr.hpp:91-92)
are `noexcept`; `lock`: LesseePtr.ipp:53-69; `unguard`: GuardedPtr.ipp:34-42; `valid`: LesseePtr.ipp:88-92. -/
def call (t : Nat) : Call → State → State × Out
  | .reset throws, s => reset t throws s
  | .destroy throws, s =>
    match reset t throws s with
    | (s', .thrown) => (s', .terminate)
    | (s', .done) => ({ s' with owned := false }, .done)
    | r => r
  | .ownerValid, s => (s, .bool (ownerValid s))
  | .lock, s =>
    if s.writer = some t then (s, .ub)
    else if s.writer ≠ none then (s, .blocked)
    else ({ s with guards := s.guards + 1 }, .guard s.alive)
  | .unguard, s => if s.guards = 0 then (s, .ub) else ({ s with guards := s.guards - 1 }, .done)
  | .valid, s => (s, .bool s.alive)

/-- Calls by threads, one after the other; what follows `terminate` does not happen. -/
def run (s : State) : List (Nat × Call) → State
  | [] => s
  | (t, c) :: l => run (call t c s).1 l

end Verif.OwnerThrow
