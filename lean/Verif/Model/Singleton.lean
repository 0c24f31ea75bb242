import Verif.Model.Basic
/-!
`SafeInitializableSingleton`
(`cpp_utils/include/cpp_utils/types/impl/`).
-/
namespace Verif.Singleton

/-- Static state: `the_ptr_` (the object is the number it was built with) and how many objects were
built so far. -/
structure State where
  ptr : Option Nat := none
  built : Nat := 0
deriving DecidableEq

/-- Public calls.  The construction of `T` is assumed not to throw. -/
inductive Call
  | init
  | get (create : Bool)
deriving DecidableEq

/-- What a call returns. -/
inductive Ret
  | done (success : Bool)
  | inst (obj : Option Nat)
deriving DecidableEq

/-- `initialize_nts_`, SafeInitializableSingleton.ipp:64-78. -/
def initializeNts (s : State) : State × Bool :=
  match s.ptr with
  | none => (⟨some s.built, s.built + 1⟩, true)
  | some _ => (s, false)

/-- One call, atomic under `mtx_`: `initialize` SafeInitializableSingleton.ipp:31-38,
`get_instance` 40-45 and `get_shared_instance` 47-62. -/
def step (s : State) : Call → State × Ret
  | .init => let r := initializeNts s; (r.1, .done r.2)
  | .get create =>
    if s.ptr.isSome || !create then (s, .inst s.ptr)
    else let r := initializeNts s; (r.1, .inst r.1.ptr)

/-- A history of calls and their results. -/
def run (s : State) : List Call → State × List Ret
  | [] => (s, [])
  | c :: cs =>
    let r := step s c
    let q := run r.1 cs
    (q.1, r.2 :: q.2)

end Verif.Singleton
