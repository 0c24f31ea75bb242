import Verif.Model.Basic
/-!
`InitializableSingleton` (`cpp_utils/include/cpp_utils/types/impl/InitializableSingleton.ipp`): the static pointer, and who
else shares the object.
-/
namespace Verif.InitSingleton

/-- `the_ptr_` (InitializableSingleton.ipp:26; the object is the number it was built with), how many objects have been
built, and the objects that other shared pointers refer to. -/
structure State where
  ptr : Option Nat
  built : Nat
  held : List Nat
deriving DecidableEq

/-- Before anything is initialized, InitializableSingleton.ipp:25-26. -/
def init : State := ⟨none, 0, []⟩

/-- Calls; `build` is `initialize`; `drop o`: a shared pointer to object `o` is destroyed (InitializableSingleton.ipp:28-47). -/
inductive Op
  | build
  | get
  | share
  | drop (o : Nat)
deriving DecidableEq

/-- What a call returns. -/
inductive Ret
  | done (b : Bool)
  | object (o : Option Nat)
  | void
deriving DecidableEq

/-- One call, InitializableSingleton.ipp:28-47: `initialize` builds a new object, lets go of the present one, and returns
`true`.  (Simplified: the construction does not throw, and there is one thread, as the header asks for.) -/
def step (s : State) : Op → State × Ret
  | .build => (⟨some s.built, s.built + 1, s.held⟩, .done true)
  | .get => (s, .object s.ptr)
  | .share =>
    match s.ptr with
    | some o => ({ s with held := o :: s.held }, .object (some o))
    | none => (s, .object none)
  | .drop o => ({ s with held := s.held.erase o }, .void)

/-- The state after some calls. -/
def run (s : State) (ops : List Op) : State := ops.foldl (fun s op => (step s op).1) s

/-- An object exists while a shared pointer refers to it: `the_ptr_` or one that was given out
(InitializableSingleton.ipp:43-47). -/
def State.alive (s : State) (o : Nat) : Prop := s.ptr = some o ∨ o ∈ s.held

end Verif.InitSingleton
