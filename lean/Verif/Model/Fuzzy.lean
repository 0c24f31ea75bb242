import Verif.Model.Basic
/-!
`Fuzzy<T>`, `cpp_utils/include/cpp_utils/types/impl/Fuzzy.ipp` and `types/Fuzzy.hpp`.
`T`'s own `==` is taken to be equality of values.
-/
namespace Verif.Fuzzy

/-- Levels, Fuzzy.hpp:41-48. -/
def levelUnset : Int := -20
/-- Fuzzy.hpp:44. -/
def levelDefault : Int := 0
/-- Fuzzy.hpp:45. -/
def levelFuzzy : Int := 20
/-- Fuzzy.hpp:46. -/
def levelSet : Int := 40
/-- Fuzzy.hpp:47. -/
def levelHard : Int := 60

/-- A `Fuzzy<T>`: members `value_` and `fuzzy_level_` (a `short`; any integer here). -/
structure Fuzzy (T : Type) where
  value : T
  level : Int
deriving DecidableEq

variable {T : Type} [DecidableEq T]

/-- `is_valid`, Fuzzy.ipp:118-122. -/
def Fuzzy.isValid (f : Fuzzy T) : Bool := levelDefault ≤ f.level

/-- `is_set`, Fuzzy.ipp:124-128. -/
def Fuzzy.isSet (f : Fuzzy T) : Bool := levelFuzzy ≤ f.level

/-- `operator ==(Fuzzy)`, Fuzzy.ipp:59-72. -/
def Fuzzy.eq (a b : Fuzzy T) : Bool :=
  if !a.isSet && !b.isSet then true
  else a.level == b.level && a.value == b.value

/-- `operator ==(T)`, Fuzzy.ipp:74-86. -/
def Fuzzy.eqVal (a : Fuzzy T) (b : T) : Bool :=
  if !a.isValid then false else a.value == b

/-- `operator !=(Fuzzy)`, Fuzzy.ipp:88-93. -/
def Fuzzy.ne (a b : Fuzzy T) : Bool := !(a.eq b)

/-- `operator !=(T)`, Fuzzy.ipp:95-100. -/
def Fuzzy.neVal (a : Fuzzy T) (b : T) : Bool := !(a.eqVal b)

/-- `get_level_as_str`, Fuzzy.ipp:154-188. -/
def Fuzzy.levelStr (f : Fuzzy T) : Str :=
  if f.level = levelUnset then c!"UNSET"
  else if f.level = levelDefault then c!"DEFAULT"
  else if f.level = levelFuzzy then c!"FUZZY"
  else if f.level = levelSet then c!"SET"
  else if f.level = levelHard then c!"HARD"
  else []

/-- The operations that change an object. -/
inductive Op (T : Type)
  | unset
  | setValue (v : T) (level : Int)
  | setLevel (level : Int)
  /-- writing through `operator T&` / `get_reference` / `operator ->` -/
  | write (v : T)

/-- Fuzzy.ipp:194-215 (and 46-50, 130-134 for `write`). -/
def step (f : Fuzzy T) : Op T → Fuzzy T
  | .unset => { f with level := levelUnset }
  | .setValue v l => { value := v, level := l }
  | .setLevel l => { f with level := l }
  | .write v => { f with value := v }

/-- A history of operations. -/
def run (f : Fuzzy T) (ops : List (Op T)) : Fuzzy T := ops.foldl step f

end Verif.Fuzzy
