import Verif.Model.Basic
/-!
`Builder` / `EnumBuilder` (`cpp_utils/include/cpp_utils/types/impl/Builder.ipp`,
`enum/impl/EnumBuilder.ipp`) and the macro `ENUMERATION_BUILDER`
(`macros/custom_enumeration.hpp`, `macros/recursive_macros.hpp`).
-/
namespace Verif.Builder

variable {K V : Type} [DecidableEq K]

/-- A `std::map<Key, Value>` as a partial function. -/
abbrev Map (K V : Type) := K → Option V

/-- `m[k] = v`. -/
def Map.assign (m : Map K V) (k : K) (v : V) : Map K V := fun j => if j = k then some v else m j

/-- `indexed_map_from_values_to_keys_`, Builder.ipp:93-106.  The `std::map<Value, std::set<Key>>` is
the list of its pairs in increasing order of the value. -/
def indexed (values : List (V × List K)) : Map K V :=
  values.foldl (fun m it => it.2.foldl (fun m k => m.assign k it.1) m) (fun _ => none)

/-- `find(key, return_value)`, Builder.ipp:58-73: the boolean and the final content of
`return_value`, whose content before is `old`. -/
def find (values : Map K V) (key : K) (old : V) : Bool × V :=
  match values key with
  | some v => (true, v)
  | none => (false, old)

/-- `find(key)`, Builder.ipp:75-91; `garbage` is the uninitialised local. -/
def findThrow (values : Map K V) (key : K) (garbage : V) : Res V :=
  let r := find values key garbage
  if r.1 then .ok r.2 else .throw .valueNotAllowed

/-! ### the enumeration macro -/

/-- A macro argument: the placeholder `dummy`, a number of the macro's own list, or a user argument. -/
inductive Arg (A : Type)
  | dummy
  | num (n : Nat)
  | user (a : A)
deriving DecidableEq

/-- The numbers 18, 17, ..., 0 of recursive_macros.hpp:49-50. -/
def countdown : List Nat := [18, 17, 16, 15, 14, 13, 12, 11, 10, 9, 8, 7, 6, 5, 4, 3, 2, 1, 0]

/-- `COUNT_ARGUMENTS`, recursive_macros.hpp:37-63: the twentieth of `dummy, args..., 18, ..., 0`
(`none` when there is no twentieth: the macro does not expand). -/
def countArguments {A : Type} (args : List A) : Option (Arg A) :=
  (Arg.dummy :: (args.map Arg.user ++ countdown.map Arg.num))[19]?

/-- The `_FE_n` macros, recursive_macros.hpp:75-92: `_FE_n` applies the action to the first argument
and hands the rest to `_FE_(n-1)`; `none` when the number of arguments does not fit. -/
def forEach {A : Type} : Nat → List A → Option (List A)
  | 1, [x] => some [x]
  | n + 2, x :: y :: rest => (forEach (n + 1) (y :: rest)).map (x :: ·)
  | _, _ => none

/-- `APPLY_MACRO_FOR_EACH`, recursive_macros.hpp:100-119: the nineteenth of `args..., _FE_18, ...,
_FE_1` is the macro that is applied. -/
def applyForEach {A : Type} (args : List A) : Option (List A) :=
  match (args.map Arg.user ++ (countdown.dropLast).map Arg.num : List (Arg A))[18]? with
  | some (Arg.num n) => forEach n args
  | _ => none

/-- An enumeration made by `ENUMERATION_BUILDER(name, args...)`, custom_enumeration.hpp:58-112: the
array of names and the number of values. -/
structure Enum where
  names : List Str
  count : Nat

/-- Expansion of the macro; `none` when it does not compile (no argument: `static_assert` of line 61;
too many arguments: `COUNT_ARGUMENTS` is not a number; repeated names: an enumerator cannot be
declared twice, line 64). -/
def enumeration (args : List Str) : Option Enum :=
  match countArguments args, applyForEach args with
  | some (Arg.num n), some names =>
    if n = 0 then none else if args.Nodup then some ⟨names, n⟩ else none
  | _, _ => none

/-- `to_string`, custom_enumeration.hpp:72-73; the enumerator is its index. -/
def Enum.toString (e : Enum) (i : Nat) : Option Str := e.names[i]?

/-- `string_to_enumeration`, custom_enumeration.hpp:79-84: first index with that name, `none` for
`false`. -/
def Enum.stringToEnum (e : Enum) (s : Str) : Option Nat :=
  (List.range e.count).find? fun i => e.names[i]? == some s

/-- `from_string`, custom_enumeration.hpp:87-93. -/
def Enum.fromString (e : Enum) (s : Str) : Res Nat :=
  match e.stringToEnum s with
  | some i => .ok i
  | none => .throw .initialization

/-- `all_values`, custom_enumeration.hpp:103-108. -/
def Enum.allValues (e : Enum) : List Nat := List.range e.count

end Verif.Builder
