/-!
Shared vocabulary of the models.
-/
namespace Verif

/-- Outcome of a C++ call as seen by its caller.  `ub` is undefined behaviour,
kept as a distinct outcome instead of being assumed away; `throw` carries the
name of the exception class. -/
inductive Exc where
  | preconditionNotMet
  | initialization
  | inconsistency
  | valueNotAllowed
  | valueAccess
  | invalidArgument
  | outOfRange
  | timeout
  | disabled
  | unsupported
deriving DecidableEq, Repr

inductive Res (α : Type) where
  | ok (a : α)
  | throw (e : Exc)
  /-- a failed `assert` (builds without `NDEBUG`) or `abort()` -/
  | abort
  | ub
deriving DecidableEq, Repr

/-- Strings whose characters are only compared for equality. -/
abbrev Str := List Char

/-- `c!"abc"` is the explicit list of characters `['a', 'b', 'c']`. -/
macro:max "c!" s:str : term => do
  let cs := s.getString.toList.toArray.map fun c => Lean.Syntax.mkCharLit c
  `([$cs,*])

example : c!"ab" = ['a', 'b'] := rfl

end Verif
