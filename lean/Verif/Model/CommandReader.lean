import Verif.Model.Strings
/-!
Argument parsing of `CommandReader`
(`cpp_utils/include/cpp_utils/user_interface/impl/CommandReader.ipp`).
-/
namespace Verif.CommandReader

/-- CommandReader.ipp:78-79: the text pushed for `joined`; `substr(1, size - tmp)` with the length
computed in `size_t`. -/
def emit (joined : Str) : Str :=
  let tmp := if joined.getLast? = some '"' then 2 else 1
  let count := (joined.length + (18446744073709551616 - tmp)) % 18446744073709551616
  (joined.drop 1).take count

/-- The loops of `join_quoted_strings`, CommandReader.ipp:54-88.  `none`: between arguments; `some j`:
inside the inner loop (lines 67-71) with `joined = j`, which does not end with a quote. -/
def joinLoop : Option Str → List Str → List Str
  | none, [] => []
  | some j, [] => [emit j]
  | none, t :: ts =>
    if t.head? = some '"' then
      if t.getLast? = some '"' then emit t :: joinLoop none ts else joinLoop (some t) ts
    else t :: joinLoop none ts
  | some j, t :: ts =>
    let j' := j ++ ' ' :: t
    if j'.getLast? = some '"' then emit j' :: joinLoop none ts else joinLoop (some j') ts

/-- The arguments of a line, CommandReader.ipp:45-47. -/
def arguments (line : Str) : Option (List Str) :=
  (Strings.split line [' ']).map (joinLoop none)

end Verif.CommandReader
