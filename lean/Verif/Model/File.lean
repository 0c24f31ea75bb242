import Verif.Model.Strings
/-!
`cpp_utils/src/cpp/file/file_utils.cpp`.
-/
namespace Verif.File
open Verif.Strings

/-- The sequence of strings produced by `while (getline(file, line))` on a file with
the given content: `getline` removes the newline, and fails when the end of the file
is reached without reading a character.  `cur` is the line being read and `some'`
whether a character of it has been extracted. -/
def getLines : Str → Str → Bool → List Str
  | [], cur, started => if started then [cur] else []
  | c :: cs, cur, _ => if c = '\n' then cur :: getLines cs [] false else getLines cs (cur ++ [c]) true

/-- `strip_str(line)` with default arguments (utils.cpp:288-299), run with an iteration
bound that is sufficient (`Props/Strings.C10_strip` shows that it returns). -/
def strip (s : Str) : Option Str :=
  defaultUndesired.foldl
    (fun acc u => acc.bind fun st => (replaceAllFuel u [] (st.length + 1) st 0).map (·.2)) (some s)

/-- Body of the loop of `file_to_strings`, file_utils.cpp:61-72. -/
def keepLine (stripChars stripEmpty : Bool) (acc : List Str) (line : Str) : Option (List Str) :=
  (if stripChars then strip line else some line).map fun l =>
    if stripEmpty && l.isEmpty then acc else acc ++ [l]

/-- `file_to_strings`, file_utils.cpp:44-75.  `file = none` when it cannot be opened. The
outer `Option` is the iteration bound of `strip`. -/
def fileToStrings (file : Option Str) (stripChars stripEmpty : Bool) : Option (Res (List Str)) :=
  match file with
  | none => some (.throw .preconditionNotMet)
  | some content =>
    ((getLines content [] false).foldl
      (fun acc l => acc.bind fun r => keepLine stripChars stripEmpty r l) (some [])).map .ok

/-- `file_to_string`, file_utils.cpp:29-42. -/
def fileToString (file : Option Str) (stripChars : Bool) : Option (Res Str) :=
  (fileToStrings file stripChars false).map fun
    | .ok ls => .ok (ls.foldl (fun r st => r ++ (st ++ ['\n'])) [])
    | .throw e => .throw e
    | .abort => .abort
    | .ub => .ub

end Verif.File
