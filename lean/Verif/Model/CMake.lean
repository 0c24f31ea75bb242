import Verif.Model.Basic

/-!
Variables, lists and conditions of the CMake language, as far as the macros of
`/repo/cmake_utils/cmake` use them, with the policies that
`cmake_minimum_required(VERSION 3.5)` selects
(`/repo/cpp_utils/CMakeLists.txt:18`, `/repo/cmake_utils/CMakeLists.txt:18`):
CMP0012, CMP0054 and CMP0057 are NEW, CMP0126 is OLD.

The language itself is not in `/repo`; these definitions follow its manual and
are part of what has to be trusted.  Simplifications: the `[`…`]` grouping and
the backslash escapes of lists are left out, so values with `[`, `]` or `\` are
outside the model, and `strtod` reads decimal numbers only.
-/
namespace Verif.CMake

/-- An entry of the cache.  `typed` is false for `-DNAME=value` without a type,
the only way for an entry to have none.  Used by
`/repo/cmake_utils/cmake/project/cmake_options.cmake:109` and
`/repo/cmake_utils/cmake/project/installation_paths.cmake:30-52`. -/
structure Entry where
  value : Str
  typed : Bool
deriving DecidableEq, Repr

/-- The variables a macro sees: the normal ones of the calling scope and the
cache.  Macros have no scope of their own
(`/repo/cmake_utils/cmake/project/configure_project.cmake:49-86`). -/
structure Env where
  vars : Str → Option Str
  cache : Str → Option Entry

/-- `${X}` and `DEFINED X`: the normal variable, else the cache entry
(`/repo/cmake_utils/cmake/project/cmake_options.cmake:47-102`). -/
def Env.get (e : Env) (x : Str) : Option Str :=
  match e.vars x with
  | some v => some v
  | none => (e.cache x).map Entry.value

/-- Changes the normal variable `x`, `none` removing it. -/
def Env.put (e : Env) (x : Str) (v : Option Str) : Env :=
  { e with vars := fun y => if y = x then v else e.vars y }

/-- The text of `"${X}"`, empty for a variable that is not defined. -/
def Env.text (e : Env) (x : Str) : Str := (e.get x).getD []

/-- The elements of a list that an unquoted `${X}` becomes: split at `;`,
empty elements left out
(`/repo/cmake_utils/cmake/project/load_project_settings.cmake:69`). -/
def elements (v : Str) : List Str :=
  (v.splitOn ';').filter (fun w => !w.isEmpty)

/-- The value made of several arguments: joined with `;`. -/
def joined : List Str → Str
  | [] => []
  | [v] => v
  | v :: vs => v ++ ';' :: joined vs

/-- `set(X args…)`: without arguments the variable is removed
(`/repo/cmake_utils/cmake/project/load_project_settings.cmake:69`). -/
def Env.set (e : Env) (x : Str) (args : List Str) : Env :=
  match args with
  | [] => e.put x none
  | _ => e.put x (some (joined args))

/-- `set(X value CACHE type doc)` with CMP0126 OLD: an entry with a type is left
as it is; otherwise the entry is created, or gets a type and keeps its value,
and the normal variable is removed.  A relative path that gets the type `PATH`
this way would be made absolute; that is left out
(`/repo/cmake_utils/cmake/project/cmake_options.cmake:109`,
`/repo/cmake_utils/cmake/project/installation_paths.cmake:31-50`). -/
def Env.setCache (e : Env) (x : Str) (v : Str) : Env :=
  match e.cache x with
  | some ⟨_, true⟩ => e
  | some ⟨w, false⟩ =>
    { vars := fun y => if y = x then none else e.vars y
      cache := fun y => if y = x then some ⟨w, true⟩ else e.cache y }
  | none =>
    { vars := fun y => if y = x then none else e.vars y
      cache := fun y => if y = x then some ⟨v, true⟩ else e.cache y }

/-- `string(TOUPPER …)`, which knows the ASCII letters only
(`/repo/cmake_utils/cmake/project/load_project_settings.cmake:89`). -/
def upper (v : Str) : Str := v.map Char.toUpper

/-- The constants that are true, whatever the case of their letters. -/
def isOn (v : Str) : Bool :=
  upper v = c!"1" || upper v = c!"ON" || upper v = c!"Y" || upper v = c!"YES" ||
    upper v = c!"TRUE"

/-- The constants that are false; `NOTFOUND` only in capitals. -/
def isOff (v : Str) : Bool :=
  v = [] || upper v = c!"0" || upper v = c!"N" || upper v = c!"NO" || upper v = c!"OFF" ||
    upper v = c!"FALSE" || upper v = c!"IGNORE" || v = c!"NOTFOUND" ||
    (c!"-NOTFOUND").isSuffixOf v

/-- A decimal digit. -/
def isDigit (c : Char) : Bool := decide ('0' ≤ c) && decide (c ≤ '9')

/-- A text without its sign. -/
def unsigned : Str → Str
  | [] => []
  | c :: s => if c = '+' ∨ c = '-' then s else c :: s

/-- The exponent of a number, after its digits: nothing, or `e`, a sign and
digits, up to the end. -/
def isExponent : Str → Bool
  | [] => true
  | c :: s => (c = 'e' || c = 'E') && !(unsigned s).isEmpty && (unsigned s).all isDigit

/-- The digits after the point of a number, if there is one, and what follows. -/
def fraction : Str → Str × Str
  | [] => ([], [])
  | c :: s => if c = '.' then (s.takeWhile isDigit, s.dropWhile isDigit) else ([], c :: s)

/-- `strtod` on a text that is a decimal number as a whole: whether the number
differs from zero; `none` when the text is not such a number. -/
def number (v : Str) : Option Bool :=
  let s := unsigned (v.dropWhile (fun c => c = ' ' || c = '\t' || c = '\n'))
  let whole := s.takeWhile isDigit
  let f := fraction (s.dropWhile isDigit)
  if (whole ++ f.1).isEmpty then none
  else if isExponent f.2 then some ((whole ++ f.1).any (fun c => c ≠ '0'))
  else none

/-- The truth of one unquoted argument of `if`: a constant, a number, or else
the name of a variable, which is true when it is defined and not one of the
constants that are false
(`/repo/cmake_utils/cmake/cpp_common/find_external.cmake:32`,
`/repo/cmake_utils/cmake/project/load_project_settings.cmake:68-142`).  The words
of conditions (`NOT`, `AND`, …) are not arguments in this sense and are outside
the model. -/
def truth (e : Env) (a : Str) : Bool :=
  if isOn a then true
  else if isOff a then false
  else match number a with
    | some b => b
    | none => match e.get a with
      | some v => !isOff v
      | none => false

/-- `if(args…)` for arguments that come from an unquoted `${X}`: none is false,
several are an error
(`/repo/cmake_utils/cmake/cpp_common/find_external.cmake:32`). -/
def ifArgs (e : Env) : List Str → Option Bool
  | [] => some false
  | [a] => some (truth e a)
  | _ => none

/-- `if(${A} OR ${B})`: each side must be one argument; when both are empty the
word `OR` is left alone and is taken as the name of a variable
(`/repo/cmake_utils/cmake/project/cmake_options.cmake:69`). -/
def ifOr (e : Env) (a b : List Str) : Option Bool :=
  match a, b with
  | [], [] => some (truth e c!"OR")
  | [x], [y] => some (truth e x || truth e y)
  | _, _ => none

end Verif.CMake
