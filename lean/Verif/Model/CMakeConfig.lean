import Verif.Model.CMakeProject

/-!
The header `config.h` that `compile_library` makes of `/repo/cmake_utils/templates/cpp/library/config.h.in`, with the version and
the commit that `configure_project` finds.
-/
namespace Verif.CMake

/-- `configure_project` reads the commit unless it is set: `git rev-parse HEAD` in `CMAKE_SOURCE_DIR`, the directory CMake
was started with.  `head` is the text git prints, without the blanks at its end; it is empty where there is no repository.
`/repo/cmake_utils/cmake/project/configure_project.cmake:72-75`, `/repo/cmake_utils/cmake/project/read_commit_hash.cmake:27-37`. -/
def configureHash (e : Env) (top : Str) (head : Str → Str) : Env :=
  if (e.get c!"MODULE_COMMIT_HASH").isSome then e else e.put c!"MODULE_COMMIT_HASH" (some (head top))

/-- A text split at its points. -/
def dots : Str → List Str
  | [] => [[]]
  | c :: s =>
    if c = '.' then [] :: dots s
    else match dots s with
      | [] => [[c]]
      | w :: ws => (c :: w) :: ws

/-- A component of a version as CMake writes it: without zeros in front (policy CMP0096 is OLD with
`cmake_minimum_required(VERSION 3.5)`, `/repo/cpp_utils/CMakeLists.txt:18`).  Simplified: the numbers are not bounded. -/
def stripZeros : Str → Str
  | [] => []
  | [c] => [c]
  | c :: d :: s => if c = '0' then stripZeros (d :: s) else c :: d :: s

/-- `project(… VERSION ${MODULE_VERSION} …)`, `/repo/cpp_utils/CMakeLists.txt:39-47`: the version must be one to four
numbers with points between.  Simplified: a version that is a list, or empty, is an error. -/
def project (e : Env) : Option Env :=
  let v := e.text c!"MODULE_VERSION"
  let l := dots v
  if (l.all fun w => !w.isEmpty && w.all isDigit) && decide (l.length ≤ 4) then
    some (((e.put c!"PROJECT_VERSION_MAJOR" (some (stripZeros (l.getD 0 [])))).put
      c!"PROJECT_VERSION_MINOR" (some (stripZeros (l.getD 1 [])))).put
      c!"PROJECT_VERSION_PATCH" (some (stripZeros (l.getD 2 []))))
  else none

/-- The macros that `config.h` defines where they are not defined yet, with their texts: `configure_file` replaces `@X@` by
the value of `X`.  `/repo/cmake_utils/templates/cpp/library/config.h.in:18-32`,
`/repo/cmake_utils/cmake/compilation/compile_library.cmake:82-84`. -/
def configHeader (e : Env) : List (Str × Str) :=
  let m := e.text c!"MODULE_MACRO"
  [(m ++ c!"_VERSION_MAJOR", e.text c!"PROJECT_VERSION_MAJOR"),
    (m ++ c!"_VERSION_MINOR", e.text c!"PROJECT_VERSION_MINOR"),
    (m ++ c!"_VERSION_MICRO", e.text c!"PROJECT_VERSION_PATCH"),
    (m ++ c!"_VERSION_STRING", '"' :: e.text c!"MODULE_VERSION_STRING" ++ c!"\""),
    (m ++ c!"_COMMIT_HASH", '"' :: e.text c!"MODULE_COMMIT_HASH" ++ c!"\"")]

/-- The variables of a module after `configure_project` and `project`, with the content of its `VERSION` file; the rest of
`configure_project` leaves the variables of `config.h` alone.  `/repo/cpp_utils/CMakeLists.txt:36-47`,
`/repo/cmake_utils/cmake/project/configure_project.cmake:62-75`. -/
def configured (e : Env) (content top : Str) (head : Str → Str) : Option Env :=
  (configureVersion e content).bind fun e => project (configureHash e top head)

end Verif.CMake
