import Verif.Model.Basic

/-!
What `find_package(cmake_utils)` does with the variables of a project: the file `cmake_utils-config.cmake`, made from
`/repo/cmake_utils/loader/cmakeonly-Config.cmake.in`, and `/repo/cmake_utils/loader/load_all.cmake`.
-/
namespace Verif.Loader

/-- The variables of one scope of CMake that the two files read or write: `_cmake_utils_CONFIG_INCLUDED`,
`_cmake_utils_INCLUDED` (whether they are set), `cmake_utils_FOUND`, `CMAKE_MODULE_PATH` and the two
`cmake_utils_…_TEMPLATES_PATH`: `/repo/cmake_utils/loader/cmakeonly-Config.cmake.in:19-30`,
`/repo/cmake_utils/loader/load_all.cmake:16-19, 39-46`. -/
structure Frame where
  configIncluded : Bool := false
  included : Bool := false
  found : Option Bool := none
  modulePath : List Str := []
  configTemplates : Option Str := none
  headerTemplates : Option Str := none
deriving DecidableEq

/-- `load_all.cmake`; `none` is the `FATAL_ERROR` of line 17.  `cmake_utils_DIR` is set by `find_package` itself, so the error of
line 22 is left out, and the functions that the included files define are left out too.
`/repo/cmake_utils/loader/load_all.cmake:16-46`; `data` is `cmake_utils_DATA_DIR`. -/
def loadAll (data : Str) (f : Frame) : Option Frame :=
  if f.included then none
  else some { f with
    included := true
    modulePath := f.modulePath ++ [data ++ c!"/cmake_utils/modules"]
    configTemplates := some (data ++ c!"/cmake_utils/templates/cmake/packaging")
    headerTemplates := some (data ++ c!"/cmake_utils/templates/cpp/library") }

/-- The file `cmake_utils-config.cmake`, `/repo/cmake_utils/loader/cmakeonly-Config.cmake.in:19-51`, whose only extra file is
`load_all.cmake` (`/repo/cmake_utils/CMakeLists.txt:84-86`).  The directory of the data is taken to exist. -/
def config (data : Str) (f : Frame) : Option Frame :=
  if f.configIncluded then
    match f.found with
    | none => some { f with found := some false }
    | some false => some { f with found := some false }
    | some true => some f
  else loadAll data { f with configIncluded := true }

/-- `find_package(cmake_utils)` where the package is installed: CMake removes a `cmake_utils_FOUND` that is false, reads the
file, and sets `cmake_utils_FOUND` to whether the file did not make it false (behaviour of CMake, for
`/repo/cmake_utils/loader/cmakeonly-Config.cmake.in:19-29`). -/
def find (data : Str) (f : Frame) : Option Frame :=
  (config data { f with found := if f.found = some false then none else f.found }).map fun g =>
    { g with found := some (decide (g.found ≠ some false)) }

/-- What a project does: `find_package(cmake_utils)`, `list(APPEND CMAKE_MODULE_PATH …)`, `set(CMAKE_MODULE_PATH …)`,
`set(cmake_utils_FOUND …)` or `unset`, and the begin and end of a function or of a directory (`add_subdirectory`). -/
inductive Cmd
  | find
  | append (dir : Str)
  | assign (dirs : List Str)
  | setFound (b : Option Bool)
  | enter
  | leave
deriving DecidableEq

/-- A project: the scope it is in and those around it, which a new scope begins with a copy of (scopes of CMake;
`PARENT_SCOPE` is left out).  `none` once a file stopped with an error. -/
def step (data : Str) : Frame × List Frame → Cmd → Option (Frame × List Frame)
  | (f, up), .find => (find data f).map fun g => (g, up)
  | (f, up), .append d => some ({ f with modulePath := f.modulePath ++ [d] }, up)
  | (f, up), .assign ds => some ({ f with modulePath := ds }, up)
  | (f, up), .setFound b => some ({ f with found := b }, up)
  | (f, up), .enter => some (f, f :: up)
  | (_, g :: up), .leave => some (g, up)
  | (f, []), .leave => some (f, [])

/-- A whole project. -/
def run (data : Str) (s : Frame × List Frame) : List Cmd → Option (Frame × List Frame)
  | [] => some s
  | c :: cs => match step data s c with
    | none => none
    | some t => run data t cs

end Verif.Loader
