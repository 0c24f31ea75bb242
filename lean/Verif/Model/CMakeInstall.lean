import Verif.Model.CMakeTest

/-!
Targets, headers and their installation: `compile_tool`, `compile_library` (what
it does on every platform) and the `PATH` of tests on Windows, from
`/repo/cmake_utils/cmake/compilation` and `/repo/cmake_utils/cmake/test`.  What
the commands of CMake do with targets and files follows its manual.
-/
namespace Verif.CMake

/-! ### headers -/

/-- The names of directories of a relative path; `a//b/` and `a/b` are the same
(`/repo/cmake_utils/cmake/compilation/compile_library.cmake:179-195`). -/
def parts (path : Str) : List Str := (path.splitOn '/').filter (fun w => !w.isEmpty)

/-- The settings `compile_library` uses for headers: `MODULE_NAME`,
`MODULE_HEADERS_PATH`, `MODULE_HEADERS_INSTALL_PATH` and `INCLUDE_INSTALL_DIR`
(`/repo/cmake_utils/cmake/compilation/compile_library.cmake:178-197`). -/
structure Package where
  name : Str
  headersPath : Str
  headersInstallPath : Str
  includeDir : Str
deriving DecidableEq, Repr

/-- The headers `compile_library` makes from templates, in `library`
(`/repo/cmake_utils/cmake/compilation/compile_library.cmake:82-90`). -/
def configHeaders : List Str := [c!"config.h", c!"library_dll.h", c!"eProsima_auto_link.h"]

/-- Whether `install(DIRECTORY … FILES_MATCHING …)` takes a file, by its name
(`/repo/cmake_utils/cmake/compilation/compile_library.cmake:182-185`). -/
def isHeader (name : Str) : Bool :=
  glob c!"*.h" name || glob c!"*.hpp" name || glob c!"*.ipp" name

/-- Where `install(DIRECTORY dir DESTINATION dest)` puts the file `rel` of the
directory: below the last name of the directory, and directly in `dest` when the
text of the directory ends with `/`
(`/repo/cmake_utils/cmake/compilation/compile_library.cmake:179-180`). -/
def installedAt (dir dest : Str) (rel : List Str) : List Str :=
  parts dest ++ (if dir.getLast? = some '/' then [] else (parts dir).getLast?.toList) ++ rel

/-- The files below the include path (`tree`, by the names of their directories)
that are installed, as paths below the prefix
(`/repo/cmake_utils/cmake/compilation/compile_library.cmake:178-186`).  Symbolic
links are left out. -/
def installedTree (m : Package) (tree : List (List Str)) : List (List Str) :=
  (tree.filter fun f => (parts m.headersPath).isPrefixOf f && (f.drop (parts m.headersPath).length).getLast?.any isHeader).map
    fun f => installedAt m.headersPath m.includeDir (f.drop (parts m.headersPath).length)

/-- The headers from templates as they are installed
(`/repo/cmake_utils/cmake/compilation/compile_library.cmake:188-197`). -/
def installedConfig (m : Package) : List (List Str) :=
  configHeaders.map fun x => parts m.includeDir ++ parts m.headersInstallPath ++ [c!"library", x]

/-- `#include <n>` in the sources of a target that is linked to the library in the
same build: the include directories are the include path, that of the module in
it, the same for the files made from templates, and the source path.
`/repo/cmake_utils/cmake/compilation/compile_library.cmake:81-90,123-130`. -/
def foundInBuild (m : Package) (tree src : List (List Str)) (n : List Str) : Bool :=
  tree.contains n || tree.contains (m.name :: n) || src.contains n ||
    configHeaders.any (fun x => n = [m.name, c!"library", x] || n = [c!"library", x])

/-- `#include <n>` in the sources of a target that is linked to the installed
library: the only include directory is `include` below the prefix
(`/repo/cmake_utils/cmake/compilation/compile_library.cmake:131`; the settings
`MODULE_PUBLIC_EXTRA_HEADERS` are left out). -/
def foundInstalled (m : Package) (tree : List (List Str)) (n : List Str) : Bool :=
  (installedTree m tree).contains (c!"include" :: n) || (installedConfig m).contains (c!"include" :: n)

/-! ### targets -/

/-- What a target has. -/
structure Target where
  executable : Bool
  sources : List Str
  includes : List Str
  outputName : Str
  definitions : List Str
  links : List Str
  installed : List Str
deriving DecidableEq, Repr

/-- The targets there are. -/
abbrev Targets := Str → Option Target

/-- A change of one target. -/
def Targets.put (ts : Targets) (n : Str) (t : Target) : Targets := fun m => if m = n then some t else ts m

/-- `add_executable` and `add_library`: an error if the target exists or there is no
source
(`/repo/cmake_utils/cmake/compilation/compile_tool.cmake:58`,
`/repo/cmake_utils/cmake/compilation/compile_library.cmake:93`). -/
def Targets.add (ts : Targets) (n : Str) (executable : Bool) (sources : List Str) : Option Targets :=
  if (ts n).isSome || sources.isEmpty then none
  else some (ts.put n ⟨executable, sources, [], n, [], [], []⟩)

/-- `target_include_directories` and other commands that change a target: an error
if there is none
(`/repo/cmake_utils/cmake/compilation/compile_tool.cmake:61-89`). -/
def Targets.change (ts : Targets) (n : Str) (f : Target → Target) : Option Targets :=
  match ts n with
  | none => none
  | some t => some (ts.put n (f t))

/-- The definitions for `LOG_INFO`
(`/repo/cmake_utils/cmake/compilation/compile_tool.cmake:70-75`). -/
def logDefinitions (e : Env) (n : Str) (ts : Targets) : Option Targets :=
  if truth e c!"LOG_INFO" then
    ts.change n fun t =>
      { t with definitions := t.definitions ++ [c!"FASTDDS_ENFORCE_LOG_INFO", c!"HAVE_LOG_NO_INFO=0"] }
  else some ts

/-- The include directories, which go to the target with the name of the project
(`/repo/cmake_utils/cmake/compilation/compile_tool.cmake:60-62`). -/
def toolIncludes (e : Env) (includes : Str) (ts : Targets) : Option Targets :=
  if includes = [] then some ts
  else ts.change (e.text c!"PROJECT_NAME") fun t => { t with includes := t.includes ++ elements includes }

/-- `compile_tool`: `found` are the sources that `GLOB_RECURSE` finds, `sources`
and `includes` the second and third argument
(`/repo/cmake_utils/cmake/compilation/compile_tool.cmake:25-92`). -/
def compileTool (e : Env) (found : List Str) (sources includes : Str) (ts : Targets) : Option Targets :=
  if truth e c!"BUILD_TOOL" then
    match e.get c!"MODULE_NAME" with
    | none => none
    | some n => do
      let ts ← ts.add n true (if sources = [] then found else elements sources)
      let ts ← toolIncludes e includes ts
      let ts ← ts.change n fun t => { t with outputName := e.text c!"MODULE_TARGET_NAME" }
      let ts ← logDefinitions e n ts
      let ts ← ts.change n fun t => { t with links := t.links ++ elements (e.text c!"MODULE_DEPENDENCIES") }
      ts.change n fun t => { t with installed := t.installed ++ elements (e.text c!"BIN_INSTALL_DIR") }
  else some ts

/-- `compile_library`, without headers and without MSVC: the version of the library
and the include directories of `foundInBuild` are left out
(`/repo/cmake_utils/cmake/compilation/compile_library.cmake:27-139,202-208`). -/
def compileLibrary (e : Env) (found : List Str) (sources : Str) (ts : Targets) : Option Targets :=
  if truth e c!"BUILD_LIBRARY" then
    match e.get c!"MODULE_NAME" with
    | none => none
    | some n => do
      let ts ← ts.add n false (if sources = [] then found else elements sources)
      let ts ← ts.change n fun t =>
        { t with definitions := t.definitions ++ [e.text c!"MODULE_MACRO" ++ c!"_SOURCE"] }
      let ts ← logDefinitions e n ts
      let ts ← ts.change n fun t => { t with links := t.links ++ elements (e.text c!"MODULE_DEPENDENCIES") }
      ts.change n fun t => { t with installed := t.installed ++ elements (e.text c!"LIB_INSTALL_DIR") }
  else some ts

/-! ### the `PATH` of tests on Windows -/

/-- What is known of a target: whether it is an `INTERFACE_LIBRARY`, its property
`LINK_LIBRARIES`, if set (imported targets have none), and
`INTERFACE_LINK_LIBRARIES`
(`/repo/cmake_utils/cmake/test/test_requirements.cmake:28-35`). -/
structure Linked where
  isInterface : Bool
  links : Option (List Str)
  passedOn : List Str
deriving DecidableEq, Repr

/-- The targets there are; other names are files, flags or expressions. -/
abbrev Graph := Str → Option Linked

/-- `$<TARGET_FILE_DIR:l>` (`/repo/cmake_utils/cmake/test/test_requirements.cmake:38`). -/
def fileDir (l : Str) : Str := c!"$<TARGET_FILE_DIR:" ++ l ++ c!">"

/-- One element of the loop: `path` is `LOCAL_PATH`, `inner` the recursive call
(`/repo/cmake_utils/cmake/test/test_requirements.cmake:30-52`). -/
def pathStep (g : Graph) (inner : Str → Option (List Str)) (path : List Str) (l : Str) : Option (List Str) :=
  match g l with
  | none => some path
  | some t =>
    if t.isInterface then some path
    else match inner l with
      | none => none
      | some deps => some (deps ++ fileDir l :: path)

/-- `get_win32_path_dependencies` with `EXTRA_PATHS`, as a list; `none` when calls
are nested too deeply (`CMAKE_MAXIMUM_RECURSION_DEPTH`), which is an error, and for
a target that does not exist.
`/repo/cmake_utils/cmake/test/test_requirements.cmake:22-67`. -/
def extraPaths (g : Graph) : Nat → Str → Option (List Str)
  | 0, _ => none
  | n + 1, goal =>
    match g goal with
    | none => none
    | some t => (t.links.getD []).foldlM (pathStep g (extraPaths g n)) []

/-- `list(REMOVE_DUPLICATES)`: the first of equal elements stays
(`/repo/cmake_utils/cmake/test/test_requirements.cmake:57`). -/
def withoutDuplicates : List Str → List Str
  | [] => []
  | x :: xs => x :: (withoutDuplicates xs).filter (· ≠ x)

/-- The value of `PATH` for a test: the directories, then those of the environment
(`/repo/cmake_utils/cmake/test/test_requirements.cmake:55-59`).  An empty list of
directories leaves an empty element in front.  Entries that end with a backslash,
which would join with the next, are left out. -/
def testPath (g : Graph) (depth : Nat) (env : List Str) (goal : Str) : Option (List Str) :=
  (extraPaths g depth goal).map fun p => withoutDuplicates ((if p = [] then [[]] else p) ++ env)

/-- The entries of `ctest` with the `PATH` they are run with on Windows
(`/repo/cmake_utils/cmake/test/test_target.cmake:60-87`). -/
def testEntryPaths (g : Graph) (depth : Nat) (env : List Str) (goal suite testList : Str) :
    Option (List (TestEntry × List Str)) :=
  (testPath g depth env goal).map fun p =>
    (testEntries suite testList).map fun t => (t, if t.filter.isSome then p else env)

/-! ### the package of an installed library -/

/-- The file with the exported targets, as installed
(`/repo/cmake_utils/cmake/compilation/compile_library.cmake:202-213`). -/
def targetsFile (e : Env) : List Str :=
  parts (e.text c!"LIB_INSTALL_DIR") ++ [c!"cmake", e.text c!"MODULE_NAME", e.text c!"MODULE_NAME" ++ c!"-targets.cmake"]

/-- The directory of the configuration of the package, where `find_package` finds it
by the name of the module
(`/repo/cmake_utils/cmake/compilation/compile_library.cmake:257-283`). -/
def configDir (e : Env) : List Str :=
  parts (e.text c!"MODULE_LIB_INSTALL_DIR") ++ [c!"cmake", e.text c!"MODULE_NAME"]

/-- The file that the configuration includes, from its own directory
(`/repo/cmake_utils/templates/cmake/packaging/library-Config.cmake.in:33`). -/
def includedFile (e : Env) : List Str :=
  configDir e ++ [e.text c!"PROJECT_NAME" ++ c!"-targets.cmake"]

/-- What a project has found so far: the packages and the targets. -/
structure Finder where
  packages : List Str
  targets : List Str
deriving DecidableEq, Repr

/-- `if(NOT x_FOUND) find_package(x) endif()`; `offers x` are the targets of the
package `x`, `none` if it is not installed, which is no error without `REQUIRED`
(`/repo/cmake_utils/templates/cmake/packaging/library-Config.cmake.in:25-31`). -/
def Finder.also (f : Finder) (offers : Str → Option (List Str)) (x : Str) : Finder :=
  if x ∈ f.packages then f
  else match offers x with
    | none => f
    | some ts => ⟨x :: f.packages, ts ++ f.targets⟩

/-- `find_package` of an installed library.  `needed` are those of its dependencies
that were targets when it was built: the file that CMake generates for the export
says that the package is not found if one is missing.  `none` is an error: the file
included does not exist.  The checks of directories before are left out.
`/repo/cmake_utils/templates/cmake/packaging/library-Config.cmake.in:15-33`. -/
def findLibrary (e : Env) (needed : List Str) (offers : Str → Option (List Str)) (f : Finder) : Option Finder :=
  if includedFile e = targetsFile e then
    let f := (f.also offers c!"fastcdr").also offers c!"fastdds"
    if needed.all (f.targets.contains ·) then
      some ⟨e.text c!"MODULE_NAME" :: f.packages, e.text c!"MODULE_NAME" :: f.targets⟩
    else some f
  else none

end Verif.CMake
