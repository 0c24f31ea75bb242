import Verif.Model.CMakeProject

/-!
What the macros of `cmake_utils` build of a module, by the options of the user: `compile_library`, `compile_tool`,
`compile_documentation` and the three macros for tests; what `ctest` runs of it and what packages have of the documentation.
-/
namespace Verif.CMake

/-- What a module can consist of. -/
inductive Part
  | library
  | tool
  | docs
  | libraryTests
  | toolTests
  | docsTests
deriving DecidableEq

/-- The option that each macro looks at: `/repo/cmake_utils/cmake/compilation/compile_library.cmake:28`,
`/repo/cmake_utils/cmake/compilation/compile_tool.cmake:27`, `/repo/cmake_utils/cmake/compilation/compile_documentation.cmake:22`,
`/repo/cmake_utils/cmake/compilation/compile_test.cmake:31, 48, 63`. -/
def Part.option : Part → Str
  | .library => c!"BUILD_LIBRARY"
  | .tool => c!"BUILD_TOOL"
  | .docs => c!"BUILD_DOCS"
  | .libraryTests => c!"BUILD_LIBRARY_TESTS"
  | .toolTests => c!"BUILD_TOOL_TESTS"
  | .docsTests => c!"BUILD_DOCS_TESTS"

/-- The macros for tests call `enable_testing` first, `/repo/cmake_utils/cmake/compilation/compile_test.cmake:21-26, 35, 52, 67`. -/
def Part.isTest : Part → Bool
  | .libraryTests | .toolTests | .docsTests => true
  | _ => false

/-- A module: its name and the macros that its `CMakeLists.txt` calls after `configure_project`
(`/repo/cpp_utils/CMakeLists.txt:36-79`). -/
structure Module where
  name : Str
  calls : List Part

/-- The targets of a part.  Those of the documentation have the same names in every module,
`/repo/cmake_utils/cmake/compilation/compile_documentation.cmake:35, 50`; the targets of tests are left out. -/
def Part.targets (m : Module) : Part → List Str
  | .library | .tool => [m.name]
  | .docs => [c!"doc-dirs", c!"Sphinx"]
  | _ => []

/-- What is made of a module: its parts, and whether testing is enabled in its directory and below. -/
structure Made where
  module : Module
  parts : List Part
  testing : Bool

/-- The targets of what is made. -/
def Made.targets (d : Made) : List Str := d.parts.flatMap (Part.targets d.module)

/-- A directory with a module: `configure_project` sets the options in the scope of the directory
(`/repo/cmake_utils/cmake/project/configure_project.cmake:78`), then each macro looks at its own.  Testing is enabled if it is in the
directory above, or by a macro for tests. -/
def makeModule (e : Env) (above : Bool) (m : Module) : Option Made :=
  (configureOptions e).map fun e' =>
    let parts := m.calls.filter fun p => truth e' p.option
    ⟨m, parts, above || parts.any Part.isTest⟩

/-- What a function gives for all elements of a list, unless it fails for one of them. -/
def allSome {α β : Type} (f : α → Option β) : List α → Option (List β)
  | [] => some []
  | a :: l =>
    match f a, allSome f l with
    | some b, some bs => some (b :: bs)
    | _, _ => none

/-- A project whose top directory adds the directories of modules, one after the other; `testing` if the top directory calls
`enable_testing` itself before.  CMake does not accept two targets with one name. -/
def makeProject (e : Env) (testing : Bool) (ms : List Module) : Option (List Made) :=
  match allSome (makeModule e testing) ms with
  | some ds => if (ds.flatMap Made.targets).Nodup then some ds else none
  | none => none

/-- The tests that `ctest` runs in the directory of a module: those of its parts, if testing is enabled there. -/
def Made.tests (d : Made) : List (Str × Part) :=
  if d.testing then (d.parts.filter Part.isTest).map fun p => (d.module.name, p) else []

/-- The tests that `ctest` runs in the top build directory: it goes into the directories below only if testing is enabled in the
top directory. -/
def topTests (testing : Bool) (ds : List Made) : List (Str × Part) :=
  if testing then ds.flatMap Made.tests else []

/-- The macros of a module that have to do with packages. -/
inductive Pack
  | documentation
  | packaging
deriving DecidableEq

/-- `CPACK_COMPONENTS_ALL` and, once `include(CPack)` has been called, the components it has read then. -/
structure PackState where
  all : List Str
  read : Option (List Str) := none

/-- One macro, without MSVC: `/repo/cmake_utils/cmake/compilation/compile_documentation.cmake:68` and
`/repo/cmake_utils/cmake/packaging/eProsima_packaging.cmake:30, 50-53`.  A second `include(CPack)` does nothing. -/
def PackState.step (s : PackState) : Pack → PackState
  | .documentation => { s with all := s.all ++ [c!"html"] }
  | .packaging => ⟨[c!"headers", c!"cmake"], some (s.read.getD [c!"headers", c!"cmake"])⟩

/-- The component of the documentation, `/repo/cmake_utils/cmake/compilation/compile_documentation.cmake:61-64`. -/
def docsComponent : Str := c!"monitor-sphinx"

end Verif.CMake
