import Verif.Model.CMake

/-!
The macros of `/repo/cmake_utils/cmake/project` and
`/repo/cmake_utils/cmake/cpp_common/find_external.cmake`.  Messages are left out,
except that `message(FATAL_ERROR)` and the errors of CMake itself end the run:
the result is then `none`.
-/
namespace Verif.CMake

/-- `if (NOT DEFINED X) set(X args…) endif()`
(`/repo/cmake_utils/cmake/project/cmake_options.cmake:47-49`). -/
def Env.orSet (e : Env) (x : Str) (args : List Str) : Env :=
  if (e.get x).isSome then e else e.set x args

/-- `if (NOT X) set(X args…) endif()`
(`/repo/cmake_utils/cmake/project/load_project_settings.cmake:68-70`). -/
def Env.fallback (e : Env) (x : Str) (args : List Str) : Env :=
  if truth e x then e else e.set x args

/-- What follows the first occurrence of `key`. -/
def after (key : Str) : Str → Option Str
  | [] => if key = [] then some [] else none
  | c :: s => if key.isPrefixOf (c :: s) then some ((c :: s).drop key.length) else after key s

/-- `CMAKE_MATCH_1` of `string(REGEX MATCH "KEY ([0-9]*)" …)`: the digits after
the first occurrence, empty when there is none
(`/repo/cmake_utils/cmake/project/read_version.cmake:39-46`). -/
def matched (key : Str) (input : Str) : Str :=
  match after (key ++ [' ']) input with
  | some r => r.takeWhile isDigit
  | none => []

/-- `read_version` on a file with the given content.  The unquoted
`${READ_VERSION_FILE}` is split at `;` and `string(REGEX MATCH)` joins its
arguments again, so the semicolons are lost; with nothing left CMake reports an
error.  The variables `READ_VERSION_FILE`, `_` and `CMAKE_MATCH_1` the macro
leaves behind are not modelled.
`/repo/cmake_utils/cmake/project/read_version.cmake:34-61`. -/
def readVersion (e : Env) (content : Str) : Option Env :=
  let input := (elements content).flatten
  if input = [] then none
  else
    let e := e.set c!"MODULE_VERSION_MAJOR" (elements (matched c!"VERSION_MAJOR" input))
    let e := e.set c!"MODULE_VERSION_MINOR" (elements (matched c!"VERSION_MINOR" input))
    let e := e.set c!"MODULE_VERSION_PATCH" (elements (matched c!"VERSION_PATCH" input))
    let e := e.orSet c!"MODULE_VERSION"
      (elements (e.text c!"MODULE_VERSION_MAJOR" ++ '.' :: e.text c!"MODULE_VERSION_MINOR" ++
        '.' :: e.text c!"MODULE_VERSION_PATCH"))
    some (e.orSet c!"MODULE_VERSION_STRING" ['v' :: e.text c!"MODULE_VERSION"])

/-- The part of `configure_project` that reads the version, only when one of
four variables is missing
(`/repo/cmake_utils/cmake/project/configure_project.cmake:62-69`). -/
def configureVersion (e : Env) (content : Str) : Option Env :=
  if (e.get c!"MODULE_VERSION_MAJOR").isSome ∧ (e.get c!"MODULE_VERSION_MINOR").isSome ∧
      (e.get c!"MODULE_VERSION_PATCH").isSome ∧ (e.get c!"MODULE_VERSION").isSome then some e
  else readVersion e content

/-- The options before `BUILD_DOCS`
(`/repo/cmake_utils/cmake/project/cmake_options.cmake:47-66`). -/
def testOptions (e : Env) : Env :=
  let e := e.orSet c!"BUILD_TESTS" [c!"OFF"]
  let e := e.orSet c!"BUILD_DOCS_TESTS" (elements (e.text c!"BUILD_TESTS"))
  let e := e.orSet c!"BUILD_TOOL_TESTS" (elements (e.text c!"BUILD_TESTS"))
  let e := e.orSet c!"BUILD_LIBRARY_TESTS" (elements (e.text c!"BUILD_TESTS"))
  e.orSet c!"BUILD_ALL" (elements (e.text c!"BUILD_TESTS"))

/-- `BUILD_DOCS` (`/repo/cmake_utils/cmake/project/cmake_options.cmake:68-74`). -/
def docsOption (e : Env) : Option Env :=
  if (e.get c!"BUILD_DOCS").isSome then some e
  else
    match ifOr e (elements (e.text c!"BUILD_ALL")) (elements (e.text c!"BUILD_DOCS_TESTS")) with
    | some true => some (e.set c!"BUILD_DOCS" [c!"ON"])
    | some false => some (e.set c!"BUILD_DOCS" [c!"OFF"])
    | none => none

/-- The options after `BUILD_DOCS`
(`/repo/cmake_utils/cmake/project/cmake_options.cmake:76-102`). -/
def plainOptions (e : Env) : Env :=
  let e := e.orSet c!"BUILD_TOOL" [c!"ON"]
  let e := e.orSet c!"BUILD_LIBRARY" [c!"ON"]
  let e := e.orSet c!"CODE_COVERAGE" [c!"OFF"]
  let e := e.orSet c!"TSAN_BUILD" [c!"OFF"]
  let e := e.orSet c!"ASAN_BUILD" [c!"OFF"]
  e.orSet c!"CMAKE_BUILD_TYPE" [c!"Release"]

/-- `LOG_INFO`.  `set(LOG_INFO CACHE BOOL OFF)` gives the empty value and takes
`OFF` as the description
(`/repo/cmake_utils/cmake/project/cmake_options.cmake:106-110`). -/
def logOption (e : Env) : Env :=
  if (e.get c!"LOG_INFO").isNone ∧ e.text c!"CMAKE_BUILD_TYPE" = c!"Debug" then
    e.set c!"LOG_INFO" [c!"ON"]
  else e.setCache c!"LOG_INFO" []

/-- `configure_cmake_options`
(`/repo/cmake_utils/cmake/project/cmake_options.cmake:44-112`). -/
def configureOptions (e : Env) : Option Env :=
  (docsOption (testOptions e)).map (fun e => logOption (plainOptions e))

/-- One step of `load_project_settings`: a variable and the arguments of its
default (`/repo/cmake_utils/cmake/project/load_project_settings.cmake:68-144`). -/
structure Step where
  name : Str
  default : Env → List Str

/-- `if (NOT X) set(X default) endif()`
(`/repo/cmake_utils/cmake/project/load_project_settings.cmake:68-70`). -/
def Step.run (s : Step) (e : Env) : Env := e.fallback s.name (s.default e)

/-- The steps in their order. -/
def runAll (l : List Step) (e : Env) : Env := l.foldl (fun e s => s.run e) e

/-- The variables that describe the module
(`/repo/cmake_utils/cmake/project/load_project_settings.cmake:68-85`). -/
def describeSteps : List Step :=
  [⟨c!"MODULE_TARGET_NAME", fun e => elements (e.text c!"MODULE_NAME")⟩,
    ⟨c!"MODULE_NAME_LARGE", fun e => elements (e.text c!"MODULE_NAME")⟩,
    ⟨c!"MODULE_SUMMARY", fun e => elements (e.text c!"MODULE_NAME")⟩,
    ⟨c!"MODULE_DESCRIPTION", fun e => elements (e.text c!"MODULE_SUMMARY")⟩]

/-- `MODULE_MACRO`; `string(TOUPPER)` wants exactly one text
(`/repo/cmake_utils/cmake/project/load_project_settings.cmake:88-90`). -/
def macroName (e : Env) : Option Env :=
  if truth e c!"MODULE_MACRO" then some e
  else match elements (e.text c!"MODULE_NAME") with
    | [n] => some (e.put c!"MODULE_MACRO" (some (upper n)))
    | _ => none

/-- The variables about dependencies and files
(`/repo/cmake_utils/cmake/project/load_project_settings.cmake:96-144`). -/
def placeSteps : List Step :=
  [⟨c!"MODULE_THIRDPARTY_PATH", fun e =>
      [e.text c!"CMAKE_CURRENT_SOURCE_DIR" ++ c!"/../thirdparty"]⟩,
    ⟨c!"MODULE_FIND_PACKAGES", fun _ => [[]]⟩,
    ⟨c!"MODULE_DEPENDENCIES", fun e => elements (e.text c!"MODULE_FIND_PACKAGES")⟩,
    ⟨c!"MODULE_VERSION_FILE_PATH", fun e =>
      [e.text c!"CMAKE_CURRENT_SOURCE_DIR" ++ c!"/../VERSION"]⟩,
    ⟨c!"MODULE_LICENSE_FILE_PATH", fun e =>
      [e.text c!"CMAKE_CURRENT_SOURCE_DIR" ++ c!"/../LICENSE"]⟩,
    ⟨c!"MODULE_HEADERS_PATH", fun e => elements (e.text c!"MODULE_NAME")⟩,
    ⟨c!"MODULE_HEADERS_INSTALL_PATH", fun e => elements (e.text c!"MODULE_HEADERS_PATH")⟩,
    ⟨c!"MODULE_PUBLIC_EXTRA_HEADERS", fun _ => [[]]⟩,
    ⟨c!"MODULE_PRIVATE_EXTRA_HEADERS", fun _ => [[]]⟩]

/-- `load_project_settings` after the settings file has been included; what that
file sets is in the given variables.  `PROJECT_SETTINGS_FILE` and the variables
of the optional argument are not modelled.
`/repo/cmake_utils/cmake/project/load_project_settings.cmake:59-152`. -/
def loadSettings (e : Env) : Option Env :=
  if (e.get c!"MODULE_NAME").isSome then 
    (macroName (runAll describeSteps e)).map (runAll placeSteps)
  else none

/-- `if (NOT X) set(X value CACHE PATH doc) endif()`
(`/repo/cmake_utils/cmake/project/installation_paths.cmake:30-32`). -/
def Env.orCache (e : Env) (x : Str) (v : Str) : Env :=
  if truth e x then e else e.setCache x v

/-- `set_installation_paths`
(`/repo/cmake_utils/cmake/project/installation_paths.cmake:27-69`).  The value
of the licence directory is an unquoted argument of `set`; a list there becomes
a list again. -/
def installPaths (win : Bool) (e : Env) : Env :=
  let e := e.orCache c!"MODULE_BIN_INSTALL_DIR" c!"bin/"
  let e := e.orCache c!"MODULE_INCLUDE_INSTALL_DIR" c!"include/"
  let e := e.orCache c!"MODULE_LIB_INSTALL_DIR" c!"lib/"
  let e := e.orCache c!"MODULE_DATA_INSTALL_DIR" c!"share/"
  let e := e.orCache c!"MODULE_LICENSE_INSTALL_DIR"
    (if win then c!"." else
      joined (elements (e.text c!"MODULE_DATA_INSTALL_DIR" ++ '/' :: e.text c!"MODULE_NAME")))
  let e := e.set c!"BIN_INSTALL_DIR" (elements (e.text c!"MODULE_BIN_INSTALL_DIR"))
  let e := e.set c!"INCLUDE_INSTALL_DIR" (elements (e.text c!"MODULE_INCLUDE_INSTALL_DIR"))
  let e := e.set c!"LIB_INSTALL_DIR" (elements (e.text c!"MODULE_LIB_INSTALL_DIR"))
  let e := e.set c!"DATA_INSTALL_DIR" (elements (e.text c!"MODULE_DATA_INSTALL_DIR"))
  e.set c!"LICENSE_INSTALL_DIR" (elements (e.text c!"MODULE_LICENSE_INSTALL_DIR"))

/-- A call of `find_package`: the package and the version asked for. -/
structure Request where
  package : Str
  version : Option Str
deriving DecidableEq, Repr

/-- `find_external_projects`: the calls of `find_package` in order
(`/repo/cmake_utils/cmake/cpp_common/find_external.cmake:28-50`).  Every package
is taken to be found; the variables a package sets are left out. -/
def findExternal (e : Env) : List Str → Option (List Request)
  | [] => some []
  | p :: ps =>
    match ifArgs e (elements (e.text (p ++ c!"_MINIMUM_VERSION"))) with
    | none => none
    | some b =>
      (findExternal e ps).map
        (⟨p, if b then some (e.text (p ++ c!"_MINIMUM_VERSION")) else none⟩ :: ·)

end Verif.CMake
