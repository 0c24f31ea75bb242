import Verif.Model.CMakeCpp

/-!
How tests get GoogleTest and GoogleMock: `check_gmock`, `FindGMock.cmake` and the libraries of `add_test_executable`.  `FindGTest.cmake`
and `FindThreads.cmake` come with CMake and are not modelled; their results are variables.
-/
namespace Verif.CMake

/-- What the macros find on the computer: the file of the library with a name in a directory, whether a directory has `gmock/gmock.h`, the
directories that CMake looks into before and after those of `HINTS`, and the environment variable `GMOCK_ROOT`. -/
structure Machine where
  win : Bool
  msvc : Bool
  library : Str → Str → Option Str
  header : Str → Bool
  before : List Str
  behind : List Str
  root : Option Str

/-- `find_library` and `find_path` look for nothing if the variable has a value already, other than `…-NOTFOUND`; what is found, or that
nothing is, goes to the cache (`/repo/cmake_utils/modules/FindGMock.cmake:72-78, 100-104`). -/
def Env.finds (e : Env) (x : Str) (r : Option Str) : Env :=
  match e.get x with
  | some v => if v = c!"NOTFOUND" ∨ (c!"-NOTFOUND").isSuffixOf v = true then e.force x (r.getD (x ++ c!"-NOTFOUND")) else e
  | none => e.force x (r.getD (x ++ c!"-NOTFOUND"))

/-- The directories of `HINTS`: first that of the environment, then that of the variable, each followed by `below`
(`/repo/cmake_utils/modules/FindGMock.cmake:74-76, 101-103`). -/
def hints (m : Machine) (e : Env) (below : Str) : List Str :=
  elements (m.root.getD [] ++ below) ++ elements (e.text c!"GMOCK_ROOT" ++ below)

/-- Below which a build of GoogleMock has its libraries; what is not found there is looked for in the directory itself
(`/repo/cmake_utils/modules/FindGMock.cmake:87-98`). -/
def suffixes (m : Machine) (search : Str) : List Str :=
  c!"/lib" :: (if m.msvc then
      if search = c!"MD" then [c!"/msvc/gmock-md/Debug", c!"/msvc/gmock-md/Release"]
      else if search = c!"MT" then [c!"/msvc/gmock/Debug", c!"/msvc/gmock/Release"] else []
    else []) ++ [[]]

/-- `_gmock_find_library`: one name after the other, each in all directories (`/repo/cmake_utils/modules/FindGMock.cmake:71-80`).  That
the suffixes are added to the directories of CMake as well is part of `before` and `behind`. -/
def librarySearch (m : Machine) (e : Env) (names : List Str) : Option Str :=
  names.findSome? fun n =>
    (m.before ++ ((hints m e []).flatMap fun d => (suffixes m (e.text c!"GMOCK_MSVC_SEARCH")).map (d ++ ·)) ++ m.behind).findSome?
      fun d => m.library d n

/-- The names of a library (`/repo/cmake_utils/modules/FindGMock.cmake:107-119`). -/
def libraryNames (m : Machine) (e : Env) (md plain : Str) : List Str :=
  if m.msvc = true ∧ e.text c!"GMOCK_MSVC_SEARCH" = c!"MD" then [md, plain] else [plain]

/-- `_gmock_append_debugs`: the words of a list of libraries, `debug` and `optimized` each for the next word
(`/repo/cmake_utils/modules/FindGMock.cmake:62-69`). -/
def appendDebugs (e : Env) (library : Str) : List Str :=
  if truth e library && truth e (library ++ c!"_DEBUG") then
    c!"optimized" :: elements (e.text library) ++ c!"debug" :: elements (e.text (library ++ c!"_DEBUG"))
  else elements (e.text library)

/-- One search for a library (`/repo/cmake_utils/modules/FindGMock.cmake:107-119`). -/
def findGMockLibrary (m : Machine) (x md plain : Str) (e : Env) : Env := e.finds x (librarySearch m e (libraryNames m e md plain))

/-- The search for the header (`/repo/cmake_utils/modules/FindGMock.cmake:83-85, 100-104`). -/
def findHeader (m : Machine) (e : Env) : Env :=
  let e := e.orSet c!"GMOCK_MSVC_SEARCH" [c!"MD"]
  e.finds c!"GMOCK_INCLUDE_DIR" ((m.before ++ hints m e c!"/include" ++ m.behind).find? m.header)

/-- The searches of `FindGMock.cmake` (`/repo/cmake_utils/modules/FindGMock.cmake:83-119`). -/
def searchGMock (m : Machine) (e : Env) : Env :=
  let e := findHeader m e
  let e := findGMockLibrary m c!"GMOCK_LIBRARY" c!"gmock-md" c!"gmock" e
  let e := findGMockLibrary m c!"GMOCK_LIBRARY_DEBUG" c!"gmock-mdd" c!"gmockd" e
  let e := findGMockLibrary m c!"GMOCK_MAIN_LIBRARY" c!"gmock_main-md" c!"gmock_main" e
  findGMockLibrary m c!"GMOCK_MAIN_LIBRARY_DEBUG" c!"gmock_main-mdd" c!"gmock_maind" e

/-- What is made of the results (`/repo/cmake_utils/modules/FindGMock.cmake:124-129`). -/
def foundGMock (e : Env) : Env :=
  let e := e.set c!"GMOCK_INCLUDE_DIRS" (elements (e.text c!"GMOCK_INCLUDE_DIR"))
  let e := e.set c!"GMOCK_LIBRARIES" (appendDebugs e c!"GMOCK_LIBRARY")
  let e := e.set c!"GMOCK_MAIN_LIBRARIES" (appendDebugs e c!"GMOCK_MAIN_LIBRARY")
  e.set c!"GMOCK_BOTH_LIBRARIES" (elements (e.text c!"GMOCK_LIBRARIES") ++ elements (e.text c!"GMOCK_MAIN_LIBRARIES"))

/-- Whether GoogleMock is found, with its results then (`/repo/cmake_utils/modules/FindGMock.cmake:121-129`). -/
def useGMock (e : Env) : Env :=
  if truth e c!"GMOCK_LIBRARY" && truth e c!"GMOCK_INCLUDE_DIR" && truth e c!"GMOCK_MAIN_LIBRARY" then
    foundGMock (e.put c!"GMOCK_FOUND" (some c!"TRUE"))
  else e.put c!"GMOCK_FOUND" (some c!"FALSE")

/-- The option of Windows, `/repo/cmake_utils/cmake/test/gtest.cmake:50-55`. -/
def gmockOption (e : Env) : Env :=
  let e := e.setCache c!"EPROSIMA_GMOCK" c!"OFF"
  if truth e c!"EPROSIMA_BUILD" then e.set c!"EPROSIMA_GMOCK" [c!"ON"] else e

/-- The directory to look into with the option, `/repo/cmake_utils/cmake/test/gtest.cmake:58-67`.  `file(TO_CMAKE_PATH)` is left out: it
changes nothing of a path with single slashes and none at the end. -/
def gmockArch (m : Machine) (e : Env) : Env :=
  if truth e c!"EPROSIMA_GMOCK" then
    if truth e c!"GMOCK_ROOT" then e.set c!"GMOCK_ROOT" [e.text c!"GMOCK_ROOT" ++ '/' :: e.text c!"MSVC_ARCH"]
    else
      let e := e.set c!"GMOCK_ROOT_" (elements (m.root.getD []))
      if truth e c!"GMOCK_ROOT_" then e.set c!"GMOCK_ROOT" [e.text c!"GMOCK_ROOT_" ++ '/' :: e.text c!"MSVC_ARCH"]
      else e
  else e

/-- Both, on Windows only (`/repo/cmake_utils/cmake/test/gtest.cmake:50-67`). -/
def gmockRoot (m : Machine) (e : Env) : Env := if m.win then gmockArch m (gmockOption e) else e

/-- The libraries of threads are added.  `find_package(Threads)` sets `CMAKE_THREAD_LIBS_INIT`, which is taken as given
(`/repo/cmake_utils/cmake/test/gtest.cmake:70-74`). -/
def addThreads (e : Env) : Env :=
  let threads := elements (e.text c!"CMAKE_THREAD_LIBS_INIT")
  let e := e.set c!"GMOCK_LIBRARIES" (elements (e.text c!"GMOCK_LIBRARIES") ++ threads)
  e.set c!"GMOCK_BOTH_LIBRARIES" (elements (e.text c!"GMOCK_BOTH_LIBRARIES") ++ threads)

/-- The macro `check_gmock` (`/repo/cmake_utils/cmake/test/gtest.cmake:48-76`), after `check_gtest`, which is the same with other
names. -/
def checkGMock (m : Machine) (e : Env) : Env :=
  if truth e c!"GMOCK_FOUND" then e
  else
    let e := useGMock (searchGMock m (gmockRoot m e))
    if truth e c!"GMOCK_FOUND" then addThreads e else e

/-- The words given to `target_link_libraries` for a test (`/repo/cmake_utils/cmake/test/test_target.cmake:53-58`). -/
def testLibraries (e : Env) (extra : Str) : List Str :=
  elements (e.text c!"GTEST_LIBRARIES") ++ elements (e.text c!"GMOCK_LIBRARIES") ++ elements extra

/-- The kinds of words before a library in `target_link_libraries`. -/
inductive Only
  | always
  | debug
  | optimized
deriving DecidableEq

/-- The words that are no libraries. -/
def onlyWord (w : Str) : Option Only :=
  if w = c!"debug" then some .debug
  else if w = c!"optimized" then some .optimized
  else if w = c!"general" then some .always
  else none

/-- Whether a library is linked in the debug configuration, or in another. -/
def Only.takes (debug : Bool) : Only → Bool
  | .always => true
  | .debug => debug
  | .optimized => !debug

/-- `target_link_libraries`: what is linked in a configuration.  A word `debug` or `optimized` is for the next library; before another
such word it is ignored, and at the end it is an error, `none` (manual of CMake; used in
`/repo/cmake_utils/cmake/test/test_target.cmake:53-58`).  The words `PUBLIC`, `PRIVATE` and `INTERFACE` in the lists are left out. -/
def linkFor (debug : Bool) : Only → List Str → Option (List Str)
  | .always, [] => some []
  | _, [] => none
  | k, w :: ws =>
    match onlyWord w with
    | some k' => linkFor debug k' ws
    | none => (linkFor debug .always ws).map fun l => if k.takes debug then w :: l else l

end Verif.CMake
