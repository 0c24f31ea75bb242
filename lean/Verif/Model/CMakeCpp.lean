import Verif.Model.CMakeProject

/-!
The macro `configure_project_cpp` and what it calls, in
`/repo/cmake_utils/cmake/cpp_common`.  Messages that do not end the run are left out,
and so are the searches for packages (`Model/CMakeProject.lean`), which are taken to
change none of the variables here.
-/
namespace Verif.CMake

/-- `set(X value CACHE type doc FORCE)`, also for the type `INTERNAL`: the entry gets the
value and the normal variable is removed
(`/repo/cmake_utils/cmake/cpp_common/cmake_build_type.cmake:26-28`). -/
def Env.force (e : Env) (x : Str) (v : Str) : Env :=
  { vars := fun y => if y = x then none else e.vars y
    cache := fun y => if y = x then some ⟨v, true⟩ else e.cache y }

/-- `set_cmake_build_type`
(`/repo/cmake_utils/cmake/cpp_common/cmake_build_type.cmake:21-35`). -/
def setBuildType (e : Env) : Env :=
  if truth e c!"CMAKE_BUILD_TYPE" = false ∧ truth e c!"CMAKE_CONFIGURATION_TYPES" = false then
    e.force c!"CMAKE_BUILD_TYPE" c!"Release"
  else e

/-- `X MATCHES "w"` for a word without special characters. -/
def mentions (w v : Str) : Bool := (after w v).isSome

/-- `force_cpp_11` to `force_cpp_20`, which differ in the number only.
`check_cxx_compiler_flag` asks the compiler (`supports`) unless its variable is defined
already, and keeps the answer in the cache
(`/repo/cmake_utils/cmake/cpp_common/force_cpp.cmake:41-115`). -/
def forceStandard (supports : Str → Bool) (n : Str) (e : Env) : Option Env :=
  let flag := c!"SUPPORTS_CXX" ++ n
  if truth e c!"CMAKE_COMPILER_IS_GNUCXX" ∨ truth e c!"CMAKE_COMPILER_IS_CLANG" ∨
      mentions c!"Clang" ((e.get c!"CMAKE_CXX_COMPILER_ID").getD c!"CMAKE_CXX_COMPILER_ID") then
    let e := if (e.get flag).isSome then e
      else e.force flag (if supports (c!"-std=c++" ++ n) then c!"1" else [])
    if truth e flag then some (e.set c!"CMAKE_CXX_STANDARD" [n]) else none
  else some (e.set c!"CMAKE_CXX_STANDARD" [n])

/-- `force_cpp(args…)`: a macro called with too few arguments is an error
(`/repo/cmake_utils/cmake/cpp_common/force_cpp.cmake:23-39`). -/
def forceCpp (supports : Str → Bool) (args : List Str) (e : Env) : Option Env :=
  match args with
  | [] => none
  | v :: _ =>
    if v = [] then some e
    else if v = c!"11" ∨ v = c!"C++11" then forceStandard supports c!"11" e
    else if v = c!"14" ∨ v = c!"C++14" then forceStandard supports c!"14" e
    else if v = c!"17" ∨ v = c!"C++17" then forceStandard supports c!"17" e
    else if v = c!"20" ∨ v = c!"C++20" then forceStandard supports c!"20" e
    else none

/-- The part of `configure_project_cpp` for the version of C++
(`/repo/cmake_utils/cmake/cpp_common/configure_project_cpp.cmake:41-45`). -/
def cppVersion (supports : Str → Bool) (e : Env) : Option Env :=
  match e.get c!"MODULE_CPP_VERSION" with
  | none => some e
  | some v => forceCpp supports (elements v) e

/-- `"…" MATCHES "(Apple)?[Cc]lang"`
(`/repo/cmake_utils/cmake/cpp_common/asan.cmake:27`). -/
def matchesClang (v : Str) : Bool := mentions c!"clang" v || mentions c!"Clang" v

/-- `set(X "${X} more")`
(`/repo/cmake_utils/cmake/cpp_common/asan.cmake:30`). -/
def Env.more (e : Env) (x : Str) (more : Str) : Env := e.set x [e.text x ++ more]

/-- The common form of `activate_code_coverage`, `activate_thread_sanitizer` and
`activate_address_sanitizer`, with the texts added for Clang and for GCC
(`/repo/cmake_utils/cmake/cpp_common/code_coverage.cmake:20-43`,
`/repo/cmake_utils/cmake/cpp_common/tsan.cmake:20-42`,
`/repo/cmake_utils/cmake/cpp_common/asan.cmake:20-42`). -/
def activate (clang gnu : Str) (e : Env) : Option Env :=
  if matchesClang (e.text c!"CMAKE_C_COMPILER_ID") ∨ matchesClang (e.text c!"CMAKE_CXX_COMPILER_ID")
  then some ((e.more c!"CMAKE_C_FLAGS" clang).more c!"CMAKE_CXX_FLAGS" clang)
  else if truth e c!"CMAKE_COMPILER_IS_GNUCXX" then
    some ((e.more c!"CMAKE_C_FLAGS" gnu).more c!"CMAKE_CXX_FLAGS" gnu)
  else none

/-- `activate_code_coverage`
(`/repo/cmake_utils/cmake/cpp_common/code_coverage.cmake:30-39`). -/
def activateCoverage : Env → Option Env :=
  activate c!" -fprofile-instr-generate -fcoverage-mapping"
    c!" --coverage -fprofile-arcs -ftest-coverage"

/-- `activate_thread_sanitizer`
(`/repo/cmake_utils/cmake/cpp_common/tsan.cmake:30-37`). -/
def activateThread : Env → Option Env :=
  activate c!" -fsanitize=thread" c!" -fsanitize=thread -fno-omit-frame-pointer"

/-- `activate_address_sanitizer`
(`/repo/cmake_utils/cmake/cpp_common/asan.cmake:30-37`). -/
def activateAddress : Env → Option Env :=
  activate c!" -fsanitize=address" c!" -fsanitize=address -fno-omit-frame-pointer"

/-- The options for instrumentation
(`/repo/cmake_utils/cmake/cpp_common/configure_project_cpp.cmake:60-74`). -/
def instrument (e : Env) : Option Env := do
  let e ← if truth e c!"CODE_COVERAGE" then activateCoverage e else some e
  let e ← if truth e c!"TSAN_BUILD" then activateThread e else some e
  if truth e c!"ASAN_BUILD" then
    if truth e c!"TSAN_BUILD" then none else activateAddress e
  else some e

/-- `custom_cpp_flags`
(`/repo/cmake_utils/cmake/cpp_common/cpp_flags.cmake:20-28`). -/
def customFlags (e : Env) : Env :=
  if truth e c!"MSVC" ∨ truth e c!"MSVC_IDE" then e.more c!"CMAKE_CXX_FLAGS" c!" /Zc:preprocessor"
  else e

/-- `configure_project_cpp`; `option()` is `set(… CACHE BOOL …)` here (policy CMP0077 is
not set to NEW by `cmake_minimum_required(VERSION 3.5)`)
(`/repo/cmake_utils/cmake/cpp_common/configure_project_cpp.cmake:35-82`). -/
def configureCpp (supports : Str → Bool) (e : Env) : Option Env := do
  let e := setBuildType e
  let e ← cppVersion supports e
  let e := e.setCache c!"BUILD_SHARED_LIBS" c!"ON"
  let e ← instrument e
  some (customFlags e)

end Verif.CMake
