import Verif.Model.Basic
/-!
Builds in the source directory: `in_source_build_prevention`, which `configure_project` calls first, and what `cmake` does
before and after it.

Simplified: directories are given by absolute texts without `.` and `..` (CMake makes them so, and does not follow symbolic
links); of the files of a directory only `CMakeCache.txt` and whether a build system was generated are kept; projects have
no other errors.  What `cmake` itself does is modelled after its documentation and behaviour, it is not part of the
repository.
-/
namespace Verif.CMakeSource

/-- What is in the directories `D`: the source directory noted in `CMakeCache.txt`, if there is one, and
whether a build system has been generated there. -/
structure World (D : Type) where
  cache : D → Option Str
  generated : D → Bool

variable {D : Type} [DecidableEq D]

/-- Calls of `cmake`: `cmake <arg>` in the directory `cwd`, or `cmake -S <s> -B <b>`. -/
inductive Call
  | path (cwd arg : Str)
  | explicit (s b : Str)

/-- How a call ends. -/
inductive Outcome
  | configured
  /-- "In-source build detected!" -/
  | refused
  /-- CMake itself: the cache is that of another source directory -/
  | mismatch
deriving DecidableEq

/-- `CMAKE_SOURCE_DIR` and `CMAKE_BINARY_DIR`: an argument that has a cache is taken for the directory of a build;
`real` follows symbolic links.  (CMake; used by
cmake_utils/cmake/project/in_source_build_prevention.cmake:23.) -/
def dirs (real : Str → D) (w : World D) : Call → Str × Str
  | .path cwd arg => match w.cache (real arg) with
    | some home => (home, arg)
    | none => (arg, cwd)
  | .explicit s b => (s, b)

/-- cmake_utils/cmake/project/in_source_build_prevention.cmake:21-31: `true` is the error.  The same for all modules of a
project, since the variables are those of the top directory. -/
def inSource (s b : Str) : Bool := decide (s = b)

/-- The build directory has been used for another source directory (CMake). -/
def other (real : Str → D) (w : World D) (s b : Str) : Bool :=
  match w.cache (real b) with
  | some home => decide (real home ≠ real s)
  | none => false

/-- Source and build directories of the top directory and of those added to it: `mods` gives the latter. -/
def writes (mods : Str → Str → List (Str × Str)) (s b : Str) : List (Str × Str) := (s, b) :: mods s b

/-- A call of `cmake` for a project that calls `configure_project` (cmake_utils/cmake/project/configure_project.cmake:49-52).
The cache is written in any case, the build system only if there was no error. -/
def run (real : Str → D) (mods : Str → Str → List (Str × Str)) (w : World D) (c : Call) : World D × Outcome :=
  let (s, b) := dirs real w c
  if other real w s b then (w, .mismatch)
  else
    let w' : World D := { w with cache := fun d => if d = real b then some s else w.cache d }
    if inSource s b then (w', .refused)
    else
      ({ w' with generated := fun d => w.generated d || (writes mods s b).any fun x => decide (d = real x.2) }, .configured)

/-- Calls one after the other. -/
def runs (real : Str → D) (mods : Str → Str → List (Str × Str)) : World D → List Call → World D × List Outcome
  | w, [] => (w, [])
  | w, c :: cs =>
    let (w1, o) := run real mods w c
    let (w2, os) := runs real mods w1 cs
    (w2, o :: os)

/-- Modules added by `add_subdirectory(<name>)`: their build directories are below that of the project as their sources are
below the source. -/
def added (names : List Str) (s b : Str) : List (Str × Str) := names.map fun n => (s ++ '/' :: n, b ++ '/' :: n)

end Verif.CMakeSource
