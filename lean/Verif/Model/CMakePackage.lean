import Verif.Model.CMakeConfig
import Verif.Model.CMakeInstall

/-!
The version file and the installed files of a module: what `find_package` with a version accepts, and which files
`compile_library` and `eprosima_packaging` install, for which component of a package
(`/repo/cmake_utils/cmake/compilation/compile_library.cmake`, `/repo/cmake_utils/cmake/packaging`).
-/
namespace Verif.CMake

/-! ### versions -/

/-- The number that digits stand for. -/
def valueOf (s : Str) : Nat := s.foldl (fun n c => n * 10 + (c.toNat - '0'.toNat)) 0

/-- The numbers of a version for `VERSION_LESS`.  Simplified: versions that are numbers with points between, without bounds. -/
def numbersOf (v : Str) : List Nat := (dots v).map valueOf

/-- `VERSION_LESS`: the first difference counts, missing numbers are 0
(used by the version file that
`/repo/cmake_utils/cmake/compilation/compile_library.cmake:266-272` asks for). -/
def versionLess : List Nat → List Nat → Bool
  | [], [] => false
  | [], y :: ys => decide (0 < y) || (decide (0 = y) && versionLess [] ys)
  | x :: xs, [] => decide (x < 0) || (decide (x = 0) && versionLess xs [])
  | x :: xs, y :: ys => decide (x < y) || (decide (x = y) && versionLess xs ys)

/-- Whether `find_package` with the version `wanted`, if any, accepts a module whose version file was written by
`write_basic_package_version_file(… VERSION ${MODULE_VERSION} COMPATIBILITY SameMajorVersion)`:
`/repo/cmake_utils/cmake/compilation/compile_library.cmake:266-272`, `/repo/cmake_utils/CMakeLists.txt:99-105`.  Ranges, `EXACT`
and the size of pointers are left out. -/
def accepts (installed : Str) (wanted : Option Str) : Bool :=
  match wanted with
  | none => true
  | some w =>
    !versionLess (numbersOf installed) (numbersOf w) && decide ((numbersOf installed).headD 0 = (numbersOf w).headD 0)

/-! ### installed files -/

/-- A module that is installed: its name, its version and the first number of it, the directories, the name of the file with
the licence, the headers below the include path, the resources, if `MODULE_RESOURCES_PATH` is set, and the kind of build in small
letters (`noconfig` if there is none). -/
structure Delivery where
  package : Package
  version : Str
  major : Str
  libDir : Str
  dataDir : Str
  licenseDir : Str
  license : Str
  tree : List (List Str)
  resources : Option (List (List Str))
  build : Str

/-- The files of a shared library on Linux: the library with its version and the two links to it, from the properties `VERSION`
and `SOVERSION`, `/repo/cmake_utils/cmake/compilation/compile_library.cmake:93-95`. -/
def libraryFiles (d : Delivery) : List Str :=
  [c!"lib" ++ d.package.name ++ c!".so", c!"lib" ++ d.package.name ++ c!".so." ++ d.major,
    c!"lib" ++ d.package.name ++ c!".so." ++ d.version]

/-- The files for `find_package`, `/repo/cmake_utils/cmake/compilation/compile_library.cmake:210-213, 274-282`. -/
def packageFiles (d : Delivery) : List (List Str) :=
  [c!"-targets.cmake", c!"-targets-" ++ d.build ++ c!".cmake", c!"-config.cmake", c!"-config-version.cmake"].map fun x =>
    parts d.libDir ++ [c!"cmake"] ++ parts d.package.name ++ [d.package.name ++ x]

/-- `eprosima_install_resources`, `/repo/cmake_utils/cmake/packaging/install_resources.cmake:20-30, 33-40`. -/
def resourceFiles (d : Delivery) : List (List Str) :=
  match d.resources with
  | none => []
  | some l => l.map fun f => parts d.dataDir ++ [c!"resources"] ++ f

/-- The files installed, with the component they belong to (`Unspecified` if the command names none; the `COMPONENT` of
`install(TARGETS)` follows `ARCHIVE DESTINATION` and holds for archives only, so a shared library has none):
`/repo/cmake_utils/cmake/compilation/compile_library.cmake:178-213, 274-282`,
`/repo/cmake_utils/cmake/packaging/eProsima_packaging.cmake:22-27, 55`. -/
def deliveredFiles (d : Delivery) : List (Str × List Str) :=
  (installedTree d.package d.tree).map (Prod.mk c!"headers") ++
    (installedConfig d.package).map (Prod.mk c!"headers") ++
    (libraryFiles d).map (fun f => (c!"Unspecified", parts d.libDir ++ [f])) ++
    (packageFiles d).map (Prod.mk c!"cmake") ++
    [(c!"licenses", parts d.licenseDir ++ [d.license])] ++
    (resourceFiles d).map (Prod.mk c!"Unspecified")

/-- `CPACK_COMPONENTS_ALL`, the components of which packages are made by those generators of CPack that use components;
`arch` is `MSVC_ARCH` with MSVC.  `/repo/cmake_utils/cmake/packaging/eProsima_packaging.cmake:30-34, 50-51`. -/
def components (arch : Option Str) : List Str :=
  [c!"headers"] ++ (match arch with | none => [] | some a => [c!"libraries_" ++ a]) ++ [c!"cmake"]

/-- The files of a package made by components. -/
def packaged (arch : Option Str) (d : Delivery) : List (Str × List Str) :=
  (deliveredFiles d).filter fun f => (components arch).contains f.1

end Verif.CMake
