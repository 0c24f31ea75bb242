import Verif.Model.Basic
/-!
What the headers made from `cmake_utils/templates/cpp/library/*.h.in` do in the preprocessor, and the files and definitions that
`compile_library` (`cmake_utils/cmake/compilation/compile_library.cmake`) makes for MSVC.

The templates are taken with `@MODULE_MACRO@` and `@MODULE_NAME@` filled in.  Simplified: macros that the templates build
from different patterns have different names, which is so unless `MODULE_MACRO` is `EPROSIMA` or `EPROSIMA_ALL`; the name of the
module is no macro itself; the numbers of the version have no zeros in front (else `PROJECT_VERSION_MINOR` in `config.h` and
`MODULE_VERSION_MINOR` differ, see `C190_negation_zeros`).
-/
namespace Verif.DllHeader

/-- The names of macros in the templates: those of a module `m` (`@MODULE_MACRO@`), those of all libraries of eProsima, and
those of the compiler. -/
inductive Name
  /-- `_EPROSIMA_LIBRARY_mDLL_H_` -/
  | guard (m : Str)
  /-- `_m_LIBRARY_CONFIG_H_` -/
  | configGuard (m : Str)
  | dynLink (m : Str)
  | staticLink (m : Str)
  | noLib (m : Str)
  | source (m : Str)
  | dllApi (m : Str)
  | userExport (m : Str)
  | userDllExport (m : Str)
  /-- `EPROSIMA_m_LIB_NAME` -/
  | libName (m : Str)
  | major (m : Str)
  | minor (m : Str)
  /-- `EPROSIMA_ALL_DYN_LINK` and so on -/
  | allDyn
  | allStatic
  | allNoLib
  /-- `EPROSIMA_DYN_LINK` -/
  | eprosimaDyn
  /-- `_EPROSIMA_LIBRARY_EPROSIMAAUTOLINK_H_` -/
  | autoLinkGuard
  /-- `EPROSIMA_USER_DLL_EXPORT` -/
  | eprosimaUserExport
  /-- `_WIN32`, `_MSC_VER`, `_DEBUG`, `_DLL` and `_RTLDLL` -/
  | win32
  | msc
  | debug
  | dll
  | rtldll
  /-- any other macro -/
  | other (x : Str)
deriving DecidableEq

/-- The macros that are defined, with their texts. -/
abbrev Macros := Name → Option Str

/-- A translation unit so far: its macros and the libraries it asks the linker for. -/
structure TU where
  macros : Macros
  libs : List Str

/-- `defined(x)`. -/
def TU.has (u : TU) (x : Name) : Bool := (u.macros x).isSome

/-- `#define x t`. -/
def TU.define (u : TU) (x : Name) (t : Str) : TU :=
  { u with macros := fun y => if y = x then some t else u.macros y }

/-- `#undef x`. -/
def TU.undef (u : TU) (x : Name) : TU :=
  { u with macros := fun y => if y = x then none else u.macros y }

/-- `#ifndef x`, `#define x t`. -/
def TU.orDefine (u : TU) (x : Name) (t : Str) : TU := if u.has x then u else u.define x t

/-- What the templates are filled with: `MODULE_NAME`, `MODULE_MACRO`, the parts of the version and `MODULE_VERSION`, and
whether the library is a shared one. -/
structure Module where
  name : Str
  mac : Str
  major : Str
  minor : Str
  version : Str
  shared : Bool

/-- `MODULE_MACRO` can begin the name of a macro. -/
def identifier (m : Str) : Bool :=
  m.all (fun c => c.isAlphanum || c = '_') && (m.head?.all fun c => !c.isDigit)

/-- `config.h`, config.h.in:15-34 (the parts used here). -/
def config (p : Module) (u : TU) : TU :=
  if u.has (.configGuard p.mac) then u
  else ((u.define (.configGuard p.mac) []).orDefine (.major p.mac) p.major).orDefine (.minor p.mac) p.minor

/-- `EPROSIMA_LIB_PREFIX`, eProsima_auto_link.h.in:36-42; `none`: `#error`. -/
def libPrefix (u : TU) : Option Str :=
  if (u.has .dll || u.has .rtldll) && u.has .eprosimaDyn then some []
  else if u.has .eprosimaDyn then none
  else some c!"lib"

/-- `eProsima_auto_link.h`, eProsima_auto_link.h.in:22-71; `none`: `#error`. -/
def autoLink (p : Module) (u : TU) : Option TU :=
  if u.has .autoLinkGuard then some u
  else
    let u := u.define .autoLinkGuard []
    if u.has .msc then
      match libPrefix u, u.macros (.libName p.mac), u.macros (.major p.mac), u.macros (.minor p.mac) with
      | some pre, some lib, some major, some minor =>
        some (({ u with libs := u.libs ++ [pre ++ lib ++ (if u.has .debug then c!"d" else []) ++ c!"-" ++ major ++ c!"." ++
          minor ++ c!".lib"] }).undef (.libName p.mac))
      | _, _, _, _ => none
    else some (u.undef (.libName p.mac))

/-- Static linking is the default, library_dll.h.in:21-24. -/
def defaultStatic (m : Str) (u : TU) : TU :=
  if !u.has (.dynLink m) && !u.has (.staticLink m) && !u.has .allDyn && !u.has .allStatic then u.define (.staticLink m) []
  else u

/-- `EPROSIMA_ALL_DYN_LINK` is for this library, too, library_dll.h.in:26-28. -/
def fromAllDyn (m : Str) (u : TU) : TU := if u.has .allDyn && !u.has (.dynLink m) then u.define (.dynLink m) [] else u

/-- `EPROSIMA_ALL_NO_LIB` is for this library, too, library_dll.h.in:34-36. -/
def fromAllNoLib (m : Str) (u : TU) : TU := if u.has .allNoLib && !u.has (.noLib m) then u.define (.noLib m) [] else u

/-- The beginning of the header, library_dll.h.in:20-36; `none`: `#error`. -/
def normalize (m : Str) (u : TU) : Option TU :=
  let u := fromAllDyn m (defaultStatic m u)
  if u.has (.dynLink m) && u.has (.staticLink m) then none else some (fromAllNoLib m u)

/-- `m_DllAPI` and `m_USERDllExport`, library_dll.h.in:38-59. -/
def api (m : Str) (u : TU) : TU :=
  let u := u.define (.dllApi m)
    (if u.has .win32 && (u.has .allDyn || u.has (.dynLink m)) then
      (if u.has (.source m) then c!"__declspec( dllexport )" else c!"__declspec( dllimport )")
    else [])
  u.define (.userDllExport m)
    (if u.has .win32 && u.has (.userExport m) then c!"__declspec(dllexport)" else [])

/-- The end of the header, library_dll.h.in:61-74. -/
def link (p : Module) (u : TU) : Option TU :=
  if !u.has (.source p.mac) && !u.has .allNoLib && !u.has (.noLib p.mac) then
    let u := u.define (.libName p.mac) p.name
    let u := if u.has .allDyn || u.has (.dynLink p.mac) then u.define .eprosimaDyn [] else u
    autoLink p u
  else some u

/-- `#include <module/library/library_dll.h>`, library_dll.h.in:15-76; `none`: the compilation fails. -/
def includeDll (p : Module) (u : TU) : Option TU :=
  if !identifier p.mac then none
  else if u.has (.guard p.mac) then some u
  else ((normalize p.mac (config p (u.define (.guard p.mac) []))).map (api p.mac)).bind (link p)

/-- The configurations of a build. -/
inductive Config
  | debug
  | release
  | minSizeRel
  | relWithDebInfo
deriving DecidableEq

/-- The postfix of the library, compile_library.cmake:142-145. -/
def configPostfix (p : Module) : Config → Str
  | .release => c!"-" ++ p.major ++ c!"." ++ p.minor
  | .minSizeRel => c!"m-" ++ p.version
  | .relWithDebInfo => c!"rd-" ++ p.major ++ c!"." ++ p.minor
  | .debug => c!"d-" ++ p.major ++ c!"." ++ p.minor

/-- The file to link with, of a library that is built with MSVC: the import library of a DLL or the static library
(compile_library.cmake:93, 142-145, 162). -/
def file (p : Module) (c : Config) : Str :=
  (if p.shared then p.name else c!"lib" ++ p.name) ++ configPostfix p c ++ c!".lib"

/-- `string(REPLACE "-" "_" …)`, compile_library.cmake:151. -/
def underscores (m : Str) : Str := m.map fun c => if c = '-' then '_' else c

/-- The macros that the compiler gets on the command line: for every target that uses the library, the `PUBLIC` definitions
(compile_library.cmake:148-152), and for the library itself (`own`) also the `PRIVATE` ones
(compile_library.cmake:99-102, 111-119). -/
def definitions (p : Module) (own : Bool) : List Name :=
  (if p.shared then [.dynLink (underscores p.mac)] else []) ++
    (if own then [.source p.mac, .eprosimaUserExport] else [])

/-- The macros that MSVC defines itself: `_DLL` for the run-time library that CMake chooses by default (`/MD`, and `/MDd`, with
`_DEBUG`, in the configuration Debug). -/
def compiler : Config → List Name
  | .debug => [.win32, .msc, .dll, .debug]
  | _ => [.win32, .msc, .dll]

end Verif.DllHeader
