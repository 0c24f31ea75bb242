import Verif.Model.Formatter

/-!
The exceptions of `cpp_utils`: `cpp_utils/include/cpp_utils/exception/*.hpp` and `cpp_utils/src/cpp/exception/Exception.cpp`, with
messages made by `Formatter`.
-/
namespace Verif.Exception
open Verif.Formatter

/-- The classes.  All of them inherit the constructors and the members of `Exception`:
`/repo/cpp_utils/include/cpp_utils/exception/ConfigurationException.hpp:30-34`, `DNSException.hpp:29-33`,
`DisabledException.hpp:29-33`, `InconsistencyException.hpp:35-39`, `InitializationException.hpp:29-33`, `PreconditionNotMet.hpp:33-37`,
`TimeoutException.hpp:29-33`, `UnsupportedException.hpp:29-33`, `ValueAccessException.hpp:31-35`, `ValueNotAllowedException.hpp:31-35`
in the same directory. -/
inductive Cls
  | exception
  | configuration
  | dns
  | disabled
  | inconsistency
  | initialization
  | precondition
  | timeout
  | unsupported
  | valueAccess
  | valueNotAllowed
deriving DecidableEq

/-- An exception: its class and `message_`, `/repo/cpp_utils/include/cpp_utils/exception/Exception.hpp:90-92`. -/
structure E where
  cls : Cls
  message : Str
deriving DecidableEq

/-- What is between a pointer to characters and the first NUL. -/
def cString (memory : Str) : Str := memory.takeWhile (· ≠ '\x00')

/-- `what()`, as the caller reads it, `/repo/cpp_utils/src/cpp/exception/Exception.cpp:43-46`. -/
def E.what (e : E) : Str := cString e.message

/-- What a message is made from, `/repo/cpp_utils/include/cpp_utils/exception/Exception.hpp:39-64`: a pointer to characters (null or to
the given memory), a `std::string`, or a `Formatter` and the pieces that are streamed into it: texts, and what other exceptions say. -/
inductive Piece
  | text (s : Str)
  | what (i : Nat)
deriving DecidableEq

inductive Src
  | null
  | pointer (memory : Str)
  | string (s : Str)
  | formatter (pieces : List Piece)
deriving DecidableEq

/-- The objects, by the order of their construction; `none` for those that have been destroyed. -/
abbrev Objects := List (Option E)

/-- The texts that pieces write; `none` if one of the objects does not exist. -/
def texts (os : Objects) : List Piece → Option (List Str)
  | [] => some []
  | .text s :: ps => (texts os ps).map (s :: ·)
  | .what i :: ps =>
    match os[i]? with
    | some (some e) => (texts os ps).map (e.what :: ·)
    | _ => none

/-- The constructors, `/repo/cpp_utils/src/cpp/exception/Exception.cpp:25-41`.  `std::string` throws for a null pointer, and that
constructor is `noexcept`. -/
def construct (os : Objects) (cls : Cls) : Src → Res E
  | .null => .abort
  | .pointer memory => .ok ⟨cls, cString memory⟩
  | .string s => .ok ⟨cls, s⟩
  | .formatter ps =>
    match texts os ps with
    | some ts => .ok ⟨cls, (ts.foldl Formatter.stream {}).toString⟩
    | none => .ub

/-- What a program does with exceptions: it makes one, copies one (`throw e`, a handler that catches by value), copies one as an
`Exception` (a handler for `Exception` that catches by value), assigns one to another through references to `Exception`, destroys one.
`/repo/cpp_utils/include/cpp_utils/exception/Exception.hpp:66-81`. -/
inductive Op
  | make (cls : Cls) (src : Src)
  | copy (i : Nat)
  | slice (i : Nat)
  | assign (i j : Nat)
  | destroy (i : Nat)
deriving DecidableEq

/-- One operation.  Using an object that does not exist is undefined. -/
def step (os : Objects) : Op → Res Objects
  | .make cls src =>
    match construct os cls src with
    | .ok e => .ok (os ++ [some e])
    | .throw x => .throw x
    | .abort => .abort
    | .ub => .ub
  | .copy i =>
    match os[i]? with
    | some (some e) => .ok (os ++ [some e])
    | _ => .ub
  | .slice i =>
    match os[i]? with
    | some (some e) => .ok (os ++ [some ⟨.exception, e.message⟩])
    | _ => .ub
  | .assign i j =>
    match os[i]?, os[j]? with
    | some (some e), some (some f) => .ok (os.set i (some { e with message := f.message }))
    | _, _ => .ub
  | .destroy i =>
    match os[i]? with
    | some (some _) => .ok (os.set i none)
    | _ => .ub

/-- A sequence of operations. -/
def run (os : Objects) : List Op → Res Objects
  | [] => .ok os
  | op :: ops =>
    match step os op with
    | .ok os' => run os' ops
    | r => r

/-- Whether a handler for a class catches exceptions of another: of the same class, and `Exception` catches all. -/
def catches (handler thrown : Cls) : Bool := handler = thrown || handler = .exception

/-- The handler that catches, the first that can. -/
def caught (handlers : List Cls) (thrown : Cls) : Option Nat := handlers.findIdx? (catches · thrown)

end Verif.Exception
