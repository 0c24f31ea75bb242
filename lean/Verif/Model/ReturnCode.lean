import Verif.Model.Basic
/-!
`ReturnCode` (`cpp_utils/include/cpp_utils/ReturnCode.hpp`, `cpp_utils/src/cpp/ReturnCode.cpp`).
-/
namespace Verif.ReturnCode

/-- `ReturnCodeValue`, ReturnCode.hpp:41-49. -/
inductive Code
  | ok | error | unknown | noData | notEnabled | preconditionNotMet
deriving DecidableEq

/-- The numeric values, ReturnCode.hpp:43-48; also `operator ()`, ReturnCode.cpp:70-73. -/
def Code.val : Code → Nat
  | .ok => 0 | .error => 1 | .unknown => 2 | .noData => 3 | .notEnabled => 4
  | .preconditionNotMet => 5

/-- Conversion from a Fast DDS return code, ReturnCode.cpp:30-62.  The values of the Fast DDS constants
are external: OK 0, ERROR 1, UNSUPPORTED 2, BAD_PARAMETER 3, PRECONDITION_NOT_MET 4,
OUT_OF_RESOURCES 5, NOT_ENABLED 6, IMMUTABLE_POLICY 7, INCONSISTENT_POLICY 8, ALREADY_DELETED 9,
TIMEOUT 10, NO_DATA 11, ILLEGAL_OPERATION 12. -/
def ofDds (value : Int) : Code :=
  match value with
  | 0 => .ok
  | 1 | 2 | 3 | 5 | 7 | 8 | 9 | 10 | 12 => .error
  | 11 => .noData
  | 6 => .notEnabled
  | 4 => .preconditionNotMet
  | _ => .unknown

/-- `operator ==`, ReturnCode.cpp:75-85. -/
def eq (a b : Code) : Bool := a.val == b.val
/-- `operator !=`, ReturnCode.cpp:87-97. -/
def ne (a b : Code) : Bool := a.val != b.val
/-- `operator <`, ReturnCode.cpp:99-103. -/
def lt (a b : Code) : Bool := decide (a.val < b.val)
/-- `operator !`, ReturnCode.cpp:105-108. -/
def not (a : Code) : Bool := a.val != Code.ok.val

/-- `to_string_conversion_`, ReturnCode.cpp:124-132. -/
def conversion : List (Code × Str) :=
  [(.ok, c!"Ok"), (.error, c!"Error"), (.unknown, c!"Unknown"), (.noData, c!"NoData"),
   (.notEnabled, c!"NotEnabled"), (.preconditionNotMet, c!"PreconditionNotMet")]

/-- `operator <<`, ReturnCode.cpp:134-142; `none` when the assertion of line 139 fails. -/
def print (a : Code) : Option Str :=
  (conversion.find? fun p => p.1 == a).map fun p => '{' :: (p.2 ++ ['}'])

end Verif.ReturnCode
