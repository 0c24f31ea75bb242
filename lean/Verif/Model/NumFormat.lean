import Verif.Model.Math
/-!
`number_trailing_zeros_format`, `cpp_utils/src/cpp/utils.cpp:301-319`, and the part
of iostream formatting it relies on.
-/
namespace Verif.NumFormat

/-- Character of a decimal digit. -/
def digitChar (d : Nat) : Char := Char.ofNat (48 + d)

/-- `os << n` for a non-negative integer: decimal digits without leading zeros
(library behaviour, assumed). -/
def natToDec (n : Nat) : Str :=
  if n < 10 then [digitChar n] else natToDec (n / 10) ++ [digitChar (n % 10)]
termination_by n

/-- `os << v` for an `int`. -/
def intToDec (v : Int) : Str :=
  if v < 0 then '-' :: natToDec v.natAbs else natToDec v.natAbs

/-- `setw(n)` with `setfill('0')` and the default right alignment: the fill goes in
front of everything, sign included. -/
def padLeft (n : Nat) (s : Str) : Str := List.replicate (n - s.length) '0' ++ s

/-- utils.cpp:301-319.  `value_to_print` is an `int`, hence `-2^31 ≤ v < 2^31` is
assumed by the theorems; in `value / fast_exponential(10, n)` it is converted to
`unsigned int` (`BitVec.ofInt 32`).  Division by a zero power is undefined. -/
def numberTrailingZerosFormat (v : Int) (n : Nat) (allowMore : Bool) : Res Str :=
  let p := Math.fastExponential 10#32 n
  if allowMore = false then
    if p = 0#32 then .ub
    else if BitVec.ofInt 32 v / p > 0#32 then .throw .preconditionNotMet
    else .ok (padLeft n (intToDec v))
  else .ok (padLeft n (intToDec v))

end Verif.NumFormat
