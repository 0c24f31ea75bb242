import Verif.Model.Basic
/-!
Model of `cpp_utils/src/cpp/math/math_extension.cpp`.
`unsigned int` is `BitVec 32`; `+ - *` wrap as in C++.
-/
namespace Verif.Math

abbrev U32 := BitVec 32

/-- math_extension.cpp:27-31. -/
def isEven (n : U32) : Bool := (n &&& 1#32) == 0#32

/-- math_extension.cpp:33-37: `number && (!(number & (number - 1)))`. -/
def isPowerOf2 (n : U32) : Bool := n != 0#32 && ((n &&& (n - 1#32)) == 0#32)

/-- math_extension.cpp:39-70.  `ndebug` tells whether the build defines `NDEBUG`
(the `assert` of line 43 is then empty); `dividend % 0` (line 68) is `ub`. -/
def fastModule (ndebug : Bool) (dividend divisor : U32) : Res U32 :=
  if divisor = 0#32 ∧ ndebug = false then .abort
  else if dividend < divisor then .ok dividend
  else if dividend = divisor then .ok 0#32
  else if divisor = 2#32 then .ok (dividend &&& 1#32)
  else if isPowerOf2 divisor then .ok (dividend &&& (divisor - 1#32))
  else if divisor = 0#32 then .ub
  else .ok (dividend % divisor)

/-- The loop of math_extension.cpp:100-104, with the divisor itself as the variant:
`while (divisor != 1) { dividend >>= 1; divisor >>= 1; }`.  The loop would not
terminate for divisor 0; the model returns `ub` there (never reached: see
`fastDivision`). -/
def halveLoop (dividend divisor : U32) : Res U32 :=
  if divisor = 1#32 then .ok dividend
  else if _h : divisor = 0#32 then .ub
  else halveLoop (dividend >>> 1) (divisor >>> 1)
termination_by divisor.toNat
decreasing_by
  have h0 : divisor.toNat ≠ 0 := fun h' => _h (BitVec.eq_of_toNat_eq (by simpa using h'))
  simp only [BitVec.toNat_ushiftRight, Nat.shiftRight_eq_div_pow]
  omega

/-- math_extension.cpp:72-112; `ndebug` as in `fastModule`, `dividend / 0` (line
110) is `ub`. -/
def fastDivision (ndebug : Bool) (dividend divisor : U32) : Res U32 :=
  if divisor = 0#32 ∧ ndebug = false then .abort
  else if dividend < divisor then .ok 0#32
  else if dividend = divisor then .ok 1#32
  else if divisor = 1#32 then .ok dividend
  else if divisor = 2#32 then .ok (dividend >>> 1)
  else if isPowerOf2 divisor then halveLoop dividend divisor
  else if divisor = 0#32 then .ub
  else .ok (dividend / divisor)

/-- math_extension.cpp:114-120. -/
def arithmeticProgressionSum (lowest interval steps : U32) : U32 :=
  ((2#32 * lowest + ((steps - 1#32) * interval)) * steps) / 2#32

/-- math_extension.cpp:122-142; the exponent (an `unsigned int`, only halved and
decremented when positive) is a `Nat`. -/
def fastExponential (base : U32) (exponent : Nat) : U32 :=
  if exponent = 0 then 1#32
  else if exponent = 1 then base
  else if exponent % 2 = 0 then fastExponential (base * base) (exponent / 2)
  else base * fastExponential base (exponent - 1)
termination_by exponent

end Verif.Math
