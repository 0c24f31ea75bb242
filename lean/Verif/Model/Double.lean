import Mathlib.Data.Int.Log
import Mathlib.Data.Rat.Floor
/-!
IEEE-754 double precision numbers that are not negative, as exact rationals, and rounding to
them: 53 significant bits, to nearest, ties to even (the default rounding mode).  The exponent
is unbounded here; overflow and underflow are treated where a number enters (`std::stod`).
-/
namespace Verif.Double

/-- The integer nearest to `y`, the even one of two. -/
def roundEven (y : ℚ) : ℤ :=
  let f := ⌊y⌋
  if y - f < 1 / 2 then f
  else if 1 / 2 < y - f then f + 1
  else if f % 2 = 0 then f else f + 1

/-- Exponent of the last of the 53 bits of a positive number. -/
def expo (x : ℚ) : ℤ := Int.log 2 x - 52

/-- The double nearest to `x ≥ 0`. -/
def fl (x : ℚ) : ℚ := if x = 0 then 0 else roundEven (x / 2 ^ expo x) * 2 ^ expo x

end Verif.Double
