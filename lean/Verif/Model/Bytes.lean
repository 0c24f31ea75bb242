import Verif.Model.Double
import Verif.Model.NumFormat
/-!
`to_bytes` and `from_bytes`, `cpp_utils/src/cpp/utils.cpp:126-228`.

Library behaviour assumed: `std::regex` matches its grammar (its recursion depth on very long
texts is not modelled), `std::stod` rounds correctly in the "C" locale, `double` is IEEE-754
with round-to-nearest-even, `%.2f` formatting is exact.
-/
namespace Verif.Bytes
open Verif.Double

/-- `\d`, utils.cpp:144. -/
def isDigit (c : Char) : Bool := '0' ≤ c && c ≤ '9'

/-- `[a-zA-Z]`, utils.cpp:144. -/
def isLetter (c : Char) : Bool := ('a' ≤ c && c ≤ 'z') || ('A' ≤ c && c ≤ 'Z')

/-- `\s`, utils.cpp:144: white space of the "C" locale. -/
def isSpace (c : Char) : Bool := c == ' ' || ('\t' ≤ c && c ≤ '\r')

/-- `std::regex_match` with `^(\d+(\.\d+)?)\s*([a-zA-Z]+)$`, utils.cpp:144-158: the digits
before the point, those after it (empty without a point) and the letters.  The four classes
of characters are disjoint, so a match takes every run of them as a whole. -/
def parse (s : Str) : Option (Str × Str × Str) :=
  let i := s.takeWhile isDigit
  if i = [] then none
  else
    match s.dropWhile isDigit with
    | '.' :: t => if t.takeWhile isDigit = [] then none else rest i (t.takeWhile isDigit) (t.dropWhile isDigit)
    | r => rest i [] r
where
  /-- `\s*([a-zA-Z]+)$` -/
  rest (i f r : Str) : Option (Str × Str × Str) :=
    let u := r.dropWhile isSpace
    if u ≠ [] ∧ u.all isLetter then some (i, f, u) else none

/-- Value of a run of digits. -/
def digitsValue (s : Str) : ℕ := s.foldl (fun v c => v * 10 + (c.toNat - 48)) 0

/-- The number written. -/
def numberOf (i f : Str) : ℚ := (digitsValue (i ++ f) : ℚ) / 10 ^ f.length

/-- `std::stod`, utils.cpp:155; `none` is `std::out_of_range` (`ERANGE`).  Numbers below the
normal range are refused unless they are representable without loss. -/
def stod (q : ℚ) : Option ℚ :=
  if q = 0 then some 0
  else if 2 ^ 1024 - 2 ^ 970 ≤ q then none
  else if q < 1 / 2 ^ 1022 then (if (q * 2 ^ 1074).den = 1 then some q else none)
  else some (fl q)

/-- `std::toupper` in the "C" locale. -/
def upper (c : Char) : Char := if 'a' ≤ c ∧ c ≤ 'z' then Char.ofNat (c.toNat - 32) else c

/-- `units`, utils.cpp:129-141. -/
def units : List (Str × ℕ) :=
  [(c!"B", 1), (c!"KB", 1000), (c!"MB", 1000 * 1000), (c!"GB", 1000 * 1000 * 1000),
   (c!"TB", 1000 * 1000 * 1000 * 1000), (c!"PB", 1000 * 1000 * 1000 * 1000 * 1000),
   (c!"KIB", 1024), (c!"MIB", 1024 * 1024), (c!"GIB", 1024 * 1024 * 1024),
   (c!"TIB", 1024 * 1024 * 1024 * 1024), (c!"PIB", 1024 * 1024 * 1024 * 1024 * 1024)]

/-- The end of `to_bytes`, utils.cpp:167-179.  Both comparison and product convert the
integer to `double`; converting a `double` of 2^64 or more to `uint64_t` is undefined. -/
def scale (number : ℚ) (unit : ℕ) : Res ℕ :=
  if fl ((2 ^ 64 - 1) / unit : ℕ) < number then .throw .invalidArgument
  else if fl (number * fl unit) < 2 ^ 64 then .ok ⌊fl (number * fl unit)⌋.toNat
  else .ub

/-- `to_bytes`, utils.cpp:126-180. -/
def toBytes (input : Str) : Res ℕ :=
  match parse input with
  | none => .throw .invalidArgument
  | some (i, f, u) =>
    match stod (numberOf i f) with
    | none => .throw .outOfRange
    | some number =>
      match units.lookup (u.map upper) with
      | none => .throw .invalidArgument
      | some unit => scale number unit

/-- Units of `from_bytes`, utils.cpp:190-197. -/
def fromUnits : List (ℕ × Str) :=
  [(1, c!"B"), (1000, c!"KB"), (1000 * 1000, c!"MB"), (1000 * 1000 * 1000, c!"GB"),
   (1000 * 1000 * 1000 * 1000, c!"TB"), (1000 * 1000 * 1000 * 1000 * 1000, c!"PB")]

/-- `std::prev(std::upper_bound(…))`, utils.cpp:200-207: the last unit not greater than
`bytes`; before the first one if there is none (never for `bytes ≥ 1`). -/
def unitFor (bytes : ℕ) : Option (ℕ × Str) := (fromUnits.filter fun u => u.1 ≤ bytes).getLast?

/-- `std::fixed << std::setprecision(2)`, utils.cpp:224: hundredths, rounded to even. -/
def hundredths (x : ℚ) : ℕ := (roundEven (x * 100)).toNat

/-- Number of hundredths as text. -/
def fixed2 (h : ℕ) : Str := NumFormat.natToDec (h / 100) ++ '.' :: NumFormat.padLeft 2 (NumFormat.natToDec (h % 100))

/-- `from_bytes`, utils.cpp:182-228.  `number_int` is converted to `double` in the
subtraction. -/
def fromBytes (bytes : ℕ) : Res Str :=
  if bytes = 0 then .ok c!"0B"
  else
    match unitFor bytes with
    | none => .ub
    | some (factor, unit) =>
      let number := fl (fl bytes / fl factor)
      let int := ⌊number⌋.toNat
      if fl |number - fl int| < fl (1 / 100) then .ok (NumFormat.natToDec int ++ unit)
      else .ok (fixed2 (hundredths number) ++ unit)

end Verif.Bytes
