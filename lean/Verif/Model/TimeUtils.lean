import Verif.Model.NumFormat
/-!
`cpp_utils/src/cpp/time/time_utils.cpp` on 64-bit Linux with glibc and libstdc++:
`time_t` is a 64-bit count of seconds, `Timestamp` a 64-bit count of nanoseconds
(time_utils.hpp:35-40).  The library functions the code calls (`timegm`, `gmtime`,
`put_time`, `get_time`, `from_time_t`, `to_time_t`) are assumed to behave as written here;
`get_time` follows libstdc++ 13 (bits/locale_facets_nonio.tcc).

The local-time variants (`local_time = true`) are in Model/LocalTime.lean.  Not modelled: formats with
conversions other than `%Y %m %d %H %M %S %%`.
-/
namespace Verif.TimeUtils

/-- `int` and 64-bit range. -/
def int32 (x : Int) : Prop := -2^31 ≤ x ∧ x < 2^31
def int64 (x : Int) : Prop := -2^63 ≤ x ∧ x < 2^63
instance (x : Int) : Decidable (int32 x) := inferInstanceAs (Decidable (_ ∧ _))
instance (x : Int) : Decidable (int64 x) := inferInstanceAs (Decidable (_ ∧ _))

/-- `static_cast<int>` of an `unsigned int`, time_utils.cpp:63-68: two's complement. -/
def toInt (n : Nat) : Int := if n < 2^31 then n else n - 2^32

/-- `std::tm`, as far as it is used: the year minus 1900, the month minus 1. -/
structure Tm where
  year : Int
  mon : Int
  mday : Int
  hour : Int
  min : Int
  sec : Int
deriving DecidableEq, Repr

/-- Leap years in the `if` form of the C library. -/
def isLeap (y : Int) : Bool := y % 4 == 0 && (y % 100 != 0 || y % 400 == 0)

/-- Days from 1970-01-01 to January 1st of year `y`. -/
def yearStart (y : Int) : Int :=
  365 * (y - 1970) + (y - 1) / 4 - (y - 1) / 100 + (y - 1) / 400 - 477

/-- Days of the year before month `m` (0 = January) in a common year. -/
def monthStart (m : Nat) : Nat := [0, 31, 59, 90, 120, 151, 181, 212, 243, 273, 304, 334].getD m 0

/-- The same in year `y`. -/
def monthStartIn (y : Int) (m : Nat) : Nat := monthStart m + if isLeap y && 2 ≤ m then 1 else 0

/-- The seconds `timegm` counts; fields beyond their ranges carry over (library function
called at time_utils.cpp:70, 88, 152). -/
def secondsOf (tm : Tm) : Int :=
  let y := 1900 + tm.year + tm.mon / 12
  let m := (tm.mon % 12).toNat
  (yearStart y + monthStartIn y m + (tm.mday - 1)) * 86400 + tm.hour * 3600 + tm.min * 60 + tm.sec

/-- The year of day `n`: an estimate from the length of 400 years, corrected by one. -/
def yearOf (n : Int) : Int :=
  let y := 1970 + n * 400 / 146097
  if n < yearStart y then y - 1 else if yearStart (y + 1) ≤ n then y + 1 else y

/-- The last month up to `m` that starts on or before day `yday` of year `y`. -/
def monthOf (y : Int) (yday : Int) : Nat → Nat
  | 0 => 0
  | m + 1 => if (monthStartIn y (m + 1) : Int) ≤ yday then m + 1 else monthOf y yday m

/-- The broken-down time of `t`. -/
def tmOf (t : Int) : Tm :=
  let n := t / 86400
  let r := t % 86400
  let y := yearOf n
  let m := monthOf y (n - yearStart y) 11
  { year := y - 1900, mon := m, mday := n - yearStart y - monthStartIn y m + 1,
    hour := r / 3600, min := r % 3600 / 60, sec := r % 60 }

/-- `gmtime`: null when the year does not fit in an `int` (library function called at
time_utils.cpp:82, 106). -/
def gmtime (t : Int) : Option Tm := if int32 (tmOf t).year then some (tmOf t) else none

/-- `timegm`: −1 when the result has no broken-down time. -/
def timegm (tm : Tm) : Int := if (gmtime (secondsOf tm)).isSome then secondsOf tm else -1

/-- Platforms distinguished by `normalize`, time_utils.cpp:180-187. -/
inductive Platform where
  | linux
  | win64
  | win32
deriving DecidableEq, Repr

/-- `normalize`, time_utils.cpp:176-198. -/
def normalize (p : Platform) (t : Int) : Int :=
  match p with
  | .linux => t
  | .win64 => clamp 32535215999 t
  | .win32 => clamp (2^31 - 1) t
where
  /-- time_utils.cpp:189-195 -/
  clamp (max_ t : Int) : Int := if 0 > t ∨ t > max_ then max 0 (min max_ t) else t

/-- `Timeclock::from_time_t` (time_utils.cpp:70, 88, 161): seconds to nanoseconds, a signed
64-bit multiplication. -/
def fromTimeT (t : Int) : Res Int := if int64 (t * 10^9) then .ok (t * 10^9) else .ub

/-- `Timeclock::to_time_t` (time_utils.cpp:81, 97): `duration_cast` truncates towards zero. -/
def toTimeT (ns : Int) : Int := ns.tdiv (10^9)

/-- `date_to_timestamp`, time_utils.cpp:53-71.  The arguments are `unsigned int`. -/
def dateToTimestamp (year month day hour minute second : Nat) : Res Int :=
  if ¬ int32 (toInt month - 1) ∨ ¬ int32 (toInt year - 1900) then .ub
  else
    fromTimeT (normalize .linux (timegm
      { sec := toInt second, min := toInt minute, hour := toInt hour, mday := toInt day,
        mon := toInt month - 1, year := toInt year - 1900 }))

/-- `time_to_timestamp`, time_utils.cpp:73-89; `now` is what the clock shows.  The result of
`gmtime` is dereferenced unchecked. -/
def timeToTimestamp (now : Int) (hour minute second : Nat) : Res Int :=
  match gmtime (normalize .linux (toTimeT now)) with
  | none => .ub
  | some tm =>
    fromTimeT (timegm { tm with sec := toInt second, min := toInt minute, hour := toInt hour })

/-- The conversions of a format. -/
inductive Conv where
  | Y
  | m
  | d
  | H
  | M
  | S
  | percent
deriving DecidableEq, Repr

/-- A format: conversions and literal characters (not `%`, not NUL). -/
inductive Item where
  | conv (c : Conv)
  | lit (c : Char)
deriving DecidableEq, Repr

/-- Default format `"%Y-%m-%d_%H-%M-%S"`, time_utils.hpp:83, 97. -/
def defaultFormat : List Item :=
  [.conv .Y, .lit '-', .conv .m, .lit '-', .conv .d, .lit '_', .conv .H, .lit '-', .conv .M,
   .lit '-', .conv .S]

/-- One conversion printed: two digits, the year as it is (four digits in the years a
`Timestamp` can show). -/
def putConv (tm : Tm) : Conv → Str
  | .Y => NumFormat.intToDec (tm.year + 1900)
  | .m => NumFormat.padLeft 2 (NumFormat.intToDec (tm.mon + 1))
  | .d => NumFormat.padLeft 2 (NumFormat.intToDec tm.mday)
  | .H => NumFormat.padLeft 2 (NumFormat.intToDec tm.hour)
  | .M => NumFormat.padLeft 2 (NumFormat.intToDec tm.min)
  | .S => NumFormat.padLeft 2 (NumFormat.intToDec tm.sec)
  | .percent => ['%']

/-- `put_time` (library function called at time_utils.cpp:111). -/
def putTime (tm : Tm) : List Item → Str
  | [] => []
  | .conv c :: is => putConv tm c ++ putTime tm is
  | .lit c :: is => c :: putTime tm is

/-- `timestamp_to_string`, time_utils.cpp:91-119, in UTC. -/
def timestampToString (ns : Int) (fmt : List Item) : Res Str :=
  match gmtime (normalize .linux (toTimeT ns)) with
  | some tm => .ok (putTime tm fmt)
  | none => .throw .preconditionNotMet

/-- White space of the C locale. -/
def isSpace (c : Char) : Bool := c == ' ' || ('\t' ≤ c && c ≤ '\r')

/-- `toupper` of the C locale. -/
def upper (c : Char) : Char := if 'a' ≤ c ∧ c ≤ 'z' then Char.ofNat (c.toNat - 32) else c

/-- Loop of `time_get::_M_extract_num`: at most `len` digits, stopping at the digit that
makes the value exceed `max`.  Returns the value, the number of digits consumed and the
rest. -/
def digits (max : Nat) : Nat → Nat → Nat → Str → Nat × Nat × Str
  | 0, v, i, s => (v, i, s)
  | _ + 1, v, i, [] => (v, i, [])
  | len + 1, v, i, c :: s =>
    if '0' ≤ c ∧ c ≤ '9' then
      let v' := v * 10 + (c.toNat - 48)
      if v' > max then (v', i, c :: s) else digits max len v' (i + 1) s
    else (v, i, c :: s)

/-- `time_get::_M_extract_num`: `none` is `failbit`. -/
def extractNum (min max len : Nat) (s : Str) : Option (Nat × Str) :=
  match digits max len 0 0 s with
  | (v, i, rest) => if 0 < i ∧ min ≤ v ∧ v ≤ max then some (v, rest) else none

/-- One conversion read from a non-empty text, `time_get::_M_extract_via_format`. -/
def getConv (tm : Tm) (s : Str) : Conv → Option (Tm × Str)
  | .Y => (extractNum 0 9999 4 s).map fun (v, r) => ({ tm with year := (v : Int) - 1900 }, r)
  | .m => (extractNum 1 12 2 s).map fun (v, r) => ({ tm with mon := (v : Int) - 1 }, r)
  | .d => (extractNum 1 31 2 (skipOne s)).map fun (v, r) => ({ tm with mday := v }, r)
  | .H => (extractNum 0 23 2 s).map fun (v, r) => ({ tm with hour := v }, r)
  | .M => (extractNum 0 59 2 s).map fun (v, r) => ({ tm with min := v }, r)
  | .S => (extractNum 0 60 2 s).map fun (v, r) => ({ tm with sec := v }, r)
  | .percent =>
    match s with
    | '%' :: r => some (tm, r)
    | _ => none
where
  /-- `%d` skips one white space. -/
  skipOne : Str → Str
    | [] => []
    | c :: s => if isSpace c then s else c :: s

/-- A white-space character of the format. -/
def Item.isSpace : Item → Bool
  | .lit c => TimeUtils.isSpace c
  | .conv _ => false

/-- `time_get::get`.  White space in the format stands for any white space.  The text running out before an item is a failure; running out within
a conversion sets `eofbit`, which ends the loop without a failure whatever is left of the
format. -/
def getTime (tm : Tm) : List Item → Str → Option Tm
  | [], _ => some tm
  | _ :: _, [] => none
  | .conv c :: is, ch :: s =>
    match getConv tm (ch :: s) c with
    | none => none
    | some (tm', []) => some tm'
    | some (tm', r) => getTime tm' is r
  | .lit l :: is, ch :: s =>
    if isSpace l then getTime tm (is.dropWhile Item.isSpace) ((ch :: s).dropWhile isSpace)
    else if upper ch = upper l then getTime tm is s
    else none
termination_by is => is.length
decreasing_by
  all_goals simp only [List.length_cons]
  · omega
  · exact Nat.lt_succ_of_le (List.dropWhile_sublist _).length_le
  · omega

/-- `std::tm tm{}`, time_utils.cpp:127. -/
def Tm.zero : Tm := { year := 0, mon := 0, mday := 0, hour := 0, min := 0, sec := 0 }

/-- `string_to_timestamp`, time_utils.cpp:121-162, in UTC.  The extraction first skips white
space. -/
def stringToTimestamp (text : Str) (fmt : List Item) : Res Int :=
  match text.dropWhile isSpace, fmt with
  | [], _ => .throw .preconditionNotMet
  | s, fmt =>
    match getTime .zero fmt s with
    | none => .throw .preconditionNotMet
    | some tm =>
      if timegm tm = -1 then .throw .valueNotAllowed else fromTimeT (timegm tm)

end Verif.TimeUtils
