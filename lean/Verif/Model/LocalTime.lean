import Verif.Model.TimeUtils
/-!
The local-time variants of `cpp_utils/src/cpp/time/time_utils.cpp` (`local_time = true`), with an arbitrary time zone.
-/
namespace Verif.LocalTime
open Verif.TimeUtils

/-- A time zone: what is added to UTC at second `t`, and which second `mktime` takes for a local time (given as
the seconds it would be in UTC), with `tm_isdst = -1`. -/
structure Zone where
  offset : Int → Int
  pick : Int → Int

/-- Local time at second `t`, as the seconds it would be in UTC. -/
def Zone.wall (z : Zone) (t : Int) : Int := t + z.offset t

/-- What `mktime` promises: if the local time occurs, it takes a second at which it does. -/
def Zone.Good (z : Zone) : Prop := ∀ t, z.wall (z.pick (z.wall t)) = z.wall t

/-- `localtime` (library function called at time_utils.cpp:102). -/
def localtime (z : Zone) (t : Int) : Option Tm := gmtime (z.wall t)

/-- `mktime` (library function called at time_utils.cpp:142). -/
def mktime (z : Zone) (tm : Tm) : Int := if (gmtime (secondsOf tm)).isSome then z.pick (secondsOf tm) else -1

/-- `timestamp_to_string`, time_utils.cpp:91-119, in local time. -/
def timestampToString (z : Zone) (ns : Int) (fmt : List Item) : Res Str :=
  match localtime z (normalize .linux (toTimeT ns)) with
  | some tm => .ok (putTime tm fmt)
  | none => .throw .preconditionNotMet

/-- `string_to_timestamp`, time_utils.cpp:121-162, in local time. -/
def stringToTimestamp (z : Zone) (text : Str) (fmt : List Item) : Res Int :=
  match text.dropWhile isSpace, fmt with
  | [], _ => .throw .preconditionNotMet
  | s, fmt =>
    match getTime .zero fmt s with
    | none => .throw .preconditionNotMet
    | some tm =>
      if mktime z tm = -1 then .throw .valueNotAllowed else fromTimeT (mktime z tm)

end Verif.LocalTime
