import Verif.Model.Strings
/-!
`cpp_utils/src/cpp/ros2_mangling.cpp`.  The warnings it logs are not modelled.
-/
namespace Verif.Mangling
open Verif.Strings

/-- `std::string::rfind(pat)`: position of the last occurrence.  Library function
used at ros2_mangling.cpp:198, 224, 289. -/
def rfind (pat : Str) : Str → Option Nat
  | [] => if pat.isPrefixOf ([] : Str) then some 0 else none
  | c :: cs =>
    match rfind pat cs with
    | some i => some (i + 1)
    | none => if pat.isPrefixOf (c :: cs) then some 0 else none

/-- `name.rfind(prefix, 0) == 0` (ros2_mangling.cpp:40, 66, 79, 120): `name` starts
with `prefix`. -/
def startsWith (name pre : Str) : Bool := pre.isPrefixOf name

/-- `replace_all(st, a, b)` as called at ros2_mangling.cpp:146, 176, 313, 350 (utils.cpp:275-286).
The iteration bound is never reached for the arguments used
(`Lemmas/Mangling.replaceAllC_*`). -/
def replaceAllC (st a b : Str) : Str :=
  match replaceAllFuel a b (st.length + 1) st 0 with
  | some r => r.2
  | none => st

/-- `s.substr(start, stop - start)` with unsigned arithmetic: a negative difference
wraps around to a count larger than any string (ros2_mangling.cpp:148, 315). -/
def slice (s : Str) (start stop : Nat) : Str :=
  if stop < start then s.drop start else (s.drop start).take (stop - start)

/-- ros2_mangling.cpp:26. -/
def rtPrefix : Str := c!"rt"
/-- ros2_mangling.cpp:27. -/
def rqPrefix : Str := c!"rq"
/-- ros2_mangling.cpp:28. -/
def rrPrefix : Str := c!"rr"
/-- ros2_mangling.cpp:30-31. -/
def rosPrefixes : List Str := [rtPrefix, rqPrefix, rrPrefix]
/-- ros2_mangling.cpp:33. -/
def msgFormat : Str := c!"/msg/"
/-- ros2_mangling.cpp:34. -/
def srvFormat : Str := c!"/srv/"
/-- ros2_mangling.cpp:136, 165, 274. -/
def ddsNs : Str := c!"dds_::"

/-- `remove_prefix`, ros2_mangling.cpp:36-45. -/
def removePrefix (name pre : Str) : Str :=
  if startsWith name (pre ++ c!"/") then name.drop pre.length else []

/-- `add_prefix`, ros2_mangling.cpp:47-52. -/
def addPrefix (name pre : Str) : Str := pre ++ name

/-- `get_ros_prefix_if_exists`, ros2_mangling.cpp:61-72. -/
def getRosPrefixIfExists (topic : Str) : Str :=
  match rosPrefixes.find? fun p => startsWith topic (p ++ c!"/") with
  | some p => p
  | none => []

/-- `remove_ros_prefix_if_exists`, ros2_mangling.cpp:74-85. -/
def removeRosPrefixIfExists (topic : Str) : Str :=
  match rosPrefixes.find? fun p => startsWith topic (p ++ c!"/") with
  | some p => topic.drop p.length
  | none => topic

/-- `demangle_if_ros_topic`, ros2_mangling.cpp:111-115. -/
def demangleIfRosTopic (topic : Str) : Str := removeRosPrefixIfExists topic

/-- `mangle_if_ros_topic`, ros2_mangling.cpp:117-125. -/
def mangleIfRosTopic (topic : Str) : Str :=
  if startsWith topic c!"/" then rtPrefix ++ topic else topic

/-- `demangle_if_ros_type`, ros2_mangling.cpp:127-152.  Line 130 reads
`s[s.size() - 1]`, out of range for the empty string. -/
def demangleIfRosType (s : Str) : Res Str :=
  match s.getLast? with
  | none => .ub
  | some c =>
    if c ≠ '_' then .ok s
    else
      match find ddsNs s with
      | none => .ok s
      | some pos =>
        .ok (replaceAllC (s.take pos) c!"::" c!"/" ++ slice s (pos + ddsNs.length) (s.length - 1))

/-- `mangle_if_ros_type`, ros2_mangling.cpp:154-179. -/
def mangleIfRosType (s : Str) : Str :=
  match find msgFormat s with
  | none => s
  | some pos =>
    let ns := s.take (pos + msgFormat.length)
    let name := s.drop (pos + msgFormat.length)
    if name.length = 0 then s
    else replaceAllC ns c!"/" c!"::" ++ c!"dds_::" ++ name ++ c!"_"

/-- `demangle_ros_topic_prefix_from_topic`, ros2_mangling.cpp:181-185. -/
def demangleRosTopicPrefixFromTopic (topic : Str) : Str := removePrefix topic rtPrefix

/-- `demangle_ros_service_prefix_from_topic(prefix, topic, suffix)`,
ros2_mangling.cpp:187-217. -/
def demangleServiceWith (pre topic suffix : Str) : Str :=
  let name := removePrefix topic pre
  if name = [] then []
  else
    match rfind suffix name with
    | none => []
    | some pos => if name.length - pos - suffix.length ≠ 0 then [] else name.take pos

/-- `mangle_ros_service_in_topic`, ros2_mangling.cpp:219-234. -/
def mangleServiceWith (pre topic suffix : Str) : Str :=
  if rfind c!"/" topic ≠ some 0 then [] else pre ++ topic ++ suffix

/-- `demangle_ros_service_request_prefix_from_topic`, ros2_mangling.cpp:247-251. -/
def demangleRequest (topic : Str) : Str := demangleServiceWith rqPrefix topic c!"Request"
/-- `mangle_ros_service_request_prefix_in_topic`, ros2_mangling.cpp:253-257. -/
def mangleRequest (topic : Str) : Str := mangleServiceWith rqPrefix topic c!"Request"
/-- `demangle_ros_service_reply_prefix_from_topic`, ros2_mangling.cpp:259-263. -/
def demangleReply (topic : Str) : Str := demangleServiceWith rrPrefix topic c!"Reply"
/-- `mangle_ros_service_reply_prefix_in_topic`, ros2_mangling.cpp:265-269. -/
def mangleReply (topic : Str) : Str := mangleServiceWith rrPrefix topic c!"Reply"

/-- `demangle_ros_service_prefix_from_topic(topic)`, ros2_mangling.cpp:236-245. -/
def demangleService (topic : Str) : Str :=
  let d := demangleReply topic
  if d ≠ [] then d else demangleRequest topic

/-- The loop over the suffixes, ros2_mangling.cpp:287-302: the value of
`suffix_position` when it ends (`none` is `npos`).  A suffix found elsewhere than at the
end sets the position and goes on. -/
def suffixLoop (s : Str) : List Str → Option Nat → Option Nat
  | [], pos => pos
  | suffix :: rest, _ =>
    match rfind suffix s with
    | none => suffixLoop s rest none
    | some p => if s.length - p - suffix.length ≠ 0 then suffixLoop s rest (some p) else some p

/-- ros2_mangling.cpp:281-284. -/
def typeSuffixes : List Str := [c!"_Response_", c!"_Request_"]

/-- `demangle_service_type_only`, ros2_mangling.cpp:271-317. -/
def demangleServiceType (s : Str) : Str :=
  match find ddsNs s with
  | none => []
  | some nsPos =>
    match suffixLoop s typeSuffixes (some 0) with
    | none => []
    | some sufPos =>
      replaceAllC (s.take nsPos) c!"::" c!"/" ++ slice s (nsPos + ddsNs.length) sufPos

/-- `mangle_service_type_only`, ros2_mangling.cpp:319-353. -/
def mangleServiceType (s : Str) : Str :=
  match find srvFormat s with
  | none => []
  | some pos =>
    let d := s.take (pos + srvFormat.length) ++ c!"dds_::" ++ s.drop (pos + srvFormat.length)
    if find c!"rq/" s = some 0 then replaceAllC (d ++ c!"_Request_") c!"/" c!"::"
    else if find c!"rr/" s = some 0 then replaceAllC (d ++ c!"_Response_") c!"/" c!"::"
    else []

end Verif.Mangling
