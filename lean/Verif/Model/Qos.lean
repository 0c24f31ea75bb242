import Verif.Model.Basic
/-!
`qos_policy_id_to_string` and `qos_policy_mask_to_string`
(`cpp_utils/src/cpp/qos/qos_utils.cpp`).

The numeric ids come from Fast DDS, which is not part of the repository: `INVALID_QOS_POLICY_ID` is 0,
the 36 policies are 1..36 in the order of the switch and `NEXT_QOS_POLICY_ID` is 37.
-/
namespace Verif.Qos

/-- The strings of the switch of qos_utils.cpp:30-107, by id; id 0 and unknown ids fall in the
default branch (lines 108-110). -/
def names : List Str :=
  [c!"Invalid", c!"User data", c!"Durability", c!"Presentation", c!"Deadline", c!"Latency budget",
   c!"Ownership", c!"Ownership strength", c!"Liveliness", c!"Time-based filter", c!"Partition",
   c!"Reliability", c!"Destination order", c!"History", c!"Resource limits", c!"Entity factory",
   c!"Writer data lifecycle", c!"Reader data lifecycle", c!"Topic data", c!"Group data",
   c!"Transport priority", c!"Lifespan", c!"Durability service", c!"Data representation",
   c!"Type consistency enforcement", c!"Disable positive acks", c!"Participant resource limits",
   c!"Property policy", c!"Publish mode", c!"Reader resource limits", c!"RTPS endpoint",
   c!"RTPS reliable reader", c!"RTPS reliable writer", c!"Transport config", c!"Type consistency",
   c!"Wire protocol config", c!"Writer resource limits"]

/-- `NEXT_QOS_POLICY_ID`. -/
def next : Nat := 37

/-- `qos_policy_id_to_string`, qos_utils.cpp:30-111. -/
def idToString (id : Nat) : Str := names.getD id c!"Invalid"

/-- The loop of qos_utils.cpp:121-142 over the remaining ids. -/
def maskLoop (mask : Nat → Bool) : List Nat → Bool → Str → Str
  | [], _, acc => acc
  | id :: ids, first, acc =>
    if mask id then
      maskLoop mask ids false ((if first then acc else acc ++ c!", ") ++ idToString id)
    else maskLoop mask ids first acc

/-- `qos_policy_mask_to_string`, qos_utils.cpp:113-145; the bitset has one bit per id below `next`. -/
def maskToString (mask : Nat → Bool) : Str :=
  if (List.range next).all (fun id => !mask id) then idToString 0
  else maskLoop mask (List.range next) true []

end Verif.Qos
