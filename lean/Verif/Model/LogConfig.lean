import Verif.Model.Fuzzy
/-!
`BaseLogConfiguration` (`cpp_utils/src/cpp/logging/BaseLogConfiguration.cpp`) and the log
consumers (`BaseLogConsumer.cpp`, `StdLogConsumer.cpp`).
-/
namespace Verif.LogConfig
open Verif.Fuzzy

/-- `VerbosityKind` = `Log::Kind` of Fast DDS: `Error`, `Warning`, `Info` with values 0, 1, 2
(external, assumed). -/
inductive Kind | error | warning | info
deriving DecidableEq, Repr

/-- The value of the enumerator. -/
def Kind.toNat : Kind → Nat
  | .error => 0
  | .warning => 1
  | .info => 2

/-- The configuration: `verbosity` and the map `filter` with one entry per kind
(BaseLogConfiguration.cpp:27-33 fills the three; no method removes one). -/
structure Config where
  verbosity : Fuzzy Kind
  filter : Kind → Fuzzy Str

/-- Constructor, BaseLogConfiguration.cpp:27-33. -/
def Config.default : Config :=
  { verbosity := ⟨.warning, levelDefault⟩, filter := fun _ => ⟨[], levelDefault⟩ }

/-- `set(verbosity)`, BaseLogConfiguration.cpp:41-48. -/
def Config.setVerbosity (c : Config) (v : Fuzzy Kind) : Config :=
  if c.verbosity.level ≤ v.level then { c with verbosity := v } else c

/-- One of the three conditional updates of `set(filter)`. -/
def Config.setOne (c : Config) (k : Kind) (v : Fuzzy Str) : Config :=
  if (c.filter k).level ≤ v.level then { c with filter := fun j => if j = k then v else c.filter j } else c

/-- `set(filter)`, BaseLogConfiguration.cpp:50-67.  A `LogFilter` is a map, so some kinds may be
missing: `.at` then throws `std::out_of_range` and what was done before stays done. -/
def Config.setFilter (c : Config) (f : Kind → Option (Fuzzy Str)) : Config × Res Unit :=
  match f .error with
  | none => (c, .throw .outOfRange)
  | some e =>
    let c := c.setOne .error e
    match f .warning with
    | none => (c, .throw .outOfRange)
    | some w =>
      let c := c.setOne .warning w
      match f .info with
      | none => (c, .throw .outOfRange)
      | some i => (c.setOne .info i, .ok ())

/-- A call on the configuration. -/
inductive Call
  | verbosity (v : Fuzzy Kind)
  | filter (f : Kind → Option (Fuzzy Str))

/-- Effect of a call. -/
def Config.call (c : Config) : Call → Config
  | .verbosity v => c.setVerbosity v
  | .filter f => (c.setFilter f).1

/-- A history of calls on a new configuration. -/
def run (calls : List Call) : Config := calls.foldl Config.call Config.default

/-! ### consumers -/

/-- A log entry (the parts used). -/
structure Entry where
  kind : Kind
  category : Str
  message : Str

/-- `accept_entry_`, BaseLogConsumer.cpp:34-47.  `search pattern text` stands for
`std::regex_search` (a pattern that is not a regular expression, for which `std::regex` throws, is
not modelled). -/
def accept (search : Str → Str → Bool) (filter : Kind → Fuzzy Str) (verbosity : Kind) (e : Entry) : Bool :=
  let re := (filter e.kind).value
  let isContentValid := search re e.category || search re e.message
  let isKindValid : Bool := e.kind.toNat ≤ verbosity.toNat
  isKindValid && isContentValid

/-- The standard streams. -/
inductive Stream | cout | cerr
deriving DecidableEq

/-- `get_stream_`, StdLogConsumer.cpp:50-62. -/
def getStream (k : Kind) : Stream :=
  match k with
  | .error => .cerr
  | .warning => .cerr
  | .info => .cout

/-- `Consume`, StdLogConsumer.cpp:33-48: where the entry is printed, if at all. -/
def consume (search : Str → Str → Bool) (filter : Kind → Fuzzy Str) (verbosity : Kind) (e : Entry) : Option Stream :=
  if !accept search filter verbosity e then none else some (getStream e.kind)

end Verif.LogConfig
