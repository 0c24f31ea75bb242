import Verif.Model.LogConfig
/-!
The macros `logDebug`, `logDevError` and `logUser` of `cpp_utils/include/cpp_utils/Log.hpp`:32-118.

A use of a macro is given by what its argument `msg` does when it is evaluated: it streams some text, and may change the
state `W` of the program.  Simplified: categories and source positions are left out; a symbol that is defined has a value
other than 0.
-/
namespace Verif.LogMacros
open Verif.LogConfig (Kind)

/-- What the conditions of the preprocessor at Log.hpp:61-64 and 91-94 look at: `HAVE_LOG_NO_INFO`,
`FASTDDS_ENFORCE_LOG_INFO`, one of `__INTERNALDEBUG` and `_INTERNALDEBUG`, one of `_DEBUG` and `__DEBUG`, `NDEBUG`. -/
structure Config where
  noInfo : Bool
  enforce : Bool
  internal : Bool
  debug : Bool
  ndebug : Bool

/-- What a program does: queue an entry (`Log::QueueLog`), print (`std::cout`). -/
structure Out where
  queued : List (Kind × Str) := []
  printed : Str := []
deriving DecidableEq

/-- The argument `msg`: the text it streams and what it does to the program. -/
abbrev Msg (W : Type) := W → Str × W

variable {W : Type}

/-- The condition of Log.hpp:61-64 and 91-94. -/
def compiled (c : Config) : Bool := !c.noInfo && (c.enforce || (c.internal && (c.debug || !c.ndebug)))

/-- `logDebug`, Log.hpp:37 and 60-88; the lambda of lines 78-83 is never called. -/
def logDebug (c : Config) (verbosity : Kind) (msg : Msg W) (w : W) : Out × W :=
  if compiled c then
    if Kind.toNat verbosity ≥ Kind.toNat .info then
      let (text, w) := msg w
      ({ queued := [(.info, c!"DEBUG: " ++ text)] }, w)
    else ({}, w)
  else ({}, w)

/-- `logDevError`, Log.hpp:49 and 90-118; the lambda of lines 109-114 is never called. -/
def logDevError (c : Config) (verbosity : Kind) (msg : Msg W) (w : W) : Out × W :=
  if compiled c then
    if Kind.toNat verbosity ≥ Kind.toNat .info then
      let (text, w) := msg w
      ({ queued := [(.warning, c!"DEV_WARNING: " ++ text)] }, w)
    else ({}, w)
  else ({}, w)

/-- `logUser`, Log.hpp:58. -/
def logUser (msg : Msg W) (w : W) : Out × W :=
  let (text, w) := msg w
  ({ printed := text ++ c!"\n" }, w)

end Verif.LogMacros
