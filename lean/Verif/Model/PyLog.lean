import Verif.Model.Basic
/-!
`CustomLogger` (`py_utils/py_utils/logging/log_utils.py`) on top of `logging.Logger` of CPython 3.11
(`Lib/logging/__init__.py`, cited by function).

Simplified: a written line is kept as the format of its handler, the level and the message, since filling in a format is the
business of `logging.Formatter`; names of levels (`set_log_level('DEBUG')`) are given as their numbers; filters and attributes of the
object that the class does not mention are never changed.
-/
namespace Verif.PyLog

/-- `logging.DEBUG`, used in log_utils.py:63. -/
def debugLevel : Int := 10

/-- `logging.INFO`, the default of the constructor, log_utils.py:37-44. -/
def infoLevel : Int := 20

/-- `level`, the formats of the stream handlers in `handlers` and `_cache` of the object, and `disable` of the manager of all
loggers.  (`Logger.__init__`; `parent` is `None`, as the object does not come from `getLogger`.) -/
structure Logger where
  level : Int
  formats : List Str
  cache : List (Int × Bool)
  disable : Int
deriving DecidableEq

/-- The default of `set_format`, log_utils.py:48. -/
def defaultFormat : Str := c!"[%(asctime)s][%(name)s][%(levelname)s] %(message)s"

/-- A line written to the stream. -/
structure Line where
  format : Str
  level : Int
  message : Str
deriving DecidableEq

/-- `set_format`, log_utils.py:46-53; `valid`: the formats which `logging.Formatter` accepts (for others it raises
`ValueError`, before the handler is added).  `Logger.addHandler` appends a handler that is not in the list, and this one is new. -/
def setFormat (valid : Str → Bool) (g : Logger) (f : Str) : Logger :=
  if valid f then { g with formats := g.formats ++ [f] } else g

/-- `set_log_level`, log_utils.py:55-59: `Logger.setLevel` stores the level and calls `Manager._clear_cache`, which empties the
caches of the root and of the loggers made by `getLogger`; this one is not among them. -/
def setLevel (g : Logger) (l : Int) : Logger := { g with level := l }

/-- `activate_debug`, log_utils.py:61-63. -/
def activateDebug (g : Logger) : Logger := setLevel g debugLevel

/-- The constructor, log_utils.py:37-44 (the default format is valid). -/
def create (level : Int) : Logger := setLevel ⟨0, [defaultFormat], [], 0⟩ level

/-- The global object, log_utils.py:67. -/
def global : Logger := create infoLevel

/-- `Logger.isEnabledFor`: what it returns, and the object after it. -/
def isEnabledFor (g : Logger) (l : Int) : Bool × Logger :=
  match g.cache.lookup l with
  | some b => (b, g)
  | none =>
    let b := if g.disable ≥ l then false else decide (l ≥ g.level)
    (b, { g with cache := (l, b) :: g.cache })

/-- `Logger.log` (and `debug`, `info`, … for their levels): the lines written, `Logger.callHandlers`. -/
def log (g : Logger) (l : Int) (m : Str) : List Line × Logger :=
  let r := isEnabledFor g l
  (if r.1 then g.formats.map (⟨·, l, m⟩) else [], r.2)

/-- Calls; `disable` is `logging.disable`. -/
inductive Op
  | setFormat (f : Str)
  | setLevel (l : Int)
  | activateDebug
  | disable (l : Int)
  | log (l : Int) (m : Str)
deriving DecidableEq

/-- One call: the lines it writes. -/
def step (valid : Str → Bool) (g : Logger) : Op → List Line × Logger
  | .setFormat f => ([], setFormat valid g f)
  | .setLevel l => ([], setLevel g l)
  | .activateDebug => ([], activateDebug g)
  | .disable l => ([], { g with disable := l })
  | .log l m => log g l m

/-- A sequence of calls. -/
def run (valid : Str → Bool) (g : Logger) (ops : List Op) : Logger := ops.foldl (fun g o => (step valid g o).2) g

end Verif.PyLog
