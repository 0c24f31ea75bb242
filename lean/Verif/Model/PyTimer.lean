import Verif.Model.Double
/-!
`Timer` (`py_utils/py_utils/time/Timer.py`).  `time.time()` gives a double, here as the rational number it stands for.
-/
namespace Verif.PyTimer
open Verif.Double

/-- The object: `_start_time`.  Constructor, Timer.py:32-36. -/
def create (now : ℚ) : ℚ := now

/-- `reset`, Timer.py:38-42. -/
def reset (_start now : ℚ) : ℚ := now

/-- Difference of two doubles, rounded. -/
def sub (a b : ℚ) : ℚ := if b ≤ a then fl (a - b) else -fl (b - a)

/-- `elapsed`, Timer.py:44-51. -/
def elapsed (start now : ℚ) : ℚ := sub now start

/-- `reset` at these times, after a creation at `t0`. -/
def run (t0 : ℚ) (resets : List ℚ) : ℚ := resets.foldl reset (create t0)

end Verif.PyTimer
