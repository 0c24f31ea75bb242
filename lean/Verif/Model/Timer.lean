import Verif.Model.Basic
/-!
`Timer` and `PausableTimer` (`cpp_utils/src/cpp/time/Timer.cpp`, `PausableTimer.cpp`).

Simplification: time is counted in whole ticks of the clock (a `Nat`) instead of a `double` number of
milliseconds, so rounding of the sum is not modelled.
-/
namespace Verif.Timer

/-- `start_time_` (Timer.hpp), `playing_` and `stored_time_elapsed_` (PausableTimer.hpp). -/
structure State where
  start : Nat
  playing : Bool
  stored : Nat
deriving DecidableEq

/-- Constructor at time `now`, PausableTimer.cpp:25-30 and Timer.cpp:25-28. -/
def init (now : Nat) (play : Bool) : State := ⟨now, play, 0⟩

/-- `Timer::elapsed`, Timer.cpp:35-38. -/
def rawElapsed (s : State) (now : Nat) : Nat := now - s.start

/-- `Timer::reset` via `reset_`, Timer.cpp:30-33 and PausableTimer.cpp:83-86. -/
def rawReset (s : State) (now : Nat) : State := { s with start := now }

inductive Op
  | play | pause | reset
deriving DecidableEq

/-- `play` PausableTimer.cpp:32-42, `pause` 44-55, `reset` 72-76. -/
def step (s : State) (now : Nat) : Op → State
  | .play => if !s.playing then { rawReset s now with playing := true } else s
  | .pause =>
    if s.playing then
      { rawReset { s with stored := s.stored + rawElapsed s now } now with playing := false }
    else s
  | .reset => rawReset { s with stored := 0 } now

/-- `elapsed`, PausableTimer.cpp:58-70. -/
def elapsed (s : State) (now : Nat) : Nat :=
  if !s.playing then s.stored else s.stored + rawElapsed s now

/-- A sequence of calls, each with its time. -/
def run (s : State) (evs : List (Nat × Op)) : State :=
  evs.foldl (fun s e => step s e.1 e.2) s

end Verif.Timer
