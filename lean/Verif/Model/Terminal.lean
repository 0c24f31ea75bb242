import Verif.Model.Basic
/-!
The mode of the terminal while several `StdinEventHandler` of a process start and end
(`cpp_utils/src/cpp/event/StdinEventHandler.cpp`, the part for POSIX).
-/
namespace Verif.Terminal

/-- The part of `struct termios` that matters: `ICANON`, `ECHO`, `ISIG`, and everything else. -/
structure Mode where
  canon : Bool
  echo : Bool
  isig : Bool
  rest : Nat
deriving DecidableEq

/-- `newt`, StdinEventHandler.cpp:249-255. -/
def raw (m : Mode) : Mode := { m with canon := false, echo := false, isig := false }

/-- The terminal, and `oldt`, which is `static` in `set_terminal_mode_`: one for all handlers of the process
(StdinEventHandler.cpp:242). -/
structure St where
  mode : Mode
  oldt : Mode
deriving DecidableEq

/-- Before the first handler: static data is zero. -/
def init (m : Mode) : St := ⟨m, ⟨false, false, false, 0⟩⟩

/-- `set_terminal_mode_`, StdinEventHandler.cpp:215-266.  Simplified: `tcgetattr` and `tcsetattr` succeed. -/
def setMode (enable : Bool) (s : St) : St :=
  if enable then ⟨raw s.mode, s.mode⟩ else { s with mode := s.oldt }

/-- What happens: the reading thread of handler `h` starts (StdinEventHandler.cpp:270, after `set_callback`), it ends
(line 569, before `unset_callback` or the destructor returns), somebody else sets the mode. -/
inductive Ev
  | start (h : Nat)
  | finish (h : Nat)
  | other (m : Mode)
deriving DecidableEq

/-- The terminal after one event. -/
def step (s : St) : Ev → St
  | .start _ => setMode true s
  | .finish _ => setMode false s
  | .other m => { s with mode := m }

/-- The terminal after several events. -/
def run (s : St) (evs : List Ev) : St := evs.foldl step s

end Verif.Terminal
