import Verif.Model.Basic
/-!
`CommandHistoryHandler` (`cpp_utils/src/cpp/history/CommandHistoryHandler.cpp`).
-/
namespace Verif.History

/-- `size_t` has 64 bits. -/
abbrev sizeMod : Nat := 18446744073709551616

/-- `command_history_` and `current_index_`. -/
structure Hist where
  cmds : List Str
  idx : Nat
deriving DecidableEq

/-- Constructor, CommandHistoryHandler.cpp:21-24: the index is `size_t(-1)`. -/
def init : Hist := ⟨[], sizeMod - 1⟩

/-- `add_command`, CommandHistoryHandler.cpp:26-34. -/
def add (h : Hist) (command : Str) : Hist :=
  if command ≠ [] then ⟨h.cmds ++ [command], h.cmds.length + 1⟩ else h

/-- `command_history_[i]`: undefined behaviour out of range. -/
def access (h : Hist) : Res (Hist × Str) :=
  match h.cmds[h.idx]? with
  | some c => .ok (h, c)
  | none => .ub

/-- `get_previous_command`, CommandHistoryHandler.cpp:36-44. -/
def prev (h : Hist) : Res (Hist × Str) :=
  if h.cmds ≠ [] ∧ 0 < h.idx then access { h with idx := h.idx - 1 } else .ok (h, [])

/-- `get_next_command`, CommandHistoryHandler.cpp:46-59; `size() - 1` wraps for an empty history. -/
def next (h : Hist) : Res (Hist × Str) :=
  let last := (h.cmds.length + (sizeMod - 1)) % sizeMod
  if h.idx < last then access { h with idx := h.idx + 1 }
  else if h.idx = last then .ok ({ h with idx := (h.idx + 1) % sizeMod }, [])
  else .ok (h, [])

/-- Public calls. -/
inductive Op
  | add (c : Str)
  | prev
  | next
deriving DecidableEq

/-- One call; `add` returns nothing (modelled as the empty string). -/
def step (h : Hist) : Op → Res (Hist × Str)
  | .add c => .ok (add h c, [])
  | .prev => prev h
  | .next => next h

/-- A sequence of calls and their results. -/
def run (h : Hist) : List Op → Res (Hist × List Str)
  | [] => .ok (h, [])
  | o :: os =>
    match step h o with
    | .ok (h', r) =>
      match run h' os with
      | .ok (h'', rs) => .ok (h'', r :: rs)
      | .throw e => .throw e
      | .abort => .abort
      | .ub => .ub
    | .throw e => .throw e
    | .abort => .abort
    | .ub => .ub

end Verif.History
