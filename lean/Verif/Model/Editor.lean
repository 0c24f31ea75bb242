import Verif.Model.History
/-!
The interactive reader of `StdinEventHandler` (POSIX branch of
`cpp_utils/src/cpp/event/StdinEventHandler.cpp`).

The input is the list of bytes that `getchar` still gives; after them it reports end of file for ever.
What is written to the terminal is in `Verif.Model.Screen`; here the terminal width is used as a divisor only.
-/
namespace Verif.Editor
open Verif.History

def esc : Char := Char.ofNat 27
def del : Char := Char.ofNat 127
def bs : Char := Char.ofNat 8
def ctrlC : Char := Char.ofNat 3
/-- `char(EOF)`. -/
def eofChar : Char := Char.ofNat 255

/-- State of the reading thread: `read_str`, `cursor_index`, `history_handler_`, the unread input, the
lines given to `event_occurred_` so far, and how many lines it may still read
(`activation_times_`). -/
structure St where
  line : Str
  cur : Nat
  hist : Hist
  input : Str
  out : List Str
  active : Nat
deriving DecidableEq

/-- `getchar()`; `none` is EOF. -/
def getc : Str → Option Char × Str
  | [] => (none, [])
  | c :: r => (some c, r)

/-- History recall of the arrow and page keys, StdinEventHandler.cpp:312-326 (up), 333-361 (down),
433-450 (page up), 458-484 (page down).  `compute_lines_needed` (67-74) divides by the terminal width.
`blank`: an empty answer clears the line. -/
def recall (width : Nat) (blank : Bool) (s : St) (r : Res (Hist × Str)) : Res St :=
  match r with
  | .ok (h, c) =>
    if c ≠ [] then
      if width = 0 then .ub else .ok { s with hist := h, line := c, cur := c.length }
    else if blank then
      if width = 0 then .ub else .ok { s with hist := h, line := [], cur := 0 }
    else .ok { s with hist := h }
  | .throw e => .throw e
  | .abort => .abort
  | .ub => .ub

/-- Remove the character at `i`; undefined behaviour out of range. -/
def eraseAt (s : St) (i cur : Nat) : Res St :=
  if i < s.line.length then .ok { s with line := s.line.eraseIdx i, cur := cur } else .ub

/-- Escape sequences, StdinEventHandler.cpp:302-513; `s.input` is what follows the ESC. -/
def escape (width : Nat) (s : St) : Res St :=
  let (_, r) := getc s.input
  let (k, r) := getc r
  let s := { s with input := r }
  match k with
  | some 'A' => recall width false s (prev s.hist)
  | some 'B' => recall width true s (next s.hist)
  | some 'D' => .ok (if 0 < s.cur then { s with cur := s.cur - 1 } else s)
  | some 'C' => .ok (if s.cur < s.line.length then { s with cur := s.cur + 1 } else s)
  | some '2' => .ok { s with input := (getc s.input).2 }
  | some '3' =>
    let t := getc s.input
    let s := { s with input := t.2 }
    if t.1 = some '~' then
      if s.cur < s.line.length then eraseAt s s.cur s.cur else .ok s
    else .ok s
  | some '5' =>
    let t := getc s.input
    let s := { s with input := t.2 }
    if t.1 = some '~' then recall width false s (prev s.hist) else .ok s
  | some '6' =>
    let t := getc s.input
    let s := { s with input := t.2 }
    if t.1 = some '~' then recall width true s (next s.hist) else .ok s
  | some 'H' => .ok { s with cur := 0 }
  | some 'F' => .ok { s with cur := s.line.length }
  | _ => .ok s

/-- One iteration of the inner loop, StdinEventHandler.cpp:280-564 (with the outer loop 273-565: when
a line ends the next one starts if the thread may read another).  `ignoring` is
`is_ignoring_input()` when the line ends. -/
def step (width : Nat) (ignoring : Bool) (s : St) : Res St :=
  if s.active = 0 then .ok s
  else
    let (k, r) := getc s.input
    let c := k.getD eofChar
    let s := { s with input := r }
    if c = esc then escape width s
    else if c = '\n' ∨ c = '\r' then
      .ok { s with
        line := [], cur := 0, out := s.out ++ [s.line], active := s.active - 1,
        hist := if !ignoring && s.line ≠ [] then add s.hist s.line else s.hist }
    else if c = bs ∨ c = del then
      if 0 < s.cur then eraseAt s (s.cur - 1) (s.cur - 1) else .ok s
    else if c = ctrlC then
      .ok { s with line := [], cur := 0, out := s.out ++ [[]], active := s.active - 1 }
    else if s.cur ≤ s.line.length then
      .ok { s with line := s.line.take s.cur ++ c :: s.line.drop s.cur, cur := s.cur + 1 }
    else .ub

/-- Several iterations; `ign` tells whether input is ignored at each of them. -/
def steps (width : Nat) : List Bool → St → Res St
  | [], s => .ok s
  | i :: is, s =>
    match step width i s with
    | .ok s' => steps width is s'
    | .throw e => .throw e
    | .abort => .abort
    | .ub => .ub

/-- A new handler that may read `n` lines. -/
def init (input : Str) (n : Nat) : St := ⟨[], 0, History.init, input, [], n⟩

end Verif.Editor
