import Verif.Model.Editor
/-!
What `StdinEventHandler` writes to the terminal while a line is edited, and what a terminal makes of it.
POSIX branch of `cpp_utils/src/cpp/event/StdinEventHandler.cpp`.

The terminal is a VT100 or xterm: rows of `w` columns, with the cursor waiting behind the last column until the next
character comes.  Simplified: it has as many rows as are needed above and below (no scrolling), it is not resized, all
characters are one column wide, and control characters have no effect.
-/
namespace Verif.Editor
open Verif.History

/-- The prompt, StdinEventHandler.cpp:316 and all calls of `update_line`. -/
def prompt : Str := ['>', '>', ' ']

/-- Pieces of output: a byte of text, `\r`, `std::endl`, `ESC [1A`, `ESC [1B`, `ESC [nC`, `ESC [2K`; the colours of the
prompt (`ESC [38;5;82m`, `ESC [0m`) are left out. -/
inductive Out
  | put (c : Char)
  | cr
  | nl
  | up
  | down
  | right (n : Nat)
  | erase
deriving DecidableEq

/-- A screen: what the cells show, where the cursor is, and whether it waits behind the last column. -/
structure Screen where
  cell : Int → Nat → Char
  row : Int
  col : Nat
  pend : Bool

/-- A byte that begins a character that is seen: printable ASCII, or the first byte of a longer UTF-8 character (the others
belong to the same cell). -/
def visible (c : Char) : Bool := (0x20 ≤ c.toNat && c.toNat < 0x7F) || 0xC0 ≤ c.toNat

/-- A character is written; behind the last column it begins the next row. -/
def Screen.put (w : Nat) (s : Screen) (c : Char) : Screen :=
  let r := if s.pend then s.row + 1 else s.row
  let j := if s.pend then 0 else s.col
  { cell := fun a b => if a = r ∧ b = j then c else s.cell a b
    row := r
    col := if j + 1 < w then j + 1 else j
    pend := !decide (j + 1 < w) }

/-- What a terminal does with a piece of output (ECMA-48, VT100). -/
def Screen.out (w : Nat) (s : Screen) : Out → Screen
  | .put c => if visible c then s.put w c else s
  | .cr => { s with col := 0, pend := false }
  | .nl => { s with row := s.row + 1, col := 0, pend := false }
  | .up => { s with row := s.row - 1, pend := false }
  | .down => { s with row := s.row + 1, pend := false }
  | .right n => { s with col := min (s.col + n) (w - 1), pend := false }
  | .erase => { s with cell := fun a b => if a = s.row then ' ' else s.cell a b }

/-- The screen after several pieces. -/
def Screen.draw (w : Nat) (s : Screen) (l : List Out) : Screen := l.foldl (Screen.out w) s

/-- `compute_lines_needed`, StdinEventHandler.cpp:67-74, and the same formula in 146-147 and 174. -/
def rowsOf (w n : Nat) : Nat := (n + w - 1) / w

/-- `clear_lines`, StdinEventHandler.cpp:76-87, and the same loop in 160-167. -/
def clearRows : Nat → List Out
  | 0 => []
  | 1 => [.erase, .cr]
  | n + 2 => .erase :: .cr :: .up :: clearRows (n + 1)

/-- The column of the cursor, StdinEventHandler.cpp:134-139 and 184-188. -/
def toColumn (j : Nat) : List Out := .cr :: (if 0 < j then [.right j] else [])

/-- `update_line`, StdinEventHandler.cpp:89-191, from line and cursor before and after `line_modifier`. -/
def updateLine (w : Nat) (old : Str) (oldCur : Nat) (line : Str) (cur : Nat) : List Out :=
  let o := prompt.length + oldCur
  let n := prompt.length + cur
  if line = old then
    List.replicate (n / w - o / w) .down ++ List.replicate (o / w - n / w) .up ++ toColumn (n % w)
  else
    let oldRows := rowsOf w (prompt ++ old).length
    let rows := rowsOf w (prompt.length + line.length)
    List.replicate (oldRows - 1 - o / w) .down ++ clearRows oldRows ++ (prompt ++ line).map .put ++
      List.replicate (rows - 1 - n / w) .up ++ toColumn (n % w)

/-- A recalled command is shown, StdinEventHandler.cpp:316-322, 337-343, 347-354, 444-450, 466-480. -/
def showCommand (w : Nat) (old cmd : Str) : List Out :=
  clearRows (rowsOf w (prompt.length + old.length)) ++ (prompt ++ cmd).map .put

/-- Arrow up and page up, StdinEventHandler.cpp:312-326 and 437-454: nothing is written without an answer. -/
def upOut (w : Nat) (s : St) : List Out :=
  match prev s.hist with
  | .ok (_, c) => if c ≠ [] then showCommand w s.line c else []
  | _ => []

/-- What an iteration of the inner loop writes, StdinEventHandler.cpp:280-564; `s'` is the state it ends with.  What the
callback writes is not part of it.  Without a terminal (width 0) `update_line` takes 80 columns (95-99). -/
def written (width : Nat) (s s' : St) : List Out :=
  if s.active = 0 then []
  else
    let w := if width = 0 then 80 else width
    let (k, r) := getc s.input
    let c := k.getD eofChar
    if c = esc then
      let (k, r) := getc (getc r).2
      let tilde : Bool := (getc r).1 == some '~'
      match k with
      | some 'A' => upOut width s
      | some 'B' => showCommand width s.line s'.line
      | some 'D' => if 0 < s.cur then updateLine w s.line s.cur s'.line s'.cur else []
      | some 'C' => updateLine w s.line s.cur s'.line s'.cur
      | some '3' => if tilde && decide (s.cur < s.line.length) then updateLine w s.line s.cur s'.line s'.cur else []
      | some '5' => if tilde then upOut width s else []
      | some '6' => if tilde then showCommand width s.line s'.line else []
      | some 'H' => updateLine w s.line s.cur s'.line s'.cur
      | some 'F' => updateLine w s.line s.cur s'.line s'.cur
      | _ => []
    else if c = '\n' ∨ c = '\r' then [.nl]
    else if c = bs ∨ c = del then
      if 0 < s.cur then updateLine w s.line s.cur s'.line s'.cur else []
    else if c = ctrlC then [.nl]
    else updateLine w s.line s.cur s'.line s'.cur

/-- An iteration with the screen. -/
def stepOn (w : Nat) (ignoring : Bool) (p : St × Screen) : Res (St × Screen) :=
  match step w ignoring p.1 with
  | .ok s' => .ok (s', p.2.draw w (written w p.1 s'))
  | .throw e => .throw e
  | .abort => .abort
  | .ub => .ub

/-- Several iterations. -/
def stepsOn (w : Nat) : List Bool → St × Screen → Res (St × Screen)
  | [], p => .ok p
  | i :: is, p =>
    match stepOn w i p with
    | .ok p' => stepsOn w is p'
    | .throw e => .throw e
    | .abort => .abort
    | .ub => .ub

end Verif.Editor
