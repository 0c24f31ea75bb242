import Verif.Model.Basic
/-!
`printUsage` of the option parser, `thirdparty/optionparser/optionparser.h:2007-3018`.  Bytes are numbers
below 256; a pointer into a zero-terminated string is the rest of the string (without the zero), so that
reading at the end of the list gives 0.  `none` stands for undefined behaviour, for an access outside of
the array of descriptors and for a loop that does not end within its fuel.  `int` is not bounded.
-/
namespace Verif.Usage

abbrev Bytes := List Nat

/-- `isWideChar`, optionparser.h:2220-2232. -/
def isWideChar (ch : Nat) : Bool :=
  if ch = 0x303F then false
  else (0x1100 ≤ ch && ch ≤ 0x115F) || (0x2329 ≤ ch && ch ≤ 0x232A) || (0x2E80 ≤ ch && ch ≤ 0xA4C6)
    || (0xA960 ≤ ch && ch ≤ 0xA97C) || (0xAC00 ≤ ch && ch ≤ 0xD7FB) || (0xF900 ≤ ch && ch ≤ 0xFAFF)
    || (0xFE10 ≤ ch && ch ≤ 0xFE6B) || (0xFF01 ≤ ch && ch ≤ 0xFF60) || (0xFFE0 ≤ ch && ch ≤ 0xFFE6)
    || (0x1B000 ≤ ch)

/-- `(unsigned) -1 >> __builtin_clz(ch ^ 0xff)`, optionparser.h:2299, 2736: `__builtin_clz` is not defined
at 0. -/
def mask (ch : Nat) : Option Nat :=
  if ch ^^^ 0xff = 0 then none else some (2 ^ (Nat.log2 (ch ^^^ 0xff) + 1) - 1)

/-- A continuation byte, optionparser.h:2301, 2739. -/
def isCont (b : Nat) : Bool := b ^^^ 0x80 ≤ 0x3F

/-- The loop over the continuation bytes, optionparser.h:2301-2305, 2738-2743: the code and the number of
bytes. -/
def conts (ch : Nat) : Bytes → Nat × Nat
  | [] => (ch, 0)
  | b :: rest =>
    if isCont b then
      let r := conts (((ch <<< 6) % 2 ^ 32) ^^^ b ^^^ 0x80) rest
      (r.1, r.2 + 1)
    else (ch, 0)

/-- One character, optionparser.h:2294-2311, 2730-2745: the number of continuation bytes after `ch`, and
whether the character is a wide one. -/
def decode1 (ch : Nat) (rest : Bytes) : Option (Nat × Bool) :=
  if ch > 0xC1 then do
    let m ← mask ch
    let r := conts (ch &&& m) rest
    some (r.2, decide (r.1 ≥ 0x1100) && isWideChar r.1)
  else some (0, false)

/-- A byte that ends a part, optionparser.h:2291. -/
def isSep (b : Nat) : Bool := b == 0 || b == 11 || b == 9 || b == 10

/-- Loop of `update_length`, optionparser.h:2291-2312: `len` and `screenlen`. -/
def updLen : Nat → Bytes → Option (Nat × Nat)
  | _, [] => some (0, 0)
  | 0, _ :: _ => none
  | fuel + 1, b :: rest =>
    if isSep b then some (0, 0)
    else do
      let c ← decode1 b rest
      let r ← updLen fuel (rest.drop c.1)
      some (r.1 + c.1 + 1, r.2 + 1 + c.2.toNat)

/-- `update_length`, optionparser.h:2288-2313. -/
def updateLength (s : Bytes) : Option (Nat × Nat) := updLen s.length s

/-! ### `LinePartIterator` -/

/-- `LinePartIterator` within a row, optionparser.h:2274-2282. -/
structure It where
  rowstart : Bytes
  ptr : Bytes
  col : Int
  len : Nat
  screenlen : Nat
  maxLine : Nat
  line : Nat
  target : Nat
  hit : Bool

/-- `restartRow`, optionparser.h:2410-2420. -/
def restartRow (rowstart : Bytes) : It :=
  { rowstart := rowstart, ptr := rowstart, col := -1, len := 0, screenlen := 0, maxLine := 0, line := 0,
    target := 0, hit := true }

/-- `update_length` of the iterator, optionparser.h:2288-2313. -/
def It.setLength (it : It) : Option It := do
  let r ← updateLength it.ptr
  some { it with len := r.1, screenlen := r.2 }

/-- Where the loop of `next` leaves the `switch` for good: at a part, or at the end of the row with the
target line seen in the last column. -/
inductive Scan
  | found (it : It)
  | rowEnd (it : It)

/-- Loop of `next`, optionparser.h:2444-2498, up to the end of the row. -/
def scan (it : It) : Bytes → Scan
  | [] => if it.hit then .rowEnd { it with ptr := [] } else .found { it with ptr := [] }
  | b :: rest =>
    if b = 11 then
      let it := { it with line := it.line + 1, maxLine := max it.maxLine (it.line + 1) }
      if it.line = it.target then .found { it with ptr := rest } else scan it rest
    else if b = 9 then
      if it.hit then
        let it := { it with hit := false, line := 0, col := it.col + 1 }
        if it.line = it.target then .found { it with ptr := rest } else scan it rest
      else .found { it with ptr := b :: rest }
    else if b = 0 ∨ b = 10 then
      if it.hit then .rowEnd { it with ptr := b :: rest } else .found { it with ptr := b :: rest }
    else scan it rest

/-- `next`, optionparser.h:2429-2499.  The loop starts again at the beginning of the row at most once. -/
def next (it : It) : Option (Bool × It) :=
  if it.col = -1 then do
    let it ← It.setLength { it with col := 0 }
    some (true, it)
  else
    match scan it (it.ptr.drop it.len) with
    | .found it => do
      let it ← It.setLength it
      some (true, { it with hit := true })
    | .rowEnd it =>
      let it := { it with target := it.target + 1 }
      if it.target > it.maxLine then do
        let it ← It.setLength it
        some (false, it)
      else
        match scan { it with hit := false, line := 0, col := 0 } it.rowstart with
        | .found it => do
          let it ← It.setLength it
          some (true, { it with hit := true })
        | .rowEnd _ => none

/-- What `printUsage` asks of the iterator: `column()`, `line()`, the bytes at `data()`, `screenLength()`
and `data()[length()]`, optionparser.h:2505-2542. -/
structure Part where
  col : Nat
  line : Nat
  text : Bytes
  width : Nat
  stop : Nat
deriving DecidableEq, Repr

/-- The current part. -/
def It.part (it : It) : Part :=
  { col := it.col.toNat, line := it.target, text := it.ptr.take it.len, width := it.screenlen,
    stop := (it.ptr.drop it.len).headD 0 }

/-- `while (part.next())`, optionparser.h:2872, 2957, 3001: the parts, and `ptr` after them. -/
def collect : Nat → It → Option (List Part × Bytes)
  | 0, _ => none
  | fuel + 1, it => do
    let r ← next it
    if r.1 then
      let q ← collect fuel r.2
      some (r.2.part :: q.1, q.2)
    else some ([], r.2.ptr)

/-- The parts of one row, and `ptr` after them. -/
def rowParts (rowstart : Bytes) : Option (List Part × Bytes) :=
  collect ((rowstart.length + 1) * (rowstart.length + 1) + 1) (restartRow rowstart)

/-- What `printUsage` reads of a `Descriptor`, optionparser.h:318-426: whether `shortopt` is null, and
`help`. -/
structure Desc where
  shortNull : Bool
  help : Option Bytes
deriving DecidableEq, Repr

/-- `while (part.nextRow())` from a row on, optionparser.h:2375-2405, 2870, 2954: the parts of the rows;
`rest`: the descriptors after `rowdesc`. -/
def tableRows : Nat → Bytes → List Desc → Option (List (List Part))
  | 0, _, _ => none
  | fuel + 1, rowstart, rest => do
    let r ← rowParts rowstart
    match r.2.dropWhile fun b => b ≠ 0 ∧ b ≠ 10 with
    | 10 :: rowstart' => do
      let q ← tableRows fuel rowstart' rest
      some (r.1 :: q)
    | _ =>
      match rest with
      | [] => none
      | d :: rest' =>
        match d.help with
        | none => some [r.1]
        | some h => do
          let q ← tableRows fuel h rest'
          some (r.1 :: q)

/-- First loop of `nextTable`, optionparser.h:2342-2348. -/
def skipTable : List Desc → Option (List Desc)
  | [] => none
  | d :: rest => if d.help.isSome ∧ ¬ d.shortNull then skipTable rest else some (d :: rest)

/-- Second loop of `nextTable`, optionparser.h:2351-2354. -/
def skipBreaks : List Desc → Option (List Desc)
  | [] => none
  | d :: rest => if d.help.isNone ∧ ¬ d.shortNull then skipBreaks rest else some (d :: rest)

/-! ### Output -/

/-- `indent`, optionparser.h:2179-2200: what is written, and `x` after it. -/
def indent (x want : Int) : Bytes × Int :=
  let d := want - x
  let nl : Bytes := if d < 0 then [10] else []
  let d := if d < 0 then want else d
  if d > 0 then (nl ++ List.replicate d.toNat 32, want) else (nl, x)

/-- `LineWrapper`, optionparser.h:2570-2602: the ring buffer holds the bytes themselves. -/
structure Wrapper where
  x : Int
  width : Nat
  buf : List Bytes
  head : Nat
  tail : Nat
  wrote : Bool

/-- Constructor of `LineWrapper`, optionparser.h:2805-2817.  `wrote_something` is not set by it. -/
def Wrapper.mk' (x1 x2 : Int) : Wrapper :=
  { x := x1, width := if x2 - x1 < 2 then 2 else (x2 - x1).toNat, buf := List.replicate 16 [], head := 0,
    tail := 15, wrote := false }

/-- `buf_empty`, optionparser.h:2604-2607. -/
def Wrapper.isEmpty (w : Wrapper) : Bool := (w.tail + 1) &&& 15 == w.head

/-- `buf_full`, optionparser.h:2609-2612. -/
def Wrapper.isFull (w : Wrapper) : Bool := w.tail == w.head

/-- `buf_store`, optionparser.h:2614-2621. -/
def Wrapper.store (w : Wrapper) (data : Bytes) : Wrapper :=
  { w with buf := w.buf.set w.head data, head := (w.head + 1) &&& 15 }

/-- `buf_next`, optionparser.h:2624-2627. -/
def Wrapper.advance (w : Wrapper) : Wrapper := { w with tail := (w.tail + 1) &&& 15 }

/-- `write_one_line`, optionparser.h:2649-2666: the object, and what is written. -/
def Wrapper.writeOneLine (w : Wrapper) : Wrapper × Bytes :=
  let o : Bytes := if w.wrote then 10 :: (indent 0 w.x).1 else []
  if w.isEmpty then ({ w with wrote := true }, o)
  else
    let w := w.advance
    ({ w with wrote := true }, o ++ w.buf.getD w.tail [])

/-- `output`, optionparser.h:2633-2644. -/
def Wrapper.output (w : Wrapper) (data : Bytes) : Wrapper × Bytes :=
  if w.isFull then
    let r := w.writeOneLine
    (r.1.store data, r.2)
  else (w.store data, [])

/-- `while (!buf_empty()) write_one_line(write);`, optionparser.h:2685-2688. -/
def Wrapper.flushLoop : Nat → Wrapper → Option (Wrapper × Bytes)
  | 0, _ => none
  | fuel + 1, w =>
    if w.isEmpty then some (w, [])
    else do
      let r := w.writeOneLine
      let q ← flushLoop fuel r.1
      some (q.1, r.2 ++ q.2)

/-- `flush`, optionparser.h:2675-2690. -/
def Wrapper.flush (w : Wrapper) : Option (Wrapper × Bytes) :=
  if w.isEmpty then some (w, [])
  else do
    let r ← Wrapper.flushLoop 17 { w with wrote := false }
    some (r.1, (indent 0 w.x).1 ++ r.2 ++ [10])

/-- Loop that looks for what fits onto the line, optionparser.h:2726-2756: `maxi`; `uw` is `utf8width`. -/
def fit (width : Nat) : Nat → Nat → Bytes → Option Nat
  | _, _, [] => some 0
  | 0, _, _ :: _ => none
  | fuel + 1, uw, b :: rest =>
    if uw < width then do
      let c ← decode1 b rest
      if c.2 ∧ uw + 2 > width then some 0
      else
        let r ← fit width fuel (uw + 1 + c.2.toNat) (rest.drop c.1)
        some (r + c.1 + 1)
    else some 0

/-- `for (i = maxi; i >= 0; --i)`, optionparser.h:2768-2775. -/
def lastSpace (data : Bytes) : Nat → Option Nat
  | 0 => if data.getD 0 0 = 32 then some 0 else none
  | i + 1 => if data.getD (i + 1) 0 = 32 then some (i + 1) else lastSpace data i

/-- One pass of the loop of `process`, optionparser.h:2719-2791: what is passed to `output`, and the data
that is left. -/
def cut (width : Nat) (data : Bytes) : Option (Bytes × Bytes) :=
  if data.length ≤ width then some (data, [])
  else do
    let maxi ← fit width data.length 0 data
    if maxi = data.length then some (data, [])
    else
      match lastSpace data maxi with
      | some i => some (data.take i, data.drop (i + 1))
      | none => some (data.take maxi, data.drop maxi)

/-- Loop of `process`, optionparser.h:2717-2792. -/
def Wrapper.processLoop : Nat → Wrapper → Bytes → Option (Wrapper × Bytes)
  | _, w, [] => some (w, [])
  | 0, _, _ :: _ => none
  | fuel + 1, w, b :: data => do
    let c ← cut w.width (b :: data)
    let r := w.output c.1
    let q ← processLoop fuel r.1 c.2
    some (q.1, r.2 ++ q.2)

/-- `process`, optionparser.h:2710-2797. -/
def Wrapper.process (w : Wrapper) (data : Bytes) : Option (Wrapper × Bytes) := do
  let r ← Wrapper.processLoop data.length { w with wrote := false } data
  if r.1.wrote then some r
  else
    let q := r.1.writeOneLine
    some (q.1, r.2 ++ q.2)

/-! ### `printUsage` -/

/-- `lastcolumn` and `col_width`, optionparser.h:2857-2858. -/
structure Columns where
  last : Nat
  widths : List Nat
deriving DecidableEq, Repr

/-- The row of this part uses table separators, optionparser.h:2882-2883, 2976-2977. -/
def Part.inTable (p : Part) : Bool := p.col > 0 || p.line > 0 || p.stop == 9 || p.stop == 11

/-- Body of the loops that determine the widths, optionparser.h:2874-2888; `thr` is
`overlong_column_threshold`. -/
def measurePart (thr : Nat) (m : Columns) (p : Part) : Columns :=
  if p.col < 8 then
    let m := { m with last := max m.last p.col }
    if p.width < thr ∧ p.inTable then
      { m with widths := m.widths.set p.col (max (m.widths.getD p.col 0) p.width) }
    else m
  else m

/-- optionparser.h:2863-2890. -/
def measure (thr : Nat) (parts : List Part) : Columns :=
  parts.foldl (measurePart thr) { last := 0, widths := List.replicate 8 0 }

/-- `leftwidth`, optionparser.h:2903, 2907. -/
def Columns.left (m : Columns) : Nat := (m.widths.take m.last).sum

/-- `overlong_column_threshold`, optionparser.h:2904, 2908. -/
def Columns.widest (m : Columns) : Nat := (m.widths.take m.last).foldl max 0

/-- `do … while (leftwidth > width)`, optionparser.h:2861-2911. -/
def columnsLoop (width : Nat) (parts : List Part) : Nat → Nat → Option Columns
  | 0, _ => none
  | fuel + 1, thr =>
    let m := measure thr parts
    if m.left > width then columnsLoop width parts fuel m.widest else some m

/-- optionparser.h:2860-2911. -/
def columns (width : Nat) (parts : List Part) : Option Columns := columnsLoop width parts 10001 10000

/-- `tabstop`, optionparser.h:2915-2920. -/
def tabstop (widths : List Nat) (c : Nat) : Nat := (widths.take c).sum

/-- The layout of a table: `lastcolumn`, `col_width`, `rightwidth` and `print_last_column_on_own_line`. -/
structure Layout where
  width : Nat
  last : Nat
  widths : List Nat
  right : Int
  own : Bool
deriving DecidableEq, Repr

/-- optionparser.h:2922-2945. -/
def layout (width : Nat) (minWidth ownWidth : Int) (m : Columns) : Layout :=
  let right : Int := width - tabstop m.widths m.last
  if right < minWidth ∧ (m.widths.getD m.last 0 = 0 ∨ right < m.widths.getD m.last 0) then
    { width := width, last := m.last, widths := m.widths, right := ownWidth, own := m.last ≠ 0 }
  else { width := width, last := m.last, widths := m.widths, right := right, own := false }

/-- What changes while a row is printed: the text written, `x` and the two wrappers. -/
structure Pr where
  out : Bytes
  x : Int
  lastW : Wrapper
  interW : Wrapper

/-- Body of the first loop over the parts of a row, optionparser.h:2959-2995. -/
def printPart (l : Layout) (s : Pr) (p : Part) : Option Pr :=
  if p.col > l.last then some s
  else
    let s := if p.col = 0 then { s with out := s.out ++ (if s.x ≥ 0 then [10] else []), x := 0 } else s
    let i := indent s.x (tabstop l.widths p.col)
    let s := { s with out := s.out ++ i.1, x := i.2 }
    if p.col < l.last ∧ p.inTable then some { s with out := s.out ++ p.text, x := s.x + p.width }
    else if ¬ l.own ∨ p.col ≠ l.last then
      if p.col = 0 then do
        let r ← s.interW.process p.text
        some { s with out := s.out ++ r.2, interW := r.1 }
      else do
        let r ← s.lastW.process p.text
        some { s with out := s.out ++ r.2, lastW := r.1 }
    else some s

/-- Body of the second loop over the parts of a row, optionparser.h:3003-3009. -/
def printOwn (l : Layout) (s : Pr) (p : Part) : Option Pr :=
  if p.col = l.last then do
    let r ← s.lastW.process p.text
    some { s with out := s.out ++ [10] ++ (indent 0 (l.width - l.right)).1 ++ r.2, lastW := r.1 }
  else some s

/-- One row, optionparser.h:2956-3015. -/
def printRow (l : Layout) (s : Pr) (row : List Part) : Option Pr := do
  let s ← row.foldlM (printPart l) { s with x := -1 }
  let s ← if l.own then row.foldlM (printOwn l) s else some s
  let s := { s with out := s.out ++ [10] }
  let r ← s.lastW.flush
  let s := { s with out := s.out ++ r.2, lastW := r.1 }
  let r ← s.interW.flush
  some { s with out := s.out ++ r.2, interW := r.1 }

/-- One table, optionparser.h:2854-3016. -/
def printTable (width : Nat) (minWidth ownWidth : Int) (rows : List (List Part)) : Option Bytes := do
  let m ← columns width rows.flatten
  let l := layout width minWidth ownWidth m
  let s ← rows.foldlM (printRow l)
    { out := [], x := -1, lastW := Wrapper.mk' (l.width - l.right) l.width, interW := Wrapper.mk' 0 l.width }
  some s.out

/-- Enough rounds for `tableRows`. -/
def rowFuel (usage : List Desc) : Nat := (usage.map fun d => (d.help.getD []).length + 1).sum

/-- `while (part.nextTable())`, optionparser.h:2850-3017; `first`: the first call of `nextTable`. -/
def printTables (width : Nat) (minWidth ownWidth : Int) : Nat → Bool → List Desc → Option Bytes
  | 0, _, _ => none
  | fuel + 1, first, usage => do
    let usage ← if first then some usage else skipTable usage
    let usage ← skipBreaks usage
    match usage with
    | [] => none
    | d :: rest =>
      match d.help with
      | none => some []
      | some h => do
        let rows ← tableRows (rowFuel usage) h rest
        let o ← printTable width minWidth ownWidth rows
        let q ← printTables width minWidth ownWidth fuel false usage
        some (o ++ q)

/-- `width` after the checks, optionparser.h:2833-2841. -/
def clampWidth (width : Int) : Nat := if width < 1 then 80 else if width > 10000 then 10000 else width.toNat

/-- `printUsage`, optionparser.h:2826-3018. -/
def printUsage (fuel : Nat) (usage : List Desc) (width minPercent ownPercent : Int) : Option Bytes :=
  let width := clampWidth width
  let minWidth := (width * minPercent + 50).tdiv 100
  let own := (width * ownPercent + 50).tdiv 100
  printTables width minWidth (if own = 0 then 1 else own) fuel true usage

end Verif.Usage
