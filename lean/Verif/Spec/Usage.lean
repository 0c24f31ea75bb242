/-!
Vocabulary for the text written by `printUsage`: characters on a screen.
-/
namespace Verif.Spec.Usage

/-- The bytes of a text in UTF-8. -/
def utf8 (t : List Char) : List Nat := (t.flatMap String.utf8EncodeChar).map UInt8.toNat

/-- Ranges of the characters that take two columns, apart from U+303F. -/
def wideRanges : List (Nat × Nat) :=
  [(0x1100, 0x115F), (0x2329, 0x232A), (0x2E80, 0x303E), (0x3040, 0xA4C6), (0xA960, 0xA97C), (0xAC00, 0xD7FB),
   (0xF900, 0xFAFF), (0xFE10, 0xFE6B), (0xFF01, 0xFF60), (0xFFE0, 0xFFE6), (0x1B000, 0x10FFFF)]

/-- The number of columns of a character. -/
def charWidth (c : Char) : Nat :=
  if ∃ r ∈ wideRanges, r.1 ≤ c.toNat ∧ c.toNat ≤ r.2 then 2 else 1

/-- The number of columns of a text. -/
def textWidth (t : List Char) : Nat := (t.map charWidth).sum

/-- The column of the cursor after a text has been written. -/
def cursor (o : List Char) : Nat := o.foldl (fun k c => if c = '\n' then 0 else k + charWidth c) 0

/-- The parts of a text between the occurrences of a character. -/
def split (sep : Char) : List Char → List (List Char)
  | [] => [[]]
  | c :: o => if c = sep then [] :: split sep o else (c :: (split sep o).headD []) :: (split sep o).tail

/-- The lines a text is cut into to fit into `W` columns: a line is ended at the last space before which
everything fits, and the space is dropped; if there is none, the line takes as many characters as fit. -/
inductive Wrapped (W : Nat) : List Char → List (List Char) → Prop
  | nil : Wrapped W [] []
  | fits (t : List Char) : t ≠ [] → textWidth t ≤ W → Wrapped W t [t]
  | atSpace (p r : List Char) (ps : List (List Char)) : textWidth (p ++ ' ' :: r) > W → textWidth p ≤ W →
      (∀ p' r', p ++ ' ' :: r = p' ++ ' ' :: r' → textWidth p' ≤ W → p'.length ≤ p.length) → Wrapped W r ps →
      Wrapped W (p ++ ' ' :: r) (p :: ps)
  | inWord (p : List Char) (c : Char) (r : List Char) (ps : List (List Char)) :
      (∀ p' r', p ++ c :: r = p' ++ ' ' :: r' → textWidth p' > W) → textWidth p ≤ W → textWidth (p ++ [c]) > W →
      Wrapped W (c :: r) ps → Wrapped W (p ++ c :: r) (p :: ps)

/-- One line of one cell of a row, and whether the row is part of a table. -/
structure Item where
  col : Nat
  line : Nat
  text : List Char
  table : Bool
deriving DecidableEq, Repr

/-- The cells of a row, each with its lines. -/
def cells (row : List Char) : List (List (List Char)) := (split '\t' row).map (split (Char.ofNat 11))

/-- The number of lines of a row: that of its highest cell. -/
def height (row : List Char) : Nat := ((cells row).map List.length).foldr max 0

/-- The lines of a row from top to bottom, each from left to right; a cell with fewer lines than the
highest is filled up with empty ones.  The row is part of a table if it has a tab or a vertical tab. -/
def grid (row : List Char) : List Item :=
  (List.range (height row)).flatMap fun t => (cells row).mapIdx fun c cell =>
    { col := c, line := t, text := cell.getD t [], table := '\t' ∈ row ∨ Char.ofNat 11 ∈ row }

/-- What a text on the screen belongs to: a column before the last, the last column, or a row that is not
part of the table. -/
inductive Tag
  | left (c : Nat)
  | last
  | inter
deriving DecidableEq, Repr

/-- Where an item goes if the last column has the number `last`; nowhere if its column is beyond. -/
def Item.tag (last : Nat) (i : Item) : Option Tag :=
  if i.col > last then none
  else if i.col < last ∧ i.table then some (.left i.col)
  else if i.col = 0 then some .inter
  else some .last

/-- A text on the screen made of these pieces in this order, each of which begins in the column `stop` of its tag,
with nothing but spaces and line breaks between them; no space is written at the column `B` or beyond. -/
inductive Laid (B : Nat) (stop : Tag → Nat) : List Char → List (Tag × List Char) → Prop
  | nil : Laid B stop [] []
  | newline {o : List Char} {ch : List (Tag × List Char)} : Laid B stop o ch → Laid B stop (o ++ ['\n']) ch
  | space {o : List Char} {ch : List (Tag × List Char)} : Laid B stop o ch → cursor o < B → Laid B stop (o ++ [' ']) ch
  | text {o : List Char} {ch : List (Tag × List Char)} (tag : Tag) (t : List Char) : Laid B stop o ch →
      cursor o = stop tag → Laid B stop (o ++ t) (ch ++ [(tag, t)])

/-- The texts with a tag. -/
def textsOf (tag : Tag) (ch : List (Tag × List Char)) : List (List Char) := (ch.filter fun p => p.1 = tag).map Prod.snd

/-- The texts of the items with a tag. -/
def itemsOf (last : Nat) (tag : Tag) (items : List Item) : List (List Char) :=
  (items.filter fun i => i.tag last = some tag).map Item.text

/-- The lines texts are cut into, one text after the other. -/
inductive WrappedAll (W : Nat) : List (List Char) → List (List Char) → Prop
  | nil : WrappedAll W [] []
  | cons {t : List Char} {ts ls ms : List (List Char)} : Wrapped W t ls → WrappedAll W ts ms →
      WrappedAll W (t :: ts) (ls ++ ms)

/-- These pieces show these items: the cells before the last column as they are, the others cut to their widths. -/
structure Shows (last lastW interW : Nat) (items : List Item) (ch : List (Tag × List Char)) : Prop where
  lefts : ch.filter (fun p => p.1 ≠ .last ∧ p.1 ≠ .inter) =
    items.filterMap fun i => match i.tag last with
      | some (.left c) => some (.left c, i.text)
      | _ => none
  lasts : WrappedAll lastW (itemsOf last .last items) (textsOf .last ch)
  inters : WrappedAll interW (itemsOf last .inter items) (textsOf .inter ch)

/-- The widths of the columns of a table with these items, `last` being its last column, eight columns at most: a
cell is as wide as its column at most, or wider than every column; each column is as wide as a cell of its own, or empty.
If there is room for the widest cells before the last column, all of them fit. -/
structure Fits (width : Nat) (items : List Item) (last : Nat) (w : List Nat) : Prop where
  len : w.length = 8
  last_lt : last < 8
  le : ∀ i ∈ items, i.col < 8 → i.col ≤ last
  ex : last = 0 ∨ ∃ i ∈ items, i.col = last
  cell : ∀ i ∈ items, i.table = true → i.col < 8 → textWidth i.text ≤ w.getD i.col 0 ∨ ∀ j, w.getD j 0 < textWidth i.text
  from_ : ∀ j, w.getD j 0 = 0 ∨ ∃ i ∈ items, i.col = j ∧ i.table = true ∧ textWidth i.text = w.getD j 0
  fits : (w.take last).sum ≤ width
  natural : ∀ u : List Nat, (∀ i ∈ items, i.table = true → i.col < last → textWidth i.text ≤ u.getD i.col 0 ∧ textWidth i.text < 10000) →
    (u.take last).sum ≤ width → ∀ i ∈ items, i.table = true → i.col < last → textWidth i.text ≤ w.getD i.col 0

/-- Where pieces begin: those of a column behind the columns before it, those of the last one at `start`. -/
def stops (w : List Nat) (start : Int) : Tag → Nat
  | .left c => (w.take c).sum
  | .last => start.toNat
  | .inter => 0

/-- What a row looks like. -/
def RowText (width last : Nat) (w : List Nat) (start : Int) (row ro : List Char) : Prop :=
  ∃ ch, Laid (max width start.toNat) (stops w start) ro ch ∧ ro.getLast? = some '\n' ∧
    Shows last (max 2 ((width : Int) - start)).toNat (max 2 width) (grid row) ch

/-- The cells of a line before the last column side by side, from column `c` on and after `gap` spaces: each is followed
by spaces up to the width of its column, if there is another cell. -/
def sideBySide (w : List Nat) (last : Nat) : Nat → Nat → List (List Char) → List Char
  | _, _, [] => []
  | c, gap, t :: ts =>
    if c < last then List.replicate gap ' ' ++ t ++ sideBySide w last (c + 1) (w.getD c 0 - textWidth t) ts
    else if c = last then List.replicate gap ' '
    else []

/-- The text of the cells in a line of a row. -/
def lineOf (row : List Char) (t : Nat) : List (List Char) := (cells row).map fun cell => cell.getD t []

/-- Pieces one below the other, beginning in the column `x`; the first one where the cursor is. -/
def below (x : Int) : List (List Char) → List Char
  | [] => []
  | p :: ps => p ++ ps.flatMap fun p => '\n' :: ((if x < 0 then ['\n'] else List.replicate x.toNat ' ') ++ p)

/-- Pieces on lines of their own. -/
def alone (x : Int) (ps : List (List Char)) : List Char :=
  if ps = [] then [] else (if x < 0 then ['\n'] else List.replicate x.toNat ' ') ++ below x ps ++ ['\n']

/-- How the pieces of the cells of the last column are spread over the lines of a row: `ls` are those of each cell, `ems`
those shown with each line, `rest` those left at the end.  A line takes the next piece, and more only if another
fifteen would be left. -/
structure Spread (W : Nat) (texts : List (List Char)) (ls ems : List (List (List Char))) (rest : List (List Char)) : Prop where
  len : ls.length = texts.length ∧ ems.length = texts.length
  wrapped : ∀ (t : Nat) (x : List Char) (l : List (List Char)), texts[t]? = some x → ls[t]? = some l → Wrapped W x l
  all : ems.flatten ++ rest = ls.flatten
  shown : ∀ (t : Nat) (em : List (List Char)), ems[t]? = some em →
    em.length = min ((ls.take (t + 1)).flatten.length - (ems.take t).flatten.length)
      (max 1 ((ls.take (t + 1)).flatten.length - (ems.take t).flatten.length - 15))

/-- The text of a row of a table in full, if the cells before the last column fit into their columns. -/
def RowLines (W last : Nat) (w : List Nat) (start : Int) (own : Bool) (row ro : List Char) : Prop :=
  if last < (cells row).length then
    ∃ ls ems rest, Spread W ((List.range (height row)).map fun t => (lineOf row t).getD last []) ls ems rest ∧
      ro = (if own then
          (List.range (height row)).flatMap (fun t => sideBySide w last 0 0 (lineOf row t) ++ ['\n']) ++
            ems.flatMap fun em => (if start < 0 then ['\n'] else List.replicate start.toNat ' ') ++ below start em ++ ['\n']
        else
          (List.range (height row)).flatMap fun t => sideBySide w last 0 0 (lineOf row t) ++ below start (ems.getD t []) ++ ['\n']) ++
        alone start rest
  else ro = (List.range (height row)).flatMap fun t => sideBySide w last 0 0 (lineOf row t) ++ ['\n']

/-- What a table looks like: `own` tells whether the last column has lines of its own. -/
structure TableText (width : Nat) (minW ownW : Int) (rows : List (List Char)) (last : Nat) (w : List Nat) (start : Int) (own : Bool)
    (o : List Char) : Prop where
  fits : Fits width (rows.flatMap grid) last w
  room : own = false ↔ minW ≤ (width : Int) - (w.take last).sum ∨
    (0 < w.getD last 0 ∧ (w.getD last 0 : Int) ≤ (width : Int) - (w.take last).sum)
  begins : start = if own then (width : Int) - ownW else ((w.take last).sum : Int)
  lines : ∃ os : List (List Char), o = os.flatten ∧ os.length = rows.length ∧
    ∀ (k : Nat) (row ro : List Char), rows[k]? = some row → os[k]? = some ro →
      RowText width last w start row ro ∧
      (last ≠ 0 → (∀ i ∈ grid row, i.table = true ∧ (i.col < last → textWidth i.text ≤ w.getD i.col 0)) →
        RowLines (max 2 ((width : Int) - start)).toNat last w start own row ro)

/-- The help texts between the entries without one. -/
def groups : List (Option (List Char)) → List (List (List Char))
  | [] => [[]]
  | none :: es => [] :: groups es
  | some h :: es => (h :: (groups es).headD []) :: (groups es).tail

/-- The rows of each table: entries without a help text end a table, line breaks end a row. -/
def tables (es : List (Option (List Char))) : List (List (List Char)) :=
  ((groups es).filter fun g => g ≠ []).map fun g => g.flatMap (split '\n')

end Verif.Spec.Usage
