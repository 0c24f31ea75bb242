import Verif.Lemmas.UsageAll

/-!
C140 to C146: what `printUsage` writes.
-/
namespace Verif.Usage
open Verif.Spec.Usage

/-! ### C140: measuring -/

/-- C140: a text without separators is measured in bytes and in columns of the screen, whatever separator follows it. -/
theorem C140_measured (t : List Char) (ht : ∀ c ∈ t, c ≠ '\t' ∧ c ≠ '\n' ∧ c ≠ Char.ofNat 11 ∧ c ≠ Char.ofNat 0) (s : List Nat)
    (hs : s = [] ∨ ∃ b r, s = b :: r ∧ (b = 0 ∨ b = 9 ∨ b = 10 ∨ b = 11)) :
    updateLength (utf8 t ++ s) = some ((utf8 t).length, textWidth t) := by
  apply updateLength_utf8
  · intro c hc
    obtain ⟨h1, h2, h3, h4⟩ := ht c hc
    simp [sepChar, h1, h2, h3, h4]
  · rcases hs with h | ⟨b, r, h, hb⟩
    · exact .inl h
    · refine .inr ⟨b, r, h, ?_⟩
      simp only [isSep, Bool.or_eq_true, beq_iff_eq]
      omega

/-- An accent takes two bytes and one column, an Asian character three bytes and two columns. -/
example : updateLength (utf8 "né中".toList ++ [9, 65]) = some (6, 4) :=
  C140_measured _ (by decide) _ (.inr ⟨9, [65], rfl, by decide⟩)

/-- C140: a byte that is not part of any UTF-8 text makes the measuring undefined (a shift computed from `clz(0)`). -/
theorem C140_malicious_bytes (s : List Nat) : updateLength (0xFF :: s) = none := by
  simp [updateLength, updLen, isSep, decode1, mask]

/-! ### C141: the cells of a row -/

/-- C141: the parts of a row are its cells, line by line and from left to right, with their bytes and columns; whatever
follows the row is not looked at. -/
theorem C141_grid (row : List Char) (h : ∀ c ∈ row, c ≠ '\n' ∧ c ≠ Char.ofNat 0) (e : List Nat) (he : e = [] ∨ ∃ r, e = 10 :: r) :
    ∃ parts, rowParts (utf8 row ++ e) = some (parts, e) ∧
      parts.map (fun p => (p.col, p.line, p.text, p.width, p.inTable)) =
        (grid row).map fun i => (i.col, i.line, utf8 i.text, textWidth i.text, i.table) := by
  have hok : RowOk row := fun c hc => ⟨fun h0 => (h c hc).2 (Char.toNat_inj.1 (by rw [h0]; rfl)), (h c hc).1⟩
  have heb : e.headD 0 = 0 ∨ e.headD 0 = 10 := by
    rcases he with rfl | ⟨r, rfl⟩
    · exact .inl rfl
    · exact .inr rfl
  refine ⟨_, rowParts_row row hok e he, ?_⟩
  rw [← rowPairs_snd (e.headD 0) row, List.map_map, List.map_map]
  apply List.map_congr_left
  intro x hx
  have hc := rowPairs_corr (e.headD 0) heb row hok x hx
  obtain ⟨L, hL, hx⟩ := List.mem_flatten.1 hx
  obtain ⟨T, -, rfl⟩ := List.mem_map.1 hL
  have hline : x.1.line = x.2.line := by
    clear hL hc
    generalize e.headD 0 = eb at hx
    generalize (0 : Nat) = c at hx
    generalize cell0 row = cell at hx
    generalize cellsT row = after at hx
    induction after generalizing c cell with
    | nil => simp [linePairs] at hx; subst hx; rfl
    | cons a after ih =>
      simp only [linePairs, List.mem_cons] at hx
      rcases hx with hx | hx
      · subst hx; rfl
      · exact ih _ _ hx
  simp only [Function.comp_apply, hc.col, hc.text, hc.width, hc.table, hline]

/-- The row of the documentation: two cells of two lines each. -/
example : grid "-c,\x0b--create  \tCreates\x0bsomething.".toList =
    [⟨0, 0, "-c,".toList, true⟩, ⟨1, 0, "Creates".toList, true⟩, ⟨0, 1, "--create  ".toList, true⟩, ⟨1, 1, "something.".toList, true⟩] := by
  decide +kernel

/-- A cell with fewer lines is filled up. -/
example : grid "a\tb\x0bc".toList = [⟨0, 0, ['a'], true⟩, ⟨1, 0, ['b'], true⟩, ⟨0, 1, [], true⟩, ⟨1, 1, ['c'], true⟩] := by
  decide +kernel

/-- The parts of a row, and the next row left alone. -/
example : rowParts (utf8 "a\tb\x0bc\nnext".toList) =
    some ([⟨0, 0, [97], 1, 9⟩, ⟨1, 0, [98], 1, 11⟩, ⟨0, 1, [], 0, 9⟩, ⟨1, 1, [99], 1, 10⟩], utf8 "\nnext".toList) := by
  decide +kernel

/-! ### C142: cutting -/

theorem wrapped_le {W : Nat} {t : List Char} {ps : List (List Char)} (h : Wrapped W t ps) :
    ∀ p ∈ ps, textWidth p ≤ W ∧ ∀ c ∈ p, c ∈ t := by
  induction h with
  | nil => simp
  | fits t h1 h2 => intro p hp; simp at hp; subst hp; exact ⟨h2, fun _ h => h⟩
  | atSpace p r ps h1 h2 h3 h4 ih =>
    intro q hq
    rcases List.mem_cons.1 hq with hq | hq
    · subst hq; exact ⟨h2, fun c hc => by simp [hc]⟩
    · obtain ⟨a, b⟩ := ih q hq
      exact ⟨a, fun c hc => by simp [b c hc]⟩
  | inWord p c r ps h1 h2 h3 h4 ih =>
    intro q hq
    rcases List.mem_cons.1 hq with hq | hq
    · subst hq; exact ⟨h2, fun c hc => by simp [hc]⟩
    · obtain ⟨a, b⟩ := ih q hq
      exact ⟨a, fun c hc => List.mem_append_right _ (b c hc)⟩

/-- C142: the lines are as wide as they may be at most. -/
theorem C142_lines_fit {W : Nat} {t : List Char} {ps : List (List Char)} (h : Wrapped W t ps) (p : List Char) (hp : p ∈ ps) :
    textWidth p ≤ W := (wrapped_le h p hp).1

/-- C142: apart from spaces nothing is lost, doubled or moved. -/
theorem C142_nothing_lost {W : Nat} {t : List Char} {ps : List (List Char)} (h : Wrapped W t ps) :
    ps.flatten.filter (fun c => c ≠ ' ') = t.filter fun c => c ≠ ' ' := by
  induction h with
  | nil => rfl
  | fits t h1 h2 => simp
  | atSpace p r ps h1 h2 h3 h4 ih =>
    rw [List.flatten_cons, List.filter_append, ih, List.filter_append, List.filter_cons_of_neg (by simp)]
  | inWord p c r ps h1 h2 h3 h4 ih =>
    rw [List.flatten_cons, List.filter_append, ih, List.filter_append]

/-- C142: there is one way to cut a text. -/
theorem C142_unique {W : Nat} {t : List Char} {ps qs : List (List Char)} (h : Wrapped W t ps) (h' : Wrapped W t qs) : ps = qs := by
  induction h generalizing qs with
  | nil =>
    generalize ht : ([] : List Char) = t at h'
    cases h' with
    | nil => rfl
    | fits _ h1 _ => exact absurd ht.symm h1
    | atSpace p r ps => simp at ht
    | inWord p c r ps => simp at ht
  | fits t h1 h2 =>
    cases h' with
    | nil => exact absurd rfl h1
    | fits => rfl
    | atSpace p r ps g1 => omega
    | inWord p c r ps g1 g2 g3 =>
      rw [show p ++ c :: r = (p ++ [c]) ++ r by simp, textWidth_append] at h2
      omega
  | atSpace p r ps h1 h2 h3 h4 ih =>
    generalize ht : p ++ ' ' :: r = t at h' h1 h3
    cases h' with
    | nil => simp at ht
    | fits _ g1 g2 => omega
    | atSpace p1 r1 ps1 g1 g2 g3 g4 =>
      have a1 := h3 p1 r1 rfl g2
      have a2 := g3 p r ht.symm h2
      obtain ⟨e1, e2⟩ := List.append_inj ht (by omega)
      subst e1
      simp only [List.cons.injEq, true_and] at e2
      subst e2
      rw [ih g4]
    | inWord p1 c r1 ps1 g1 =>
      have := g1 p r ht.symm
      omega
  | inWord p c r ps h1 h2 h3 h4 ih =>
    generalize ht : p ++ c :: r = t at h' h1
    cases h' with
    | nil => simp at ht
    | fits _ g1 g2 =>
      rw [← ht, show p ++ c :: r = (p ++ [c]) ++ r by simp, textWidth_append] at g2
      omega
    | atSpace p1 r1 ps1 g1 g2 =>
      have := h1 p1 r1 rfl
      omega
    | inWord p1 c1 r1 ps1 g1 g2 g3 g4 =>
      have hle : ∀ (p q : List Char) (c d : Char) (r u : List Char), p ++ c :: r = q ++ d :: u → textWidth q ≤ W → textWidth (p ++ [c]) > W →
          q.length ≤ p.length := by
        intro p q c d r u e hq hp
        false_or_by_contra
        rename_i hlt
        have hpre : p ++ [c] <+: q := by
          refine List.prefix_of_prefix_length_le (l₃ := p ++ c :: r) ⟨r, by simp⟩ ⟨d :: u, e.symm⟩ ?_
          simp; omega
        obtain ⟨z, rfl⟩ := hpre
        rw [textWidth_append] at hq
        omega
      have a1 := hle p p1 c c1 r r1 ht g2 h3
      have a2 := hle p1 p c1 c r1 r ht.symm h2 g3
      obtain ⟨e1, e2⟩ := List.append_inj ht (by omega)
      subst e1
      simp only [List.cons.injEq] at e2
      obtain ⟨rfl, rfl⟩ := e2
      rw [ih g4]

/-- C142: what a line wrapper writes for a text, and what is left in its buffer when it is flushed, are the lines the
text is cut into, all of them beginning in the same column. -/
theorem C142_wrap (x1 x2 : Int) (t : List Char) :
    ∃ ps em rest w1 w2, Wrapped (max 2 (x2 - x1)).toNat t ps ∧ em ++ rest = ps ∧
      (Wrapper.mk' x1 x2).process (utf8 t) = some (w1, utf8 (below x1 em)) ∧ w1.flush = some (w2, utf8 (alone x1 rest)) := by
  have hw : (Wrapper.mk' x1 x2).width = (max 2 (x2 - x1)).toNat := by
    simp only [Wrapper.mk']; split <;> omega
  obtain ⟨ps, em, qc', w', h1, h2, h3, h4, h5, -⟩ := process_chars_len t (Wrapper.mk' x1 x2) [] (rep_mk x1 x2) (by rw [hw]; omega)
  obtain ⟨w2, g1, -⟩ := flush_chars w' qc' h4
  refine ⟨ps, em, qc', w', w2, by rw [← hw]; exact h1, by simpa using h2.symm, ?_, ?_⟩
  · rw [h3, below_eq]; rfl
  · rw [g1, h5.1, ← alone_eq]; rfl

/-- Cut at the last space that fits; a word that is too long is cut inside. -/
example : Wrapped 5 "ab cd efghijkl".toList ["ab cd".toList, "efghi".toList, "jkl".toList] :=
  .atSpace "ab cd".toList "efghijkl".toList _ (by decide +kernel) (by decide +kernel)
    (by
      intro p' r' h hw
      have : p' <+: "ab cd efghijkl".toList := ⟨' ' :: r', h.symm⟩
      false_or_by_contra
      rename_i hlt
      have h6 : "ab cd ".toList <+: p' := by
        refine List.prefix_of_prefix_length_le (l₃ := "ab cd efghijkl".toList) (by decide +kernel) this ?_
        have : "ab cd".toList.length = 5 := rfl
        have : "ab cd ".toList.length = 6 := rfl
        omega
      obtain ⟨z, rfl⟩ := h6
      rw [textWidth_append] at hw
      have : textWidth "ab cd ".toList = 6 := by decide +kernel
      omega)
    (.inWord "efghi".toList 'j' "kl".toList _ (by
      intro p' r' h
      exfalso
      have : ' ' ∈ "efghijkl".toList := by
        rw [show "efghijkl".toList = p' ++ ' ' :: r' from h]; simp
      exact absurd this (by decide +kernel)) (by decide +kernel) (by decide +kernel)
      (.fits _ (by decide +kernel) (by decide +kernel)))

/-! ### C143: the buffer -/

/-- Texts given to a line wrapper one after the other: what is written for each. -/
def feed (w : Wrapper) : List (List Nat) → Option (Wrapper × List (List Nat))
  | [] => some (w, [])
  | t :: ts => do
    let r ← w.process t
    let q ← feed r.1 ts
    some (q.1, r.2 :: q.2)

/-- C143: the lines of texts given to a line wrapper come out in order and once each: with each text the next one, more
only if another fifteen are left behind, and the rest when it is flushed. -/
theorem C143_queue (x1 x2 : Int) (texts : List (List Char)) :
    ∃ ls ems rest w1 w2, Spread (max 2 (x2 - x1)).toNat texts ls ems rest ∧
      feed (Wrapper.mk' x1 x2) (texts.map utf8) = some (w1, ems.map fun em => utf8 (below x1 em)) ∧
      w1.flush = some (w2, utf8 (alone x1 rest)) := by
  have hw : (Wrapper.mk' x1 x2).width = (max 2 (x2 - x1)).toNat := by
    simp only [Wrapper.mk']; split <;> omega
  have hgen : ∀ (texts : List (List Char)) (w : Wrapper) (qc : List (List Char)), Rep w (qc.map utf8) → w.x = x1 → 2 ≤ w.width →
      ∃ ls ems rest w1 w2, SpreadQ w.width texts qc ls ems rest ∧
        feed w (texts.map utf8) = some (w1, ems.map fun em => utf8 (below x1 em)) ∧ w1.flush = some (w2, utf8 (alone x1 rest)) := by
    intro texts
    induction texts with
    | nil =>
      intro w qc hrep hx _
      obtain ⟨w2, g1, -⟩ := flush_chars w qc hrep
      exact ⟨[], [], qc, w, w2, spread_nil _ _, rfl, by rw [g1, hx, ← alone_eq]⟩
    | cons t texts ih =>
      intro w qc hrep hx hW
      obtain ⟨ps, em, qc', w', h1, h2, h3, h4, h5, h6⟩ := process_chars_len t w qc hrep hW
      obtain ⟨ls, ems, rest, w1, w2, g1, g2, g3⟩ := ih w' qc' h4 (h5.1.trans hx) (by rw [h5.2]; exact hW)
      rw [h5.2] at g1
      refine ⟨ps :: ls, em :: ems, rest, w1, w2, spread_cons h1 h2 h6 g1, ?_, g3⟩
      simp only [List.map_cons, feed, h3, Option.bind_eq_bind, Option.bind_some, g2, hx, below_eq]
  obtain ⟨ls, ems, rest, w1, w2, h1, h2, h3⟩ := hgen texts (Wrapper.mk' x1 x2) [] (rep_mk x1 x2) rfl (by rw [hw]; omega)
  rw [hw] at h1
  exact ⟨ls, ems, rest, w1, w2, spread_of h1, h2, h3⟩

/-- Two texts at column 2, five columns wide: the second line of the first text is written with the second text. -/
example : (feed (Wrapper.mk' 2 7) [utf8 "ab cde".toList, utf8 "x".toList]).map Prod.snd =
    some [utf8 "ab".toList, utf8 "cde".toList] := by decide +kernel

/-! ### C144: the widths of the columns -/

/-- C144: the widths of the columns are found for all cells, and the columns before the last one fit; no cell is between:
it fits into its column, or it is wider than every column. -/
theorem C144_columns (width : Nat) (parts : List Part) :
    ∃ m, columns width parts = some m ∧ m.last < 8 ∧ m.widths.length = 8 ∧ (m.widths.take m.last).sum ≤ width ∧
      (∀ p ∈ parts, p.col < 8 → p.col ≤ m.last) ∧
      (∀ p ∈ parts, p.inTable = true → p.col < 8 → p.width ≤ m.widths.getD p.col 0 ∨ ∀ j, m.widths.getD j 0 < p.width) ∧
      (∀ j, m.widths.getD j 0 = 0 ∨ ∃ p ∈ parts, p.col = j ∧ p.inTable = true ∧ p.width = m.widths.getD j 0) := by
  obtain ⟨m, thr, h1, h2, h3⟩ := columns_some width parts
  refine ⟨m, h1, h2.last, h2.len, h3, h2.le, fun p hp ht h8 => overlong h2 p hp h8 ht, ?_⟩
  intro j
  rcases h2.from_ j with h | ⟨p, hp, a, b, c, -⟩
  · exact .inl h
  · exact .inr ⟨p, hp, a, b, c⟩

/-- C144: if the widest cells before the last column leave room, no cell is ignored. -/
theorem C144_natural (width : Nat) (parts : List Part) (u : List Nat) (k : Nat) (hk : ∀ p ∈ parts, p.col < 8 → p.col ≤ k)
    (hu : ∀ p ∈ parts, p.inTable = true → p.col < k → p.width ≤ u.getD p.col 0 ∧ p.width < 10000) (hs : (u.take k).sum ≤ width)
    (m : Columns) (hm : columns width parts = some m) (p : Part) (hp : p ∈ parts) (ht : p.inTable = true) (hc : p.col < m.last) :
    p.width ≤ m.widths.getD p.col 0 := by
  obtain ⟨m', thr, h1, h2, h3⟩ := columns_some width parts
  rw [hm] at h1
  obtain rfl := Option.some.inj h1
  have hlk : m.last ≤ k := by
    have := h2.last
    rcases h2.ex with h0 | ⟨q, hq, h0⟩
    · omega
    · have := hk q hq (by omega); omega
  refine columns_natural width parts m hm u (fun q hq h1 h2 => hu q hq h1 (by omega)) ?_ p hp ht hc
  exact Nat.le_trans (tabstop_mono u m.last k hlk) hs

/-- A cell of nine columns is ignored if ten are all there is, and the widths of the others are kept. -/
example : columns 10 [⟨0, 0, [], 3, 9⟩, ⟨1, 0, [], 2, 9⟩, ⟨2, 0, [], 5, 0⟩, ⟨0, 0, [], 9, 9⟩, ⟨1, 0, [], 1, 9⟩, ⟨2, 0, [], 1, 0⟩] =
    some ⟨2, [3, 2, 5, 0, 0, 0, 0, 0]⟩ := by decide +kernel

/-- With eleven it counts. -/
example : columns 11 [⟨0, 0, [], 3, 9⟩, ⟨1, 0, [], 2, 9⟩, ⟨2, 0, [], 5, 0⟩, ⟨0, 0, [], 9, 9⟩, ⟨1, 0, [], 1, 9⟩, ⟨2, 0, [], 1, 0⟩] =
    some ⟨2, [9, 2, 5, 0, 0, 0, 0, 0]⟩ := by decide +kernel

/-! ### C145: the tables -/

/-- An array of descriptors as it must be: no null `shortopt` but in the terminator. -/
def descriptors (es : List (Option (List Char))) : List Desc :=
  es.map (fun h => { shortNull := false, help := h.map utf8 }) ++ [{ shortNull := true, help := none }]

/-- The width in force: 80 for none, 10000 at most. -/
def widthOf (width : Int) : Nat := if width < 1 then 80 else (min width 10000).toNat

/-- A percentage of the width, rounded. -/
def percent (w : Nat) (p : Int) : Int := (w * p + 50).tdiv 100

/-- C145: `printUsage` ends for every array of descriptors, width and percentages, and writes the tables one after the
other, each laid out on its own: where the columns are, whether the last one has lines of its own, that every piece of text
begins in its column with blanks between the pieces, and that the pieces are the cells in order, those of the last column
and plain rows cut to their widths. -/
theorem C145_tables (es : List (Option (List Char))) (h : ∀ t, some t ∈ es → ∀ c ∈ t, c ≠ Char.ofNat 0) (width minPercent ownPercent : Int)
    (fuel : Nat) (hf : (tables es).length < fuel) :
    ∃ os : List (List Char), printUsage fuel (descriptors es) width minPercent ownPercent = some (utf8 os.flatten) ∧
      os.length = (tables es).length ∧
      ∀ (k : Nat) (rows : List (List Char)) (o : List Char), (tables es)[k]? = some rows → os[k]? = some o →
        ∃ last w start own, TableText (widthOf width) (percent (widthOf width) minPercent)
          (if percent (widthOf width) ownPercent = 0 then 1 else percent (widthOf width) ownPercent) rows last w start own o := by
  have hw : clampWidth width = widthOf width := by
    unfold clampWidth widthOf
    split
    · rfl
    · split <;> omega
  have hok : ∀ t, some t ∈ es → HelpOk t := fun t ht c hc h0 => h t ht c hc (Char.toNat_inj.1 (by rw [h0]; rfl))
  obtain ⟨os, h1, h2, h3⟩ := printTables_text (widthOf width) (percent (widthOf width) minPercent)
    (if percent (widthOf width) ownPercent = 0 then 1 else percent (widthOf width) ownPercent) fuel true es hok (by simpa using hf)
  refine ⟨os, ?_, by simpa using h2, by simpa using h3.1⟩
  unfold printUsage
  rw [hw]
  exact h1

/-- C145: a descriptor without a help text separates tables: what is written before and after it is what would be written
for the descriptors before and after it alone. -/
theorem C145_table_breaks (es fs : List (Option (List Char))) (h : ∀ t, some t ∈ es ∨ some t ∈ fs → ∀ c ∈ t, c ≠ Char.ofNat 0)
    (width minPercent ownPercent : Int) (fuel : Nat) (hf : (tables (es ++ none :: fs)).length < fuel) :
    ∃ a b, printUsage fuel (descriptors es) width minPercent ownPercent = some a ∧
      printUsage fuel (descriptors fs) width minPercent ownPercent = some b ∧
      printUsage fuel (descriptors (es ++ none :: fs)) width minPercent ownPercent = some (a ++ b) := by
  have hok : ∀ t, some t ∈ es ++ none :: fs → HelpOk t := fun t ht c hc h0 =>
    h t (by simpa using ht) c hc (Char.toNat_inj.1 (by rw [h0]; rfl))
  have hl : ∀ es, (tables es).length = (helps es).length := fun es => by simp [tables, helps]
  have hb := helps_break es fs
  rw [hl, hb, List.length_append] at hf
  obtain ⟨o1, a1, -, -, a2⟩ := printTables_text (clampWidth width) ((clampWidth width * minPercent + 50).tdiv 100)
    (if (clampWidth width * ownPercent + 50).tdiv 100 = 0 then 1 else (clampWidth width * ownPercent + 50).tdiv 100) fuel true es
    (fun t ht => hok t (by simp [ht])) (by rw [if_pos rfl, hl]; omega)
  obtain ⟨o2, b1, -, -, b2⟩ := printTables_text (clampWidth width) ((clampWidth width * minPercent + 50).tdiv 100)
    (if (clampWidth width * ownPercent + 50).tdiv 100 = 0 then 1 else (clampWidth width * ownPercent + 50).tdiv 100) fuel true fs
    (fun t ht => hok t (by simp [ht])) (by rw [if_pos rfl, hl]; omega)
  obtain ⟨o3, c1, -, -, c2⟩ := printTables_text (clampWidth width) ((clampWidth width * minPercent + 50).tdiv 100)
    (if (clampWidth width * ownPercent + 50).tdiv 100 = 0 then 1 else (clampWidth width * ownPercent + 50).tdiv 100) fuel true
    (es ++ none :: fs) hok (by rw [if_pos rfl, hl, hb, List.length_append]; omega)
  simp only [if_true] at a2 b2 c2
  refine ⟨_, _, a1, b1, ?_⟩
  refine c1.trans ?_
  have : o3 = o1 ++ o2 := by
    rw [hb, List.map_append, ← a2, ← b2, ← List.map_append] at c2
    exact List.map_inj_right (fun x y hxy => utf8_inj _ _ (Option.some.inj hxy)) |>.1 c2
  rw [this, List.flatten_append, utf8_append]

/-- The example of the documentation. -/
example : printUsage 3 (descriptors [some "Long options:".toList, some "--very-long-option  \tDoes something long.".toList,
      some "--ultra-super-mega-long-option  \tTakes forever to complete.".toList, none, some "Short options:".toList,
      some "-s  \tShort.".toList, some "-q  \tQuick.".toList]) 80 50 75 =
    some (utf8 ("Long options:\n--very-long-option              Does something long.\n" ++
      "--ultra-super-mega-long-option  Takes forever to complete.\nShort options:\n-s  Short.\n-q  Quick.\n").toList) := by
  decide +kernel

/-- Two tables. -/
example : tables [some "A:".toList, some "-s  \tShort.".toList, none, none, some "x\ny".toList, none] =
    [["A:".toList, "-s  \tShort.".toList], ["x".toList, "y".toList]] := by decide +kernel

/-- The last column on lines of its own, in three quarters and in a third of the width. -/
example : printUsage 2 (descriptors [some "--3456789 \t12345678901234567890".toList]) 20 75 75 =
    some (utf8 "--3456789 \n     123456789012345\n     67890\n".toList) := by decide +kernel
example : printUsage 2 (descriptors [some "--3456789 \t12345678901234567890".toList]) 20 75 25 =
    some (utf8 "--3456789 \n               12345\n               67890\n               12345\n               67890\n".toList) := by
  decide +kernel

/-- C145: a descriptor with a help text and a null `shortopt`, which the documentation does not permit, is printed again
and again. -/
theorem C145_null_shortopt (fuel : Nat) (help : List Nat) (rest : List Desc) (width minPercent ownPercent : Int) :
    printUsage fuel ({ shortNull := true, help := some help } :: rest) width minPercent ownPercent = none := by
  obtain ⟨d, hd⟩ : ∃ d : Desc, d = { shortNull := true, help := some help } := ⟨_, rfl⟩
  rw [← hd]
  unfold printUsage
  generalize true = first
  dsimp only
  generalize ((clampWidth width : Int) * minPercent + 50).tdiv 100 = a
  generalize ((clampWidth width : Int) * ownPercent + 50).tdiv 100 = b
  induction fuel generalizing first with
  | zero => rfl
  | succ fuel ih =>
    rw [printTables_eq]
    have h1 : (if first then some (d :: rest) else skipTable (d :: rest)) = some (d :: rest) := by
      cases first <;> simp [skipTable, hd]
    have h2 : skipBreaks (d :: rest) = some (d :: rest) := by simp [skipBreaks, hd]
    rw [h1, Option.bind_some, h2, Option.bind_some]
    dsimp only
    rw [ih, show d.help = some help by rw [hd]]
    dsimp only
    cases tableRows (rowFuel (d :: rest)) help rest with
    | none => rfl
    | some rows => cases h : printTable (clampWidth width) a (if b = 0 then 1 else b) rows <;> simp [h]

/-! ### C146: side by side -/

/-- A text without separators. -/
def Plain (t : List Char) : Prop := ∀ c ∈ t, c ≠ '\t' ∧ c ≠ '\n' ∧ c ≠ Char.ofNat 11 ∧ c ≠ Char.ofNat 0

instance (t : List Char) : Decidable (Plain t) := by unfold Plain; infer_instance

theorem split_plain (sep : Char) (t : List Char) (h : ∀ c ∈ t, c ≠ sep) : split sep t = [t] := by
  induction t with
  | nil => rfl
  | cons c t ih =>
    rw [split, if_neg (h c (by simp)), ih fun c hc => h c (by simp [hc])]
    rfl

theorem split_tab (a b : List Char) (ha : Plain a) (hb : Plain b) : split '\t' (a ++ '\t' :: b) = [a, b] := by
  induction a with
  | nil => rw [List.nil_append, split, if_pos rfl, split_plain _ _ fun c hc => (hb c hc).1]
  | cons c a ih =>
    rw [List.cons_append, split, if_neg (ha c (by simp)).1, ih fun c hc => ha c (by simp [hc])]
    rfl

theorem cells_tab (a b : List Char) (ha : Plain a) (hb : Plain b) : cells (a ++ '\t' :: b) = [[a], [b]] := by
  rw [cells, split_tab a b ha hb]
  simp [split_plain (Char.ofNat 11) a fun c hc => (ha c hc).2.2.1, split_plain (Char.ofNat 11) b fun c hc => (hb c hc).2.2.1]

theorem height_tab (a b : List Char) (ha : Plain a) (hb : Plain b) : height (a ++ '\t' :: b) = 1 := by
  simp [height, cells_tab a b ha hb]

theorem grid_tab (a b : List Char) (ha : Plain a) (hb : Plain b) : grid (a ++ '\t' :: b) = [⟨0, 0, a, true⟩, ⟨1, 0, b, true⟩] := by
  simp [grid, cells_tab a b ha hb, height_tab a b ha hb]

theorem tables_all (hs : List (List Char)) (hne : hs ≠ []) (h : ∀ x ∈ hs, ∀ c ∈ x, c ≠ '\n') : tables (hs.map some) = [hs] := by
  obtain ⟨a, l, rfl⟩ := List.exists_cons_of_ne_nil hne
  have := tables_some a l [] (.inl rfl)
  rw [List.append_nil] at this
  rw [this, show tables [] = [] from rfl]
  congr 1
  have e : ∀ x ∈ a :: l, split '\n' x = [x] := fun x hx => split_plain _ _ (h x hx)
  clear this hne h
  generalize a :: l = xs at e
  induction xs with
  | nil => rfl
  | cons x xs ih => rw [List.flatMap_cons, e x (by simp), ih fun y hy => e y (by simp [hy])]; rfl

/-- C146: options and their explanations: if both fit beside each other, every explanation begins in the same column,
behind the widest option, and every row is one line. -/
theorem C146_aligned (ps : List (List Char × List Char)) (hp : ∀ p ∈ ps, Plain p.1 ∧ Plain p.2) (A : Nat)
    (hA : ∀ p ∈ ps, textWidth p.1 ≤ A) (hex : ∃ p ∈ ps, textWidth p.1 = A) (width minPercent ownPercent : Int)
    (hfit : ∀ p ∈ ps, A + textWidth p.2 ≤ widthOf width) (hmin : A + percent (widthOf width) minPercent ≤ widthOf width)
    (hlt : A < 10000) (fuel : Nat) (hf : 2 ≤ fuel) :
    printUsage fuel (descriptors (ps.map fun p => some (p.1 ++ '\t' :: p.2))) width minPercent ownPercent =
      some (utf8 (ps.flatMap fun p => p.1 ++ List.replicate (A - textWidth p.1) ' ' ++ p.2 ++ ['\n'])) := by
  obtain ⟨p0, hp0, hp0A⟩ := hex
  have hmap : ps.map (fun p => some (p.1 ++ '\t' :: p.2)) = (ps.map fun p => p.1 ++ '\t' :: p.2).map some := by simp
  have hchar : ∀ p ∈ ps, ∀ c ∈ p.1 ++ '\t' :: p.2, c ≠ '\n' ∧ c ≠ Char.ofNat 0 := by
    intro p hp' c hc
    rcases List.mem_append.1 hc with h | h
    · exact ⟨((hp p hp').1 c h).2.1, ((hp p hp').1 c h).2.2.2⟩
    · rcases List.mem_cons.1 h with h | h
      · subst h; decide
      · exact ⟨((hp p hp').2 c h).2.1, ((hp p hp').2 c h).2.2.2⟩
  have ht : tables (ps.map fun p => some (p.1 ++ '\t' :: p.2)) = [ps.map fun p => p.1 ++ '\t' :: p.2] := by
    rw [hmap]
    refine tables_all _ (by simpa using List.ne_nil_of_mem hp0) ?_
    intro x hx
    obtain ⟨p, hp', rfl⟩ := List.mem_map.1 hx
    exact fun c hc => (hchar p hp' c hc).1
  obtain ⟨os, h1, h2, h3⟩ := C145_tables (ps.map fun p => some (p.1 ++ '\t' :: p.2)) (by
      intro t ht
      obtain ⟨p, hp', h⟩ := List.mem_map.1 ht
      obtain rfl := Option.some.inj h
      exact fun c hc => (hchar p hp' c hc).2) width minPercent ownPercent fuel (by rw [ht]; simp; omega)
  rw [ht] at h2 h3
  obtain ⟨o, rfl⟩ := List.length_eq_one_iff.1 (by simpa using h2)
  obtain ⟨last, w, start, own, htt⟩ := h3 0 _ o rfl rfl
  rw [h1]
  congr 2
  have hgrid : ∀ i, i ∈ (ps.map fun p => p.1 ++ '\t' :: p.2).flatMap grid ↔
      ∃ p ∈ ps, i = ⟨0, 0, p.1, true⟩ ∨ i = ⟨1, 0, p.2, true⟩ := by
    intro i
    rw [List.mem_flatMap]
    constructor
    · rintro ⟨r, hr, hi⟩
      obtain ⟨p, hp', rfl⟩ := List.mem_map.1 hr
      rw [grid_tab _ _ (hp p hp').1 (hp p hp').2] at hi
      exact ⟨p, hp', by simpa using hi⟩
    · rintro ⟨p, hp', hi⟩
      exact ⟨_, List.mem_map.2 ⟨p, hp', rfl⟩, by rw [grid_tab _ _ (hp p hp').1 (hp p hp').2]; simpa using hi⟩
  have hlast : last = 1 := by
    have a := htt.fits.le ⟨1, 0, p0.2, true⟩ ((hgrid _).2 ⟨p0, hp0, .inr rfl⟩) (by dsimp only; omega)
    rcases htt.fits.ex with b | ⟨i, hi, b⟩
    · dsimp only at a; omega
    · obtain ⟨p, -, rfl | rfl⟩ := (hgrid _).1 hi
      · dsimp only at a b; omega
      · exact b.symm
  subst hlast
  have hcell : ∀ p ∈ ps, textWidth p.1 ≤ w.getD 0 0 := by
    intro p hp'
    refine htt.fits.natural [A] ?_ ?_ ⟨0, 0, p.1, true⟩ ((hgrid _).2 ⟨p, hp', .inl rfl⟩) rfl (by dsimp only; omega)
    · intro i hi _ hc
      obtain ⟨q, hq, rfl | rfl⟩ := (hgrid _).1 hi
      · have := hA q hq; exact ⟨by simpa using this, by dsimp only; omega⟩
      · dsimp only at hc; omega
    · have := hfit p0 hp0
      simp; omega
  have hw0 : w.getD 0 0 = A := by
    have := hcell p0 hp0
    rcases htt.fits.from_ 0 with h | ⟨i, hi, a, b, c⟩
    · omega
    · obtain ⟨q, hq, rfl | rfl⟩ := (hgrid _).1 hi
      · have := hA q hq; dsimp only at c; omega
      · dsimp only at a; omega
  have hsum : (w.take 1).sum = A := by
    cases w with
    | nil => simp at hw0; simp [hw0]
    | cons x w => simpa using hw0
  have hown : own = false := htt.room.2 (.inl (by rw [hsum]; omega))
  subst hown
  have hstart : start = A := by rw [htt.begins, hsum]; rfl
  subst hstart
  obtain ⟨rs, e1, e2, e3⟩ := htt.lines
  rw [List.flatten_cons, List.flatten_nil, List.append_nil, e1, List.flatMap_def]
  congr 1
  rw [List.length_map] at e2
  apply List.ext_getElem (by simpa using e2)
  intro k hk hk'
  rw [List.getElem_map]
  have hk2 : k < ps.length := by omega
  have hmem : ps[k] ∈ ps := List.getElem_mem hk2
  obtain ⟨pa, pb⟩ := hp _ hmem
  obtain ⟨-, e4⟩ := e3 k (ps[k].1 ++ '\t' :: ps[k].2) rs[k] (by simp [hk2]) (by simp [hk])
  have e5 := e4 (by decide) (by
    rw [grid_tab _ _ pa pb]
    intro i hi
    have hi : i = ⟨0, 0, ps[k].1, true⟩ ∨ i = ⟨1, 0, ps[k].2, true⟩ := by simpa using hi
    rcases hi with rfl | rfl
    · exact ⟨rfl, fun _ => hcell _ hmem⟩
    · exact ⟨rfl, fun h => by dsimp only at h; omega⟩)
  unfold RowLines at e5
  rw [cells_tab _ _ pa pb, if_pos (by simp), height_tab _ _ pa pb] at e5
  obtain ⟨ls, ems, rest, e6, e7⟩ := e5
  have hl0 : (List.range 1).map (fun t => (lineOf (ps[k].1 ++ '\t' :: ps[k].2) t).getD 1 []) = [ps[k].2] := by
    simp [lineOf, cells_tab _ _ pa pb]
  rw [hl0] at e6
  obtain ⟨l, rfl⟩ := List.length_eq_one_iff.1 (by simpa using e6.len.1)
  obtain ⟨em, rfl⟩ := List.length_eq_one_iff.1 (by simpa using e6.len.2)
  have hwr := e6.wrapped 0 _ l rfl rfl
  have hfk := hfit _ hmem
  have hl : l = if ps[k].2 = [] then [] else [ps[k].2] := by
    refine C142_unique hwr ?_
    split
    · rename_i h; rw [h]; exact .nil
    · rename_i h; exact .fits _ h (by omega)
  have hll : l.length ≤ 1 := by rw [hl]; split <;> simp
  have hem := e6.shown 0 em rfl
  simp at hem
  have hall := e6.all
  simp at hall
  have hrest : rest = [] := by
    apply List.eq_nil_of_length_eq_zero
    have := congrArg List.length hall
    simp at this
    omega
  subst hrest
  rw [List.append_nil] at hall
  subst hall
  rw [e7]
  simp only [Bool.false_eq_true, if_false, alone, if_true, List.append_nil]
  have hline : lineOf (ps[k].1 ++ '\t' :: ps[k].2) 0 = [ps[k].1, ps[k].2] := by simp [lineOf, cells_tab _ _ pa pb]
  simp [hline, sideBySide]
  rw [hl]
  have : w.getD 0 0 = A := hw0
  simp at this
  rw [this]
  split
  · rename_i h; simp [h, below]
  · simp [below]

/-- The table of the documentation. -/
example : printUsage 2 (descriptors [some "-c, --create  \tCreates something.".toList, some "-k, --kill  \tDestroys something.".toList]) 80 50 75 =
    some (utf8 "-c, --create  Creates something.\n-k, --kill    Destroys something.\n".toList) := by
  have h := C146_aligned [("-c, --create  ".toList, "Creates something.".toList), ("-k, --kill  ".toList, "Destroys something.".toList)]
    (by decide +kernel) 14 (by decide +kernel) (by decide +kernel) 80 50 75 (by decide +kernel) (by decide +kernel) (by decide) 2 (by decide)
  exact h

/-- Cells with line breaks. -/
example : printUsage 2 (descriptors [some "-c,\x0b--create  \tCreates\x0bsomething.".toList,
      some "-k,\x0b--kill  \tDestroys\x0bsomething.".toList]) 80 50 75 =
    some (utf8 "-c,       Creates\n--create  something.\n-k,       Destroys\n--kill    something.\n".toList) := by decide +kernel

/-! ### C147: the width of lines -/

theorem wrappedAll_le {W : Nat} {ts ps : List (List Char)} (h : WrappedAll W ts ps) :
    ∀ p ∈ ps, textWidth p ≤ W ∧ ∃ t ∈ ts, ∀ c ∈ p, c ∈ t := by
  induction h with
  | nil => simp
  | @cons t ts ls ms h1 _ ih =>
    intro p hp
    rcases List.mem_append.1 hp with hp | hp
    · obtain ⟨a, b⟩ := wrapped_le h1 p hp
      exact ⟨a, t, by simp, b⟩
    · obtain ⟨a, t, ht, b⟩ := ih p hp
      exact ⟨a, t, List.mem_cons_of_mem _ ht, b⟩

theorem grid_chars (row : List Char) (i : Item) (hi : i ∈ grid row) : ∀ c ∈ i.text, c ∈ row := by
  obtain ⟨t, -, hi⟩ := List.mem_flatMap.1 hi
  obtain ⟨k, hk, rfl⟩ := List.mem_mapIdx.1 hi
  intro c hc
  have hmem : (cells row)[k] ∈ cells row := List.getElem_mem hk
  obtain ⟨x, hx, he⟩ := List.mem_map.1 hmem
  dsimp only at hc
  rw [← he, List.getD_eq_getElem?_getD] at hc
  cases hq : (split (Char.ofNat 11) x)[t]? with
  | none => simp [hq] at hc
  | some y =>
    rw [hq, Option.getD_some] at hc
    have h1 := (mem_split _ _ _ (List.mem_of_getElem? hq) c hc).1
    exact (mem_split _ _ _ hx c h1).1

theorem cursor_append (a b : List Char) (ha : a = [] ∨ a.getLast? = some '\n') : cursor (a ++ b) = cursor b := by
  have h0 : cursor a = 0 := by
    rcases ha with rfl | ha
    · rfl
    · obtain ⟨a', rfl⟩ : ∃ a', a = a' ++ ['\n'] := by
        rw [List.getLast?_eq_some_iff] at ha
        exact ha
      exact cursor_nl a'
  unfold cursor at h0 ⊢
  rw [List.foldl_append, h0]

/-- Texts that end lines, one after the other. -/
theorem cursor_flatten (M : Nat) (os : List (List Char)) (h : ∀ o ∈ os, o.getLast? = some '\n' ∧ ∀ p, p <+: o → cursor p ≤ M) :
    ∀ p, p <+: os.flatten → cursor p ≤ M := by
  induction os with
  | nil => intro p hp; simp at hp; subst hp; simp [cursor]
  | cons o os ih =>
    intro p hp
    rw [List.flatten_cons] at hp
    rcases Nat.le_total p.length o.length with hl | hl
    · exact (h o (by simp)).2 p (List.prefix_of_prefix_length_le hp ⟨_, rfl⟩ hl)
    · obtain ⟨q, rfl⟩ := List.prefix_of_prefix_length_le (l₃ := o ++ os.flatten) ⟨_, rfl⟩ hp hl
      have hq : q <+: os.flatten := (List.prefix_append_right_inj o).1 hp
      rw [cursor_append o q (.inr (h o (by simp)).1)]
      exact ih (fun o ho => h o (by simp [ho])) q hq

theorem take_sum_le (w u : List Nat) : ∀ n, (∀ j, j < n → w.getD j 0 ≤ u.getD j 0) → (w.take n).sum ≤ (u.take n).sum := by
  induction w generalizing u with
  | nil => simp
  | cons a w ih =>
    intro n h
    cases n with
    | zero => simp
    | succ n =>
      cases u with
      | nil =>
        have h0 : a = 0 := by simpa using h 0 (by omega)
        have := ih [] n (fun j hj => by simpa using h (j + 1) (by omega))
        simp at this ⊢
        exact ⟨h0, this⟩
      | cons b u =>
        have h0 : a ≤ b := by simpa using h 0 (by omega)
        have := ih u n (fun j hj => by simpa using h (j + 1) (by omega))
        simp
        omega

theorem take_succ_le (w : List Nat) (c n : Nat) (h : c < n) : (w.take c).sum + w.getD c 0 ≤ (w.take n).sum := by
  induction w generalizing c n with
  | nil => simp
  | cons a w ih =>
    cases n with
    | zero => omega
    | succ n =>
      cases c with
      | zero => simp
      | succ c =>
        have := ih c n (by omega)
        simp at this ⊢
        omega

/-- The lines of a table stay within the width. -/
theorem table_width {W : Nat} {minW ownW : Int} {rows : List (List Char)} {last : Nat} {w : List Nat} {start : Int} {own : Bool}
    {o : List Char} (h : TableText W minW ownW rows last w start own o) (hnl : ∀ r ∈ rows, '\n' ∉ r) (u : List Nat)
    (hu : ∀ i ∈ rows.flatMap grid, ∀ j ∈ rows.flatMap grid, i.col < j.col → i.table = true →
      textWidth i.text ≤ u.getD i.col 0 ∧ textWidth i.text < 10000)
    (hs : ∀ j ∈ rows.flatMap grid, (u.take j.col).sum + 2 ≤ W) (hown : 2 ≤ ownW ∧ ownW ≤ W) (hW : 2 ≤ W) :
    ∃ os : List (List Char), o = os.flatten ∧ os.length = rows.length ∧ ∀ ro ∈ os, ro.getLast? = some '\n' ∧ ∀ p, p <+: ro → cursor p ≤ W := by
  obtain ⟨os, h1, h2, h3⟩ := h.lines
  refine ⟨os, h1, h2, ?_⟩
  intro ro hro
  obtain ⟨k, hk, rfl⟩ := List.mem_iff_getElem.1 hro
  have hk' : k < rows.length := by omega
  obtain ⟨⟨ch, e1, e2, e3⟩, -⟩ := h3 k rows[k] os[k] (by simp [hk']) (by simp [hk])
  refine ⟨e2, ?_⟩
  have hrow : rows[k] ∈ rows := List.getElem_mem hk'
  have hleft : ∀ i ∈ rows.flatMap grid, i.table = true → i.col < last → textWidth i.text ≤ u.getD i.col 0 ∧ textWidth i.text < 10000 := by
    intro i hi ht hc
    rcases h.fits.ex with h0 | ⟨j, hj, h0⟩
    · omega
    · exact hu i hi j hj (by omega) ht
  have hulast : (u.take last).sum + 2 ≤ W := by
    rcases h.fits.ex with h0 | ⟨j, hj, h0⟩
    · subst h0; simpa using hW
    · rw [← h0]; exact hs j hj
  have hwu : (w.take last).sum ≤ (u.take last).sum := by
    apply take_sum_le
    intro j hj
    rcases h.fits.from_ j with h0 | ⟨i, hi, a, b, c⟩
    · omega
    · rw [← c, ← a]
      exact (hleft i hi b (by omega)).1
  have hnat := h.fits.natural u hleft (by omega)
  have hstart : start ≤ (W : Int) - 2 ∧ 0 ≤ start := by
    rw [h.begins]
    split <;> omega
  have hitem : ∀ i ∈ grid rows[k], i ∈ rows.flatMap grid ∧ '\n' ∉ i.text := fun i hi =>
    ⟨List.mem_flatMap.2 ⟨_, hrow, hi⟩, fun hn => hnl _ hrow (grid_chars _ i hi _ hn)⟩
  have hitems : ∀ tag t, t ∈ itemsOf last tag (grid rows[k]) → '\n' ∉ t := by
    intro tag t ht
    obtain ⟨i, hi, rfl⟩ := List.mem_map.1 ht
    exact (hitem i (List.mem_filter.1 hi).1).2
  refine laid_cursor e1 (by omega) ?_
  intro p hp
  obtain ⟨tag, t⟩ := p
  cases tag with
  | left c =>
    have hm : (Tag.left c, t) ∈ ch.filter fun p => p.1 ≠ .last ∧ p.1 ≠ .inter := by simp [hp]
    rw [e3.lefts] at hm
    obtain ⟨i, hi, hi'⟩ := List.mem_filterMap.1 hm
    have htag : i.tag last = some (.left c) ∧ i.text = t := by
      cases hq : i.tag last with
      | none => simp [hq] at hi'
      | some x => cases x <;> simp_all
    have hc : i.col = c ∧ i.col < last ∧ i.table = true := by
      have h1 := htag.1
      unfold Item.tag at h1
      split at h1
      · simp at h1
      · split at h1
        · rename_i h2; simp at h1; exact ⟨h1, h2.1, h2.2⟩
        · split at h1 <;> simp at h1
    have hle := hnat i (hitem i hi).1 hc.2.2 hc.2.1
    have := take_succ_le w c last (by omega)
    refine ⟨?_, by rw [← htag.2]; exact (hitem i hi).2⟩
    simp only [stops, ← htag.2]
    rw [hc.1] at hle
    omega
  | last =>
    have hm : t ∈ textsOf .last ch := List.mem_map.2 ⟨_, List.mem_filter.2 ⟨hp, by simp⟩, rfl⟩
    obtain ⟨a, x, hx, b⟩ := wrappedAll_le e3.lasts t hm
    refine ⟨?_, fun hn => hitems _ x hx (b _ hn)⟩
    simp only [stops]
    omega
  | inter =>
    have hm : t ∈ textsOf .inter ch := List.mem_map.2 ⟨_, List.mem_filter.2 ⟨hp, by simp⟩, rfl⟩
    obtain ⟨a, x, hx, b⟩ := wrappedAll_le e3.inters t hm
    refine ⟨?_, fun hn => hitems _ x hx (b _ hn)⟩
    simp only [stops]
    omega

theorem tables_chars (es : List (Option (List Char))) : ∀ rows ∈ tables es, ∀ r ∈ rows, '\n' ∉ r := by
  intro rows hrows r hr
  obtain ⟨g, -, rfl⟩ := List.mem_map.1 hrows
  obtain ⟨h, -, hr⟩ := List.mem_flatMap.1 hr
  exact fun hn => (mem_split _ _ _ hr _ hn).2 rfl

/-- C147, as far as it goes: no character is written beyond the width, if in every table the widest cells of the columns
before any other leave two columns of room, and lines of the last column have between two columns and the width.  What is
missing is shown to be false below: a cell before the last column that is too wide is not cut. -/
theorem C147_line_width_partial (es : List (Option (List Char))) (h : ∀ t, some t ∈ es → ∀ c ∈ t, c ≠ Char.ofNat 0)
    (width minPercent ownPercent : Int) (hW : 2 ≤ widthOf width)
    (hown : 2 ≤ percent (widthOf width) ownPercent ∧ percent (widthOf width) ownPercent ≤ widthOf width)
    (hfit : ∀ rows ∈ tables es, ∃ u : List Nat, (∀ j ∈ rows.flatMap grid, (u.take j.col).sum + 2 ≤ widthOf width) ∧
      ∀ i ∈ rows.flatMap grid, ∀ j ∈ rows.flatMap grid, i.col < j.col → i.table = true → textWidth i.text ≤ u.getD i.col 0)
    (fuel : Nat) (hf : (tables es).length < fuel) :
    ∃ o, printUsage fuel (descriptors es) width minPercent ownPercent = some (utf8 o) ∧ ∀ p, p <+: o → cursor p ≤ widthOf width := by
  obtain ⟨os, h1, h2, h3⟩ := C145_tables es h width minPercent ownPercent fuel hf
  refine ⟨os.flatten, h1, ?_⟩
  have hw : widthOf width ≤ 10000 := by
    unfold widthOf; split <;> omega
  have key : ∀ o ∈ os, ∃ rs : List (List Char), o = rs.flatten ∧
      ∀ ro ∈ rs, ro.getLast? = some '\n' ∧ ∀ p, p <+: ro → cursor p ≤ widthOf width := by
    intro o ho
    obtain ⟨k, hk, rfl⟩ := List.mem_iff_getElem.1 ho
    have hk' : k < (tables es).length := by omega
    obtain ⟨last, w, start, own, ht⟩ := h3 k _ _ (List.getElem?_eq_getElem hk') (List.getElem?_eq_getElem hk)
    rw [if_neg (by omega)] at ht
    have hm : (tables es)[k] ∈ tables es := List.getElem_mem hk'
    obtain ⟨u, hu1, hu2⟩ := hfit _ hm
    obtain ⟨rs, a, -, b⟩ := table_width ht (tables_chars es _ hm) u (fun i hi j hj hc ht => ⟨hu2 i hi j hj hc ht, by
      have q1 := hu2 i hi j hj hc ht
      have q2 := hu1 j hj
      have q3 := take_succ_le u i.col j.col hc
      omega⟩) hu1 hown hW
    exact ⟨rs, a, b⟩
  have : ∃ rss : List (List (List Char)), os = rss.map List.flatten ∧
      ∀ rs ∈ rss, ∀ ro ∈ rs, ro.getLast? = some '\n' ∧ ∀ p, p <+: ro → cursor p ≤ widthOf width := by
    clear h1 h2 h3
    induction os with
    | nil => exact ⟨[], rfl, by simp⟩
    | cons o os ih =>
      obtain ⟨rs, a, b⟩ := key o (by simp)
      obtain ⟨rss, c, d⟩ := ih fun o ho => key o (by simp [ho])
      refine ⟨rs :: rss, by rw [a, c]; rfl, ?_⟩
      intro x hx
      rcases List.mem_cons.1 hx with rfl | hx
      · exact b
      · exact d x hx
  obtain ⟨rss, rfl, hrss⟩ := this
  rw [← List.flatten_flatten]
  apply cursor_flatten
  intro o ho
  obtain ⟨rs, hrs, ho⟩ := List.mem_flatten.1 ho
  exact hrss rs hrs o ho

/-- Lines of twenty columns. -/
example : ∃ o, printUsage 2 (descriptors [some "Options, all of them:\n-c, --create \tCreates something.".toList]) 20 50 75 = some (utf8 o) ∧
    ∀ p, p <+: o → cursor p ≤ 20 :=
  C147_line_width_partial [some "Options, all of them:\n-c, --create \tCreates something.".toList] (by
      intro t ht; simp only [List.mem_singleton, Option.some.injEq] at ht; subst ht; decide +kernel) 20 50 75
    (by decide) (by decide) (by
      intro rows hr
      have e : tables [some "Options, all of them:\n-c, --create \tCreates something.".toList] =
        [["Options, all of them:".toList, "-c, --create \tCreates something.".toList]] := by decide +kernel
      rw [e, List.mem_singleton] at hr
      subst hr
      exact ⟨[13], by decide +kernel, by decide +kernel⟩) 2 (by decide +kernel)

/-- What is written there. -/
example : printUsage 2 (descriptors [some "Options, all of them:\n-c, --create \tCreates something.".toList]) 20 50 75 =
    some (utf8 "Options, all of\nthem:\n-c, --create \n     Creates\n     something.\n".toList) := by decide +kernel

/-- C147 does not hold in general: an option that is wider than the width is not cut. -/
theorem C147_negation_wide_option :
    ∃ o, printUsage 2 (descriptors [some "--aaaaaaaaaaaa\tbb".toList]) 10 50 75 = some (utf8 o) ∧ ∃ p, p <+: o ∧ 10 < cursor p :=
  ⟨"--aaaaaaaaaaaa\nbb\n".toList, by decide +kernel, "--aaaaaaaaaaaa".toList, by decide +kernel, by decide +kernel⟩

/-! ### C148: nothing is lost -/

theorem laid_count {B : Nat} {stop : Tag → Nat} {o : List Char} {ch : List (Tag × List Char)} (h : Laid B stop o ch) (x : Char)
    (h1 : x ≠ ' ') (h2 : x ≠ '\n') : o.count x = (ch.map fun p => p.2.count x).sum := by
  induction h with
  | nil => rfl
  | newline _ ih => rw [List.count_append, ih, List.count_singleton, if_neg (by simpa using Ne.symm h2), Nat.add_zero]
  | space _ _ ih => rw [List.count_append, ih, List.count_singleton, if_neg (by simpa using Ne.symm h1), Nat.add_zero]
  | text tag t _ _ ih => rw [List.count_append, ih]; simp

theorem pieces_count (x : Char) (ch : List (Tag × List Char)) :
    (ch.map fun p => p.2.count x).sum =
      ((ch.filter fun p => p.1 ≠ .last ∧ p.1 ≠ .inter).map fun p => p.2.count x).sum + (textsOf .last ch).flatten.count x +
        (textsOf .inter ch).flatten.count x := by
  induction ch with
  | nil => rfl
  | cons p ch ih =>
    obtain ⟨tag, t⟩ := p
    simp only [textsOf] at ih
    cases tag <;> simp [textsOf, ih] <;> omega

theorem wrapped_count {W : Nat} {t : List Char} {ps : List (List Char)} (h : Wrapped W t ps) (x : Char) (hx : x ≠ ' ') :
    ps.flatten.count x = t.count x := by
  have h1 := congrArg (List.count x) (C142_nothing_lost h)
  rw [List.count_filter (by simpa using hx), List.count_filter (by simpa using hx)] at h1
  exact h1

theorem wrappedAll_count {W : Nat} {ts ps : List (List Char)} (h : WrappedAll W ts ps) (x : Char) (hx : x ≠ ' ') :
    ps.flatten.count x = ts.flatten.count x := by
  induction h with
  | nil => rfl
  | cons h1 _ ih => rw [List.flatten_append, List.flatten_cons, List.count_append, List.count_append, ih, wrapped_count h1 x hx]

theorem items_count (x : Char) (last : Nat) (items : List Item) (h : ∀ i ∈ items, i.col ≤ last) (f : Item → Option (Tag × List Char))
    (hf : ∀ i c, i.tag last = some (.left c) → f i = some (.left c, i.text))
    (hf' : ∀ i, i.tag last = some .last ∨ i.tag last = some .inter → f i = none) :
    (items.map fun i => i.text.count x).sum =
      ((items.filterMap f).map fun p => p.2.count x).sum + (itemsOf last .last items).flatten.count x + (itemsOf last .inter items).flatten.count x := by
  induction items with
  | nil => rfl
  | cons i items ih =>
    have ih := ih fun j hj => h j (by simp [hj])
    have htag : i.tag last ≠ none := by
      unfold Item.tag
      have := h i (by simp)
      rw [if_neg (by omega)]
      split
      · simp
      · split <;> simp
    simp only [itemsOf] at ih
    cases hq : i.tag last with
    | none => exact absurd hq htag
    | some tag =>
      cases tag with
      | left c => simp [itemsOf, hq, ih, hf i c hq]; omega
      | last => simp [itemsOf, hq, ih, hf' i (.inl hq)]; omega
      | inter => simp [itemsOf, hq, ih, hf' i (.inr hq)]; omega

theorem split_count (sep : Char) (x : Char) (hx : x ≠ sep) (t : List Char) : (split sep t).flatten.count x = t.count x := by
  induction t with
  | nil => rfl
  | cons c t ih =>
    rw [split]
    split
    · rename_i h
      subst h
      rw [List.flatten_cons, List.nil_append, ih, List.count_cons_of_ne hx.symm]
    · have hc := split_cons sep t
      rw [← hc] at ih
      rw [List.flatten_cons, List.cons_append, List.count_cons, List.count_cons, ← ih, List.flatten_cons]

/-- Cells counted line by line. -/
theorem lines_count (x : Char) (cs : List (List (List Char))) (H : Nat) (h : ∀ c ∈ cs, c.length ≤ H) :
    ((List.range H).map fun t => (cs.map fun c => (c.getD t []).count x).sum).sum = (cs.map fun c => c.flatten.count x).sum := by
  have h0 : ∀ l : List Nat, (l.map fun _ => 0).sum = 0 := by
    intro l
    induction l with
    | nil => rfl
    | cons a l ih => simp [ih]
  have hcell : ∀ (H : Nat) (c : List (List Char)), c.length ≤ H →
      ((List.range H).map fun t => (c.getD t []).count x).sum = c.flatten.count x := by
    intro H
    induction H with
    | zero => intro c hc; obtain rfl := List.eq_nil_of_length_eq_zero (by omega : c.length = 0); rfl
    | succ H ih =>
      intro c hc
      rw [List.range_succ_eq_map, List.map_cons, List.sum_cons, List.map_map]
      cases c with
      | nil =>
        rw [show ((fun t => (([] : List (List Char)).getD t []).count x) ∘ Nat.succ) = fun _ => 0 by funext t; simp, h0]
        simp
      | cons a c =>
        have := ih c (by simpa using hc)
        simp only [List.getD_cons_zero, List.flatten_cons, List.count_append]
        rw [← this]
        congr 2
  induction cs with
  | nil => simpa using h0 _
  | cons c cs ih =>
    have hsum : ∀ (l : List Nat) (f g : Nat → Nat), (l.map fun t => f t + g t).sum = (l.map f).sum + (l.map g).sum := by
      intro l f g
      induction l with
      | nil => rfl
      | cons a l ih => simp [ih]; omega
    simp only [List.map_cons, List.sum_cons]
    rw [hsum, ih fun c hc => h c (by simp [hc]), hcell H c (h c (by simp))]

theorem grid_count (x : Char) (h1 : x ≠ '\t') (h2 : x ≠ Char.ofNat 11) (row : List Char) :
    ((grid row).map fun i => i.text.count x).sum = row.count x := by
  have hH : ∀ c ∈ cells row, c.length ≤ height row := by
    unfold height
    intro c hc
    generalize cells row = cs at hc
    induction cs with
    | nil => simp at hc
    | cons a cs ih =>
      rw [List.map_cons, List.foldr_cons]
      rcases List.mem_cons.1 hc with rfl | hc
      · omega
      · have := ih hc; omega
  have e : ((grid row).map fun i => i.text.count x) =
      (List.range (height row)).flatMap fun t => (cells row).map fun c => (c.getD t []).count x := by
    unfold grid
    rw [List.map_flatMap]
    congr 1
    funext t
    apply List.ext_getElem?
    intro k
    simp
    rfl
  have hfl : ∀ (l : List Nat) (f : Nat → List Nat), (l.flatMap f).sum = (l.map fun t => (f t).sum).sum := by
    intro l f
    induction l with
    | nil => rfl
    | cons a l ih => simp [ih]
  rw [e, hfl, lines_count x (cells row) (height row) hH]
  rw [← split_count '\t' x h1 row, List.count_flatten, cells, List.map_map]
  congr 1
  apply List.map_congr_left
  intro c _
  exact split_count _ x h2 c

theorem row_count {W last : Nat} {w : List Nat} {start : Int} {row ro : List Char} (h : RowText W last w start row ro) (x : Char)
    (hx : x ≠ ' ' ∧ x ≠ '\n' ∧ x ≠ '\t' ∧ x ≠ Char.ofNat 11) (hl : ∀ i ∈ grid row, i.col ≤ last) : ro.count x = row.count x := by
  obtain ⟨ch, h1, -, h3⟩ := h
  have e1 := laid_count h1 x hx.1 hx.2.1
  have e2 := pieces_count x ch
  have e3 := wrappedAll_count h3.lasts x hx.1
  have e4 := wrappedAll_count h3.inters x hx.1
  have e5 := grid_count x hx.2.2.1 hx.2.2.2 row
  have e6 := h3.lefts
  generalize hf : (fun i : Item => match i.tag last with
      | some (.left c) => some (Tag.left c, i.text)
      | _ => none) = f at e6
  have e7 := items_count x last (grid row) hl f (fun i c hc => by rw [← hf]; simp only [hc])
    (fun i hi => by rw [← hf]; rcases hi with hi | hi <;> simp only [hi])
  rw [e6] at e2
  omega

theorem flatten_count (x : Char) (as bs : List (List Char)) (hl : as.length = bs.length)
    (h : ∀ (k : Nat) (a b : List Char), as[k]? = some a → bs[k]? = some b → a.count x = b.count x) : as.flatten.count x = bs.flatten.count x := by
  induction as generalizing bs with
  | nil => obtain rfl := List.eq_nil_of_length_eq_zero hl.symm; rfl
  | cons a as ih =>
    cases bs with
    | nil => simp at hl
    | cons b bs =>
      rw [List.flatten_cons, List.flatten_cons, List.count_append, List.count_append, h 0 a b rfl rfl,
        ih bs (by simpa using hl) fun k a b ha hb => h (k + 1) a b (by simpa using ha) (by simpa using hb)]

theorem grid_col (row : List Char) (i : Item) (hi : i ∈ grid row) : i.col < (split '\t' row).length := by
  obtain ⟨t, -, hi⟩ := List.mem_flatMap.1 hi
  obtain ⟨k, hk, rfl⟩ := List.mem_mapIdx.1 hi
  simpa [cells] using hk

theorem tables_count (x : Char) (hx : x ≠ '\n') (es : List (Option (List Char))) :
    (tables es).flatten.flatten.count x = (es.filterMap id).flatten.count x := by
  have h1 : (tables es).flatten = ((groups es).flatten).flatMap (split '\n') := by
    unfold tables
    induction groups es with
    | nil => rfl
    | cons g gs ih =>
      cases g with
      | nil => simpa using ih
      | cons a g =>
        rw [List.filter_cons_of_pos (by simp), List.map_cons, List.flatten_cons, ih, List.flatten_cons, List.flatMap_append]
  have h2 : (groups es).flatten = es.filterMap id := by
    clear h1
    induction es with
    | nil => rfl
    | cons e es ih =>
      cases e with
      | none => simpa [groups] using ih
      | some h =>
        have hne := groups_ne es
        cases hg : groups es with
        | nil => exact absurd hg hne
        | cons a l =>
          rw [hg] at ih
          simp at ih
          simp [groups, hg, ih]
  rw [h1, h2]
  induction es.filterMap id with
  | nil => rfl
  | cons a l ih => rw [List.flatMap_cons, List.flatten_append, List.flatten_cons, List.count_append, List.count_append, ih, split_count _ x hx]

/-- C148, as far as it goes: every character of the help texts is written as often as it is there, apart from spaces and
separators, if no row has more than eight columns.  What is missing is shown to be false below: cells of further columns are
not written. -/
theorem C148_nothing_lost_partial (es : List (Option (List Char))) (h : ∀ t, some t ∈ es → ∀ c ∈ t, c ≠ Char.ofNat 0)
    (h8 : ∀ rows ∈ tables es, ∀ row ∈ rows, (split '\t' row).length ≤ 8) (width minPercent ownPercent : Int)
    (fuel : Nat) (hf : (tables es).length < fuel) :
    ∃ o, printUsage fuel (descriptors es) width minPercent ownPercent = some (utf8 o) ∧
      ∀ x, x ≠ ' ' ∧ x ≠ '\n' ∧ x ≠ '\t' ∧ x ≠ Char.ofNat 11 → o.count x = (es.filterMap id).flatten.count x := by
  obtain ⟨os, h1, h2, h3⟩ := C145_tables es h width minPercent ownPercent fuel hf
  refine ⟨os.flatten, h1, ?_⟩
  intro x hx
  rw [← tables_count x hx.2.1 es, List.flatten_flatten]
  refine flatten_count x _ _ (by simpa using h2) ?_
  intro k o rows' hk hr
  obtain ⟨rows, hrows, rfl⟩ := by simpa using hr
  obtain ⟨last, w, start, own, ht⟩ := h3 k rows o hrows hk
  obtain ⟨rs, e1, e2, e3⟩ := ht.lines
  rw [e1]
  refine flatten_count x _ _ e2 ?_
  intro j ro row hj hrow
  refine row_count (e3 j row ro hrow hj).1 x hx ?_
  intro i hi
  have hm : row ∈ rows := List.mem_of_getElem? hrow
  have := h8 rows (List.mem_of_getElem? hrows) row hm
  have := grid_col row i hi
  exact ht.fits.le i (List.mem_flatMap.2 ⟨row, hm, hi⟩) (by omega)

/-- Two columns, cut and in lines of their own. -/
example : ∃ o, printUsage 2 (descriptors [some "--create-all \tCreates something else.".toList]) 12 50 75 = some (utf8 o) ∧
    ∀ x, x ≠ ' ' ∧ x ≠ '\n' ∧ x ≠ '\t' ∧ x ≠ Char.ofNat 11 → o.count x = "--create-all \tCreates something else.".toList.count x := by
  obtain ⟨o, h1, h2⟩ := C148_nothing_lost_partial [some "--create-all \tCreates something else.".toList] (by
      intro t ht; simp only [List.mem_singleton, Option.some.injEq] at ht; subst ht; decide +kernel)
    (by decide +kernel) 12 50 75 2 (by decide +kernel)
  exact ⟨o, h1, fun x hx => (h2 x hx).trans (by simp)⟩

/-- C148 does not hold in general: the ninth cell of a row is not written. -/
theorem C148_negation_ninth_column :
    printUsage 2 (descriptors [some "a\tb\tc\td\te\tf\tg\th\ti".toList]) 80 50 75 = some (utf8 "abcdefgh\n".toList) := by
  decide +kernel

end Verif.Usage
