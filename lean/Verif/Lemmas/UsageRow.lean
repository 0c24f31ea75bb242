import Verif.Lemmas.Usage
/-!
The parts of a row of `printUsage`.
-/
namespace Verif.Usage
open Verif.Spec.Usage

/-- A cell: its first line and the others. -/
abbrev Cell := List Char × List (List Char)

/-- Lines that follow another one in a cell. -/
def vs (ps : List (List Char)) : Bytes := ps.flatMap fun p => 11 :: utf8 p

def cellBytes (c : Cell) : Bytes := utf8 c.1 ++ vs c.2

/-- Cells that follow another one in a row. -/
def ts (cs : List Cell) : Bytes := cs.flatMap fun c => 9 :: cellBytes c

def pieceAt (t : Nat) (c : Cell) : List Char := (c.1 :: c.2).getD t []

/-- No separators in the lines of a cell. -/
def Cell.Ok (c : Cell) : Prop := ∀ p ∈ c.1 :: c.2, ∀ ch ∈ p, sepChar ch = false

/-- The end of a row. -/
def AtEnd (e : Bytes) : Prop := e = [] ∨ ∃ r, e = 10 :: r

def stAt (row : Bytes) (M T c : Nat) (cell : Cell) (tail : Bytes) : It :=
  { rowstart := row, ptr := utf8 (pieceAt T cell) ++ (vs (cell.2.drop T) ++ tail), col := c,
    len := (utf8 (pieceAt T cell)).length, screenlen := textWidth (pieceAt T cell), maxLine := M,
    line := min T cell.2.length, target := T, hit := true }

theorem pieceAt_ok (c : Cell) (h : c.Ok) (t : Nat) : ∀ ch ∈ pieceAt t c, sepChar ch = false := by
  unfold pieceAt
  rw [List.getD_eq_getElem?_getD]
  cases hq : (c.1 :: c.2)[t]? with
  | none => simp
  | some p => exact h p (List.mem_of_getElem? hq)

/-- What may follow a line of a cell. -/
def SepTail (s : Bytes) : Prop := s = [] ∨ ∃ b r, s = b :: r ∧ isSep b = true

theorem AtEnd.sep {e : Bytes} (h : AtEnd e) : SepTail e := by
  rcases h with h | ⟨r, h⟩
  · exact .inl h
  · exact .inr ⟨10, r, h, by decide⟩

theorem ts_sep (cs : List Cell) {e : Bytes} (h : SepTail e) : SepTail (ts cs ++ e) := by
  cases cs with
  | nil => exact h
  | cons c cs => exact .inr ⟨9, cellBytes c ++ (ts cs ++ e), by simp [ts], by decide⟩

theorem vs_sep (ps : List (List Char)) {e : Bytes} (h : SepTail e) : SepTail (vs ps ++ e) := by
  cases ps with
  | nil => exact h
  | cons p ps => exact .inr ⟨11, utf8 p ++ (vs ps ++ e), by simp [vs], by decide⟩

theorem mem_utf8_not_sep (t : List Char) (h : ∀ c ∈ t, sepChar c = false) : ∀ b ∈ utf8 t, isSep b = false := by
  intro b hb
  induction t with
  | nil => simp [utf8_nil] at hb
  | cons c t ih =>
    rw [utf8_cons, List.mem_append] at hb
    rcases hb with hb | hb
    · cases hq : isSep b with
      | false => rfl
      | true =>
        exfalso
        have hlt : b < 128 := by
          simp only [isSep, Bool.or_eq_true, beq_iff_eq] at hq
          omega
        obtain ⟨b', rest, e, hs⟩ := isSep_enc c (h c (by simp))
        obtain ⟨e', -⟩ := mem_enc_small c b hb hlt
        rw [e'] at e
        simp only [List.cons.injEq] at e
        rw [← e.1, hq] at hs
        exact absurd hs (by decide)
    · exact ih (fun c hc => h c (by simp [hc])) hb

theorem scan_skip (it : It) (t s : Bytes) (h : ∀ b ∈ t, isSep b = false) : scan it (t ++ s) = scan it s := by
  induction t with
  | nil => rfl
  | cons b t ih =>
    have hb := h b (by simp)
    simp only [isSep, Bool.or_eq_false_iff, beq_eq_false_iff_ne] at hb
    rw [List.cons_append, scan, if_neg hb.1.1.2, if_neg hb.1.2, if_neg (by simp [hb.1.1.1, hb.2]),
      ih fun b hb => h b (by simp [hb])]

/-- The rest of a cell after the part that was wanted. -/
theorem scan_rest (ps : List (List Char)) (hps : ∀ p ∈ ps, ∀ ch ∈ p, sepChar ch = false) (it : It) (s : Bytes)
    (h : ps = [] ∨ it.target ≤ it.line) (hm : it.line ≤ it.maxLine) :
    scan it (vs ps ++ s) =
      scan { it with line := it.line + ps.length, maxLine := max it.maxLine (it.line + ps.length) } s := by
  induction ps generalizing it with
  | nil =>
    have : max it.maxLine it.line = it.maxLine := by omega
    simp [vs, this]
  | cons p ps ih =>
    have ht : it.target ≤ it.line := by rcases h with h | h; · simp at h
                                        · exact h
    have e : vs (p :: ps) ++ s = 11 :: (utf8 p ++ (vs ps ++ s)) := by simp [vs]
    rw [e, scan]
    simp only [if_true]
    rw [if_neg (by omega), scan_skip _ _ _ (mem_utf8_not_sep p (hps p (by simp))),
      ih (fun q hq => hps q (by simp [hq])) _ (.inr (by simp; omega)) (by simp; omega)]
    congr 2
    · simp only [List.length_cons]; omega
    · simp only [List.length_cons]; omega

/-- A cell in which a line after the first is wanted. -/
theorem scan_cell (ps : List (List Char)) (hps : ∀ p ∈ ps, ∀ ch ∈ p, sepChar ch = false) (it : It) (s : Bytes)
    (hs : s = [] ∨ (∃ r, s = 10 :: r) ∨ ∃ r, s = 9 :: r) (hit : it.hit = false) (ht : it.line < it.target)
    (hm : it.line + ps.length ≤ it.maxLine) :
    scan it (vs ps ++ s) =
      .found { it with
        line := min it.target (it.line + ps.length)
        ptr := utf8 (ps.getD (it.target - it.line - 1) []) ++ (vs (ps.drop (it.target - it.line)) ++ s) } := by
  induction ps generalizing it with
  | nil =>
    have e1 : min it.target (it.line + 0) = it.line := by omega
    rcases hs with h | ⟨r, h⟩ | ⟨r, h⟩ <;> subst h <;> simp [vs, scan, hit, utf8_nil] <;> omega
  | cons p ps ih =>
    have e : vs (p :: ps) ++ s = 11 :: (utf8 p ++ (vs ps ++ s)) := by simp [vs]
    have em : max it.maxLine (it.line + 1) = it.maxLine := by simp at hm; omega
    rw [e, scan]
    simp only [if_true, em]
    by_cases hq : it.line + 1 = it.target
    · rw [if_pos hq]
      have e1 : it.target - it.line - 1 = 0 := by omega
      have e2 : it.target - it.line = 1 := by omega
      have e3 : min it.target (it.line + (p :: ps).length) = it.line + 1 := by simp; omega
      rw [e1, e2, e3]
      simp
    · rw [if_neg hq, scan_skip _ _ _ (mem_utf8_not_sep p (hps p (by simp))),
        ih (fun q hq => hps q (by simp [hq])) { it with line := it.line + 1 } hit (by simp; omega) (by simp at hm ⊢; omega)]
      have e1 : it.target - it.line - 1 = (it.target - (it.line + 1) - 1) + 1 := by omega
      have e2 : it.target - it.line = (it.target - (it.line + 1)) + 1 := by omega
      have e3 : it.line + (p :: ps).length = it.line + 1 + ps.length := by simp; omega
      rw [e1, e2, e3]
      simp

theorem stAt_setLength (row : Bytes) (M T c : Nat) (cell : Cell) (hc : cell.Ok) (tail : Bytes) (ht : SepTail tail) (l w : Nat)
    (h : Bool) :
    It.setLength { stAt row M T c cell tail with len := l, screenlen := w, hit := h } =
      some { stAt row M T c cell tail with hit := h } := by
  unfold It.setLength
  simp only [stAt]
  rw [updateLength_utf8 _ (pieceAt_ok cell hc T) _ (vs_sep _ ht)]
  rfl

/-- `next` within a line. -/
theorem next_cell (row : Bytes) (M T c : Nat) (cell cell' : Cell) (after : List Cell) (e : Bytes) (he : AtEnd e)
    (hc : cell.Ok) (hc' : cell'.Ok) (hl : min T cell.2.length ≤ M)
    (hM : T = 0 ∨ cell'.2.length ≤ max M cell.2.length) :
    next (stAt row M T c cell (ts (cell' :: after) ++ e)) =
      some (true, stAt row (max M cell.2.length) T (c + 1) cell' (ts after ++ e)) := by
  have h9 : ts (cell' :: after) ++ e = 9 :: (utf8 cell'.1 ++ (vs cell'.2 ++ (ts after ++ e))) := by
    simp [ts, cellBytes]
  have hsep : SepTail (ts after ++ e) := ts_sep after he.sep
  have hend : (ts after ++ e) = [] ∨ (∃ r, (ts after ++ e) = 10 :: r) ∨ ∃ r, (ts after ++ e) = 9 :: r := by
    cases after with
    | nil => rcases he with h | ⟨r, h⟩
             · exact .inl (by simp [ts, h])
             · exact .inr (.inl ⟨r, by simp [ts, h]⟩)
    | cons d after => exact .inr (.inr ⟨cellBytes d ++ (ts after ++ e), by simp [ts]⟩)
  have hp' : ∀ p ∈ cell'.2, ∀ ch ∈ p, sepChar ch = false := fun p hp => hc' p (by simp [hp])
  have hdrop : ∀ p ∈ cell.2.drop T, ∀ ch ∈ p, sepChar ch = false := fun p hp => hc p (by simp [List.mem_of_mem_drop hp])
  have em : max M (min T cell.2.length + (cell.2.drop T).length) = max M cell.2.length := by
    simp only [List.length_drop]; omega
  unfold next
  have hcol : ¬ ((stAt row M T c cell (ts (cell' :: after) ++ e)).col = -1) := by show ¬ ((c : Int) = -1); omega
  rw [if_neg hcol]
  have hd : (stAt row M T c cell (ts (cell' :: after) ++ e)).ptr.drop (stAt row M T c cell (ts (cell' :: after) ++ e)).len =
      vs (cell.2.drop T) ++ (ts (cell' :: after) ++ e) := by simp [stAt]
  rw [hd, scan_rest _ hdrop _ _ ?_ hl]
  · rw [h9]
    have hgoal : ∀ l : Nat, scan { stAt row M T c cell (9 :: (utf8 cell'.1 ++ (vs cell'.2 ++ (ts after ++ e)))) with
          line := l, maxLine := max M cell.2.length } (9 :: (utf8 cell'.1 ++ (vs cell'.2 ++ (ts after ++ e)))) =
        .found { stAt row (max M cell.2.length) T (c + 1) cell' (ts after ++ e) with
          hit := false, len := (utf8 (pieceAt T cell)).length, screenlen := textWidth (pieceAt T cell) } := by
      intro l
      rw [scan]
      simp only [show (9 : Nat) ≠ 11 by decide, if_false, if_true, stAt]
      by_cases hT : T = 0
      · subst hT
        simp [pieceAt]
      · refine (if_neg (show ¬ 0 = T by omega)).trans ?_
        rw [scan_skip _ _ _ (mem_utf8_not_sep _ (hc' _ (by simp))),
          scan_cell _ hp' _ _ hend rfl (by simp; omega) (by simp; omega)]
        have e1 : T - 0 - 1 = T - 1 := by omega
        have e2 : pieceAt T cell' = cell'.2.getD (T - 1) [] := by
          unfold pieceAt
          obtain ⟨k, hk⟩ : ∃ k, T = k + 1 := ⟨T - 1, by omega⟩
          subst hk; simp
        simp [e2]
    rw [show (stAt row M T c cell (9 :: (utf8 cell'.1 ++ (vs cell'.2 ++ (ts after ++ e))))).maxLine = M from rfl,
      show (stAt row M T c cell (9 :: (utf8 cell'.1 ++ (vs cell'.2 ++ (ts after ++ e))))).line = min T cell.2.length from rfl,
      em, hgoal]
    dsimp only
    rw [stAt_setLength _ _ _ _ _ hc' _ hsep]
    rfl
  · by_cases hT : cell.2.length ≤ T
    · left; simp [hT]
    · right; show T ≤ min T cell.2.length; omega

/-- `next` at the end of a line. -/
theorem next_end (row : Bytes) (M T c : Nat) (cell c0 : Cell) (cs : List Cell) (e : Bytes) (he : AtEnd e)
    (hrow : row = cellBytes c0 ++ (ts cs ++ e)) (hc : cell.Ok) (hc0 : c0.Ok) (hl : min T cell.2.length ≤ M)
    (hM : c0.2.length ≤ max M cell.2.length) :
    (max M cell.2.length < T + 1 → ∃ it, next (stAt row M T c cell e) = some (false, it) ∧ it.ptr = e) ∧
    (T + 1 ≤ max M cell.2.length →
      next (stAt row M T c cell e) = some (true, stAt row (max M cell.2.length) (T + 1) 0 c0 (ts cs ++ e))) := by
  have hend : (ts cs ++ e) = [] ∨ (∃ r, (ts cs ++ e) = 10 :: r) ∨ ∃ r, (ts cs ++ e) = 9 :: r := by
    cases cs with
    | nil => rcases he with h | ⟨r, h⟩
             · exact .inl (by simp [ts, h])
             · exact .inr (.inl ⟨r, by simp [ts, h]⟩)
    | cons d after => exact .inr (.inr ⟨cellBytes d ++ (ts after ++ e), by simp [ts]⟩)
  have hp' : ∀ p ∈ c0.2, ∀ ch ∈ p, sepChar ch = false := fun p hp => hc0 p (by simp [hp])
  have hdrop : ∀ p ∈ cell.2.drop T, ∀ ch ∈ p, sepChar ch = false := fun p hp => hc p (by simp [List.mem_of_mem_drop hp])
  have em : max M (min T cell.2.length + (cell.2.drop T).length) = max M cell.2.length := by
    simp only [List.length_drop]; omega
  have hscan : scan (stAt row M T c cell e) ((stAt row M T c cell e).ptr.drop (stAt row M T c cell e).len) =
      .rowEnd { stAt row M T c cell e with
        line := min T cell.2.length + (cell.2.drop T).length, maxLine := max M cell.2.length, ptr := e } := by
    have hd : (stAt row M T c cell e).ptr.drop (stAt row M T c cell e).len = vs (cell.2.drop T) ++ e := by simp [stAt]
    rw [hd, scan_rest _ hdrop _ _ ?_ hl]
    · rw [show (stAt row M T c cell e).maxLine = M from rfl, show (stAt row M T c cell e).line = min T cell.2.length from rfl, em]
      rcases he with h | ⟨r, h⟩ <;> subst h <;> simp [scan, stAt]
    · by_cases hT : cell.2.length ≤ T
      · left; simp [hT]
      · right; show T ≤ min T cell.2.length; omega
  have hcol : ¬ ((stAt row M T c cell e).col = -1) := by show ¬ ((c : Int) = -1); omega
  constructor
  · intro h
    unfold next
    rw [if_neg hcol, hscan]
    dsimp only
    rw [if_pos (show (stAt row M T c cell e).target + 1 > max M cell.2.length from h)]
    have hu : updateLength e = some (0, 0) := by
      have := updateLength_utf8 [] (by simp) e he.sep
      simpa [utf8_nil, textWidth] using this
    simp only [It.setLength, hu]
    exact ⟨_, rfl, rfl⟩
  · intro h
    unfold next
    rw [if_neg hcol, hscan]
    dsimp only
    rw [if_neg (show ¬ (stAt row M T c cell e).target + 1 > max M cell.2.length by show ¬ T + 1 > _; omega)]
    have e0 : (stAt row M T c cell e).rowstart = utf8 c0.1 ++ (vs c0.2 ++ (ts cs ++ e)) := by
      show row = _
      rw [hrow]; simp [cellBytes]
    rw [e0, scan_skip _ _ _ (mem_utf8_not_sep _ (hc0 _ (by simp))),
      scan_cell _ hp' _ _ hend rfl (by simp) (by simp; omega)]
    dsimp only
    have := stAt_setLength row (max M cell.2.length) (T + 1) 0 c0 hc0 (ts cs ++ e) (ts_sep cs he.sep)
      (utf8 (pieceAt T cell)).length (textWidth (pieceAt T cell)) false
    have e2 : ∀ x y : Nat, (⟨row, utf8 (c0.2.getD (x + 1 - 0 - 1) []) ++ (vs (c0.2.drop (x + 1 - 0)) ++ (ts cs ++ e)), 0, y,
        textWidth (pieceAt T cell), max M cell.2.length, min (x + 1) (0 + c0.2.length), x + 1, false⟩ : It) =
        { stAt row (max M cell.2.length) (x + 1) 0 c0 (ts cs ++ e) with len := y, screenlen := textWidth (pieceAt T cell), hit := false } := by
      intro x y
      simp [stAt, pieceAt]
    have e3 : utf8 c0.1 ++ (vs c0.2 ++ (ts cs ++ e)) = row := by rw [hrow]; simp [cellBytes]
    simp only [stAt] at this e2 ⊢
    rw [e3, e2, this]
    rfl

theorem next_first (c0 : Cell) (cs : List Cell) (e : Bytes) (he : AtEnd e) (hc0 : c0.Ok) :
    next (restartRow (cellBytes c0 ++ (ts cs ++ e))) =
      some (true, stAt (cellBytes c0 ++ (ts cs ++ e)) 0 0 0 c0 (ts cs ++ e)) := by
  unfold next
  rw [if_pos (by rfl)]
  have := stAt_setLength (cellBytes c0 ++ (ts cs ++ e)) 0 0 0 c0 hc0 (ts cs ++ e) (ts_sep cs he.sep) 0 0 true
  have e2 : { restartRow (cellBytes c0 ++ (ts cs ++ e)) with col := 0 } =
      { stAt (cellBytes c0 ++ (ts cs ++ e)) 0 0 0 c0 (ts cs ++ e) with len := 0, screenlen := 0, hit := true } := by
    simp [stAt, restartRow, pieceAt, cellBytes]
  rw [e2, this]
  rfl

/-! ### The parts -/

/-- The part in line `T` of a cell in column `c`; `eb`: the byte after the row. -/
def partOf (T c : Nat) (cell : Cell) (last : Bool) (eb : Nat) : Part :=
  { col := c, line := T, text := utf8 (pieceAt T cell), width := textWidth (pieceAt T cell),
    stop := if T < cell.2.length then 11 else if last then eb else 9 }

def lineParts (T eb : Nat) : Nat → Cell → List Cell → List Part
  | c, cell, [] => [partOf T c cell true eb]
  | c, cell, cell' :: after => partOf T c cell false eb :: lineParts T eb (c + 1) cell' after

/-- The greatest index of a line. -/
def maxLines (cs : List Cell) : Nat := (cs.map fun c => c.2.length).foldr max 0

def gridParts (eb : Nat) (c0 : Cell) (cs : List Cell) : List Part :=
  (List.range (maxLines (c0 :: cs) + 1)).flatMap fun T => lineParts T eb 0 c0 cs

theorem stAt_part (row : Bytes) (M T c : Nat) (cell : Cell) (after : List Cell) (e : Bytes) :
    (stAt row M T c cell (ts after ++ e)).part = partOf T c cell after.isEmpty (e.headD 0) := by
  simp only [It.part, stAt, partOf, List.take_left, List.drop_left, Part.mk.injEq, Int.toNat_natCast, true_and]
  by_cases h : T < cell.2.length
  · rw [if_pos h]
    have : vs (cell.2.drop T) = 11 :: (utf8 cell.2[T] ++ vs (cell.2.drop (T + 1))) := by
      rw [List.drop_eq_getElem_cons h]; simp only [vs, List.flatMap_cons, List.cons_append]
    rw [this]
    rfl
  · rw [if_neg h, List.drop_eq_nil_of_le (by omega)]
    cases after with
    | nil => simp [vs, ts]
    | cons d after => simp [vs, ts]

/-- The parts after the current one in a line, then those of the lines that follow. -/
theorem collect_line (row : Bytes) (c0 : Cell) (cs : List Cell) (e : Bytes) (he : AtEnd e)
    (hrow : row = cellBytes c0 ++ (ts cs ++ e)) (hok : ∀ c ∈ c0 :: cs, Cell.Ok c) (T : Nat)
    (after : List Cell) : ∀ (M c : Nat) (cell : Cell) (more : List Part) (fuel : Nat),
      cell.Ok → (∀ d ∈ after, Cell.Ok d) →
      (T = 0 ∨ maxLines (cell :: after) ≤ M) → min T cell.2.length ≤ M → c0.2.length ≤ max M (maxLines (cell :: after)) →
      (max M (maxLines (cell :: after)) < T + 1 → more = [] ∧ fuel = 0) →
      (T + 1 ≤ max M (maxLines (cell :: after)) →
        collect fuel (stAt row (max M (maxLines (cell :: after))) (T + 1) 0 c0 (ts cs ++ e)) = some (more.tail, e) ∧
        more = partOf (T + 1) 0 c0 cs.isEmpty (e.headD 0) :: more.tail) →
      collect (after.length + fuel + 1) (stAt row M T c cell (ts after ++ e)) =
        some ((lineParts T (e.headD 0) c cell after).tail ++ more, e) := by
  induction after with
  | nil =>
    intro M c cell more fuel hc _ hM hl hM0 hend hmore
    have hm : maxLines [cell] = cell.2.length := by simp [maxLines]
    rw [hm] at hM0 hend hmore
    obtain ⟨h1, h2⟩ := next_end row M T c cell c0 cs e he hrow hc (hok _ (by simp)) hl hM0
    simp only [List.length_nil, Nat.zero_add, ts, List.flatMap_nil, List.nil_append, lineParts, List.tail_cons]
    rw [collect]
    by_cases h : max M cell.2.length < T + 1
    · obtain ⟨it, hn, hp⟩ := h1 h
      obtain ⟨hmo, hfu⟩ := hend h
      simp [hn, hp, hmo]
    · obtain ⟨hcol, hmo⟩ := hmore (by omega)
      simp only [h2 (by omega), Option.bind_eq_bind, Option.bind_some, if_true, hcol]
      rw [stAt_part, ← hmo]
  | cons d after ih =>
    intro M c cell more fuel hc hafter hM hl hM0 hend hmore
    have hm : maxLines (cell :: d :: after) = max cell.2.length (maxLines (d :: after)) := by simp [maxLines]
    have hd : d.2.length ≤ maxLines (d :: after) := by simp [maxLines]; omega
    have em : max (max M cell.2.length) (maxLines (d :: after)) = max M (maxLines (cell :: d :: after)) := by rw [hm]; omega
    have hn := next_cell row M T c cell d after e he hc (hafter d (by simp)) hl (by rcases hM with h | h; · exact .inl h
                                                                                    · right; omega)
    have hrec := ih (max M cell.2.length) (c + 1) d more fuel (hafter d (by simp)) (fun x hx => hafter x (by simp [hx]))
      (by rcases hM with h | h
          · exact .inl h
          · right; omega)
      (by rcases hM with h | h
          · subst h; omega
          · omega) (by rw [em]; exact hM0) (by rw [em]; exact hend) (by rw [em]; exact hmore)
    rw [show (d :: after).length + fuel + 1 = (after.length + fuel + 1) + 1 by simp; omega, collect]
    simp only [hn, Option.bind_eq_bind, Option.bind_some, if_true, hrec]
    rw [stAt_part]
    cases after <;> simp [lineParts]

theorem lineParts_length (T eb c : Nat) (cell : Cell) (after : List Cell) :
    (lineParts T eb c cell after).length = after.length + 1 := by
  induction after generalizing c cell with
  | nil => simp [lineParts]
  | cons d after ih => simp [lineParts, ih]

theorem lineParts_cons (T eb c : Nat) (cell : Cell) (after : List Cell) :
    lineParts T eb c cell after = partOf T c cell after.isEmpty eb :: (lineParts T eb c cell after).tail := by
  cases after <;> simp [lineParts]

/-- Lines from `T` on, when `n` lines follow. -/
theorem collect_lines (row : Bytes) (c0 : Cell) (cs : List Cell) (e : Bytes) (he : AtEnd e)
    (hrow : row = cellBytes c0 ++ (ts cs ++ e)) (hok : ∀ c ∈ c0 :: cs, Cell.Ok c) (n : Nat) :
    ∀ T M, T + n = maxLines (c0 :: cs) → (T = 0 ∧ M = 0 ∨ M = maxLines (c0 :: cs)) →
      collect ((n + 1) * (cs.length + 1)) (stAt row M T 0 c0 (ts cs ++ e)) =
        some (((List.range' T (n + 1)).flatMap fun T => lineParts T (e.headD 0) 0 c0 cs).tail, e) := by
  induction n with
  | zero =>
    intro T M hT hM
    have h0 : c0.2.length ≤ maxLines (c0 :: cs) := by simp [maxLines]; omega
    have hmax : max M (maxLines (c0 :: cs)) = maxLines (c0 :: cs) := by rcases hM with ⟨-, h⟩ | h <;> omega
    have := collect_line row c0 cs e he hrow hok T cs M 0 c0 [] 0 (hok _ (by simp)) (fun d hd => hok d (by simp [hd]))
      (by rcases hM with ⟨h, -⟩ | h
          · exact .inl h
          · right; omega)
      (by rcases hM with ⟨h, -⟩ | h
          · subst h; omega
          · omega) (by omega) (fun _ => ⟨rfl, rfl⟩) (by intro h; omega)
    simp only [Nat.add_zero, List.append_nil, Nat.zero_add, Nat.one_mul] at this ⊢
    rw [this]
    simp [List.range']
  | succ n ih =>
    intro T M hT hM
    have h0 : c0.2.length ≤ maxLines (c0 :: cs) := by simp [maxLines]; omega
    have hmax : max M (maxLines (c0 :: cs)) = maxLines (c0 :: cs) := by rcases hM with ⟨-, h⟩ | h <;> omega
    have hrec := ih (T + 1) (maxLines (c0 :: cs)) (by omega) (.inr rfl)
    have := collect_line row c0 cs e he hrow hok T cs M 0 c0
      ((List.range' (T + 1) (n + 1)).flatMap fun T => lineParts T (e.headD 0) 0 c0 cs) ((n + 1) * (cs.length + 1))
      (hok _ (by simp)) (fun d hd => hok d (by simp [hd]))
      (by rcases hM with ⟨h, -⟩ | h
          · exact .inl h
          · right; omega)
      (by rcases hM with ⟨h, -⟩ | h
          · subst h; omega
          · omega) (by omega) (fun h => by omega)
      (fun _ => by
        rw [hmax]
        refine ⟨hrec, ?_⟩
        rw [List.range'_succ, List.flatMap_cons]
        conv => lhs; rw [lineParts_cons]
        rw [lineParts_cons (T + 1)]
        simp)
    rw [show (n + 1 + 1) * (cs.length + 1) = cs.length + (n + 1) * (cs.length + 1) + 1 by
      rw [Nat.add_mul (n + 1) 1]; omega, this]
    congr 2
    rw [List.range'_succ (n := n + 1), List.flatMap_cons]
    conv => rhs; rw [lineParts_cons]
    simp

theorem collect_mono (n m : Nat) (it : It) (r : List Part × Bytes) (h : collect n it = some r) (hm : n ≤ m) :
    collect m it = some r := by
  induction n generalizing m it r with
  | zero => simp [collect] at h
  | succ n ih =>
    cases m with
    | zero => omega
    | succ m =>
      rw [collect] at h ⊢
      cases hn : next it with
      | none => rw [hn] at h; simp at h
      | some q =>
        rw [hn] at h
        simp only [Option.bind_eq_bind, Option.bind_some] at h ⊢
        by_cases hq : q.1 = true
        · rw [if_pos hq] at h ⊢
          cases hc : collect n q.2 with
          | none => rw [hc] at h; simp at h
          | some s =>
            rw [hc] at h
            rw [ih m q.2 s hc (by omega)]
            exact h
        · rw [if_neg hq] at h ⊢
          exact h

theorem vs_length (ps : List (List Char)) : ps.length ≤ (vs ps).length := by
  induction ps with
  | nil => simp
  | cons p ps ih =>
    have : vs (p :: ps) = 11 :: (utf8 p ++ vs ps) := by simp [vs]
    rw [this]; simp; omega

theorem ts_length (cs : List Cell) : cs.length + maxLines cs ≤ (ts cs).length := by
  induction cs with
  | nil => simp [ts, maxLines]
  | cons c cs ih =>
    have e : ts (c :: cs) = 9 :: (cellBytes c ++ ts cs) := by simp [ts]
    have em : maxLines (c :: cs) = max c.2.length (maxLines cs) := by simp [maxLines]
    have := vs_length c.2
    rw [e, em]
    simp [cellBytes]
    omega

/-- The parts of a row. -/
theorem rowParts_grid (c0 : Cell) (cs : List Cell) (e : Bytes) (he : AtEnd e) (hok : ∀ c ∈ c0 :: cs, Cell.Ok c) :
    rowParts (cellBytes c0 ++ (ts cs ++ e)) = some (gridParts (e.headD 0) c0 cs, e) := by
  unfold rowParts
  rw [collect, next_first c0 cs e he (hok _ (by simp))]
  have h := collect_lines _ c0 cs e he rfl hok (maxLines (c0 :: cs)) 0 0 (by simp) (.inl ⟨rfl, rfl⟩)
  have hv := vs_length c0.2
  have ht := ts_length cs
  have em : maxLines (c0 :: cs) = max c0.2.length (maxLines cs) := by simp [maxLines]
  have hl : (cellBytes c0 ++ (ts cs ++ e)).length ≥ maxLines (c0 :: cs) ∧ (cellBytes c0 ++ (ts cs ++ e)).length ≥ cs.length := by
    simp [cellBytes]; omega
  have h' := collect_mono _ ((((cellBytes c0 ++ (ts cs ++ e)).length + 1) * ((cellBytes c0 ++ (ts cs ++ e)).length + 1))) _ _ h
    (Nat.mul_le_mul (by omega) (by omega))
  simp only [Option.bind_eq_bind, Option.bind_some, if_true, h', stAt_part]
  congr 2
  unfold gridParts
  rw [List.range_eq_range', List.range'_succ, List.flatMap_cons]
  conv => rhs; rw [lineParts_cons]
  rw [lineParts_cons 0]
  simp

end Verif.Usage
