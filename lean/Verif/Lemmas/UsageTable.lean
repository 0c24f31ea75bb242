import Verif.Lemmas.UsagePrint
/-!
The rows and tables of `printUsage`.
-/
namespace Verif.Usage
open Verif.Spec.Usage

/-! ### `split` -/

theorem split_ne (sep : Char) (o : List Char) : split sep o ≠ [] := by
  cases o with
  | nil => simp [split]
  | cons c o => simp only [split]; split <;> simp

theorem split_cons (sep : Char) (o : List Char) : (split sep o).headD [] :: (split sep o).tail = split sep o := by
  have := split_ne sep o
  cases h : split sep o with
  | nil => exact absurd h this
  | cons p ps => rfl

theorem mem_split (sep : Char) (o p : List Char) (h : p ∈ split sep o) (c : Char) (hc : c ∈ p) : c ∈ o ∧ c ≠ sep := by
  induction o generalizing p with
  | nil => simp [split] at h; subst h; simp at hc
  | cons d o ih =>
    simp only [split] at h
    split at h
    · rename_i e
      rcases List.mem_cons.1 h with h | h
      · subst h; simp at hc
      · obtain ⟨h1, h2⟩ := ih p h hc
        exact ⟨by simp [h1], h2⟩
    · rename_i e
      rcases List.mem_cons.1 h with h | h
      · subst h
        rcases List.mem_cons.1 hc with hc | hc
        · subst hc; exact ⟨by simp, e⟩
        · obtain ⟨h1, h2⟩ := ih _ (by rw [← split_cons sep o]; simp) hc
          exact ⟨by simp [h1], h2⟩
      · obtain ⟨h1, h2⟩ := ih p (List.mem_of_mem_tail h) hc
        exact ⟨by simp [h1], h2⟩

theorem mem_of_split (sep : Char) (o : List Char) (c : Char) (hc : c ∈ o) (hs : c ≠ sep) : ∃ p ∈ split sep o, c ∈ p := by
  induction o with
  | nil => simp at hc
  | cons d o ih =>
    simp only [split]
    split
    · rename_i e
      rcases List.mem_cons.1 hc with h | h
      · exact absurd (h.trans e) hs
      · obtain ⟨p, h1, h2⟩ := ih h
        exact ⟨p, by simp [h1], h2⟩
    · rcases List.mem_cons.1 hc with h | h
      · subst h
        exact ⟨_, List.mem_cons_self, by simp⟩
      · obtain ⟨p, h1, h2⟩ := ih h
        rw [← split_cons sep o] at h1
        rcases List.mem_cons.1 h1 with h1 | h1
        · subst h1
          exact ⟨_, List.mem_cons_self, List.mem_cons_of_mem _ h2⟩
        · exact ⟨p, by simp [h1], h2⟩

theorem split_tail (sep : Char) (o : List Char) : (split sep o).tail ≠ [] ↔ sep ∈ o := by
  induction o with
  | nil => simp [split]
  | cons d o ih =>
    simp only [split]
    split
    · rename_i e
      simp [split_ne, e]
    · rename_i e
      simp only [List.tail_cons, ih, List.mem_cons]
      constructor
      · exact .inr
      · rintro (h | h)
        · exact absurd h.symm e
        · exact h

theorem split_utf8 (sep : Char) (b : Nat) (hb : enc sep = [b]) (o : List Char) :
    utf8 o = utf8 ((split sep o).headD []) ++ (split sep o).tail.flatMap fun p => b :: utf8 p := by
  induction o with
  | nil => simp [split]
  | cons d o ih =>
    simp only [split]
    split
    · rename_i e
      subst e
      rw [utf8_cons, hb, List.headD_cons, utf8_nil, List.tail_cons, ← split_cons d o]
      simp only [List.flatMap_cons, List.nil_append, List.cons_append]
      rw [← ih]
    · rw [utf8_cons, List.headD_cons, utf8_cons, List.append_assoc, List.tail_cons, ← ih]

/-! ### The cells of a row -/

def toCell (l : List (List Char)) : Cell := (l.headD [], l.tail)

/-- The characters of a row. -/
def RowOk (row : List Char) : Prop := ∀ c ∈ row, c.toNat ≠ 0 ∧ c ≠ '\n'

def cell0 (row : List Char) : Cell := toCell ((cells row).headD [])
def cellsT (row : List Char) : List Cell := (cells row).tail.map toCell

theorem cells_ne (row : List Char) : cells row ≠ [] := by simp [cells, split_ne]

theorem cells_eq (row : List Char) : cell0 row :: cellsT row = (cells row).map toCell := by
  unfold cell0 cellsT
  have := cells_ne row
  cases h : cells row with
  | nil => exact absurd h this
  | cons a l => simp

theorem cellBytes_toCell (t : List Char) : cellBytes (toCell (split (Char.ofNat 11) t)) = utf8 t := by
  unfold cellBytes toCell vs
  exact (split_utf8 (Char.ofNat 11) 11 (by rw [enc_small _ (by decide)]; rfl) t).symm

theorem row_bytes (row : List Char) : utf8 row = cellBytes (cell0 row) ++ ts (cellsT row) := by
  unfold cell0 cellsT cells
  rw [split_utf8 '\t' 9 (by rw [enc_small _ (by decide)]; rfl) row, ← split_cons '\t' row]
  simp only [List.map_cons, List.headD_cons, List.tail_cons, cellBytes_toCell, ts, List.map_map]
  congr 1
  induction (split '\t' row).tail with
  | nil => rfl
  | cons p ps ih =>
    simp only [List.map_cons, List.flatMap_cons, ih, Function.comp_apply, cellBytes_toCell]

theorem toCell_eq (l : List (List Char)) (h : l ≠ []) : (toCell l).1 :: (toCell l).2 = l := by
  cases l with
  | nil => exact absurd rfl h
  | cons a l => rfl

theorem row_ok (row : List Char) (h : RowOk row) : ∀ c ∈ cell0 row :: cellsT row, Cell.Ok c := by
  rw [cells_eq]
  intro c hc
  obtain ⟨l, hl, rfl⟩ := List.mem_map.1 hc
  obtain ⟨t, ht, rfl⟩ := List.mem_map.1 hl
  intro p hp ch hch
  rw [toCell_eq _ (split_ne _ _)] at hp
  obtain ⟨h1, h2⟩ := mem_split _ _ _ hp ch hch
  obtain ⟨h3, h4⟩ := mem_split _ _ _ ht ch h1
  obtain ⟨h5, h6⟩ := h ch h3
  cases hq : sepChar ch with
  | false => rfl
  | true =>
    exfalso
    simp only [sepChar, Bool.or_eq_true, beq_iff_eq] at hq
    rcases hq with ((hq | hq) | hq) | hq
    all_goals first
      | exact h4 hq
      | exact h2 hq
      | exact h6 hq
      | exact h5 (by rw [hq]; rfl)

/-! ### Parts and items -/

def linePairs (T eb : Nat) (tb : Bool) : Nat → Cell → List Cell → List (Part × Item)
  | c, cell, [] => [(partOf T c cell true eb, ⟨c, T, pieceAt T cell, tb⟩)]
  | c, cell, cell' :: after => (partOf T c cell false eb, ⟨c, T, pieceAt T cell, tb⟩) :: linePairs T eb tb (c + 1) cell' after

theorem linePairs_fst (T eb : Nat) (tb : Bool) (c : Nat) (cell : Cell) (after : List Cell) :
    (linePairs T eb tb c cell after).map Prod.fst = lineParts T eb c cell after := by
  induction after generalizing c cell with
  | nil => rfl
  | cons a after ih => simp only [linePairs, List.map_cons, lineParts, ih]

theorem linePairs_snd (T eb : Nat) (tb : Bool) (c : Nat) (cell : Cell) (after : List Cell) :
    (linePairs T eb tb c cell after).map Prod.snd = (cell :: after).mapIdx fun j x => ⟨j + c, T, pieceAt T x, tb⟩ := by
  induction after generalizing c cell with
  | nil => simp [linePairs]
  | cons a after ih =>
    rw [linePairs, List.map_cons, ih]
    apply List.ext_getElem
    · simp
    · intro n h1 h2
      cases n with
      | zero => simp
      | succ n =>
        simp only [List.getElem_cons_succ, List.getElem_mapIdx, Item.mk.injEq, and_true]
        omega

theorem linePairs_run (T eb : Nat) (tb : Bool) (heb : eb = 0 ∨ eb = 10) (c : Nat) (cell : Cell) (after : List Cell)
    (hok : ∀ x ∈ cell :: after, Cell.Ok x)
    (h0 : tb = true ↔ c > 0 ∨ T > 0 ∨ after ≠ [] ∨ cell.2 ≠ []) : Run c (linePairs T eb tb c cell after) := by
  have hcorr : ∀ (last : Bool), (last = true ↔ after = []) → Corr (partOf T c cell last eb) ⟨c, T, pieceAt T cell, tb⟩ ∧
      (after ≠ [] → (partOf T c cell last eb).inTable = true) := by
    intro last hlast
    have hin : (partOf T c cell last eb).inTable = true ↔ c > 0 ∨ T > 0 ∨ after ≠ [] ∨ cell.2 ≠ [] := by
      unfold Part.inTable partOf
      simp only [Bool.or_eq_true, decide_eq_true_eq, beq_iff_eq]
      by_cases hT : T > 0
      · simp [hT]
      · by_cases hc : c > 0
        · simp [hc]
        · have hT0 : T = 0 := by omega
          subst hT0
          by_cases hcell : cell.2 = []
          · rw [if_neg (by simp [hcell])]
            by_cases ha : after = []
            · rw [if_pos (hlast.2 ha)]
              simp only [hc, hcell, ha, ne_eq, not_true_eq_false, or_false, Nat.lt_irrefl, false_or]
              simp only [gt_iff_lt, Nat.lt_irrefl, false_or, iff_false]
              omega
            · rw [if_neg (fun h => ha (hlast.1 h))]
              simp [ha]
          · rw [if_pos (List.length_pos_iff.2 hcell)]
            simp [hcell]
    refine ⟨⟨rfl, rfl, rfl, ?_, ?_⟩, ?_⟩
    · rw [Bool.eq_iff_iff, hin]; exact h0.symm
    · intro hm
      have := pieceAt_ok cell (hok cell (by simp)) T _ hm
      exact absurd this (by decide)
    · intro ha
      rw [hin]
      exact .inr (.inr (.inl ha))
  induction after generalizing c cell with
  | nil =>
    obtain ⟨h1, h2⟩ := hcorr true (by simp)
    exact .cons rfl h1 (by simp) (.nil _)
  | cons a after ih =>
    obtain ⟨h1, h2⟩ := hcorr false (by simp)
    have h3 : ∀ x ∈ a :: after, Cell.Ok x := fun x hx => hok x (List.mem_cons_of_mem _ hx)
    have ht : tb = true := h0.2 (.inr (.inr (.inl (by simp))))
    refine .cons rfl h1 (fun _ => h2 (by simp)) (ih (c + 1) a h3 (by simp [ht]) ?_)
    intro last hlast
    refine ⟨⟨rfl, rfl, rfl, ?_, ?_⟩, ?_⟩
    · simp [Part.inTable, partOf, ht]
    · intro hm
      have := pieceAt_ok a (h3 a (by simp)) T _ hm
      exact absurd this (by decide)
    · intro _
      simp [Part.inTable, partOf]

theorem run_corr {c : Nat} {L : List (Part × Item)} (h : Run c L) : ∀ x ∈ L, Corr x.1 x.2 := by
  induction h with
  | nil => simp
  | cons h1 h2 h3 h4 ih =>
    intro x hx
    rcases List.mem_cons.1 hx with h | h
    · subst h; exact h2
    · exact ih x h

/-- Whether the row has separators. -/
def tableRow (row : List Char) : Bool := '\t' ∈ row ∨ Char.ofNat 11 ∈ row

theorem tableRow_iff (row : List Char) : tableRow row = true ↔ cellsT row ≠ [] ∨ ∃ c ∈ cell0 row :: cellsT row, c.2 ≠ [] := by
  unfold tableRow
  rw [decide_eq_true_eq, cells_eq]
  have h1 : cellsT row ≠ [] ↔ '\t' ∈ row := by
    rw [← split_tail]
    unfold cellsT cells
    rw [← List.map_tail, ne_eq, List.map_eq_nil_iff, List.map_eq_nil_iff]
  have h2 : (∃ c ∈ (cells row).map toCell, c.2 ≠ []) ↔ Char.ofNat 11 ∈ row := by
    constructor
    · rintro ⟨c, hc, hne⟩
      obtain ⟨l, hl, rfl⟩ := List.mem_map.1 hc
      obtain ⟨t, ht, rfl⟩ := List.mem_map.1 hl
      have := (split_tail (Char.ofNat 11) t).1 hne
      exact (mem_split _ _ _ ht _ this).1
    · intro h
      obtain ⟨t, ht, hm⟩ := mem_of_split '\t' row (Char.ofNat 11) h (by decide)
      exact ⟨toCell (split (Char.ofNat 11) t), List.mem_map.2 ⟨_, List.mem_map.2 ⟨t, ht, rfl⟩, rfl⟩, (split_tail _ t).2 hm⟩
  rw [h1, h2]

/-- The parts of a row with the items they stand for, line by line. -/
def rowPairs (eb : Nat) (row : List Char) : List (List (Part × Item)) :=
  (List.range (maxLines (cell0 row :: cellsT row) + 1)).map fun T => linePairs T eb (tableRow row) 0 (cell0 row) (cellsT row)

theorem flatten_map_map {α β γ : Type} (f : α → List β) (g : β → γ) (l : List α) :
    (l.map f).flatten.map g = l.flatMap fun a => (f a).map g := by
  induction l with
  | nil => rfl
  | cons a l ih => simp [ih]

theorem rowPairs_fst (eb : Nat) (row : List Char) :
    (rowPairs eb row).flatten.map Prod.fst = gridParts eb (cell0 row) (cellsT row) := by
  unfold rowPairs gridParts
  rw [flatten_map_map]
  simp only [linePairs_fst]

theorem foldr_max_succ (l : List (List (List Char))) (h : l ≠ []) (hne : ∀ x ∈ l, x ≠ []) :
    (l.map List.length).foldr max 0 = (l.map fun c => (toCell c).2.length).foldr max 0 + 1 := by
  induction l with
  | nil => exact absurd rfl h
  | cons a l ih =>
    have ha : a.length = (toCell a).2.length + 1 := by
      have := hne a (by simp)
      cases a with
      | nil => exact absurd rfl this
      | cons x a => simp [toCell]
    cases l with
    | nil => simp [ha]
    | cons b l =>
      have := ih (by simp) (fun x hx => hne x (List.mem_cons_of_mem _ hx))
      rw [List.map_cons, List.foldr_cons, this, ha, List.map_cons (l := b :: l), List.foldr_cons]
      omega

theorem height_eq (row : List Char) : height row = maxLines (cell0 row :: cellsT row) + 1 := by
  unfold height maxLines
  rw [cells_eq, List.map_map]
  refine foldr_max_succ _ (cells_ne row) ?_
  intro x hx
  obtain ⟨t, -, rfl⟩ := List.mem_map.1 hx
  exact split_ne _ _

theorem rowPairs_snd (eb : Nat) (row : List Char) : (rowPairs eb row).flatten.map Prod.snd = grid row := by
  unfold rowPairs grid
  rw [flatten_map_map, ← height_eq]
  congr 1
  funext T
  rw [linePairs_snd, cells_eq]
  apply List.ext_getElem
  · simp
  · intro n h1 h2
    simp only [List.getElem_mapIdx, List.getElem_map, Nat.add_zero, Item.mk.injEq, true_and]
    refine ⟨?_, rfl⟩
    unfold pieceAt
    rw [toCell_eq]
    have : (cells row)[n]'(by simpa using h2) ∈ cells row := List.getElem_mem _
    obtain ⟨t, -, e⟩ := List.mem_map.1 this
    rw [← e]
    exact split_ne _ _

theorem maxLines_pos {cs : List Cell} (h : 0 < maxLines cs) : ∃ c ∈ cs, c.2 ≠ [] := by
  induction cs with
  | nil => simp [maxLines] at h
  | cons c cs ih =>
    by_cases hc : c.2 = []
    · obtain ⟨d, hd, hd'⟩ := ih (by simp [maxLines, hc] at h ⊢; exact h)
      exact ⟨d, by simp [hd], hd'⟩
    · exact ⟨c, by simp, hc⟩

theorem rowPairs_run (eb : Nat) (heb : eb = 0 ∨ eb = 10) (row : List Char) (h : RowOk row) : ∀ L ∈ rowPairs eb row, Run 0 L ∧ L ≠ [] := by
  intro L hL
  obtain ⟨T, hT, rfl⟩ := List.mem_map.1 hL
  rw [List.mem_range] at hT
  refine ⟨linePairs_run T eb _ heb 0 _ _ (row_ok row h) ?_, ?_⟩
  · rw [tableRow_iff]
    constructor
    · rintro (h1 | ⟨c, hc, hne⟩)
      · exact .inr (.inr (.inl h1))
      · rcases List.mem_cons.1 hc with hc | hc
        · subst hc; exact .inr (.inr (.inr hne))
        · exact .inr (.inr (.inl (List.ne_nil_of_mem hc)))
    · rintro (h1 | h1 | h1 | h1)
      · omega
      · exact .inr (maxLines_pos (by omega))
      · exact .inl h1
      · exact .inr ⟨cell0 row, by simp, h1⟩
  · cases cellsT row <;> simp [linePairs]

theorem rowPairs_corr (eb : Nat) (heb : eb = 0 ∨ eb = 10) (row : List Char) (h : RowOk row) :
    ∀ x ∈ (rowPairs eb row).flatten, Corr x.1 x.2 := by
  intro x hx
  obtain ⟨L, hL, hx⟩ := List.mem_flatten.1 hx
  exact run_corr (rowPairs_run eb heb row h L hL).1 x hx

/-- The parts of a row. -/
theorem rowParts_row (row : List Char) (h : RowOk row) (e : Bytes) (he : AtEnd e) :
    rowParts (utf8 row ++ e) = some ((rowPairs (e.headD 0) row).flatten.map Prod.fst, e) := by
  rw [rowPairs_fst, row_bytes, List.append_assoc]
  exact rowParts_grid _ _ e he (row_ok row h)

end Verif.Usage
