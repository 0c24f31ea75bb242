import Verif.Lemmas.UsageRow
/-!
The widths of the columns of a table of `printUsage`.
-/
namespace Verif.Usage
open Verif.Spec.Usage

/-- What `measure` has found out of the parts seen. -/
structure Measured (thr : Nat) (parts : List Part) (m : Columns) : Prop where
  len : m.widths.length = 8
  last : m.last < 8
  le : ∀ p ∈ parts, p.col < 8 → p.col ≤ m.last
  ex : m.last = 0 ∨ ∃ p ∈ parts, p.col = m.last
  counted : ∀ p ∈ parts, p.col < 8 → p.width < thr → p.inTable = true → p.width ≤ m.widths.getD p.col 0
  from_ : ∀ j, m.widths.getD j 0 = 0 ∨ ∃ p ∈ parts, p.col = j ∧ p.inTable = true ∧ p.width = m.widths.getD j 0 ∧ p.width < thr

theorem getD_set (l : List Nat) (i j v : Nat) (hi : i < l.length) : (l.set i v).getD j 0 = if j = i then v else l.getD j 0 := by
  rw [List.getD_eq_getElem?_getD, List.getElem?_set]
  by_cases h : i = j
  · subst h; simp [hi]
  · simp [h, Ne.symm h]

theorem measurePart_measured (thr : Nat) (parts : List Part) (m : Columns) (p : Part) (h : Measured thr parts m) :
    Measured thr (parts ++ [p]) (measurePart thr m p) := by
  unfold measurePart
  by_cases h1 : p.col < 8
  · rw [if_pos h1]
    dsimp only
    have hle : ∀ q ∈ parts ++ [p], q.col < 8 → q.col ≤ max m.last p.col := by
      intro q hq hq8
      rcases List.mem_append.1 hq with hq | hq
      · have := h.le q hq hq8; omega
      · simp at hq; subst hq; omega
    have hex : max m.last p.col = 0 ∨ ∃ q ∈ parts ++ [p], q.col = max m.last p.col := by
      by_cases hm : m.last ≤ p.col
      · right; exact ⟨p, by simp, by omega⟩
      · rcases h.ex with h' | ⟨q, hq, h'⟩
        · omega
        · right; exact ⟨q, by simp [hq], by omega⟩
    have hlast := h.last
    by_cases h2 : p.width < thr ∧ p.inTable = true
    · rw [if_pos h2]
      refine ⟨by simp [h.len], by simp; omega, hle, hex, ?_, ?_⟩
      · intro q hq hq8 hqt hqi
        show q.width ≤ (m.widths.set p.col (max (m.widths.getD p.col 0) p.width)).getD q.col 0
        rw [getD_set _ _ _ _ (by rw [h.len]; exact h1)]
        rcases List.mem_append.1 hq with hq | hq
        · have := h.counted q hq hq8 hqt hqi
          split
          · rename_i e; rw [e] at this; omega
          · exact this
        · simp at hq; subst hq
          rw [if_pos rfl]; omega
      · intro j
        show (m.widths.set p.col (max (m.widths.getD p.col 0) p.width)).getD j 0 = 0 ∨ ∃ q ∈ parts ++ [p], q.col = j ∧ q.inTable = true ∧
          q.width = (m.widths.set p.col (max (m.widths.getD p.col 0) p.width)).getD j 0 ∧ q.width < thr
        rw [getD_set _ _ _ _ (by rw [h.len]; exact h1)]
        by_cases hj : j = p.col
        · subst hj
          rw [if_pos rfl]
          by_cases hw : m.widths.getD p.col 0 ≤ p.width
          · right
            exact ⟨p, by simp, rfl, h2.2, by omega, h2.1⟩
          · rcases h.from_ p.col with h' | ⟨q, hq, h3, h4, h5, h6⟩
            · omega
            · right
              exact ⟨q, by simp [hq], h3, h4, by omega, h6⟩
        · rw [if_neg hj]
          rcases h.from_ j with h' | ⟨q, hq, h3, h4, h5, h6⟩
          · exact .inl h'
          · right
            exact ⟨q, by simp [hq], h3, h4, h5, h6⟩
    · rw [if_neg h2]
      refine ⟨h.len, by simp; omega, hle, hex, ?_, ?_⟩
      · intro q hq hq8 hqt hqi
        rcases List.mem_append.1 hq with hq | hq
        · exact h.counted q hq hq8 hqt hqi
        · simp at hq; subst hq
          exact absurd ⟨hqt, hqi⟩ h2
      · intro j
        rcases h.from_ j with h' | ⟨q, hq, h3, h4, h5, h6⟩
        · exact .inl h'
        · exact .inr ⟨q, by simp [hq], h3, h4, h5, h6⟩
  · rw [if_neg h1]
    refine ⟨h.len, h.last, ?_, ?_, ?_, ?_⟩
    · intro q hq hq8
      rcases List.mem_append.1 hq with hq | hq
      · exact h.le q hq hq8
      · simp at hq; subst hq; exact absurd hq8 h1
    · rcases h.ex with h' | ⟨q, hq, h'⟩
      · exact .inl h'
      · exact .inr ⟨q, by simp [hq], h'⟩
    · intro q hq hq8 hqt hqi
      rcases List.mem_append.1 hq with hq | hq
      · exact h.counted q hq hq8 hqt hqi
      · simp at hq; subst hq; exact absurd hq8 h1
    · intro j
      rcases h.from_ j with h' | ⟨q, hq, h3, h4, h5, h6⟩
      · exact .inl h'
      · exact .inr ⟨q, by simp [hq], h3, h4, h5, h6⟩

theorem measure_measured (thr : Nat) (parts : List Part) : Measured thr parts (measure thr parts) := by
  have h0 : Measured thr [] { last := 0, widths := List.replicate 8 0 } := by
    refine ⟨by simp, by simp, by simp, .inl rfl, by simp, ?_⟩
    intro j
    left
    show (List.replicate 8 0).getD j 0 = 0
    rw [List.getD_eq_getElem?_getD, List.getElem?_replicate]
    split <;> rfl
  have hgen : ∀ (rest done : List Part) (m : Columns), Measured thr done m →
      Measured thr (done ++ rest) (rest.foldl (measurePart thr) m) := by
    intro rest
    induction rest with
    | nil => intro done m h; simpa using h
    | cons p rest ih =>
      intro done m h
      have := ih (done ++ [p]) _ (measurePart_measured thr done m p h)
      simpa using this
  simpa [measure] using hgen parts [] _ h0

/-! ### The loop -/

theorem foldl_max_le (l : List Nat) (a b : Nat) (ha : a ≤ b) (h : ∀ x ∈ l, x ≤ b) : l.foldl max a ≤ b := by
  induction l generalizing a with
  | nil => simpa
  | cons x l ih => exact ih _ (by have := h x (by simp); omega) (fun y hy => h y (by simp [hy]))

theorem le_foldl_max (l : List Nat) (a : Nat) : a ≤ l.foldl max a ∧ ∀ x ∈ l, x ≤ l.foldl max a := by
  induction l generalizing a with
  | nil => simp
  | cons x l ih =>
    obtain ⟨h1, h2⟩ := ih (max a x)
    refine ⟨by simp only [List.foldl_cons]; omega, ?_⟩
    intro y hy
    simp only [List.foldl_cons]
    rcases List.mem_cons.1 hy with h | h
    · subst h; omega
    · exact h2 y h

theorem sum_pos_ex (l : List Nat) (h : 0 < l.sum) : ∃ x ∈ l, 0 < x := by
  induction l with
  | nil => simp at h
  | cons x l ih =>
    by_cases hx : 0 < x
    · exact ⟨x, by simp, hx⟩
    · obtain ⟨y, hy, hy'⟩ := ih (by simp at h; omega)
      exact ⟨y, by simp [hy], hy'⟩

theorem mem_widths (m : Columns) (x : Nat) (h : x ∈ m.widths.take m.last) : ∃ j < m.last, m.widths.getD j 0 = x := by
  obtain ⟨j, hj, e⟩ := List.mem_take_iff_getElem.1 h
  refine ⟨j, by omega, ?_⟩
  rw [List.getD_eq_getElem?_getD, List.getElem?_eq_getElem (by omega)]
  simpa using e

/-- All widths are below the threshold, or zero. -/
theorem widths_lt {thr : Nat} {parts : List Part} {m : Columns} (h : Measured thr parts m) (j : Nat) :
    m.widths.getD j 0 = 0 ∨ m.widths.getD j 0 < thr := by
  rcases h.from_ j with h' | ⟨q, -, -, -, h5, h6⟩
  · exact .inl h'
  · exact .inr (by omega)

/-- The loop ends, and the columns before the last fit. -/
theorem columnsLoop_some (width : Nat) (parts : List Part) (fuel thr : Nat) (h : thr < fuel) :
    ∃ m thr', columnsLoop width parts fuel thr = some m ∧ Measured thr' parts m ∧ m.left ≤ width ∧ thr' ≤ thr := by
  induction fuel generalizing thr with
  | zero => omega
  | succ fuel ih =>
    have hm := measure_measured thr parts
    rw [columnsLoop]
    by_cases hl : (measure thr parts).left > width
    · rw [if_pos hl]
      have hpos : 0 < ((measure thr parts).widths.take (measure thr parts).last).sum := by
        have : (measure thr parts).left = ((measure thr parts).widths.take (measure thr parts).last).sum := rfl
        omega
      obtain ⟨x, hx, hx0⟩ := sum_pos_ex _ hpos
      have hthr : 0 < thr := by
        obtain ⟨j, -, e⟩ := mem_widths _ _ hx
        rcases widths_lt hm j with h' | h' <;> omega
      have hlt : (measure thr parts).widest < thr := by
        have : (measure thr parts).widest ≤ thr - 1 := by
          apply foldl_max_le _ _ _ (by omega)
          intro y hy
          obtain ⟨j, -, e⟩ := mem_widths _ _ hy
          rcases widths_lt hm j with h' | h' <;> omega
        omega
      obtain ⟨m, thr', h1, h2, h3, h4⟩ := ih (measure thr parts).widest (by omega)
      exact ⟨m, thr', h1, h2, h3, by omega⟩
    · rw [if_neg hl]
      exact ⟨_, thr, rfl, hm, by omega, Nat.le_refl _⟩

theorem columns_some (width : Nat) (parts : List Part) :
    ∃ m thr, columns width parts = some m ∧ Measured thr parts m ∧ m.left ≤ width := by
  obtain ⟨m, thr, h1, h2, h3, -⟩ := columnsLoop_some width parts 10001 10000 (by omega)
  exact ⟨m, thr, h1, h2, h3⟩

/-- Widths that fit are not ignored. -/
theorem columns_first (width : Nat) (parts : List Part) (h : (measure 10000 parts).left ≤ width) :
    columns width parts = some (measure 10000 parts) := by
  unfold columns
  rw [columnsLoop, if_neg (by omega)]

theorem tabstop_zero (w : List Nat) : tabstop w 0 = 0 := by simp [tabstop]

theorem tabstop_succ (w : List Nat) (c : Nat) : tabstop w (c + 1) = tabstop w c + w.getD c 0 := by
  unfold tabstop
  rw [List.take_add_one, List.sum_append, List.getD_eq_getElem?_getD]
  cases w[c]? <;> simp

theorem tabstop_mono (w : List Nat) (c d : Nat) (h : c ≤ d) : tabstop w c ≤ tabstop w d := by
  induction d with
  | zero => rw [show c = 0 by omega]; exact Nat.le_refl _
  | succ d ih =>
    by_cases hc : c = d + 1
    · subst hc; exact Nat.le_refl _
    · have := ih (by omega); rw [tabstop_succ]; omega

/-- A part that the widths do not count is wider than every column. -/
theorem overlong {thr : Nat} {parts : List Part} {m : Columns} (h : Measured thr parts m) (p : Part) (hp : p ∈ parts)
    (h8 : p.col < 8) (ht : p.inTable = true) : p.width ≤ m.widths.getD p.col 0 ∨ ∀ j, m.widths.getD j 0 < p.width := by
  by_cases hw : p.width < thr
  · exact .inl (h.counted p hp h8 hw ht)
  · by_cases h0 : p.width = 0
    · left; omega
    · right
      intro j
      rcases widths_lt h j with h' | h' <;> omega

theorem tabstop_le (a b : List Nat) (k : Nat) (h : ∀ j < k, a.getD j 0 ≤ b.getD j 0) : tabstop a k ≤ tabstop b k := by
  induction k with
  | zero => simp [tabstop_zero]
  | succ k ih =>
    have := ih fun j hj => h j (by omega)
    have := h k (by omega)
    rw [tabstop_succ, tabstop_succ]
    omega

theorem measured_last {thr thr' : Nat} {parts : List Part} {m m' : Columns} (h : Measured thr parts m) (h' : Measured thr' parts m') :
    m.last ≤ m'.last := by
  have := h.last
  rcases h.ex with h1 | ⟨p, hp, h1⟩
  · omega
  · have := h'.le p hp (by omega)
    omega

/-- If there is room for the widest cells before the last column, all of them fit. -/
theorem columns_natural (width : Nat) (parts : List Part) (m : Columns) (h : columns width parts = some m) (u : List Nat)
    (hu : ∀ p ∈ parts, p.inTable = true → p.col < m.last → p.width ≤ u.getD p.col 0 ∧ p.width < 10000)
    (hs : (u.take m.last).sum ≤ width) (p : Part) (hp : p ∈ parts) (ht : p.inTable = true) (hc : p.col < m.last) :
    p.width ≤ m.widths.getD p.col 0 := by
  have hM := measure_measured 10000 parts
  obtain ⟨m', thr, h1, h2, -⟩ := columns_some width parts
  rw [h] at h1
  obtain rfl := Option.some.inj h1
  have hlast : (measure 10000 parts).last = m.last := Nat.le_antisymm (measured_last hM h2) (measured_last h2 hM)
  have hle : (measure 10000 parts).left ≤ width := by
    refine Nat.le_trans (tabstop_le _ u _ ?_) (by rw [hlast]; exact hs)
    intro j hj
    rcases hM.from_ j with h0 | ⟨q, hq, e1, e2, e3, -⟩
    · omega
    · have := (hu q hq e2 (by omega)).1
      rw [e1] at this
      omega
  rw [columns_first width parts hle] at h
  obtain rfl := Option.some.inj h
  have := h2.last
  exact hM.counted p hp (by omega) (hu p hp ht hc).2 ht

end Verif.Usage
