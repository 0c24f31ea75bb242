import Verif.Model.Screen
/-!
Screens: clearing rows, writing a text, moving the cursor.
-/
namespace Verif.Editor

theorem draw_append (w : Nat) (s : Screen) (a b : List Out) : s.draw w (a ++ b) = (s.draw w a).draw w b := by
  simp [Screen.draw]

theorem draw_cons (w : Nat) (s : Screen) (a : Out) (b : List Out) : s.draw w (a :: b) = (s.out w a).draw w b := rfl

theorem draw_downs (w : Nat) (s : Screen) (n : Nat) :
    (s.draw w (List.replicate n .down)).cell = s.cell ∧ (s.draw w (List.replicate n .down)).row = s.row + n := by
  induction n generalizing s with
  | zero => exact ⟨rfl, (Int.add_zero _).symm⟩
  | succ n ih =>
    rw [List.replicate_succ, draw_cons]
    obtain ⟨h1, h2⟩ := ih (s.out w .down)
    refine ⟨h1, h2.trans ?_⟩
    show s.row + 1 + (n : Int) = s.row + ((n + 1 : Nat) : Int)
    omega

theorem draw_ups (w : Nat) (s : Screen) (n : Nat) :
    (s.draw w (List.replicate n .up)).cell = s.cell ∧ (s.draw w (List.replicate n .up)).row = s.row - n := by
  induction n generalizing s with
  | zero => exact ⟨rfl, (Int.sub_zero _).symm⟩
  | succ n ih =>
    rw [List.replicate_succ, draw_cons]
    obtain ⟨h1, h2⟩ := ih (s.out w .up)
    refine ⟨h1, h2.trans ?_⟩
    show s.row - 1 - (n : Int) = s.row - ((n + 1 : Nat) : Int)
    omega

theorem draw_column (w : Nat) (s : Screen) (j : Nat) (hj : j < w) :
    s.draw w (toColumn j) = { s with col := j, pend := false } := by
  unfold toColumn
  split
  · simp only [Screen.draw, List.foldl_cons, List.foldl_nil, Screen.out, Nat.zero_add]
    rw [Nat.min_eq_left (by omega)]
  · have : j = 0 := by omega
    subst this
    rfl

/-- `n` rows are blank, up from the one with the cursor. -/
theorem draw_clear (w : Nat) (s : Screen) (n : Nat) (hn : 0 < n) :
    (∀ i j, (s.draw w (clearRows n)).cell i j = if s.row - (n : Int) < i ∧ i ≤ s.row then ' ' else s.cell i j) ∧
    (s.draw w (clearRows n)).row = s.row - (n : Int) + 1 ∧ (s.draw w (clearRows n)).col = 0 ∧
    (s.draw w (clearRows n)).pend = false := by
  induction n generalizing s with
  | zero => cases hn
  | succ n ih =>
    cases n with
    | zero =>
      refine ⟨fun i j => ?_, ?_, rfl, rfl⟩
      · show (if i = s.row then ' ' else s.cell i j) = _
        by_cases h : i = s.row
        · rw [if_pos h, if_pos (by omega)]
        · rw [if_neg h, if_neg (by omega)]
      · show s.row = _
        omega
    | succ n =>
      have e : s.draw w (clearRows (n + 1 + 1)) =
          Screen.draw w ⟨fun a b => if a = s.row then ' ' else s.cell a b, s.row - 1, 0, false⟩ (clearRows (n + 1)) := rfl
      rw [e]
      obtain ⟨h1, h2, h3, h4⟩ := ih _ (Nat.succ_pos n)
      refine ⟨fun i j => ?_, ?_, h3, h4⟩
      · rw [h1]
        dsimp only
        by_cases h : i = s.row
        · rw [if_neg (by omega), if_pos h, if_pos (by omega)]
        · by_cases h' : s.row - 1 - ((n + 1 : Nat) : Int) < i ∧ i ≤ s.row - 1
          · rw [if_pos h', if_pos (by omega)]
          · rw [if_neg h', if_neg h, if_neg (by omega)]
      · rw [h2]
        dsimp only
        omega

theorem place_inj {w k n : Nat} (h1 : k / w = n / w) (h2 : k % w = n % w) : k = n := by
  have a := Nat.div_add_mod k w
  have b := Nat.div_add_mod n w
  rw [h1, h2] at a
  omega

/-- The screen after `t` has been written from the beginning of row `r`. -/
structure Wrote (w : Nat) (s : Screen) (r : Int) (t : Str) (s' : Screen) : Prop where
  text : ∀ k : Nat, (hk : k < t.length) → s'.cell (r + (k / w : Nat)) (k % w) = t[k]
  rest : ∀ k : Nat, t.length ≤ k → s'.cell (r + (k / w : Nat)) (k % w) = s.cell (r + (k / w : Nat)) (k % w)
  above : ∀ i j, i < r → s'.cell i j = s.cell i j
  row : s'.row = r + ((t.length - 1) / w : Nat)
  col : s'.col = if t.length % w = 0 ∧ t ≠ [] then w - 1 else t.length % w
  pend : s'.pend = decide (t.length % w = 0 ∧ t ≠ [])

theorem div_pred {w n : Nat} (hw : 0 < w) (hn : 0 < n) :
    (n - 1) / w = if n % w = 0 then n / w - 1 else n / w := by
  have h := Nat.div_add_mod n w
  split
  · rename_i h0
    rw [h0, Nat.add_zero] at h
    have hq : 0 < n / w := by
      rcases Nat.eq_zero_or_pos (n / w) with hz | hz
      · rw [hz] at h; omega
      · exact hz
    obtain ⟨q, hq'⟩ := Nat.exists_eq_add_of_lt hq
    have hq' : n / w = q + 1 := by omega
    rw [hq'] at h ⊢
    have : n - 1 = (w - 1) + w * q := by rw [Nat.mul_add] at h; omega
    rw [this, Nat.add_mul_div_left _ _ hw, Nat.div_eq_of_lt (by omega)]
    omega
  · rename_i h0
    have : n - 1 = (n % w - 1) + w * (n / w) := by omega
    rw [this, Nat.add_mul_div_left _ _ hw, Nat.div_eq_of_lt (by have := Nat.mod_lt n hw; omega)]
    omega

theorem snoc_ind {α : Type} {p : List α → Prop} (h0 : p []) (h1 : ∀ t c, p t → p (t ++ [c])) (t : List α) : p t := by
  rw [← List.reverse_reverse t]
  induction t.reverse with
  | nil => exact h0
  | cons a l ih => rw [List.reverse_cons]; exact h1 _ _ ih

theorem draw_text (w : Nat) (hw : 0 < w) (s : Screen) (t : Str) (ht : ∀ c ∈ t, visible c = true) (hc : s.col = 0)
    (hp : s.pend = false) : Wrote w s s.row t (s.draw w (t.map .put)) := by
  induction t using snoc_ind with
  | h0 =>
    refine ⟨fun k hk => absurd hk (Nat.not_lt_zero k), fun _ _ => rfl, fun _ _ _ => rfl, ?_, ?_, ?_⟩
    · show s.row = _
      simp
    · show s.col = _
      simp [hc]
    · show s.pend = _
      simp [hp]
  | h1 t c ih =>
    have ih := ih (fun x hx => ht x (List.mem_append_left _ hx))
    have hv : visible c = true := ht c (List.mem_append_right _ (List.mem_singleton.2 rfl))
    rw [List.map_append, draw_append]
    generalize hs : s.draw w (t.map .put) = u at ih ⊢
    have e : u.draw w [Out.put c] = u.put w c := by
      show (if visible c then u.put w c else u) = _
      rw [if_pos hv]
    rw [List.map_cons, List.map_nil, e]
    -- where the character goes
    have hr : (if u.pend then u.row + 1 else u.row) = s.row + (t.length / w : Nat) := by
      rw [ih.pend, ih.row]
      by_cases ht0 : t = []
      · subst ht0
        simp
      · have hpos : 0 < t.length := List.length_pos_iff.2 ht0
        have hd := div_pred hw hpos
        by_cases hm : t.length % w = 0
        · rw [if_pos hm] at hd
          have h1 : 0 < t.length / w := Nat.div_pos (Nat.le_of_dvd hpos (Nat.dvd_of_mod_eq_zero hm)) hw
          rw [if_pos (by simp [hm, ht0]), hd]
          omega
        · rw [if_neg hm] at hd
          rw [if_neg (by simp [hm]), hd]
    have hj : (if u.pend then 0 else u.col) = t.length % w := by
      rw [ih.pend, ih.col]
      by_cases hm : t.length % w = 0 ∧ t ≠ []
      · rw [if_pos (by simp [hm]), hm.1]
      · rw [if_neg (by simpa using hm), if_neg hm]
    have hcell : ∀ a b, (u.put w c).cell a b =
        if a = s.row + (t.length / w : Nat) ∧ b = t.length % w then c else u.cell a b := by
      intro a b
      show (if a = (if u.pend then u.row + 1 else u.row) ∧ b = (if u.pend then 0 else u.col) then c else u.cell a b) = _
      rw [hr, hj]
    have hrow : (u.put w c).row = s.row + (t.length / w : Nat) := hr
    have hcol : (u.put w c).col = if t.length % w + 1 < w then t.length % w + 1 else t.length % w := by
      show (if (if u.pend then 0 else u.col) + 1 < w then (if u.pend then 0 else u.col) + 1 else
        (if u.pend then 0 else u.col)) = _
      rw [hj]
    have hpend : (u.put w c).pend = !decide (t.length % w + 1 < w) := by
      show (!decide ((if u.pend then 0 else u.col) + 1 < w)) = _
      rw [hj]
    have hmod : (t.length + 1) % w = if t.length % w + 1 < w then t.length % w + 1 else 0 := by
      rw [Nat.add_mod]
      by_cases h1 : w = 1
      · subst h1; simp [Nat.mod_one]
      · rw [Nat.mod_eq_of_lt (show 1 < w by omega)]
        split
        · rename_i h; exact Nat.mod_eq_of_lt h
        · have := Nat.mod_lt t.length hw
          rw [show t.length % w + 1 = w by omega, Nat.mod_self]
    refine ⟨?_, ?_, ?_, ?_, ?_, ?_⟩
    · intro k hk
      rw [hcell]
      by_cases h : k = t.length
      · subst h
        rw [if_pos ⟨rfl, rfl⟩]
        simp
      · have hk' : k < t.length := by simp at hk; omega
        rw [if_neg, ih.text k hk', List.getElem_append_left hk']
        rintro ⟨h1, h2⟩
        exact h (place_inj (by omega) h2)
    · intro k hk
      have hk' : t.length < k := by simp at hk; omega
      rw [hcell, if_neg, ih.rest k (by omega)]
      rintro ⟨h1, h2⟩
      have := place_inj (w := w) (k := k) (n := t.length) (by omega) h2
      omega
    · intro i j hi
      rw [hcell, if_neg, ih.above i j hi]
      rintro ⟨h, -⟩
      rw [h] at hi
      exact absurd hi (Int.not_lt.2 (Int.le_add_of_nonneg_right (Int.natCast_nonneg _)))
    · rw [hrow]
      simp
    · rw [hcol, List.length_append, List.length_singleton, hmod]
      by_cases h : t.length % w + 1 < w
      · simp [h]
      · have := Nat.mod_lt t.length hw
        simp only [if_neg h, true_and]
        rw [if_pos (by simp)]
        omega
    · rw [hpend, List.length_append, List.length_singleton, hmod]
      by_cases h : t.length % w + 1 < w
      · simp [h]
      · simp [h]

end Verif.Editor
