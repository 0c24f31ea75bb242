import Verif.Props.Bytes
/-!
C17: `from_bytes`; C101: reading its text back.
-/
namespace Verif.Bytes
open Verif.Double Verif.NumFormat

/-! ### The unit -/

/-- Specification: the largest decimal unit not above `b`. -/
def LargestUnit (b n : ℕ) : Prop := ∃ k ≤ 5, n = 1000 ^ k ∧ n ≤ b ∧ (k < 5 → b < 1000 * n)

theorem unitFor_spec {b : ℕ} (h : 1 ≤ b) :
    ∃ n u, unitFor b = some (n, u) ∧ LargestUnit b n ∧ UnitOf u n := by
  have low : ∀ n u, (n, u) ∈ fromUnits → UnitOf u n := by
    intro n u hm
    rw [← lookup_iff]
    have : ∀ x ∈ fromUnits, units.lookup (x.2.map upper) = some x.1 := by decide
    exact this (n, u) hm
  have fu : fromUnits = [(1, c!"B"), (1000, c!"KB"), (1000000, c!"MB"), (1000000000, c!"GB"),
    (1000000000000, c!"TB"), (1000000000000000, c!"PB")] := rfl
  have e0 : (1 ≤ b) = True := eq_true h
  unfold unitFor
  rw [fu] at low ⊢
  by_cases h1 : 1000 ≤ b
  · by_cases h2 : 1000000 ≤ b
    · by_cases h3 : 1000000000 ≤ b
      · by_cases h4 : 1000000000000 ≤ b
        · by_cases h5 : 1000000000000000 ≤ b
          · refine ⟨1000000000000000, c!"PB", ?_, ⟨5, by omega, rfl, h5, by omega⟩, low _ _ (by decide)⟩
            simp only [List.filter_cons, List.filter_nil, e0, eq_true h1, eq_true h2, eq_true h3, eq_true h4,
              eq_true h5, decide_true, decide_false, if_true, Bool.false_eq_true, if_false]
            rfl
          · refine ⟨1000000000000, c!"TB", ?_, ⟨4, by omega, rfl, h4, by omega⟩, low _ _ (by decide)⟩
            simp only [List.filter_cons, List.filter_nil, e0, eq_true h1, eq_true h2, eq_true h3, eq_true h4,
              eq_false h5, decide_true, decide_false, if_true, Bool.false_eq_true, if_false]
            rfl
        · have h5 : ¬ 1000000000000000 ≤ b := by omega
          refine ⟨1000000000, c!"GB", ?_, ⟨3, by omega, rfl, h3, by omega⟩, low _ _ (by decide)⟩
          simp only [List.filter_cons, List.filter_nil, e0, eq_true h1, eq_true h2, eq_true h3, eq_false h4,
            eq_false h5, decide_true, decide_false, if_true, Bool.false_eq_true, if_false]
          rfl
      · have h4 : ¬ 1000000000000 ≤ b := by omega
        have h5 : ¬ 1000000000000000 ≤ b := by omega
        refine ⟨1000000, c!"MB", ?_, ⟨2, by omega, rfl, h2, by omega⟩, low _ _ (by decide)⟩
        simp only [List.filter_cons, List.filter_nil, e0, eq_true h1, eq_true h2, eq_false h3, eq_false h4,
          eq_false h5, decide_true, decide_false, if_true, Bool.false_eq_true, if_false]
        rfl
    · have h3 : ¬ 1000000000 ≤ b := by omega
      have h4 : ¬ 1000000000000 ≤ b := by omega
      have h5 : ¬ 1000000000000000 ≤ b := by omega
      refine ⟨1000, c!"KB", ?_, ⟨1, by omega, rfl, h1, by omega⟩, low _ _ (by decide)⟩
      simp only [List.filter_cons, List.filter_nil, e0, eq_true h1, eq_false h2, eq_false h3, eq_false h4,
        eq_false h5, decide_true, decide_false, if_true, Bool.false_eq_true, if_false]
      rfl
  · have h2 : ¬ 1000000 ≤ b := by omega
    have h3 : ¬ 1000000000 ≤ b := by omega
    have h4 : ¬ 1000000000000 ≤ b := by omega
    have h5 : ¬ 1000000000000000 ≤ b := by omega
    refine ⟨1, c!"B", ?_, ⟨0, by omega, rfl, h, by omega⟩, low _ _ (by decide)⟩
    simp only [List.filter_cons, List.filter_nil, e0, eq_false h1, eq_false h2, eq_false h3, eq_false h4,
      eq_false h5, decide_true, decide_false, if_true, Bool.false_eq_true, if_false]
    rfl

theorem largestUnit_unique {b n n' : ℕ} (h : LargestUnit b n) (h' : LargestUnit b n') : n = n' := by
  obtain ⟨k, hk, rfl, h1, h2⟩ := h
  obtain ⟨k', hk', rfl, h1', h2'⟩ := h'
  have mono : ∀ a c : ℕ, 1000 ^ a ≤ b → b < 1000 * 1000 ^ c → a ≤ c := by
    intro a c ha hc
    by_contra hlt
    have : 1000 ^ (c + 1) ≤ 1000 ^ a := Nat.pow_le_pow_right (by norm_num) (by omega)
    rw [pow_succ] at this
    omega
  have : k = k' := by
    rcases Nat.lt_or_ge k 5 with a | a <;> rcases Nat.lt_or_ge k' 5 with a' | a'
    · have := mono _ _ h1 (h2' a'); have := mono _ _ h1' (h2 a); omega
    · have := mono _ _ h1' (h2 a); omega
    · have := mono _ _ h1 (h2' a'); omega
    · omega
  rw [this]

/-! ### The number -/

theorem written_int {u : Str} (N : ℕ) (hl : ∀ c ∈ u, isLetter c = true) (h0 : u ≠ []) :
    Written (natToDec N ++ u) (natToDec N) [] u ∧ value (natToDec N) [] = N := by
  have hs := (natToDec_spec N).1
  refine ⟨⟨[], hs.2.2.1, hs.1, by simp, by simp, h0, fun c hc => (letter_iff c).1 (hl c hc), by simp⟩, ?_⟩
  unfold value
  rw [hs.2.1]; simp [decValue]

theorem two_digits (r : ℕ) (h : r < 100) : TimeUtils.Field (padLeft 2 (natToDec r)) 2 r := by
  have := TimeUtils.field_two r h
  unfold intToDec at this
  rw [if_neg (by omega)] at this
  exact this

theorem written_fixed {u : Str} (H : ℕ) (hl : ∀ c ∈ u, isLetter c = true) (h0 : u ≠ []) :
    Written (fixed2 H ++ u) (natToDec (H / 100)) (padLeft 2 (natToDec (H % 100))) u ∧
      value (natToDec (H / 100)) (padLeft 2 (natToDec (H % 100))) = (H : ℚ) / 100 := by
  have hs := (natToDec_spec (H / 100)).1
  have hf := two_digits (H % 100) (Nat.mod_lt _ (by norm_num))
  have hne : padLeft 2 (natToDec (H % 100)) ≠ [] := by
    intro h; have := hf.2.1; rw [h] at this; simp at this
  refine ⟨⟨[], hs.2.2.1, hs.1, hf.1, by simp, h0, fun c hc => (letter_iff c).1 (hl c hc), ?_⟩, ?_⟩
  · rw [if_neg hne]; simp [fixed2]
  · unfold value
    rw [hs.2.1, hf.2.1, hf.2.2]
    have : (H : ℚ) = 100 * ((H / 100 : ℕ) : ℚ) + ((H % 100 : ℕ) : ℚ) := by
      exact_mod_cast (Nat.div_add_mod H 100).symm
    rw [this]; push_cast; ring

/-- The quotient as computed: at least one, with a relative error of 2^-51. -/
theorem quotient {b n : ℕ} (h1 : 1 ≤ n) (hn : n < 2 ^ 53) (hb : n ≤ b) :
    1 ≤ fl (fl b / fl n) ∧ |fl (fl b / fl n) - b / n| ≤ (b : ℚ) / n / 2 ^ 51 := by
  have hn' : (0 : ℚ) < n := by exact_mod_cast h1
  have hb' : (n : ℚ) ≤ b := by exact_mod_cast hb
  have hb0 : (0 : ℚ) ≤ b := by positivity
  rw [fl_natCast hn]
  have hge : (n : ℚ) ≤ fl b := by
    have := fl_mono (by positivity) hb'
    rwa [fl_natCast hn] at this
  have one : fl 1 = 1 := by have := fl_natCast (n := 1) (by norm_num); simpa using this
  constructor
  · have h2 : (1 : ℚ) ≤ fl b / n := by rw [le_div_iff₀ hn']; linarith
    have := fl_mono (by norm_num) h2
    rwa [one] at this
  · have e1 := abs_le.1 (fl_error hb0)
    have hq : 0 ≤ fl b / n := by have := fl_nonneg _ hb0; positivity
    have e2 := abs_le.1 (fl_error hq)
    have g1 : fl b / n ≤ (b : ℚ) / n + (b : ℚ) / n / 2 ^ 53 := by
      have : fl b ≤ b + b / 2 ^ 53 := by linarith [e1.2]
      calc fl b / n ≤ (b + b / 2 ^ 53) / n := div_le_div_of_nonneg_right this hn'.le
        _ = _ := by ring
    have g2 : (b : ℚ) / n - (b : ℚ) / n / 2 ^ 53 ≤ fl b / n := by
      have : (b : ℚ) - b / 2 ^ 53 ≤ fl b := by linarith [e1.1]
      calc _ = ((b : ℚ) - b / 2 ^ 53) / n := by ring
        _ ≤ _ := div_le_div_of_nonneg_right this hn'.le
    obtain ⟨e3, e4⟩ := e2
    have hz : 0 ≤ (b : ℚ) / n := by positivity
    generalize fl b / n = y at *
    generalize (b : ℚ) / n = z at *
    generalize fl y = w at *
    clear e1 one hge
    rw [abs_le]
    norm_num at e3 e4 g1 g2 ⊢
    constructor <;> linarith

theorem letters_of_unit {u : Str} {n : ℕ} {b : ℕ} (h : unitFor b = some (n, u)) :
    (∀ c ∈ u, isLetter c = true) ∧ u ≠ [] := by
  have hm : (n, u) ∈ fromUnits := by
    have := List.mem_of_getLast? h
    exact (List.mem_filter.1 this).1
  have : ∀ x ∈ fromUnits, (∀ c ∈ x.2, isLetter c = true) ∧ x.2 ≠ [] := by decide
  exact this (n, u) hm

theorem unit_range {b n : ℕ} (h : LargestUnit b n) (hb : b < 2 ^ 64) :
    1 ≤ n ∧ n ≤ b ∧ n < 2 ^ 53 ∧ b < 18447 * n := by
  obtain ⟨k, hk, rfl, h1, h2⟩ := h
  have hp : 1 ≤ 1000 ^ k := Nat.one_le_pow _ _ (by norm_num)
  have hm : 1000 ^ k ≤ 1000 ^ 5 := Nat.pow_le_pow_right (by norm_num) hk
  refine ⟨hp, h1, lt_of_le_of_lt hm (by norm_num), ?_⟩
  rcases Nat.lt_or_ge k 5 with h3 | h3
  · have := h2 h3; omega
  · obtain rfl : k = 5 := by omega
    omega

/-- What is printed, in terms of the quotient `x` computed: its integer part if the rest is
below a hundredth, its nearest number of hundredths otherwise. -/
theorem fromBytes_eq {b : ℕ} (h : 1 ≤ b) (hb : b < 2 ^ 64) : ∃ s i f u n, fromBytes b = .ok s ∧
    Written s i f u ∧ UnitOf u n ∧ LargestUnit b n ∧ IsDecimal i (decValue i) ∧
    ((f = [] ∧ value i f = ⌊fl (fl b / fl n)⌋ ∧ fl (fl b / fl n) - ⌊fl (fl b / fl n)⌋ < 1 / 100) ∨
     (f.length = 2 ∧ value i f = (roundEven (fl (fl b / fl n) * 100) : ℚ) / 100 ∧
      fl (1 / 100) ≤ fl (fl (fl b / fl n) - ⌊fl (fl b / fl n)⌋))) := by
  obtain ⟨n, u, hu, hlu, huo⟩ := unitFor_spec h
  obtain ⟨hl, h0⟩ := letters_of_unit hu
  obtain ⟨r1, r2, r3, r4⟩ := unit_range hlu hb
  obtain ⟨q1, q2⟩ := quotient r1 r3 r2
  have hn : (0 : ℚ) < n := by exact_mod_cast r1
  have hz : (b : ℚ) / n < 18447 := by
    rw [div_lt_iff₀ hn]; exact_mod_cast r4
  have hx : fl (fl b / fl n) < 18448 := by
    have := (abs_le.1 q2).2
    generalize (b : ℚ) / n = z at *
    norm_num at this
    linarith
  unfold fromBytes
  rw [if_neg (by omega), hu]
  simp only
  generalize hxx : fl (fl b / fl n) = x at *
  have hfl : (0 : ℤ) ≤ ⌊x⌋ := Int.floor_nonneg.2 (by linarith)
  have f1 := Int.floor_le x
  have f2 := Int.lt_floor_add_one x
  have hc : ((⌊x⌋.toNat : ℚ)) = ⌊x⌋ := by
    have : ((⌊x⌋.toNat : ℤ)) = ⌊x⌋ := by omega
    exact_mod_cast this
  have hsmall : ⌊x⌋.toNat < 2 ^ 53 := by
    have : ((⌊x⌋.toNat : ℚ)) < 18448 := by rw [hc]; linarith
    have : ⌊x⌋.toNat < 18448 := by exact_mod_cast this
    omega
  rw [fl_natCast hsmall, hc, abs_of_nonneg (by linarith)]
  split
  · rename_i hlt
    have hw := written_int (u := u) ⌊x⌋.toNat hl h0
    refine ⟨_, _, _, u, n, rfl, hw.1, huo, hlu, ?_, .inl ⟨rfl, by rw [hw.2, hc, hxx], ?_⟩⟩
    · have := (natToDec_spec ⌊x⌋.toNat).1
      rw [this.2.1]; exact this
    · rw [hxx]
      by_contra hge
      exact absurd hlt (not_lt.2 (fl_mono (by norm_num) (not_lt.1 hge)))
  · rename_i hge
    have hw := written_fixed (u := u) (hundredths x) hl h0
    refine ⟨_, _, _, u, n, rfl, hw.1, huo, hlu, ?_, .inr ⟨(two_digits _ (Nat.mod_lt _ (by norm_num))).2.1, ?_, ?_⟩⟩
    · have := (natToDec_spec (hundredths x / 100)).1
      rw [this.2.1]; exact this
    · rw [hw.2]
      have : (0 : ℤ) ≤ roundEven (x * 100) :=
        le_trans (Int.floor_nonneg.2 (by linarith)) (roundEven_bounds _).1
      have : (((roundEven (x * 100)).toNat : ℤ)) = roundEven (x * 100) := by omega
      have : (((roundEven (x * 100)).toNat : ℚ)) = roundEven (x * 100) := by exact_mod_cast this
      unfold hundredths
      rw [this, hxx]
    · rw [hxx]; exact not_lt.1 hge

/-! ### C17 -/

theorem printed_near {x v : ℚ} (h : (v = ⌊x⌋ ∧ x - ⌊x⌋ < 1 / 100) ∨ v = (roundEven (x * 100) : ℚ) / 100) :
    |v - x| < 1 / 100 := by
  rcases h with ⟨rfl, h⟩ | rfl
  · have := Int.floor_le x
    rw [abs_lt]; constructor <;> linarith
  · have := abs_le.1 (roundEven_near (x * 100))
    rw [abs_lt]; constructor <;> linarith [this.1, this.2]

theorem printed_ge {x v : ℚ} (hx : 1 ≤ x)
    (h : (v = ⌊x⌋ ∧ x - ⌊x⌋ < 1 / 100) ∨ v = (roundEven (x * 100) : ℚ) / 100) : 1 ≤ v := by
  rcases h with ⟨rfl, -⟩ | rfl
  · have : (1 : ℤ) ≤ ⌊x⌋ := Int.le_floor.2 (by simpa using hx)
    exact_mod_cast this
  · have h1 : (100 : ℤ) ≤ ⌊x * 100⌋ := Int.le_floor.2 (by push_cast; linarith)
    have h2 : (100 : ℤ) ≤ roundEven (x * 100) := le_trans h1 (roundEven_bounds _).1
    have h3 : (100 : ℚ) ≤ roundEven (x * 100) := by exact_mod_cast h2
    linarith

theorem drop_f {i f : Str} {x : ℚ}
    (h : (f = [] ∧ value i f = ⌊x⌋ ∧ x - ⌊x⌋ < 1 / 100) ∨
      (f.length = 2 ∧ value i f = (roundEven (x * 100) : ℚ) / 100 ∧ fl (1 / 100) ≤ fl (x - ⌊x⌋))) :
    (value i f = ⌊x⌋ ∧ x - ⌊x⌋ < 1 / 100) ∨ value i f = (roundEven (x * 100) : ℚ) / 100 :=
  h.imp (fun h => h.2) (fun h => h.2.1)

/-- C17: the text is a decimal number without leading zeros, with no or two decimals, followed
by the largest unit not above the count; the number is at least one; and the quantity printed
differs from the count by at most 1% of the unit, up to 2^-36 of it. -/
theorem C17_text (b : ℕ) (h : 1 ≤ b) (hb : b < 2 ^ 64) : ∃ s i f u n, fromBytes b = .ok s ∧
    Written s i f u ∧ UnitOf u n ∧ LargestUnit b n ∧ IsDecimal i (decValue i) ∧
    (f = [] ∨ f.length = 2) ∧ 1 ≤ value i f ∧
    |value i f * n - b| < (1 / 100 + 1 / 2 ^ 36) * n := by
  obtain ⟨s, i, f, u, n, e, hw, hu, hl, hd, hv⟩ := fromBytes_eq h hb
  obtain ⟨r1, r2, r3, r4⟩ := unit_range hl hb
  obtain ⟨q1, q2⟩ := quotient r1 r3 r2
  refine ⟨s, i, f, u, n, e, hw, hu, hl, hd, hv.imp (fun h => h.1) (fun h => h.1),
    printed_ge q1 (drop_f hv), ?_⟩
  have near := abs_lt.1 (printed_near (drop_f hv))
  have hn : (0 : ℚ) < n := by exact_mod_cast r1
  have hz : (b : ℚ) / n < 18447 := by
    rw [div_lt_iff₀ hn]; exact_mod_cast r4
  have key : |value i f - (b : ℚ) / n| < 1 / 100 + 1 / 2 ^ 36 := by
    have q3 := abs_le.1 q2
    obtain ⟨q3, q4⟩ := q3
    obtain ⟨n1, n2⟩ := near
    clear q2 hv
    generalize (b : ℚ) / n = z at *
    rw [abs_lt]
    norm_num at q3 q4 ⊢
    constructor <;> linarith
  have : value i f * n - b = (value i f - (b : ℚ) / n) * n := by
    field_simp
  rw [this, abs_mul, abs_of_pos hn]
  exact mul_lt_mul_of_pos_right key hn

example : (1 : ℕ) ≤ 1500 ∧ 1500 < 2 ^ 64 ∧ LargestUnit 1500 1000 :=
  ⟨by norm_num, by norm_num, 1, by norm_num, by norm_num, by norm_num, by norm_num⟩

/-- C17: the number printed is below 1000 as long as the count is at most 999.99 units.
Missing: above that it is rounded to 1000 (`C17_negation_carry`). -/
theorem C17_range_partial (b : ℕ) (h : 1 ≤ b) (hb : b < 2 ^ 64) (n : ℕ) (hl : LargestUnit b n)
    (hr : 100 * b ≤ 99999 * n) : ∃ s i f u, fromBytes b = .ok s ∧ Written s i f u ∧ UnitOf u n ∧
    1 ≤ value i f ∧ value i f < 1000 := by
  obtain ⟨s, i, f, u, n', e, hw, hu, hl', hd, hv⟩ := fromBytes_eq h hb
  obtain rfl := largestUnit_unique hl hl'
  obtain ⟨r1, r2, r3, r4⟩ := unit_range hl hb
  obtain ⟨q1, q2⟩ := quotient r1 r3 r2
  refine ⟨s, i, f, u, e, hw, hu, printed_ge q1 (drop_f hv), ?_⟩
  have hn : (0 : ℚ) < n := by exact_mod_cast r1
  have hz : (b : ℚ) / n ≤ 99999 / 100 := by
    rw [div_le_iff₀ hn]
    have : (100 : ℚ) * b ≤ 99999 * n := by exact_mod_cast hr
    linarith
  have hx : fl (fl b / fl n) < 99999 / 100 + 1 / 1000 := by
    have := (abs_le.1 q2).2
    generalize (b : ℚ) / n = z at *
    norm_num at this ⊢
    linarith
  rcases drop_f hv with ⟨hv, -⟩ | hv
  · have := Int.floor_le (fl (fl b / fl n))
    rw [hv]; linarith
  · rw [hv]
    have := (abs_le.1 (roundEven_near (fl (fl b / fl n) * 100))).2
    linarith

example : LargestUnit 999990 1000 ∧ 100 * 999990 ≤ 99999 * 1000 :=
  ⟨⟨1, by norm_num, by norm_num, by norm_num, by norm_num⟩, by norm_num⟩

/-- C17: below 10^15 the quantity printed differs from the count by at most 1% of the unit.
Missing: counts of 10^15 and more, where the quotient is not precise enough
(`C17_negation_percent`). -/
theorem C17_percent_partial (b : ℕ) (h : 1 ≤ b) (hb : b < 10 ^ 15) : ∃ s i f u n, fromBytes b = .ok s ∧
    Written s i f u ∧ UnitOf u n ∧ LargestUnit b n ∧ |value i f * n - b| ≤ (n : ℚ) / 100 := by
  have hb' : b < 2 ^ 64 := lt_trans hb (by norm_num)
  obtain ⟨s, i, f, u, n, e, hw, hu, hl, hd, hv⟩ := fromBytes_eq h hb'
  obtain ⟨r1, r2, r3, r4⟩ := unit_range hl hb'
  obtain ⟨q1, q2⟩ := quotient r1 r3 r2
  refine ⟨s, i, f, u, n, e, hw, hu, hl, ?_⟩
  have hn : (0 : ℚ) < n := by exact_mod_cast r1
  have hk : n ≤ 10 ^ 12 ∧ b < 1000 * n ∧ (n = 1 ∨ 100 ∣ n) := by
    obtain ⟨k, hk, rfl, h1, h2⟩ := hl
    have hk5 : k < 5 := by
      by_contra hc
      obtain rfl : k = 5 := by omega
      norm_num at h1; omega
    refine ⟨le_trans (Nat.pow_le_pow_right (by norm_num) (show k ≤ 4 by omega)) (by norm_num), h2 hk5, ?_⟩
    rcases Nat.eq_zero_or_pos k with rfl | hk0
    · left; rfl
    · right
      obtain ⟨j, rfl⟩ : ∃ j, k = j + 1 := ⟨k - 1, by omega⟩
      exact ⟨1000 ^ j * 10, by rw [pow_succ]; ring⟩
  obtain ⟨hn12, hb1000, hdvd⟩ := hk
  have hbn : (b : ℚ) < 1000 * n := by exact_mod_cast hb1000
  -- the error of the quotient, in bytes, is below a quarter
  have hx : |fl (fl b / fl n) * n - b| < 1 / 2 := by
    have h1 : fl (fl b / fl n) * n - b = (fl (fl b / fl n) - (b : ℚ) / n) * n := by field_simp
    rw [h1, abs_mul, abs_of_pos hn]
    calc _ ≤ (b : ℚ) / n / 2 ^ 51 * n := mul_le_mul_of_nonneg_right q2 hn.le
      _ = b / 2 ^ 51 := by field_simp
      _ < 1 / 2 := by
        have : (b : ℚ) < 10 ^ 15 := by exact_mod_cast hb
        rw [div_lt_iff₀ (by norm_num)]
        exact lt_trans this (by norm_num)
  have hone : n = 1 → fl (fl b / fl n) = b := by
    rintro rfl
    have h1 : fl ((1 : ℕ) : ℚ) = 1 := by simpa using fl_natCast (n := 1) (by norm_num)
    rw [h1, div_one, fl_natCast (n := b) (by omega), fl_natCast (by omega)]
  generalize fl (fl b / fl n) = x at *
  rcases drop_f hv with ⟨hv, hlt⟩ | hv
  · -- whole number: the rest in bytes is an integer
    rw [hv]
    have f1 := Int.floor_le x
    have hx' := abs_lt.1 hx
    have hlo : (-(1 : ℚ)) < b - ⌊x⌋ * n := by nlinarith
    have hhi : (b : ℚ) - ⌊x⌋ * n < n / 100 + 1 / 2 := by nlinarith
    have hlo' : (-1 : ℤ) < b - ⌊x⌋ * n := by exact_mod_cast hlo
    have h0 : (0 : ℤ) ≤ b - ⌊x⌋ * n := by omega
    have h0' : (0 : ℚ) ≤ b - ⌊x⌋ * n := by exact_mod_cast h0
    rw [abs_sub_comm, abs_of_nonneg h0']
    rcases hdvd with rfl | ⟨c, rfl⟩
    · have : (b : ℚ) - ⌊x⌋ * (1 : ℕ) < 1 := by push_cast at hhi ⊢; linarith
      have h1 : (b : ℤ) - ⌊x⌋ * (1 : ℕ) < 1 := by exact_mod_cast this
      have h2 : (b : ℤ) - ⌊x⌋ * (1 : ℕ) = 0 := by push_cast at h0 h1 ⊢; omega
      have h3 : (b : ℚ) - ⌊x⌋ * (1 : ℕ) = 0 := by exact_mod_cast h2
      rw [h3]; norm_num
    · have h1 : (b : ℚ) - ⌊x⌋ * (100 * c : ℕ) < c + 1 := by push_cast at hhi ⊢; linarith
      have h2 : (b : ℤ) - ⌊x⌋ * (100 * c : ℕ) < c + 1 := by exact_mod_cast h1
      have h3 : (b : ℤ) - ⌊x⌋ * (100 * c : ℕ) ≤ c := by omega
      have h4 : (b : ℚ) - ⌊x⌋ * (100 * c : ℕ) ≤ c := by exact_mod_cast h3
      have h5 : ((100 * c : ℕ) : ℚ) / 100 = c := by push_cast; ring
      rw [h5]; exact h4
  · rw [hv]
    have hr := abs_le.1 (roundEven_near (x * 100))
    have hx' := abs_lt.1 hx
    rcases hdvd with rfl | ⟨c, rfl⟩
    · -- bytes: the quotient is the count
      rw [hone rfl]
      have : roundEven ((b : ℚ) * 100) = ((b * 100 : ℤ)) := by
        rw [← roundEven_int ((b : ℤ) * 100)]; push_cast; rfl
      rw [this]; push_cast
      rw [mul_div_assoc, div_self (by norm_num)]; norm_num
    · have hc : (1 : ℚ) ≤ c := by
        have : 1 ≤ c := by omega
        exact_mod_cast this
      push_cast at hx' ⊢
      rw [abs_le]
      have p1 : (roundEven (x * 100) - x * 100) * c ≤ 1 / 2 * c := mul_le_mul_of_nonneg_right hr.2 (by linarith)
      have p2 : -(1 / 2) * c ≤ (roundEven (x * 100) - x * 100) * c := mul_le_mul_of_nonneg_right hr.1 (by linarith)
      constructor <;> linarith [hx'.1, hx'.2]

theorem roundEven_eq {y : ℚ} {m : ℤ} (h : |y - m| < 1 / 2) : roundEven y = m := by
  have h4 := abs_le.1 (roundEven_near y)
  have h3 := abs_lt.1 h
  have h5 : |((roundEven y - m : ℤ) : ℚ)| < 1 := by
    push_cast; rw [abs_lt]; constructor <;> linarith [h4.1, h4.2, h3.1, h3.2]
  have h6 : |roundEven y - m| < 1 := by exact_mod_cast h5
  have := Int.abs_lt_one_iff.1 h6
  omega

/-- C17, violated: from 999.996 units on the number printed is 1000. -/
theorem C17_negation_carry (b n : ℕ) (hl : LargestUnit b n) (h1 : 999996 * n ≤ 1000 * b) (h2 : b < 1000 * n)
    : ∃ s i f u, fromBytes b = .ok s ∧ Written s i f u ∧ UnitOf u n ∧ value i f = 1000 := by
  have hpos : 1 ≤ n := by
    obtain ⟨k, -, rfl, -⟩ := hl; exact Nat.one_le_pow _ _ (by norm_num)
  have hnmax : n ≤ 10 ^ 15 := by
    obtain ⟨k, hk, rfl, -⟩ := hl
    exact le_trans (Nat.pow_le_pow_right (by norm_num) hk) (by norm_num)
  have hb : b < 2 ^ 64 := by
    have : 1000 * n ≤ 1000 * 10 ^ 15 := Nat.mul_le_mul_left _ hnmax
    omega
  obtain ⟨s, i, f, u, n', e, hw, hu, hl', hd, hv⟩ := fromBytes_eq (b := b) (by omega) hb
  obtain rfl := largestUnit_unique hl hl'
  obtain ⟨r1, r2, r3, r4⟩ := unit_range hl hb
  obtain ⟨q1, q2⟩ := quotient r1 r3 r2
  refine ⟨s, i, f, u, e, hw, hu, ?_⟩
  have hn : (0 : ℚ) < n := by exact_mod_cast r1
  have z1 : (999996 : ℚ) / 1000 ≤ (b : ℚ) / n := by
    rw [le_div_iff₀ hn]
    have : (999996 : ℚ) * n ≤ 1000 * b := by exact_mod_cast h1
    linarith
  have z2 : (b : ℚ) / n < 1000 := by
    rw [div_lt_iff₀ hn]; exact_mod_cast h2
  have hv' := drop_f hv
  clear hv
  obtain ⟨q3, q4⟩ := abs_le.1 q2
  clear q2
  generalize (b : ℚ) / n = z at *
  generalize fl (fl b / fl n) = x at *
  have x1 : 9999959 / 10000 < x := by norm_num at q3 ⊢; linarith
  have x2 : x < 1000 + 1 / 10000 := by norm_num at q4 ⊢; linarith
  rcases hv' with ⟨hv, hlt⟩ | hv
  · rw [hv]
    have f1 := Int.floor_le x
    have a1 : (999 : ℚ) < ⌊x⌋ := by linarith
    have a2 : (⌊x⌋ : ℚ) < 1001 := by linarith
    have a1' : (999 : ℤ) < ⌊x⌋ := by exact_mod_cast a1
    have a2' : ⌊x⌋ < (1001 : ℤ) := by exact_mod_cast a2
    exact_mod_cast (by omega : ⌊x⌋ = 1000)
  · have : roundEven (x * 100) = 100000 := roundEven_eq (by
      push_cast; rw [abs_lt]; constructor <;> linarith)
    rw [hv, this]; norm_num

/-- 999999 bytes are printed as `1000.00KB`. -/
example : LargestUnit 999999 1000 ∧ 999996 * 1000 ≤ 1000 * 999999 ∧ 999999 < 1000 * 1000 :=
  ⟨⟨1, by norm_num, by norm_num, by norm_num, by norm_num⟩, by norm_num, by norm_num⟩

/-- C17, violated: 9010000000000001 bytes are printed as 9 PB, off by more than 1% of the unit. -/
theorem C17_negation_percent : ∃ s i f u, fromBytes 9010000000000001 = .ok s ∧ Written s i f u ∧
    UnitOf u (1000 ^ 5) ∧ value i f = 9 ∧
    (1000 ^ 5 : ℚ) / 100 < |value i f * 1000 ^ 5 - 9010000000000001| := by
  have hlu : LargestUnit 9010000000000001 (1000 ^ 5) := ⟨5, le_rfl, rfl, by norm_num, by norm_num⟩
  obtain ⟨s, i, f, u, n, e, hw, hu, hl, hd, hv⟩ := fromBytes_eq (b := 9010000000000001) (by norm_num) (by norm_num)
  obtain rfl := largestUnit_unique hlu hl
  obtain ⟨r1, r2, r3, r4⟩ := unit_range hl (by norm_num)
  obtain ⟨q1, q2⟩ := quotient r1 r3 r2
  have hfb : fl ((9010000000000001 : ℕ) : ℚ) ≤ 9010000000000000 := by
    have := (fl_le (m := 4505000000000000) (e := 1) (x := ((9010000000000001 : ℕ) : ℚ))
      (by norm_num) (by norm_num) (by norm_num) (by positivity)).2 (by norm_num)
    norm_num at this ⊢; exact this
  have hfn : fl ((1000 ^ 5 : ℕ) : ℚ) = 1000 ^ 5 := by
    have := fl_natCast (n := 1000 ^ 5) (by norm_num); rw [this]; norm_num
  have h901 : fl (901 / 100) = 5072179080326021 * 2 ^ (-49 : ℤ) := by
    have := fl_eq (x := 901 / 100) 5072179080326021 (-49) (by norm_num) (by norm_num)
      (by rw [abs_lt]; constructor <;> norm_num)
    exact_mod_cast this
  have hx : fl (fl ((9010000000000001 : ℕ) : ℚ) / fl ((1000 ^ 5 : ℕ) : ℚ)) ≤ 5072179080326021 * 2 ^ (-49 : ℤ) := by
    rw [← h901]
    apply fl_mono
    · rw [hfn]; have := fl_nonneg ((9010000000000001 : ℕ) : ℚ) (by positivity); positivity
    · rw [hfn, div_le_iff₀ (by norm_num)]
      refine le_trans hfb (by norm_num)
  have hx9 : 9 ≤ fl (fl ((9010000000000001 : ℕ) : ℚ) / fl ((1000 ^ 5 : ℕ) : ℚ)) := by
    obtain ⟨q3, q4⟩ := abs_le.1 q2
    norm_num at q3 ⊢
    linarith
  generalize fl (fl ((9010000000000001 : ℕ) : ℚ) / fl ((1000 ^ 5 : ℕ) : ℚ)) = x at *
  have hfloor : ⌊x⌋ = 9 := by
    rw [Int.floor_eq_iff]
    refine ⟨by exact_mod_cast hx9, lt_of_le_of_lt hx ?_⟩
    norm_num
  have hval : value i f = 9 := by
    rcases hv with ⟨-, hv, -⟩ | ⟨-, -, hv⟩
    · rw [hv, hfloor]; norm_num
    · exfalso
      rw [hfloor] at hv
      have h1 : fl (x - (9 : ℤ)) ≤ 5629499534213 * 2 ^ (-49 : ℤ) := by
        have : x - (9 : ℤ) ≤ 5629499534213 * 2 ^ (-49 : ℤ) := by
          push_cast
          refine le_trans (sub_le_sub_right hx 9) ?_
          norm_num
        have h2 := fl_mono (by push_cast; linarith) this
        rwa [fl_exact (x := 5629499534213 * 2 ^ (-49 : ℤ)) ⟨5629499534213, -49, by norm_num, by norm_num⟩] at h2
      have h2 := abs_le.1 (fl_error (x := 1 / 100) (by norm_num))
      have h3 := le_trans hv h1
      have h4 := h2.1
      norm_num at h3 h4
      linarith
  refine ⟨s, i, f, u, e, hw, hu, hval, ?_⟩
  rw [hval]
  norm_num [abs_lt]

/-! ### C101: reading the text back -/

theorem not_band {n : ℕ} {q : ℚ} (h : q ≤ 20000) : ¬ Band n q := by
  unfold Band
  rintro (⟨-, a, -⟩ | ⟨-, a, -⟩ | ⟨-, a, -⟩) <;> norm_num at a <;> linarith

/-- C101: counts below 1000 are read back exactly. -/
theorem C101_small (b : ℕ) (hb : b < 1000) : ∃ s, fromBytes b = .ok s ∧ toBytes s = .ok b := by
  rcases Nat.eq_zero_or_pos b with rfl | h
  · refine ⟨c!"0B", rfl, ?_⟩
    have := C16_exact c!"0B" c!"0" c!"B" 1 ((parse_iff ..).1 (by decide)) (.inl ⟨by decide, rfl⟩) (by decide)
    rw [this]; rfl
  · have hb' : b < 2 ^ 64 := lt_trans hb (by norm_num)
    obtain ⟨s, i, f, u, n, e, hw, hu, hl, hd, hv⟩ := fromBytes_eq (b := b) h hb'
    obtain rfl := largestUnit_unique hl ⟨0, by norm_num, rfl, h, by intro _; simpa using hb⟩
    have hx : fl (fl (b : ℚ) / fl ((1000 ^ 0 : ℕ) : ℚ)) = b := by
      have h1 : fl ((1000 ^ 0 : ℕ) : ℚ) = 1 := by simpa using fl_natCast (n := 1) (by norm_num)
      rw [h1, div_one, fl_natCast (n := b) (by omega), fl_natCast (by omega)]
    rw [hx] at hv
    have h0 : (b : ℚ) - ⌊(b : ℚ)⌋ = 0 := by simp
    rcases hv with ⟨rfl, hv, -⟩ | ⟨-, -, hv⟩
    · refine ⟨s, e, ?_⟩
      have hdv : decValue i = b := by
        have : value i [] = decValue i := by simp [value, decValue]
        rw [this] at hv
        have h2 : ((decValue i : ℕ) : ℚ) = ((b : ℕ) : ℚ) := by rw [hv]; simp
        exact_mod_cast h2
      have := C16_exact s i u (1000 ^ 0) hw hu (by rw [hdv]; omega)
      rw [this, hdv]; simp
    · exfalso
      rw [h0, fl_zero] at hv
      have h2 := (abs_le.1 (fl_error (x := 1 / 100) (by norm_num))).1
      norm_num at h2 hv
      linarith

/-- C101: the text of a count up to 18446 PB is read back as a count within 2% of the unit.
Missing: larger counts (`C101_negation`). -/
theorem C101_back_partial (b : ℕ) (h : 1 ≤ b) (hb : b ≤ 18446 * 1000 ^ 5) : ∃ s n b', fromBytes b = .ok s ∧
    LargestUnit b n ∧ toBytes s = .ok b' ∧ |(b' : ℚ) - b| ≤ (n : ℚ) / 50 := by
  rcases Nat.lt_or_ge b 1000 with hs | hs
  · obtain ⟨s, e1, e2⟩ := C101_small b hs
    refine ⟨s, 1, b, e1, ⟨0, by norm_num, rfl, h, by intro _; omega⟩, e2, ?_⟩
    simp
  have hb' : b < 2 ^ 64 := lt_of_le_of_lt hb (by norm_num)
  obtain ⟨s, i, f, u, n, e, hw, hu, hl, hd, hv⟩ := fromBytes_eq (b := b) h hb'
  obtain ⟨r1, r2, r3, r4⟩ := unit_range hl hb'
  obtain ⟨q1, q2⟩ := quotient r1 r3 r2
  have hn : (0 : ℚ) < n := by exact_mod_cast r1
  have hn1000 : (1000 : ℚ) ≤ n := by
    obtain ⟨k, hk, rfl, h1, h2⟩ := hl
    have : 1 ≤ k := by
      by_contra hc
      obtain rfl : k = 0 := by omega
      have := h2 (by norm_num); omega
    have : 1000 ^ 1 ≤ 1000 ^ k := Nat.pow_le_pow_right (by norm_num) this
    exact_mod_cast this
  have near := abs_lt.1 (printed_near (drop_f hv))
  have hv1 := printed_ge q1 (drop_f hv)
  have hz : (b : ℚ) / n < 18447 := by
    rw [div_lt_iff₀ hn]; exact_mod_cast r4
  -- the number read is accepted
  have hF : value i f ≤ ((2 ^ 64 - 1) / n : ℕ) := by
    obtain ⟨k, hk, rfl, h1, h2⟩ := hl
    rcases Nat.lt_or_ge k 5 with hk5 | hk5
    · have hlt := h2 hk5
      have z2 : (b : ℚ) / (1000 ^ k : ℕ) < 1000 := by
        rw [div_lt_iff₀ hn]; exact_mod_cast hlt
      have hF : (18446744 : ℕ) ≤ (2 ^ 64 - 1) / 1000 ^ k := by
        rw [Nat.le_div_iff_mul_le r1]
        have : 1000 ^ k ≤ 1000 ^ 4 := Nat.pow_le_pow_right (by norm_num) (by omega)
        calc _ ≤ 18446744 * 1000 ^ 4 := Nat.mul_le_mul_left _ this
          _ ≤ _ := by norm_num
      have hF' : (18446744 : ℚ) ≤ ((2 ^ 64 - 1) / 1000 ^ k : ℕ) := by exact_mod_cast hF
      refine le_trans ?_ hF'
      have q4 := (abs_le.1 q2).2
      have n2 := near.2
      generalize (b : ℚ) / (1000 ^ k : ℕ) = z at *
      norm_num at q4 n2
      linarith
    · obtain rfl : k = 5 := by omega
      have hF : (2 ^ 64 - 1) / 1000 ^ 5 = 18446 := by norm_num
      rw [hF]
      have hx : fl (fl (b : ℚ) / fl ((1000 ^ 5 : ℕ) : ℚ)) ≤ 18446 := by
        have e0 : fl ((18446 : ℕ) : ℚ) = 18446 := by have := fl_natCast (n := 18446) (by norm_num); simpa using this
        have e1 : fl (b : ℚ) ≤ ((18446 * 1000 ^ 5 : ℕ) : ℚ) := by
          have := fl_mono (x := (b : ℚ)) (y := ((18446 * 1000 ^ 5 : ℕ) : ℚ)) (by positivity) (by exact_mod_cast hb)
          rwa [fl_exact (x := ((18446 * 1000 ^ 5 : ℕ) : ℚ)) ⟨18446 * 125 ^ 5, 15, by norm_num, by norm_num⟩] at this
        have e2 : fl (b : ℚ) / fl ((1000 ^ 5 : ℕ) : ℚ) ≤ ((18446 : ℕ) : ℚ) := by
          rw [fl_natCast (n := 1000 ^ 5) (by norm_num), div_le_iff₀ (by norm_num)]
          refine le_trans e1 (by norm_num)
        have := fl_mono (by
          have := fl_nonneg (b : ℚ) (by positivity)
          rw [fl_natCast (n := 1000 ^ 5) (by norm_num)]; positivity) e2
        rwa [e0] at this
      rcases drop_f hv with ⟨hv, -⟩ | hv
      · rw [hv]; have := Int.floor_le (fl (fl (b : ℚ) / fl ((1000 ^ 5 : ℕ) : ℚ)))
        push_cast; push_cast at this hx; linarith
      · rw [hv]
        have h3 : roundEven (fl (fl (b : ℚ) / fl ((1000 ^ 5 : ℕ) : ℚ)) * 100) ≤ roundEven ((1844600 : ℤ) : ℚ) :=
          roundEven_mono (by push_cast; push_cast at hx; linarith)
        rw [roundEven_int] at h3
        have h4 : (roundEven (fl (fl (b : ℚ) / fl ((1000 ^ 5 : ℕ) : ℚ)) * 100) : ℚ) ≤ 1844600 := by exact_mod_cast h3
        rw [div_le_iff₀ (by norm_num)]
        refine le_trans h4 (by norm_num)
  have hv2 : value i f ≤ 20000 := by
    have q4 := (abs_le.1 q2).2
    have n2 := near.2
    generalize (b : ℚ) / n = z at *
    norm_num at q4 n2
    linarith
  obtain ⟨b', hb''⟩ := C16_accepts_partial s i f u n hw hu (not_band hv2) hF (.inr (not_tiny hv1))
  refine ⟨s, n, b', e, hl, hb'', ?_⟩
  have hc := abs_lt.1 (C16_close s i f u n b' hw hu hb'').2
  have key : |value i f - (b : ℚ) / n| < 1 / 100 + 1 / 2 ^ 36 := by
    obtain ⟨q3, q4⟩ := abs_le.1 q2
    obtain ⟨n1, n2⟩ := near
    clear q2 hv hc
    generalize (b : ℚ) / n = z at *
    rw [abs_lt]
    norm_num at q3 q4 ⊢
    constructor <;> linarith
  have hvn : value i f * n - b = (value i f - (b : ℚ) / n) * n := by field_simp
  have hd2 : |value i f * n - b| < (1 / 100 + 1 / 2 ^ 36) * n := by
    rw [hvn, abs_mul, abs_of_pos hn]
    exact mul_lt_mul_of_pos_right key hn
  have hvn2 : value i f * n ≤ 20000 * n := mul_le_mul_of_nonneg_right hv2 hn.le
  obtain ⟨d1, d2⟩ := abs_lt.1 hd2
  obtain ⟨c1, c2⟩ := hc
  generalize value i f * (n : ℚ) = y at *
  rw [abs_le]
  norm_num at c1 c2 d1 d2 ⊢
  constructor <;> linarith

/-- C101, violated: the text of a count of 18446.02 PB or more, though it fits in 64 bits, is
refused by `to_bytes`. -/
theorem C101_negation (b : ℕ) (h : 18446 * 1000 ^ 5 + 2 * 10 ^ 13 ≤ b) (hb : b < 2 ^ 64) :
    ∃ s e, fromBytes b = .ok s ∧ toBytes s = .throw e := by
  obtain ⟨s, i, f, u, n, e, hw, hu, hl, hd, hv⟩ := fromBytes_eq (b := b) (by omega) hb
  obtain rfl := largestUnit_unique hl ⟨5, le_rfl, rfl, by omega, by omega⟩
  obtain ⟨r1, r2, r3, r4⟩ := unit_range hl hb
  obtain ⟨q1, q2⟩ := quotient r1 r3 r2
  have z1 : (18446 : ℚ) + 2 / 100 ≤ (b : ℚ) / (1000 ^ 5 : ℕ) := by
    rw [le_div_iff₀ (by norm_num)]
    have : ((18446 * 1000 ^ 5 + 2 * 10 ^ 13 : ℕ) : ℚ) ≤ b := by exact_mod_cast h
    refine le_trans ?_ this
    norm_num
  have z2 : (b : ℚ) / (1000 ^ 5 : ℕ) < 18447 := by
    rw [div_lt_iff₀ (by norm_num)]; exact_mod_cast r4
  have near := abs_lt.1 (printed_near (drop_f hv))
  have hv1 := printed_ge q1 (drop_f hv)
  have hlow : 18446 + 1 / 128 ≤ value i f := by
    obtain ⟨q3, q4⟩ := abs_le.1 q2
    obtain ⟨n1, n2⟩ := near
    generalize (b : ℚ) / (1000 ^ 5 : ℕ) = z at *
    norm_num at q3 n1 ⊢
    linarith
  rcases toBytes_unit hw hu with ⟨-, h2⟩ | ⟨-, h2⟩
  · exact ⟨s, _, e, h2⟩
  · refine ⟨s, .invalidArgument, e, ?_⟩
    rw [h2]
    unfold scale
    rw [if_pos]
    rw [show (2 ^ 64 - 1) / 1000 ^ 5 = 18446 by norm_num, fl_natCast (by norm_num)]
    have := fl_mono (by norm_num) hlow
    rw [fl_exact (x := 18446 + 1 / 128) ⟨18446 * 128 + 1, -7, by norm_num, by norm_num⟩] at this
    refine lt_of_lt_of_le ?_ this
    norm_num

example : 18446 * 1000 ^ 5 + 2 * 10 ^ 13 ≤ 2 ^ 64 - 1 ∧ (1 : ℕ) ≤ 1500 ∧ 1500 ≤ 18446 * 1000 ^ 5 := by norm_num

end Verif.Bytes
