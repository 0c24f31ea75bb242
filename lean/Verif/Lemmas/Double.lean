import Verif.Model.Double
import Mathlib.Tactic.Linarith
import Mathlib.Tactic.Positivity
import Mathlib.Tactic.FieldSimp
import Mathlib.Tactic.NormNum
/-!
Rounding to double precision: exact on doubles, monotone, relative error at most 2^-53.
-/
namespace Verif.Double

theorem roundEven_bounds (y : ℚ) : ⌊y⌋ ≤ roundEven y ∧ roundEven y ≤ ⌊y⌋ + 1 := by
  unfold roundEven
  simp only
  split_ifs <;> omega

theorem roundEven_near (y : ℚ) : |(roundEven y : ℚ) - y| ≤ 1 / 2 := by
  have h1 := Int.floor_le y
  have h2 := Int.lt_floor_add_one y
  unfold roundEven
  simp only
  rw [abs_le]
  split_ifs <;> push_cast <;> constructor <;> linarith

theorem roundEven_int (n : ℤ) : roundEven n = n := by
  unfold roundEven; simp

theorem roundEven_mono {a b : ℚ} (h : a ≤ b) : roundEven a ≤ roundEven b := by
  have hf := Int.floor_mono h
  rcases hf.lt_or_eq with hf | hf
  · have h1 := (roundEven_bounds a).2
    have h2 := (roundEven_bounds b).1
    omega
  · unfold roundEven
    simp only [hf]
    split_ifs <;> first | omega | (exfalso; linarith)

theorem two_zpow_pos (e : ℤ) : (0 : ℚ) < 2 ^ e := zpow_pos (by norm_num) e

/-- The leading bit. -/
theorem expo_spec {x : ℚ} (h : 0 < x) : 2 ^ (52 : ℤ) * 2 ^ expo x ≤ x ∧ x < 2 ^ (53 : ℤ) * 2 ^ expo x := by
  have h1 := Int.zpow_log_le_self (b := 2) (by norm_num) h
  have h2 := Int.lt_zpow_succ_log_self (b := 2) (by norm_num) x
  push_cast at h1 h2
  rw [← zpow_add₀ (by norm_num), ← zpow_add₀ (by norm_num)]
  unfold expo
  rw [show (52 : ℤ) + (Int.log 2 x - 52) = Int.log 2 x by ring,
    show (53 : ℤ) + (Int.log 2 x - 52) = Int.log 2 x + 1 by ring]
  exact ⟨h1, h2⟩

theorem expo_mono {x y : ℚ} (h : 0 < x) (hxy : x ≤ y) : expo x ≤ expo y := by
  unfold expo
  have := Int.log_mono_right (b := 2) h hxy
  omega

theorem fl_zero : fl 0 = 0 := if_pos rfl

theorem fl_pos {x : ℚ} (h : 0 < x) : fl x = roundEven (x / 2 ^ expo x) * 2 ^ expo x := if_neg h.ne'

/-- The 53 bits of a positive number, rounded. -/
theorem bits {x : ℚ} (h : 0 < x) :
    (2 ^ 52 : ℤ) ≤ roundEven (x / 2 ^ expo x) ∧ roundEven (x / 2 ^ expo x) ≤ (2 ^ 53 : ℤ) := by
  obtain ⟨h1, h2⟩ := expo_spec h
  have hp := two_zpow_pos (expo x)
  have e52 : ((2 ^ 52 : ℤ) : ℚ) = 2 ^ (52 : ℤ) := by norm_num
  have e53 : ((2 ^ 53 : ℤ) : ℚ) = 2 ^ (53 : ℤ) := by norm_num
  constructor
  · have := roundEven_mono (a := ((2 ^ 52 : ℤ) : ℚ)) (b := x / 2 ^ expo x)
      (by rw [e52, le_div_iff₀ hp]; exact h1)
    rwa [roundEven_int] at this
  · have := roundEven_mono (a := x / 2 ^ expo x) (b := ((2 ^ 53 : ℤ) : ℚ))
      (by rw [e53, div_le_iff₀ hp]; exact h2.le)
    rwa [roundEven_int] at this

theorem fl_nonneg (x : ℚ) (h : 0 ≤ x) : 0 ≤ fl x := by
  rcases h.lt_or_eq with h | h
  · rw [fl_pos h]
    have := (bits h).1
    have hp := two_zpow_pos (expo x)
    have : (0 : ℚ) ≤ (roundEven (x / 2 ^ expo x) : ℚ) := by
      exact_mod_cast (by omega : (0 : ℤ) ≤ roundEven (x / 2 ^ expo x))
    positivity
  · rw [← h, fl_zero]

/-- Rounding is monotone. -/
theorem fl_mono {x y : ℚ} (hx : 0 ≤ x) (h : x ≤ y) : fl x ≤ fl y := by
  rcases hx.lt_or_eq with hx | hx
  · have hy : 0 < y := lt_of_lt_of_le hx h
    rw [fl_pos hx, fl_pos hy]
    have hp := two_zpow_pos (expo x)
    rcases (expo_mono hx h).lt_or_eq with he | he
    · have h1 : (roundEven (x / 2 ^ expo x) : ℚ) ≤ 2 ^ 53 := by exact_mod_cast (bits hx).2
      have h2 : (2 ^ 52 : ℚ) ≤ roundEven (y / 2 ^ expo y) := by exact_mod_cast (bits hy).1
      have h3 : (2 : ℚ) ^ expo x * 2 ≤ 2 ^ expo y := by
        rw [← zpow_add_one₀ (by norm_num)]
        exact zpow_le_zpow_right₀ (by norm_num) (by omega)
      calc (roundEven (x / 2 ^ expo x) : ℚ) * 2 ^ expo x ≤ 2 ^ 53 * 2 ^ expo x :=
            mul_le_mul_of_nonneg_right h1 hp.le
        _ = 2 ^ 52 * (2 ^ expo x * 2) := by ring
        _ ≤ 2 ^ 52 * 2 ^ expo y := mul_le_mul_of_nonneg_left h3 (by norm_num)
        _ ≤ _ := mul_le_mul_of_nonneg_right h2 (two_zpow_pos _).le
    · rw [← he]
      apply mul_le_mul_of_nonneg_right _ hp.le
      exact_mod_cast roundEven_mono (div_le_div_of_nonneg_right h hp.le)
  · rw [← hx, fl_zero]; exact fl_nonneg y (le_trans hx.le h)

/-- Specification: the doubles, `m * 2^k` with at most 53 bits in `m`. -/
def IsDouble (x : ℚ) : Prop := ∃ (m : ℕ) (k : ℤ), m < 2 ^ 53 ∧ x = m * 2 ^ k

/-- Doubles are not changed. -/
theorem fl_exact {x : ℚ} (h : IsDouble x) : fl x = x := by
  obtain ⟨m, k, hm, rfl⟩ := h
  rcases Nat.eq_zero_or_pos m with rfl | hm0
  · simp [fl_zero]
  · have hx : (0 : ℚ) < m * 2 ^ k := by
      have := two_zpow_pos k
      have : (0 : ℚ) < m := by exact_mod_cast hm0
      positivity
    have hp := two_zpow_pos (expo (m * 2 ^ k : ℚ))
    have hk : expo (m * 2 ^ k : ℚ) ≤ k := by
      obtain ⟨h1, -⟩ := expo_spec hx
      by_contra hc
      have h3 : (2 : ℚ) ^ k * 2 ≤ 2 ^ expo (m * 2 ^ k : ℚ) := by
        rw [← zpow_add_one₀ (by norm_num)]
        exact zpow_le_zpow_right₀ (by norm_num) (by omega)
      have h4 : (m : ℚ) < 2 ^ 53 := by exact_mod_cast hm
      have h5 := two_zpow_pos k
      have h6 : (2 : ℚ) ^ (52 : ℤ) * (2 ^ k * 2) ≤ m * 2 ^ k :=
        le_trans (mul_le_mul_of_nonneg_left h3 (by positivity)) h1
      have h7 : (m : ℚ) * 2 ^ k < 2 ^ 53 * 2 ^ k := mul_lt_mul_of_pos_right h4 h5
      have : (2 : ℚ) ^ (52 : ℤ) * (2 ^ k * 2) = 2 ^ 53 * 2 ^ k := by
        rw [show ((2 : ℚ) ^ (52 : ℤ)) = 2 ^ 52 by norm_num]; ring
      linarith
    rw [fl_pos hx]
    generalize expo (m * 2 ^ k : ℚ) = e at *
    obtain ⟨j, rfl⟩ : ∃ j : ℕ, k = e + j := ⟨(k - e).toNat, by omega⟩
    have hdiv : (m * 2 ^ (e + (j : ℤ)) : ℚ) / 2 ^ e = ((m * 2 ^ j : ℤ) : ℚ) := by
      rw [zpow_add₀ (by norm_num)]
      push_cast
      rw [zpow_natCast]
      field_simp
    rw [hdiv, roundEven_int, ← hdiv]
    field_simp

theorem fl_natCast {n : ℕ} (h : n < 2 ^ 53) : fl n = n := fl_exact ⟨n, 0, h, by simp⟩

/-- Relative error. -/
theorem fl_error {x : ℚ} (h : 0 ≤ x) : |fl x - x| ≤ x / 2 ^ 53 := by
  rcases h.lt_or_eq with h | h
  · have hp := two_zpow_pos (expo x)
    have h1 := roundEven_near (x / 2 ^ expo x)
    obtain ⟨h2, -⟩ := expo_spec h
    have e : fl x - x = (roundEven (x / 2 ^ expo x) - x / 2 ^ expo x) * 2 ^ expo x := by
      rw [fl_pos h]; field_simp
    rw [e, abs_mul, abs_of_pos hp]
    have h3 : (2 : ℚ) ^ expo x ≤ x / 2 ^ 52 := by
      rw [le_div_iff₀ (by norm_num), mul_comm]
      simpa using h2
    calc |(roundEven (x / 2 ^ expo x) : ℚ) - x / 2 ^ expo x| * 2 ^ expo x
        ≤ 1 / 2 * (x / 2 ^ 52) := mul_le_mul h1 h3 hp.le (by norm_num)
      _ = x / 2 ^ 53 := by ring
  · rw [← h, fl_zero]; simp

/-- The value of `fl` from its exponent and mantissa. -/
theorem fl_eq {x : ℚ} (m : ℤ) (e : ℤ) (h1 : 2 ^ (52 : ℤ) * 2 ^ e ≤ x) (h2 : x < 2 ^ (53 : ℤ) * 2 ^ e)
    (h3 : |x / 2 ^ e - m| < 1 / 2) : fl x = m * 2 ^ e := by
  have hp := two_zpow_pos e
  have hx : 0 < x := lt_of_lt_of_le (by positivity) h1
  obtain ⟨a, b⟩ := expo_spec hx
  have he : expo x = e := by
    rw [← zpow_add₀ (by norm_num)] at *
    have i1 := lt_of_le_of_lt a h2
    have i2 := lt_of_le_of_lt h1 b
    rw [zpow_lt_zpow_iff_right₀ (by norm_num)] at i1 i2
    omega
  rw [fl_pos hx, he]
  congr 1
  have h4 := roundEven_near (x / 2 ^ e)
  have h5 : |((roundEven (x / 2 ^ e) - m : ℤ) : ℚ)| < 1 := by
    push_cast
    rw [abs_lt] at h3 ⊢
    rw [abs_le] at h4
    constructor <;> linarith
  have h6 : |roundEven (x / 2 ^ e) - m| < 1 := by exact_mod_cast h5
  have h7 := Int.abs_lt_one_iff.1 h6
  exact_mod_cast (by omega : roundEven (x / 2 ^ e) = m)

/-- One third is rounded down. -/
example : fl (1 / 3) = 6004799503160661 * 2 ^ (-54 : ℤ) := by
  have := fl_eq (x := 1 / 3) 6004799503160661 (-54) (by norm_num) (by norm_num)
    (by rw [abs_lt]; constructor <;> norm_num)
  simpa using this

end Verif.Double
