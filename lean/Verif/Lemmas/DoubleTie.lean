import Verif.Lemmas.Double
import Mathlib.Tactic.Linarith
import Mathlib.Tactic.Positivity
import Mathlib.Tactic.FieldSimp
/-!
Exactly which numbers are rounded to a double with an even mantissa or beyond it.
-/
namespace Verif.Double

theorem le_roundEven {m : ℤ} (hm : m % 2 = 0) (y : ℚ) : m ≤ roundEven y ↔ (m : ℚ) - 1 / 2 ≤ y := by
  have h1 := Int.floor_le y
  have h2 := Int.lt_floor_add_one y
  constructor
  · intro h
    have h3 : (m : ℚ) ≤ roundEven y := by exact_mod_cast h
    have h4 := abs_le.1 (roundEven_near y)
    linarith [h4.2]
  · intro h
    by_contra hc
    have hc' : roundEven y + 1 ≤ m := by omega
    have hb := (roundEven_bounds y).1
    have hfm : ⌊y⌋ + 1 ≤ m := by omega
    have hfm' : ((⌊y⌋ : ℚ)) + 1 ≤ m := by exact_mod_cast hfm
    have hfe : ⌊y⌋ + 1 = m := by
      by_contra hne
      have : ⌊y⌋ + 2 ≤ m := by omega
      have : ((⌊y⌋ : ℚ)) + 2 ≤ m := by exact_mod_cast this
      linarith
    have hfe' : ((⌊y⌋ : ℚ)) + 1 = m := by exact_mod_cast hfe
    unfold roundEven at hc'
    simp only at hc'
    split_ifs at hc' with a b c
    · linarith
    · omega
    · omega
    · omega

theorem roundEven_le {m : ℤ} (hm : m % 2 = 0) (y : ℚ) : roundEven y ≤ m ↔ y ≤ (m : ℚ) + 1 / 2 := by
  have h1 := Int.floor_le y
  have h2 := Int.lt_floor_add_one y
  constructor
  · intro h
    have h3 : (roundEven y : ℚ) ≤ m := by exact_mod_cast h
    have h4 := abs_le.1 (roundEven_near y)
    linarith [h4.1]
  · intro h
    by_contra hc
    have hc' : m + 1 ≤ roundEven y := by omega
    have hb := (roundEven_bounds y).2
    have hfm : m ≤ ⌊y⌋ := by omega
    have hfe : ⌊y⌋ = m := by
      by_contra hne
      have : m + 1 ≤ ⌊y⌋ := by omega
      have : (m : ℚ) + 1 ≤ ⌊y⌋ := by exact_mod_cast this
      linarith
    have hfe' : ((⌊y⌋ : ℚ)) = m := by exact_mod_cast hfe
    unfold roundEven at hc'
    simp only at hc'
    split_ifs at hc' with a b c
    · omega
    · linarith
    · omega
    · omega

theorem expo_eq {x : ℚ} {e : ℤ} (h1 : 2 ^ (52 : ℤ) * 2 ^ e ≤ x) (h2 : x < 2 ^ (53 : ℤ) * 2 ^ e) :
    expo x = e := by
  have hp := two_zpow_pos e
  have hx : 0 < x := lt_of_lt_of_le (by positivity) h1
  obtain ⟨a, b⟩ := expo_spec hx
  rw [← zpow_add₀ (by norm_num)] at *
  have i1 := lt_of_le_of_lt a h2
  have i2 := lt_of_le_of_lt h1 b
  rw [zpow_lt_zpow_iff_right₀ (by norm_num)] at i1 i2
  omega

theorem fl_pow (k e : ℤ) (hk : k = 52 ∨ k = 53) : fl (2 ^ k * 2 ^ e) = 2 ^ k * 2 ^ e := by
  apply fl_exact
  refine ⟨1, k + e, by norm_num, ?_⟩
  rw [zpow_add₀ (by norm_num)]; simp

/-- Which numbers are rounded to `m * 2^e` or more. -/
theorem le_fl {m e : ℤ} (hm : m % 2 = 0) (h1 : 2 ^ 52 < m) (h2 : m ≤ 2 ^ 53) {x : ℚ} (hx : 0 ≤ x) :
    (m : ℚ) * 2 ^ e ≤ fl x ↔ ((m : ℚ) - 1 / 2) * 2 ^ e ≤ x := by
  have hp := two_zpow_pos e
  have h1' : (2 : ℚ) ^ (52 : ℤ) + 1 ≤ m := by
    have : (2 : ℤ) ^ 52 + 1 ≤ m := by omega
    exact_mod_cast this
  have h2' : (m : ℚ) ≤ 2 ^ (53 : ℤ) := by exact_mod_cast h2
  rcases lt_or_ge x (2 ^ (52 : ℤ) * 2 ^ e) with hlt | hge
  · have := fl_mono hx hlt.le
    rw [fl_pow 52 e (.inl rfl)] at this
    constructor
    · intro h; nlinarith
    · intro h; nlinarith
  · rcases lt_or_ge x (2 ^ (53 : ℤ) * 2 ^ e) with hlt' | hge'
    · have hx0 : 0 < x := lt_of_lt_of_le (by positivity) hge
      rw [fl_pos hx0, expo_eq hge hlt']
      rw [mul_le_mul_iff_left₀ hp]
      have := le_roundEven hm (x / 2 ^ e)
      rw [← le_div_iff₀ hp, ← this]
      exact_mod_cast Iff.rfl
    · have := fl_mono (by positivity) hge'
      rw [fl_pow 53 e (.inr rfl)] at this
      constructor
      · intro _; nlinarith
      · intro _; nlinarith

/-- Which numbers are rounded to `m * 2^e` or less. -/
theorem fl_le {m e : ℤ} (hm : m % 2 = 0) (h1 : 2 ^ 52 ≤ m) (h2 : m < 2 ^ 53) {x : ℚ} (hx : 0 ≤ x) :
    fl x ≤ (m : ℚ) * 2 ^ e ↔ x ≤ ((m : ℚ) + 1 / 2) * 2 ^ e := by
  have hp := two_zpow_pos e
  have h1' : (2 : ℚ) ^ (52 : ℤ) ≤ m := by exact_mod_cast h1
  have h2' : (m : ℚ) + 1 ≤ 2 ^ (53 : ℤ) := by
    have : m + 1 ≤ (2 : ℤ) ^ 53 := by omega
    exact_mod_cast this
  rcases lt_or_ge x (2 ^ (52 : ℤ) * 2 ^ e) with hlt | hge
  · have := fl_mono hx hlt.le
    rw [fl_pow 52 e (.inl rfl)] at this
    constructor
    · intro h; nlinarith
    · intro h; nlinarith
  · rcases lt_or_ge x (2 ^ (53 : ℤ) * 2 ^ e) with hlt' | hge'
    · have hx0 : 0 < x := lt_of_lt_of_le (by positivity) hge
      rw [fl_pos hx0, expo_eq hge hlt']
      rw [mul_le_mul_iff_left₀ hp]
      have := roundEven_le hm (x / 2 ^ e)
      rw [← div_le_iff₀ hp, ← this]
      exact_mod_cast Iff.rfl
    · have := fl_mono (by positivity) hge'
      rw [fl_pow 53 e (.inr rfl)] at this
      constructor
      · intro h; nlinarith
      · intro h; nlinarith

/-- There is no double between two consecutive ones. -/
theorem fl_gap {m e : ℤ} (h1 : 2 ^ 52 < m) (h2 : m ≤ 2 ^ 53) {x : ℚ} (hx : 0 ≤ x)
    (h : fl x < (m : ℚ) * 2 ^ e) : fl x ≤ ((m : ℚ) - 1) * 2 ^ e := by
  have hp := two_zpow_pos e
  have h1' : (2 : ℚ) ^ (52 : ℤ) + 1 ≤ m := by
    have : (2 : ℤ) ^ 52 + 1 ≤ m := by omega
    exact_mod_cast this
  have h2' : (m : ℚ) ≤ 2 ^ (53 : ℤ) := by exact_mod_cast h2
  rcases lt_or_ge x (2 ^ (52 : ℤ) * 2 ^ e) with hlt | hge
  · have := fl_mono hx hlt.le
    rw [fl_pow 52 e (.inl rfl)] at this
    nlinarith
  · rcases lt_or_ge x (2 ^ (53 : ℤ) * 2 ^ e) with hlt' | hge'
    · have hx0 : 0 < x := lt_of_lt_of_le (by positivity) hge
      rw [fl_pos hx0, expo_eq hge hlt'] at h ⊢
      rw [mul_lt_mul_iff_left₀ hp] at h
      rw [mul_le_mul_iff_left₀ hp]
      have h3 : roundEven (x / 2 ^ e) < m := by exact_mod_cast h
      have h4 : roundEven (x / 2 ^ e) ≤ m - 1 := by omega
      exact_mod_cast h4
    · have := fl_mono (by positivity) hge'
      rw [fl_pow 53 e (.inr rfl)] at this
      nlinarith

/-- Rounding gives a double. -/
theorem isDouble_fl {x : ℚ} (hx : 0 ≤ x) : IsDouble (fl x) := by
  rcases hx.lt_or_eq with h | h
  · obtain ⟨h1, h2⟩ := bits h
    rw [fl_pos h]
    generalize roundEven (x / 2 ^ expo x) = r at h1 h2
    rcases h2.lt_or_eq with h3 | h3
    · refine ⟨r.toNat, expo x, by omega, ?_⟩
      have : ((r.toNat : ℤ)) = r := by omega
      have : ((r.toNat : ℚ)) = r := by exact_mod_cast this
      rw [this]
    · refine ⟨1, 53 + expo x, by norm_num, ?_⟩
      rw [zpow_add₀ (by norm_num), h3]; norm_num
  · exact ⟨0, 0, by norm_num, by rw [← h, fl_zero]; simp⟩

theorem fl_fl {x : ℚ} (hx : 0 ≤ x) : fl (fl x) = fl x := fl_exact (isDouble_fl hx)

end Verif.Double
