import Verif.Model.PyTimer
import Verif.Lemmas.Double
import Mathlib.Tactic.Linarith
import Mathlib.Tactic.NormNum
/-!
C120: the timer in Python.
-/
namespace Verif.PyTimer
open Verif.Double

/-- Only the last reset counts. -/
theorem run_last (t0 : ℚ) (resets : List ℚ) : run t0 resets = (t0 :: resets).getLast (by simp) := by
  induction resets generalizing t0 with
  | nil => rfl
  | cons t ts ih =>
    rw [List.getLast_cons (by simp)]
    exact ih t

/-- C120, part: if the clock does not go back, the time elapsed is never negative, and not smaller when asked later; it differs from the
time since the last reset by at most one part in 2^53. -/
theorem C120_elapsed_partial (t0 : ℚ) (resets : List ℚ) (now : ℚ)
    (chronological : (t0 :: resets ++ [now]).Pairwise (· ≤ ·)) :
    0 ≤ elapsed (run t0 resets) now ∧
    (∀ later, now ≤ later → elapsed (run t0 resets) now ≤ elapsed (run t0 resets) later) ∧
    |elapsed (run t0 resets) now - (now - (t0 :: resets).getLast (by simp))| ≤
      (now - (t0 :: resets).getLast (by simp)) / 2 ^ 53 := by
  have hle : run t0 resets ≤ now := by
    rw [run_last]
    exact (List.pairwise_append.1 chronological).2.2 _ (List.getLast_mem _) now (List.mem_singleton.2 rfl)
  rw [← run_last t0 resets]
  generalize run t0 resets = s at hle
  have h0 : 0 ≤ now - s := by linarith
  refine ⟨?_, ?_, ?_⟩
  · rw [elapsed, sub, if_pos hle]; exact fl_nonneg _ h0
  · intro later hl
    rw [elapsed, sub, if_pos hle, elapsed, sub, if_pos (le_trans hle hl)]
    exact fl_mono h0 (by linarith)
  · rw [elapsed, sub, if_pos hle]; exact fl_error h0

example : ([1, 2, 5] : List ℚ).Pairwise (· ≤ ·) := by decide

/-- A double between 2^30 and 2^31 is a multiple of 2^-22. -/
theorem multiple {x : ℚ} (h : IsDouble x) (h1 : 2 ^ 30 ≤ x) : ∃ n : ℤ, x = n / 2 ^ 22 := by
  obtain ⟨m, k, hm, rfl⟩ := h
  have hk : -22 ≤ k := by
    by_contra hk
    have hk : k ≤ -23 := by omega
    have h2 : (2 : ℚ) ^ k ≤ 2 ^ (-23 : ℤ) := zpow_le_zpow_right₀ (by norm_num) hk
    have h3 : (m : ℚ) < 2 ^ 53 := by exact_mod_cast hm
    have h4 : (0 : ℚ) < 2 ^ k := two_zpow_pos k
    have h5 : (m : ℚ) * 2 ^ k < 2 ^ 53 * 2 ^ (-23 : ℤ) := by
      calc (m : ℚ) * 2 ^ k < 2 ^ 53 * 2 ^ k := by exact mul_lt_mul_of_pos_right h3 h4
        _ ≤ 2 ^ 53 * 2 ^ (-23 : ℤ) := by exact mul_le_mul_of_nonneg_left h2 (by norm_num)
    have h6 : (2 : ℚ) ^ 53 * 2 ^ (-23 : ℤ) = 2 ^ 30 := by norm_num
    linarith
  obtain ⟨j, rfl⟩ : ∃ j : ℕ, k = (j : ℤ) - 22 := ⟨(k + 22).toNat, by omega⟩
  refine ⟨(m : ℤ) * 2 ^ j, ?_⟩
  rw [zpow_sub₀ (by norm_num : (2 : ℚ) ≠ 0), zpow_natCast]
  push_cast
  norm_num
  ring

/-- C120, accuracy: from 2004-01-10 to 2038-01-19 (between 2^30 and 2^31 seconds of the epoch) the time elapsed is exact. -/
theorem C120_exact (start now : ℚ) (h1 : IsDouble start) (h2 : IsDouble now) (hs : 2 ^ 30 ≤ start) (hle : start ≤ now)
    (hn : now < 2 ^ 31) : elapsed start now = now - start := by
  obtain ⟨a, ha⟩ := multiple h1 hs
  obtain ⟨b, hb⟩ := multiple h2 (le_trans hs hle)
  rw [elapsed, sub, if_pos hle]
  apply fl_exact
  have hd : now - start = ((b - a : ℤ) : ℚ) / 2 ^ 22 := by rw [ha, hb]; push_cast; ring
  have h0 : 0 ≤ b - a := by
    have : (0 : ℚ) ≤ ((b - a : ℤ) : ℚ) / 2 ^ 22 := by rw [← hd]; linarith
    have : (0 : ℚ) ≤ ((b - a : ℤ) : ℚ) := by
      by_contra hc
      have hc : ((b - a : ℤ) : ℚ) < 0 := by linarith [not_le.1 hc]
      have := div_neg_of_neg_of_pos hc (by norm_num : (0 : ℚ) < 2 ^ 22)
      linarith
    exact_mod_cast this
  refine ⟨(b - a).toNat, -22, ?_, ?_⟩
  · have hlt : ((b - a : ℤ) : ℚ) / 2 ^ 22 < 2 ^ 31 := by rw [← hd]; linarith [show (0:ℚ) < 2 ^ 30 by norm_num]
    have hlt : ((b - a : ℤ) : ℚ) < 2 ^ 53 := by
      rw [div_lt_iff₀ (by norm_num)] at hlt
      calc _ < _ := hlt
        _ = 2 ^ 53 := by norm_num
    have : b - a < 2 ^ 53 := by exact_mod_cast hlt
    omega
  · rw [hd]
    have : (((b - a).toNat : ℕ) : ℚ) = ((b - a : ℤ) : ℚ) := by
      have := Int.toNat_of_nonneg h0
      exact_mod_cast congrArg (fun z : ℤ => (z : ℚ)) this
    rw [this]
    norm_num
    ring

example : elapsed 1700000000 (1700000000 + 1 / 2) = 1 / 2 := by
  have := C120_exact 1700000000 (1700000000 + 1 / 2) ⟨1700000000, 0, by norm_num, by norm_num⟩
    ⟨3400000001, -1, by norm_num, by norm_num⟩ (by norm_num) (by norm_num) (by norm_num)
  rw [this]; norm_num

/-- C120 does not hold: `time.time()` is the time of the day, not a steady clock; when it is set back the time elapsed is negative. -/
theorem C120_negation (start now : ℚ) (h : now < start) : elapsed start now < 0 := by
  have h0 : 0 < start - now := by linarith
  have h1 := fl_error h0.le
  have h2 : (start - now) / 2 ^ 53 < start - now := div_lt_self h0 (by norm_num)
  have h3 := (abs_le.1 h1).1
  rw [elapsed, sub, if_neg (by linarith)]
  linarith

example : elapsed 1700000000 1699999999 < 0 := C120_negation _ _ (by norm_num)

end Verif.PyTimer
