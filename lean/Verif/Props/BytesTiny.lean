import Verif.Props.Bytes
/-!
C16: numbers that `std::stod` refuses.
-/
namespace Verif.Bytes
open Verif.Double Verif.NumFormat

/-- C16: `to_bytes` lets `std::out_of_range` escape exactly for numbers that no double can hold, even rounded, and
for positive numbers below the smallest normal double that no double is equal to, whatever the unit. -/
theorem C16_out_of_range_iff (s i f u : Str) (h : Written s i f u) :
    toBytes s = .throw .outOfRange ↔
      2 ^ 1024 - 2 ^ 970 ≤ value i f ∨
        (0 < value i f ∧ value i f < 1 / 2 ^ 1022 ∧ ¬ ∃ m : ℕ, value i f = m / 2 ^ 1074) := by
  have hq := value_nonneg i f
  have hs : toBytes s = .throw .outOfRange ↔ stod (value i f) = none := by
    rw [toBytes_written h]
    cases stod (value i f) with
    | none => simp
    | some x =>
      cases units.lookup (u.map upper) with
      | none => simp
      | some n =>
        simp only [reduceCtorEq, iff_false]
        unfold scale
        split
        · simp
        · split <;> simp
  rw [hs]
  generalize value i f = q at hq
  have hden : (q * 2 ^ 1074).den = 1 ↔ ∃ m : ℕ, q = m / 2 ^ 1074 := by
    constructor
    · intro hd
      refine ⟨(q * 2 ^ 1074).num.toNat, ?_⟩
      have hn : 0 ≤ (q * 2 ^ 1074).num := Rat.num_nonneg.2 (by positivity)
      have he : (((q * 2 ^ 1074).num.toNat : ℤ)) = (q * 2 ^ 1074).num := by omega
      have h1 : (((q * 2 ^ 1074).num.toNat : ℚ)) = ((q * 2 ^ 1074).num : ℚ) := by exact_mod_cast he
      have h2 : ((q * 2 ^ 1074).num : ℚ) = q * 2 ^ 1074 := by
        conv_rhs => rw [← Rat.num_div_den (q * 2 ^ 1074), hd]
        simp
      rw [h1, h2, mul_div_cancel_right₀ _ (by positivity)]
    · rintro ⟨m, rfl⟩
      rw [div_mul_cancel₀ _ (by positivity)]
      exact Rat.den_natCast m
  unfold stod
  split
  · rename_i h0
    subst h0
    have : ¬ ((2 : ℚ) ^ 1024 - 2 ^ 970 ≤ 0) := not_le.2 (not_huge (by positivity) |>.trans_le' le_rfl)
    simp [this]
  · rename_i h0
    have hp : 0 < q := lt_of_le_of_ne hq (Ne.symm h0)
    split
    · rename_i h1; simp [h1]
    · rename_i h1
      split
      · rename_i h2
        split
        · rename_i hd
          simp only [reduceCtorEq, false_iff, not_or]
          exact ⟨h1, fun ⟨_, _, hc⟩ => hc (hden.1 hd)⟩
        · rename_i hd
          simp only [true_iff]
          exact .inr ⟨hp, h2, fun hc => hd (hden.2 hc)⟩
      · rename_i h2
        simp only [reduceCtorEq, false_iff, not_or]
        exact ⟨h1, fun ⟨_, hc, _⟩ => h2 hc⟩

theorem foldl_zeros (k : ℕ) : (List.replicate k '0').foldl (fun v c => v * 10 + (c.toNat - 48)) 0 = 0 := by
  induction k with
  | zero => rfl
  | succ k ih => rw [List.replicate_succ, List.foldl_cons]; exact ih

theorem decValue_zeros (k : ℕ) : decValue (List.replicate k '0' ++ ['1']) = 1 := by
  unfold decValue
  rw [List.foldl_append, foldl_zeros]
  rfl

theorem value_zeros (k : ℕ) : value c!"0" (List.replicate k '0' ++ ['1']) = 1 / 10 ^ (k + 1) := by
  have h0 : decValue c!"0" = 0 := by decide
  unfold value
  rw [decValue_zeros, h0, List.length_append, List.length_replicate]
  norm_num

/-- C16, negation: a number of units with 307 zeros or more between the point and a digit, much less than a byte in
every unit, is not 0 bytes: `to_bytes` throws `std::out_of_range`, whatever the letters that follow. -/
theorem C16_negation_tiny (k : ℕ) (hk : 307 ≤ k) (u : Str) (hu : u ≠ [])
    (hl : ∀ c ∈ u, ('a' ≤ c ∧ c ≤ 'z') ∨ ('A' ≤ c ∧ c ≤ 'Z')) :
    toBytes (c!"0." ++ List.replicate k '0' ++ ['1'] ++ u) = .throw .outOfRange := by
  have hw : Written (c!"0." ++ List.replicate k '0' ++ ['1'] ++ u) c!"0" (List.replicate k '0' ++ ['1']) u := by
    refine ⟨[], by decide, by decide, fun c hc => ?_, fun c hc => (by cases hc), hu, hl, ?_⟩
    · rcases List.mem_append.1 hc with hc | hc
      · rw [List.eq_of_mem_replicate hc]; decide
      · rw [List.mem_singleton.1 hc]; decide
    · rw [if_neg (by simp)]
      simp
  rw [C16_out_of_range_iff _ _ _ _ hw, value_zeros]
  refine .inr ⟨by positivity, ?_, ?_⟩
  · refine one_div_lt_one_div_of_lt (by positivity) ?_
    calc (2 : ℚ) ^ 1022 = (2 ^ 73) ^ 14 := by rw [← pow_mul]
      _ < (10 ^ 22) ^ 14 := pow_lt_pow_left₀ (by norm_num) (by positivity) (by norm_num)
      _ = 10 ^ 308 := by rw [← pow_mul]
      _ ≤ 10 ^ (k + 1) := pow_le_pow_right₀ (by norm_num) (by omega)
  · rintro ⟨m, hm⟩
    rw [div_eq_div_iff (by positivity) (by positivity), one_mul] at hm
    have hm' : 2 ^ 1074 = m * 10 ^ (k + 1) := by exact_mod_cast hm
    have h5 : 5 ∣ 2 ^ 1074 := by
      rw [hm', pow_succ]
      exact Dvd.dvd.mul_left (Dvd.dvd.mul_left (by norm_num) _) _
    exact absurd h5 (by decide +kernel)

/-- The smallest such text of kilobytes, and one that is accepted. -/
example : toBytes (c!"0." ++ List.replicate 307 '0' ++ ['1'] ++ c!"KB") = .throw .outOfRange :=
  C16_negation_tiny 307 le_rfl c!"KB" (by decide) (by decide)

example : Written c!"0.25KB" c!"0" c!"25" c!"KB" ∧ toBytes c!"0.25KB" ≠ .throw .outOfRange := by
  have h : Written c!"0.25KB" c!"0" c!"25" c!"KB" := (parse_iff ..).1 (by decide)
  refine ⟨h, fun hc => ?_⟩
  have hv : value c!"0" c!"25" = 1 / 4 := by
    have h0 : decValue c!"0" = 0 := by decide
    have h2 : decValue c!"25" = 25 := by decide
    simp only [value, h0, h2]; norm_num
  rw [C16_out_of_range_iff _ _ _ _ h, hv] at hc
  rcases hc with hc | ⟨-, hc, -⟩
  · exact absurd (not_huge (q := 1 / 4) (by norm_num)) (not_lt.2 hc)
  · refine absurd hc (not_lt.2 (one_div_le_one_div_of_le (by norm_num) ?_))
    calc (4 : ℚ) = 2 ^ 2 := by norm_num
      _ ≤ 2 ^ 1022 := pow_le_pow_right₀ (by norm_num) (by norm_num)

end Verif.Bytes
