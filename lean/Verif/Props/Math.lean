import Verif.Lemmas.Math
import Verif.Spec.Math
/-!
C01 - C04: integer helpers.
-/
namespace Verif.Math
open Verif

/-- C01: `is_even` is exact on all 2^32 inputs. -/
theorem C01_isEven (n : U32) : isEven n = true ↔ ∃ k, n.toNat = 2 * k := by
  unfold isEven
  rw [beq_iff_eq]
  have key : (n &&& 1#32).toNat = n.toNat % 2 := by
    rw [BitVec.toNat_and]; exact Nat.and_two_pow_sub_one_eq_mod n.toNat 1
  constructor
  · intro h
    have := congrArg BitVec.toNat h
    rw [key] at this
    exact ⟨n.toNat / 2, by simp at this; omega⟩
  · rintro ⟨k, hk⟩
    apply BitVec.eq_of_toNat_eq
    rw [key, hk]
    simp

/-- C01: `is_power_of_2` is exact on all 2^32 inputs (so false for 0). -/
theorem C01_isPowerOf2 (n : U32) : isPowerOf2 n = true ↔ ∃ k, n.toNat = 2 ^ k :=
  isPowerOf2_iff n

example : isPowerOf2 0#32 = false ∧ isPowerOf2 2147483648#32 = true ∧ isPowerOf2 2147483649#32 = false := by
  decide

/-- C02: for a non-zero divisor `fast_module` is the remainder, in every build. -/
theorem C02_fastModule (ndebug : Bool) (a b : U32) (hb : b.toNat ≠ 0) :
    ∃ r, fastModule ndebug a b = .ok r ∧ r.toNat = a.toNat % b.toNat := by
  have hb0 : b ≠ 0#32 := by intro h; subst h; simp at hb
  unfold fastModule
  simp only [hb0, false_and, if_false]
  split
  · rename_i h
    exact ⟨_, rfl, (Nat.mod_eq_of_lt (by simpa [BitVec.lt_def] using h)).symm⟩
  split
  · rename_i h _
    subst_vars
    exact ⟨_, rfl, by simp⟩
  split
  · subst_vars
    refine ⟨_, rfl, ?_⟩
    rw [BitVec.toNat_and]; exact Nat.and_two_pow_sub_one_eq_mod a.toNat 1
  split
  · rename_i h
    obtain ⟨k, hk⟩ := (isPowerOf2_iff b).1 h
    refine ⟨_, rfl, ?_⟩
    rw [BitVec.toNat_and, BitVec.toNat_sub_of_le (by simp [BitVec.le_def]; omega), hk]
    exact Nat.and_two_pow_sub_one_eq_mod a.toNat k
  · exact ⟨_, rfl, BitVec.toNat_umod⟩

example : ∃ r, fastModule true 29#32 8#32 = .ok r ∧ r.toNat = 5 := ⟨5#32, by decide, by decide⟩

/-- C02: for a non-zero divisor `fast_division` terminates and is the quotient. -/
theorem C02_fastDivision (ndebug : Bool) (a b : U32) (hb : b.toNat ≠ 0) :
    ∃ r, fastDivision ndebug a b = .ok r ∧ r.toNat = a.toNat / b.toNat := by
  have hb0 : b ≠ 0#32 := by intro h; subst h; simp at hb
  unfold fastDivision
  simp only [hb0, false_and, if_false]
  split
  · rename_i h
    exact ⟨_, rfl, (Nat.div_eq_of_lt (by simpa [BitVec.lt_def] using h)).symm⟩
  split
  · subst_vars
    exact ⟨_, rfl, by rw [Nat.div_self (by omega)]; rfl⟩
  split
  · subst_vars; exact ⟨_, rfl, by simp⟩
  split
  · subst_vars
    exact ⟨_, rfl, by simp [BitVec.toNat_ushiftRight, Nat.shiftRight_eq_div_pow]⟩
  split
  · rename_i h
    obtain ⟨k, hk⟩ := (isPowerOf2_iff b).1 h
    refine ⟨_, halveLoop_pow k a b hk, ?_⟩
    have : a.toNat / 2 ^ k ≤ a.toNat := Nat.div_le_self _ _
    have := a.isLt
    rw [BitVec.toNat_ofNat, hk, Nat.mod_eq_of_lt (by omega)]
  · exact ⟨_, rfl, BitVec.toNat_udiv⟩

example : ∃ r, fastDivision false 29#32 8#32 = .ok r ∧ r.toNat = 3 := C02_fastDivision _ _ _ (by decide)

/-- C02: with divisor 0 a debug build aborts; a release build has undefined
behaviour for every dividend but 0. -/
theorem C02_divisor_zero (a : U32) :
    fastModule false a 0#32 = .abort ∧ fastDivision false a 0#32 = .abort ∧
    (a.toNat ≠ 0 → fastModule true a 0#32 = .ub ∧ fastDivision true a 0#32 = .ub) := by
  refine ⟨by simp [fastModule], by simp [fastDivision], fun h => ?_⟩
  have h0 : a ≠ 0#32 := by intro h'; subst h'; simp at h
  have hp : isPowerOf2 0#32 = false := by decide
  constructor
  · simp [fastModule, BitVec.lt_def, h0, hp]
  · simp [fastDivision, BitVec.lt_def, h0, hp]

/-- C03: `fast_exponential` is the power modulo 2^32. -/
theorem C03_fastExponential (b : U32) (e : Nat) :
    (fastExponential b e).toNat = b.toNat ^ e % 2 ^ 32 := by
  rw [fastExponential_eq, toNat_pow]

/-- C03: and the exact power when it is representable. -/
theorem C03_fastExponential_exact (b : U32) (e : Nat) (h : b.toNat ^ e < 2 ^ 32) :
    (fastExponential b e).toNat = b.toNat ^ e := by
  rw [C03_fastExponential, Nat.mod_eq_of_lt h]

example : (3#32 : U32).toNat ^ 20 < 2 ^ 32 ∧ (fastExponential 3#32 20).toNat = 3486784401 :=
  ⟨by decide, by rw [C03_fastExponential_exact _ _ (by decide)]; rfl⟩

theorem two_mul_progressionSum (l i n : Nat) :
    2 * Spec.progressionSum l i (n + 1) = (2 * l + n * i) * (n + 1) := by
  induction n with
  | zero => simp [Spec.progressionSum]
  | succ n ih =>
    rw [Spec.progressionSum, Nat.mul_add, ih]
    grind

/-- Exact result of `arithmetic_progression_sum` on every input: the sum modulo
2^31 (the wrap happens before the halving). -/
theorem C04_exact (l i n : U32) :
    (arithmeticProgressionSum l i n).toNat =
      Spec.progressionSum l.toNat i.toNat n.toNat % 2 ^ 31 := by
  have key : ((2#32 * l + ((n - 1#32) * i)) * n).toNat
      = 2 * Spec.progressionSum l.toNat i.toNat n.toNat % 2 ^ 32 := by
    by_cases hn : n = 0#32
    · subst hn; simp [Spec.progressionSum]
    · have hn' : n.toNat ≠ 0 := fun h' => hn (BitVec.eq_of_toNat_eq (by simpa using h'))
      obtain ⟨m, hm⟩ : ∃ m, n.toNat = m + 1 := ⟨n.toNat - 1, by omega⟩
      have hsub : (n - 1#32).toNat = m := by
        rw [BitVec.toNat_sub_of_le (by simp [BitVec.le_def]; omega), hm]; rfl
      rw [hm, two_mul_progressionSum]
      simp only [BitVec.toNat_mul, BitVec.toNat_add, hsub, hm]
      simp [Nat.mul_mod, Nat.add_mod]
  unfold arithmeticProgressionSum
  rw [BitVec.toNat_udiv, key]
  show 2 * _ % 2 ^ 32 / 2 = _
  generalize Spec.progressionSum _ _ _ = S
  omega

/-- C04 is false: the two-term progression `2^30 - 1, 2^30 + 1` has sum 2^31,
which fits in 32 bits, but 0 is returned. -/
theorem C04_negation : ∃ l i n : U32,
    Spec.progressionSum l.toNat i.toNat n.toNat < 2 ^ 32 ∧
    (arithmeticProgressionSum l i n).toNat ≠ Spec.progressionSum l.toNat i.toNat n.toNat :=
  ⟨1073741823#32, 2#32, 2#32, by decide, by decide⟩

/-- C04, what holds of the code: the result is the sum exactly when the sum is
below 2^31 (the full claim would have 2^32 here). -/
theorem C04_partial (l i n : U32) :
    (arithmeticProgressionSum l i n).toNat = Spec.progressionSum l.toNat i.toNat n.toNat ↔
      Spec.progressionSum l.toNat i.toNat n.toNat < 2 ^ 31 := by
  rw [C04_exact]
  constructor
  · intro h; rw [← h]; exact Nat.mod_lt _ (by decide)
  · exact Nat.mod_eq_of_lt

example : (arithmeticProgressionSum 1#32 1#32 10#32).toNat = 55 := by decide

end Verif.Math
