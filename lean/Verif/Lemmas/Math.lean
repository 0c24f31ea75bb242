import Verif.Model.Math
namespace Verif.Math

theorem isPowerOf2_iff (n : U32) : isPowerOf2 n = true ↔ n.toNat.isPowerOfTwo := by
  unfold isPowerOf2
  by_cases h : n = 0#32
  · subst h
    simp [Nat.isPowerOfTwo]
    intro k hk
    have := Nat.pow_pos (n := k) (show 0 < 2 by decide)
    omega
  · have hn : n.toNat ≠ 0 := fun h' => h (BitVec.eq_of_toNat_eq (by simpa using h'))
    rw [← Nat.and_sub_one_eq_zero_iff_isPowerOfTwo hn]
    have hb : (n != 0#32) = true := by simp [h]
    simp only [hb, Bool.true_and, beq_iff_eq]
    have hsub : (n - 1#32).toNat = n.toNat - 1 := by
      rw [BitVec.toNat_sub_of_le]
      · rfl
      · simp [BitVec.le_def]; omega
    constructor
    · intro h1
      have := congrArg BitVec.toNat h1
      simpa [BitVec.toNat_and, hsub] using this
    · intro h1
      apply BitVec.eq_of_toNat_eq
      simpa [BitVec.toNat_and, hsub] using h1

theorem halveLoop_pow (k : Nat) : ∀ (a b : U32), b.toNat = 2 ^ k →
    halveLoop a b = .ok (BitVec.ofNat 32 (a.toNat / 2 ^ k)) := by
  induction k with
  | zero =>
    intro a b hb
    have : b = 1#32 := BitVec.eq_of_toNat_eq (by simpa using hb)
    subst this
    unfold halveLoop
    simp
  | succ k ih =>
    intro a b hb
    have hpos := Nat.pow_pos (n := k) (show 0 < 2 by decide)
    have h1 : b ≠ 1#32 := by
      intro h; subst h; simp [Nat.pow_succ] at hb; omega
    have h0 : b ≠ 0#32 := by
      intro h; subst h; simp [Nat.pow_succ] at hb; omega
    unfold halveLoop
    simp only [h1, h0, if_false, dif_neg, not_false_eq_true]
    rw [ih]
    · simp only [BitVec.toNat_ushiftRight, Nat.shiftRight_eq_div_pow, Nat.div_div_eq_div_mul, Nat.pow_succ, Nat.pow_zero, Nat.mul_comm, Nat.one_mul]
    · simp [BitVec.toNat_ushiftRight, Nat.shiftRight_eq_div_pow, hb, Nat.pow_succ]

theorem fastExponential_eq (b : U32) (e : Nat) : fastExponential b e = b ^ e := by
  induction e using Nat.strongRecOn generalizing b with
  | _ e ih =>
    unfold fastExponential
    split
    · subst_vars; simp
    · split
      · subst_vars; simp
      · split
        · rw [ih (e / 2) (by omega)]
          have : e = (e/2) + (e/2) := by omega
          conv => rhs; rw [this]
          rw [BitVec.pow_add]
          generalize e / 2 = m
          induction m with
          | zero => simp
          | succ m ihm => simp only [BitVec.pow_succ, ihm]; ac_rfl
        · rw [ih (e-1) (by omega)]
          obtain ⟨m, rfl⟩ : ∃ m, e = m + 1 := ⟨e-1, by omega⟩
          simp [BitVec.pow_succ, BitVec.mul_comm]

theorem toNat_pow (b : U32) (e : Nat) : (b ^ e).toNat = b.toNat ^ e % 2 ^ 32 := by
  induction e with
  | zero => simp
  | succ e ih =>
    rw [BitVec.pow_succ, BitVec.toNat_mul, ih, Nat.mod_mul_mod]; rfl

end Verif.Math
