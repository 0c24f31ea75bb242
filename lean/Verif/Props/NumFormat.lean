import Verif.Model.NumFormat
import Verif.Props.Math
/-!
C12: number_trailing_zeros_format.
-/
namespace Verif.NumFormat
open Verif

/-- Specification: the number written by a decimal text. -/
def decValue (s : Str) : Nat := s.foldl (fun v c => v * 10 + (c.toNat - 48)) 0

/-- Specification: `s` is the decimal representation of `n`: digits only, no leading zero. -/
def IsDecimal (s : Str) (n : Nat) : Prop :=
  (∀ c ∈ s, '0' ≤ c ∧ c ≤ '9') ∧ decValue s = n ∧ s ≠ [] ∧ (s.head? = some '0' → s = ['0'])

example : IsDecimal c!"120" 120 := ⟨by decide, rfl, by decide, by decide⟩

theorem digitChar_spec (d : Nat) (h : d < 10) :
    '0' ≤ digitChar d ∧ digitChar d ≤ '9' ∧ (digitChar d).toNat - 48 = d ∧
      (digitChar d = '0' → d = 0) := by
  have H : ∀ k : Fin 10, '0' ≤ digitChar k.val ∧ digitChar k.val ≤ '9' ∧
      (digitChar k.val).toNat - 48 = k.val ∧ (digitChar k.val = '0' → k.val = 0) := by decide
  exact H ⟨d, h⟩

theorem natToDec_spec (n : Nat) : IsDecimal (natToDec n) n ∧ (natToDec n = ['0'] → n = 0) := by
  induction n using Nat.strongRecOn with
  | _ n ih =>
    unfold natToDec
    by_cases h : n < 10
    · have hd := digitChar_spec n h
      simp only [h, if_true]
      refine ⟨⟨?_, ?_, by simp, ?_⟩, ?_⟩
      · intro c hc; simp at hc; subst hc; exact ⟨hd.1, hd.2.1⟩
      · simp [decValue, hd.2.2.1]
      · intro hh; simp at hh; simp [hh]
      · intro hh; simp at hh; exact hd.2.2.2 hh
    · simp only [h, if_false]
      obtain ⟨⟨h1, h2, h3, h4⟩, h5⟩ := ih (n / 10) (by omega)
      have hd := digitChar_spec (n % 10) (by omega)
      refine ⟨⟨?_, ?_, by simp, ?_⟩, ?_⟩
      · intro c hc
        simp at hc
        rcases hc with hc | rfl
        · exact h1 c hc
        · exact ⟨hd.1, hd.2.1⟩
      · unfold decValue at h2 ⊢
        rw [List.foldl_append, h2]
        simp [hd.2.2.1]; omega
      · intro hh
        obtain ⟨x, xs, hx⟩ := List.exists_cons_of_ne_nil h3
        have hh' : (natToDec (n / 10)).head? = some '0' := by
          rw [hx] at hh ⊢; simpa using hh
        have := h5 (h4 hh')
        omega
      · intro hh
        have := congrArg List.length hh
        have hl := List.length_pos_iff.2 h3
        rw [List.length_append, List.length_singleton, List.length_singleton] at this
        omega

/-- C12 (padding, unconditional): for a non-negative value the text is the decimal
representation with zeros in front, of at least `n` characters. -/
theorem C12_padding (v : Int) (n : Nat) (hv : 0 ≤ v) :
    ∃ ds, IsDecimal ds v.toNat ∧
      numberTrailingZerosFormat v n true = .ok (List.replicate (n - ds.length) '0' ++ ds) := by
  refine ⟨natToDec v.toNat, (natToDec_spec _).1, ?_⟩
  have : ¬ v < 0 := by omega
  have e : v.natAbs = v.toNat := by omega
  simp [numberTrailingZerosFormat, padLeft, intToDec, this, e]

example : numberTrailingZerosFormat 7 3 true = .ok c!"007" := by decide +kernel

/-- C12 is false: (a) 2147483647 has ten digits but is rejected for ten characters,
because 10^10 wraps; (b) -5 is rejected for four characters; (c) 32 characters is a
division by zero; (d) zero characters accept "0"; (e) negative numbers are padded in
front of the sign. -/
theorem C12_negation :
    (IsDecimal c!"2147483647" 2147483647 ∧
      numberTrailingZerosFormat 2147483647 10 false = .throw .preconditionNotMet) ∧
    numberTrailingZerosFormat (-5) 4 false = .throw .preconditionNotMet ∧
    numberTrailingZerosFormat 1 32 false = .ub ∧
    numberTrailingZerosFormat 0 0 false = .ok c!"0" ∧
    numberTrailingZerosFormat (-5) 4 true = .ok c!"00-5" := by
  refine ⟨⟨⟨by decide, by decide +kernel, by decide, by decide⟩, by decide +kernel⟩, by decide +kernel,
    by decide +kernel, by decide +kernel, by decide +kernel⟩

theorem foldl_lt (s : Str) (h : ∀ c ∈ s, '0' ≤ c ∧ c ≤ '9') : ∀ v,
    v * 10 ^ s.length ≤ s.foldl (fun v c => v * 10 + (c.toNat - 48)) v ∧
    s.foldl (fun v c => v * 10 + (c.toNat - 48)) v < (v + 1) * 10 ^ s.length := by
  induction s with
  | nil => intro v; simp
  | cons c s ih =>
    intro v
    have hc := h c (by simp)
    have h9 : c.toNat - 48 ≤ 9 := by
      have := hc.2; rw [Char.le_def, UInt32.le_iff_toNat_le] at this
      have : c.toNat ≤ 57 := this
      omega
    obtain ⟨h1, h2⟩ := ih (fun x hx => h x (by simp [hx])) (v * 10 + (c.toNat - 48))
    simp only [List.foldl_cons, List.length_cons, Nat.pow_succ]
    have hp : 0 < 10 ^ s.length := Nat.pow_pos (by decide)
    constructor
    · refine Nat.le_trans ?_ h1
      rw [show v * (10 ^ s.length * 10) = (v * 10) * 10 ^ s.length by ac_rfl]
      exact Nat.mul_le_mul_right _ (by omega)
    · refine Nat.lt_of_lt_of_le h2 ?_
      rw [show (v + 1) * (10 ^ s.length * 10) = ((v + 1) * 10) * 10 ^ s.length by ac_rfl]
      exact Nat.mul_le_mul_right _ (by omega)

theorem decimal_length (s : Str) (v n : Nat) (hs : IsDecimal s v) (hn : 1 ≤ n) :
    n < s.length ↔ 10 ^ n ≤ v := by
  obtain ⟨h1, h2, h3, h4⟩ := hs
  have hb := foldl_lt s h1 0
  change 0 * _ ≤ decValue s ∧ decValue s < (0 + 1) * _ at hb
  rw [h2] at hb
  constructor
  · intro hl
    cases s with
    | nil => exact absurd rfl h3
    | cons c s =>
      have hc := h1 c (by simp)
      have hc0 : c ≠ '0' := by
        rintro rfl
        have := h4 rfl
        simp at this; subst this; simp at hl; omega
      have h1' : 1 ≤ c.toNat - 48 := by
        have := hc.1
        rw [Char.le_def, UInt32.le_iff_toNat_le] at this
        have h48 : 48 ≤ c.toNat := this
        have : c.toNat ≠ 48 := by
          intro h; apply hc0; exact Char.toNat_inj.1 h
        omega
      have := (foldl_lt s (fun x hx => h1 x (by simp [hx])) (0 * 10 + (c.toNat - 48))).1
      have e : decValue (c :: s) = s.foldl (fun v c => v * 10 + (c.toNat - 48)) (0 * 10 + (c.toNat - 48)) := rfl
      rw [← e, h2] at this
      refine Nat.le_trans ?_ this
      have hpow : 10 ^ n ≤ 10 ^ s.length := Nat.pow_le_pow_right (by decide) (by simp at hl; omega)
      calc 10 ^ n ≤ 10 ^ s.length := hpow
        _ = 1 * 10 ^ s.length := by simp
        _ ≤ _ := Nat.mul_le_mul_right _ (by omega)
  · intro hv
    by_cases hl : n < s.length
    · exact hl
    · have hpow : 10 ^ s.length ≤ 10 ^ n := Nat.pow_le_pow_right (by decide) (by omega)
      omega

theorem digit_le (c : Char) (hc : '0' ≤ c ∧ c ≤ '9') : 48 ≤ c.toNat ∧ c.toNat ≤ 57 := by
  obtain ⟨h1, h2⟩ := hc
  rw [Char.le_def, UInt32.le_iff_toNat_le] at h1 h2
  exact ⟨h1, h2⟩

theorem digitChar_of_digit (c : Char) (hc : '0' ≤ c ∧ c ≤ '9') : digitChar (c.toNat - 48) = c := by
  have hb := digit_le c hc
  have hd := digitChar_spec (c.toNat - 48) (by omega)
  have hd' := digit_le _ ⟨hd.1, hd.2.1⟩
  apply Char.toNat_inj.1
  have := hd.2.2.1
  omega

/-- A number has exactly one decimal representation. -/
theorem decimal_unique (s : Str) : ∀ v, IsDecimal s v → s = natToDec v := by
  have H : ∀ (r : Str) (v : Nat), IsDecimal r.reverse v → r.reverse = natToDec v := by
    intro r
    induction r with
    | nil => intro v h; exact absurd rfl h.2.2.1
    | cons c r ih =>
      intro v h
      simp only [List.reverse_cons] at h ⊢
      obtain ⟨h1, h2, h3, h4⟩ := h
      have hc := h1 c (by simp)
      have hb := digit_le c hc
      have e : decValue (r.reverse ++ [c]) = decValue r.reverse * 10 + (c.toNat - 48) := by
        simp only [decValue, List.foldl_append, List.foldl_cons, List.foldl_nil]
      rw [e] at h2
      by_cases hr : r.reverse = []
      · rw [hr] at h2 ⊢
        simp only [decValue, List.foldl_nil] at h2
        unfold natToDec
        rw [if_pos (by omega), ← h2]
        simp [digitChar_of_digit c hc]
      · have hd : IsDecimal r.reverse (decValue r.reverse) := by
          refine ⟨fun x hx => h1 x (by simp only [List.mem_append]; exact .inl hx), rfl, hr, ?_⟩
          intro hh
          have := h4 (by
            obtain ⟨x, xs, hx⟩ := List.exists_cons_of_ne_nil hr
            rw [hx] at hh ⊢; simpa using hh)
          have := congrArg List.length this
          have hl := List.length_pos_iff.2 hr
          rw [List.length_append, List.length_singleton, List.length_singleton] at this
          omega
        have hpos : decValue r.reverse ≠ 0 := by
          intro h0
          have := ih _ hd
          rw [h0] at this
          have h00 : natToDec 0 = ['0'] := by decide +kernel
          rw [h00] at this
          have := h4 (by rw [this]; rfl)
          have := congrArg List.length this
          have hl := List.length_pos_iff.2 hr
          rw [List.length_append, List.length_singleton, List.length_singleton] at this
          omega
        unfold natToDec
        rw [if_neg (by omega), ih _ hd]
        rw [show v / 10 = decValue r.reverse by omega, show v % 10 = c.toNat - 48 by omega,
          digitChar_of_digit c hc]
  intro v h
  have := H s.reverse v (by simpa using h)
  simpa using this

/-- C12, what holds of the guard: for non-negative `int` values and 1 to 9 characters the
call throws exactly when the decimal representation is longer, and otherwise pads.
(Missing: negative values, and widths 0 and above 9, see `C12_negation`.) -/
theorem C12_guard_partial (v : Int) (n : Nat) (hv : 0 ≤ v) (hv' : v < 2 ^ 31) (hn : 1 ≤ n) (hn' : n ≤ 9)
    (ds : Str) (hds : IsDecimal ds v.toNat) :
    numberTrailingZerosFormat v n false =
      if n < ds.length then .throw .preconditionNotMet
      else .ok (List.replicate (n - ds.length) '0' ++ ds) := by
  have hpow : 10 ^ n ≤ 10 ^ 9 := Nat.pow_le_pow_right (by decide) hn'
  have hlt : 10 ^ n < 2 ^ 32 := by omega
  have hp : (Math.fastExponential 10#32 n).toNat = 10 ^ n :=
    Math.C03_fastExponential_exact 10#32 n hlt
  have hpos : 0 < 10 ^ n := Nat.pow_pos (by decide)
  have hp0 : Math.fastExponential 10#32 n ≠ 0#32 := by
    intro h; rw [h] at hp; simp at hp; omega
  have hvv : (BitVec.ofInt 32 v).toNat = v.toNat := by
    rw [BitVec.toNat_ofInt]; omega
  unfold numberTrailingZerosFormat
  simp only [if_true, hp0, if_false]
  have hg : BitVec.ofInt 32 v / Math.fastExponential 10#32 n > 0#32 ↔ n < ds.length := by
    rw [gt_iff_lt, BitVec.lt_def, BitVec.toNat_udiv, hp, hvv, decimal_length ds _ n hds hn]
    show 0 < _ ↔ _
    rw [Nat.div_pos_iff]
    omega
  by_cases h : n < ds.length
  · simp [hg.2 h, h]
  · have hng : ¬ BitVec.ofInt 32 v / Math.fastExponential 10#32 n > 0#32 := fun x => h (hg.1 x)
    have : ¬ v < 0 := by omega
    have e : v.natAbs = v.toNat := by omega
    rw [if_neg hng, if_neg h]
    simp [padLeft, intToDec, this, e, decimal_unique ds _ hds]

example : numberTrailingZerosFormat 999 3 false = .ok c!"999" ∧
    numberTrailingZerosFormat 1000 3 false = .throw .preconditionNotMet := by decide +kernel

end Verif.NumFormat
