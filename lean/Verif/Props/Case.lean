import Verif.Model.Case
/-!
C11: case conversion.
-/
namespace Verif.Case

/-- Specification: `c` is an ASCII capital letter and `d` its small counterpart. -/
def capitalOf (c d : Byte) : Prop := ∃ k : Nat, k < 26 ∧ c.toNat = 65 + k ∧ d.toNat = 97 + k

theorem byte_forall (p : Byte → Prop) [DecidablePred p]
    (h : ∀ k : Fin 256, p (BitVec.ofNat 8 k.val)) (c : Byte) : p c := by
  have := h ⟨c.toNat, c.isLt⟩
  simpa using this

/-- C11: lengths are preserved and each position depends only on the byte there:
capitals become their small letter, every other byte stays. -/
theorem C11_lowercase (s : List Byte) :
    (toLowercase s).length = s.length ∧
    ∀ i (h : i < s.length) (h' : i < (toLowercase s).length),
      (∀ d, capitalOf s[i] d → (toLowercase s)[i] = d) ∧
      ((¬ ∃ d, capitalOf s[i] d) → (toLowercase s)[i] = s[i]) := by
  refine ⟨by simp [toLowercase], fun i h h' => ?_⟩
  simp only [toLowercase, List.getElem_map]
  generalize s[i] = c
  constructor
  · rintro d ⟨k, hk, hc, hd⟩
    apply BitVec.eq_of_toNat_eq
    unfold lowerByte
    rw [if_pos (by constructor <;> simp [BitVec.le_def] <;> omega)]
    simp [BitVec.toNat_add]; omega
  · intro hn
    unfold lowerByte
    rw [if_neg]
    rintro ⟨h1, h2⟩
    simp [BitVec.le_def] at h1 h2
    exact hn ⟨BitVec.ofNat 8 (c.toNat + 32), c.toNat - 65, by omega, by omega, by simp; omega⟩

/-- C11: the same for upper case. -/
theorem C11_uppercase (s : List Byte) :
    (toUppercase s).length = s.length ∧
    ∀ i (h : i < s.length) (h' : i < (toUppercase s).length),
      (∀ d, capitalOf d s[i] → (toUppercase s)[i] = d) ∧
      ((¬ ∃ d, capitalOf d s[i]) → (toUppercase s)[i] = s[i]) := by
  refine ⟨by simp [toUppercase], fun i h h' => ?_⟩
  simp only [toUppercase, List.getElem_map]
  generalize s[i] = c
  constructor
  · rintro d ⟨k, hk, hd, hc⟩
    apply BitVec.eq_of_toNat_eq
    unfold upperByte
    rw [if_pos (by constructor <;> simp [BitVec.le_def] <;> omega)]
    rw [BitVec.toNat_sub_of_le (by simp [BitVec.le_def]; omega)]
    simp; omega
  · intro hn
    unfold upperByte
    rw [if_neg]
    rintro ⟨h1, h2⟩
    simp [BitVec.le_def] at h1 h2
    exact hn ⟨BitVec.ofNat 8 (c.toNat - 32), c.toNat - 97, by omega, by simp; omega, by omega⟩

/-- C11: idempotence, and the two conversions identify the same strings. -/
theorem C11_laws (s t : List Byte) :
    toLowercase (toLowercase s) = toLowercase s ∧
    toUppercase (toUppercase s) = toUppercase s ∧
    toLowercase (toUppercase s) = toLowercase s ∧
    toUppercase (toLowercase s) = toUppercase s ∧
    (toLowercase s = toLowercase t ↔ toUppercase s = toUppercase t) := by
  have h1 : ∀ c, lowerByte (lowerByte c) = lowerByte c := byte_forall _ (by decide +kernel)
  have h2 : ∀ c, upperByte (upperByte c) = upperByte c := byte_forall _ (by decide +kernel)
  have h3 : ∀ c, lowerByte (upperByte c) = lowerByte c := byte_forall _ (by decide +kernel)
  have h4 : ∀ c, upperByte (lowerByte c) = upperByte c := byte_forall _ (by decide +kernel)
  have e3 : ∀ s, toLowercase (toUppercase s) = toLowercase s := by
    intro s; simp [toLowercase, toUppercase, h3]
  have e4 : ∀ s, toUppercase (toLowercase s) = toUppercase s := by
    intro s; simp [toLowercase, toUppercase, h4]
  refine ⟨by simp [toLowercase, h1], by simp [toUppercase, h2], e3 s, e4 s, ?_, ?_⟩
  · intro h; rw [← e4 s, h, e4]
  · intro h; rw [← e3 s, h, e3]

-- "aZ[`{" : bytes next to the letter ranges stay
example : toUppercase [97#8, 90#8, 91#8, 96#8, 123#8] = [65#8, 90#8, 91#8, 96#8, 123#8] := by decide

end Verif.Case
