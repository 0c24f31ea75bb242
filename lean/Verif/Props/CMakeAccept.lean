import Verif.Model.CMakePackage
import Verif.Props.CMakeVersion
/-!
C191: a module is found by those who ask for a version it has.
-/
namespace Verif.CMake

/-- The version `v` is older than `w`: it is smaller at the first place where they differ; missing numbers are 0. -/
def Older (v w : List Nat) : Prop := ∃ k, (∀ j < k, v.getD j 0 = w.getD j 0) ∧ v.getD k 0 < w.getD k 0

/-- The text of a version with the numbers given. -/
def written (l : List Nat) : Str := List.intercalate ['.'] (l.map (Nat.toDigits 10))

private theorem older_cons (x y : Nat) (v w : List Nat) :
    Older (x :: v) (y :: w) ↔ x < y ∨ (x = y ∧ Older v w) := by
  constructor
  · rintro ⟨k, hk, hl⟩
    cases k with
    | zero => exact Or.inl (by simpa using hl)
    | succ k =>
      refine Or.inr ⟨by simpa using hk 0 (Nat.succ_pos k), k, fun j hj => ?_, by simpa using hl⟩
      simpa using hk (j + 1) (Nat.succ_lt_succ hj)
  · rintro (h | ⟨rfl, k, hk, hl⟩)
    · exact ⟨0, nofun, by simpa using h⟩
    · refine ⟨k + 1, fun j hj => ?_, by simpa using hl⟩
      cases j with
      | zero => rfl
      | succ j => simpa using hk j (Nat.lt_of_succ_lt_succ hj)

theorem versionLess_iff : ∀ v w : List Nat, versionLess v w = true ↔ Older v w
  | [], [] => by
    simp only [versionLess, Bool.false_eq_true, false_iff]
    rintro ⟨k, -, hl⟩; exact absurd hl (by simp)
  | [], y :: ys => by
    have h : Older [] (y :: ys) ↔ Older [0] (y :: ys) := by
      constructor <;> rintro ⟨k, hk, hl⟩ <;> refine ⟨k, fun j hj => ?_, ?_⟩
      · have := hk j hj; cases j <;> simpa using this
      · cases k <;> simpa using hl
      · have := hk j hj; cases j <;> simpa using this
      · cases k <;> simpa using hl
    rw [h, older_cons, versionLess, ← versionLess_iff [] ys]
    simp
  | x :: xs, [] => by
    have h : ¬ Older (x :: xs) [] := by rintro ⟨k, -, hl⟩; exact absurd hl (by simp)
    have h' : ¬ Older xs [] := by rintro ⟨k, -, hl⟩; exact absurd hl (by simp)
    rw [versionLess]
    simp only [h, iff_false, Bool.not_eq_true]
    have := mt (versionLess_iff xs []).1 h'
    simp [Bool.not_eq_true] at this
    simp [this]
  | x :: xs, y :: ys => by
    rw [older_cons, versionLess, ← versionLess_iff xs ys]
    simp

private theorem digits_char (n : Nat) : ∀ c ∈ Nat.toDigits 10 n, c ≠ '.' := by
  rintro c hc rfl
  have := Nat.isDigit_of_mem_toDigits (by decide) (by decide) hc
  exact absurd this (by decide)

private theorem valueOf_toDigits (n : Nat) : valueOf (Nat.toDigits 10 n) = n := by
  have h : valueOf (Nat.toDigits 10 n) = Nat.ofDigitChars 10 (Nat.toDigits 10 n) 0 := by
    rw [Nat.ofDigitChars_eq_foldl]
    unfold valueOf
    congr 1
    funext n c
    rw [Nat.mul_comm]
  rw [h, Nat.ofDigitChars_ten_toDigits]

private theorem dots_point : ∀ (a s : Str), (∀ c ∈ a, c ≠ '.') → dots (a ++ '.' :: s) = a :: dots s
  | [], s, _ => by simp [dots]
  | c :: a, s, h => by
    rw [List.cons_append, dots, if_neg (h c (by simp)), dots_point a s (fun d hd => h d (List.mem_cons_of_mem _ hd))]

private theorem dots_end : ∀ a : Str, (∀ c ∈ a, c ≠ '.') → dots a = [a]
  | [], _ => rfl
  | c :: a, h => by
    rw [dots, if_neg (h c (by simp)), dots_end a (fun d hd => h d (List.mem_cons_of_mem _ hd))]

private theorem numbersOf_written : ∀ l : List Nat, l ≠ [] → numbersOf (written l) = l
  | [], h => absurd rfl h
  | [n], _ => by
    simp only [written, numbersOf, List.map_cons, List.map_nil, List.intercalate_singleton]
    rw [dots_end _ (digits_char n)]
    simp [valueOf_toDigits]
  | n :: m :: l, _ => by
    have e : written (n :: m :: l) = Nat.toDigits 10 n ++ '.' :: written (m :: l) := by
      simp [written, List.intercalate_cons_cons]
    rw [numbersOf, e, dots_point _ _ (digits_char n), List.map_cons, valueOf_toDigits]
    exact congrArg (n :: ·) (numbersOf_written (m :: l) (by simp))

/-- C191: a module is accepted exactly when its version is not older than the one asked for and begins with the same number. -/
theorem C191_exact (v w : List Nat) (hv : v ≠ []) (hw : w ≠ []) :
    accepts (written v) (some (written w)) = true ↔ ¬ Older v w ∧ v.head hv = w.head hw := by
  simp only [accepts, numbersOf_written v hv, numbersOf_written w hw, Bool.and_eq_true, Bool.not_eq_true', decide_eq_true_eq]
  rw [← versionLess_iff, Bool.not_eq_true]
  cases v with
  | nil => exact absurd rfl hv
  | cons x v => cases w with
    | nil => exact absurd rfl hw
    | cons y w => rfl

example : accepts c!"1.5.1" (some c!"1.4") = true ∧ accepts c!"1.5.1" (some c!"1.10") = false :=
  ⟨(C191_exact [1, 5, 1] [1, 4] (by decide) (by decide)).2
      ⟨fun h => by rw [← versionLess_iff] at h; simp [versionLess] at h, rfl⟩,
    Bool.eq_false_iff.2 fun h => ((C191_exact [1, 5, 1] [1, 10] (by decide) (by decide)).1 h).1
      ⟨1, by decide, by decide⟩⟩

/-- C191: who asks for no version is served by every one. -/
theorem C191_any (v : Str) : accepts v none = true := rfl

/-- C191, in part: a module whose version is at least the one asked for is accepted, if the first numbers are the same.  Missing:
a greater first number, see `C191_negation`. -/
theorem C191_found_partial (n : Nat) (v w : List Nat) (h : ¬ Older v w) :
    accepts (written (n :: v)) (some (written (n :: w))) = true :=
  (C191_exact (n :: v) (n :: w) (by simp) (by simp)).2 ⟨by
    rw [older_cons]; rintro (h' | h')
    · exact absurd h' (Nat.lt_irrefl n)
    · exact h h'.2, rfl⟩

example : accepts c!"2.0.12" (some c!"2.0.3.1") = true :=
  C191_found_partial 2 [0, 12] [0, 3, 1] fun h => by rw [← versionLess_iff] at h; simp [versionLess] at h

/-- C191 is false: a version with a greater first number is newer than the least version asked for and is not accepted,
whatever the other numbers are. -/
theorem C191_negation (n m : Nat) (v w : List Nat) (h : m < n) :
    ¬ Older (n :: v) (m :: w) ∧ accepts (written (n :: v)) (some (written (m :: w))) = false := by
  have ho : ¬ Older (n :: v) (m :: w) := by
    rw [older_cons]; rintro (h' | ⟨h', -⟩) <;> omega
  refine ⟨ho, Bool.eq_false_iff.2 fun ha => ?_⟩
  have := ((C191_exact (n :: v) (m :: w) (by simp) (by simp)).1 ha).2
  simp only [List.head_cons] at this
  omega

example : accepts c!"2.0.0" (some c!"1.5") = false := (C191_negation 2 1 [0, 0] [5] (by decide)).2

end Verif.CMake
