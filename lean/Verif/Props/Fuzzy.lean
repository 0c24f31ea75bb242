import Verif.Model.Fuzzy
/-!
C28, C29: `Fuzzy`.
-/
namespace Verif.Fuzzy

variable {T : Type} [DecidableEq T]

/-- Specification of equality as documented in Fuzzy.hpp (an object is invalid below level 0, set from
level 20 on). -/
def DocEq (a b : Fuzzy T) : Prop :=
  (a.level < 0 ∧ b.level < 0) ∨ (20 ≤ a.level ∧ 20 ≤ b.level ∧ a.value = b.value)

/-- What `==` computes: both below level 20, or same level and same value. -/
theorem C28_exact (a b : Fuzzy T) :
    (a.eq b = true ↔ (a.level < 20 ∧ b.level < 20) ∨ (a.level = b.level ∧ a.value = b.value)) ∧
    (a.ne b = true ↔ ¬ a.eq b = true) := by
  refine ⟨?_, by simp [Fuzzy.ne]⟩
  unfold Fuzzy.eq Fuzzy.isSet levelFuzzy
  by_cases h1 : (20 : Int) ≤ a.level <;> by_cases h2 : (20 : Int) ≤ b.level <;> simp [h1, h2] <;> omega

/-- C28: `==` is an equivalence and `!=` its negation. -/
theorem C28_equivalence :
    (∀ a : Fuzzy T, a.eq a = true) ∧
    (∀ a b : Fuzzy T, a.eq b = b.eq a) ∧
    (∀ a b c : Fuzzy T, a.eq b = true → b.eq c = true → a.eq c = true) ∧
    (∀ a b : Fuzzy T, a.ne b = !(a.eq b)) := by
  refine ⟨?_, ?_, ?_, fun _ _ => rfl⟩
  · intro a; rw [(C28_exact a a).1]; exact .inr ⟨rfl, rfl⟩
  · intro a b
    rw [Bool.eq_iff_iff, (C28_exact a b).1, (C28_exact b a).1]
    constructor <;> rintro (⟨h1, h2⟩ | ⟨h1, h2⟩)
    · exact .inl ⟨h2, h1⟩
    · exact .inr ⟨h1.symm, h2.symm⟩
    · exact .inl ⟨h2, h1⟩
    · exact .inr ⟨h1.symm, h2.symm⟩
  · intro a b c
    rw [(C28_exact a b).1, (C28_exact b c).1, (C28_exact a c).1]
    rintro (⟨h1, h2⟩ | ⟨h1, h2⟩) (⟨h3, h4⟩ | ⟨h3, h4⟩)
    · exact .inl ⟨h1, h4⟩
    · exact .inl ⟨h1, by omega⟩
    · exact .inl ⟨by omega, h4⟩
    · exact .inr ⟨h1.trans h3, h2.trans h4⟩

/-- C28, the documented condition is not what `==` computes: two values set to the same value with
different certainty are different, and two valid default values 1 and 2 are equal. -/
theorem C28_negation :
    (∃ a b : Fuzzy Nat, DocEq a b ∧ a.eq b = false) ∧ (∃ a b : Fuzzy Nat, ¬ DocEq a b ∧ a.eq b = true) := by
  refine ⟨⟨⟨7, 40⟩, ⟨7, 60⟩, .inr (by decide), by decide⟩, ⟨⟨1, 0⟩, ⟨2, 0⟩, ?_, by decide⟩⟩
  rintro (h | h)
  · exact absurd h.1 (by decide)
  · exact absurd h.1 (by decide)

/-- C28, where the documentation holds: objects that are invalid or set, set ones with the same
level.  (Missing: valid objects that are not set, and set objects of different levels.) -/
theorem C28_doc_partial (a b : Fuzzy T) (ha : a.level < 0 ∨ 20 ≤ a.level) (hb : b.level < 0 ∨ 20 ≤ b.level)
    (hl : 20 ≤ a.level → 20 ≤ b.level → a.level = b.level) : a.eq b = true ↔ DocEq a b := by
  rw [(C28_exact a b).1, DocEq]
  constructor
  · rintro (⟨h1, h2⟩ | ⟨h1, h2⟩)
    · exact .inl ⟨by omega, by omega⟩
    · rcases ha with h | h
      · exact .inl ⟨h, by omega⟩
      · exact .inr ⟨h, by omega, h2⟩
  · rintro (⟨h1, h2⟩ | ⟨h1, h2, h3⟩)
    · exact .inl ⟨by omega, by omega⟩
    · exact .inr ⟨hl h1 h2, h3⟩

example : (⟨3, 40⟩ : Fuzzy Nat).eq ⟨3, 40⟩ = true ∧ (⟨3, 40⟩ : Fuzzy Nat).eq ⟨4, 40⟩ = false := by decide

/-- Specification: the value written by an operation, if any. -/
def writes : Op T → Option T
  | .setValue v _ => some v
  | .write v => some v
  | _ => none

/-- Specification: the level written by an operation, if any. -/
def levels : Op T → Option Int
  | .setValue _ l => some l
  | .setLevel l => some l
  | .unset => some (-20)
  | .write _ => none

/-- The last element of a list, or a default. -/
def lastOr {α : Type} (d : α) (l : List α) : α := l.getLastD d

omit [DecidableEq T] in
/-- C29: after any history the object holds the last value written and the last level written. -/
theorem C29_history (f : Fuzzy T) (ops : List (Op T)) :
    (run f ops).value = lastOr f.value (ops.filterMap writes) ∧
    (run f ops).level = lastOr f.level (ops.filterMap levels) := by
  induction ops generalizing f with
  | nil => exact ⟨rfl, rfl⟩
  | cons o ops ih =>
    have h := ih (step f o)
    have e : run f (o :: ops) = run (step f o) ops := rfl
    rw [e, h.1, h.2]
    have key : ∀ {α : Type} (d x : α) (l : List α), lastOr d (x :: l) = lastOr x l := by
      intro α d x l; cases l <;> rfl
    cases o <;> simp [List.filterMap_cons, writes, levels, step, key, levelUnset]

/-- C29: levels and comparison with plain values, in every state. -/
theorem C29_levels (f : Fuzzy T) (v : T) :
    (f.isSet = true → f.isValid = true) ∧
    (f.isValid = true ↔ 0 ≤ f.level) ∧ (f.isSet = true ↔ 20 ≤ f.level) ∧
    (step f .unset).isValid = false ∧ (step f .unset).value = f.value ∧
    (f.eqVal v = true ↔ f.isValid = true ∧ f.value = v) ∧
    f.neVal v = !(f.eqVal v) := by
  refine ⟨?_, decide_eq_true_iff, decide_eq_true_iff, by
    simp [step, Fuzzy.isValid, levelUnset, levelDefault], rfl, ?_, rfl⟩
  · intro h
    have h' : (20 : Int) ≤ f.level := of_decide_eq_true h
    exact decide_eq_true (show (0 : Int) ≤ f.level by omega)
  · unfold Fuzzy.eqVal
    cases f.isValid <;> simp

omit [DecidableEq T] in
/-- C29: the five named levels print differently, and only they print. -/
theorem C29_names (f g : Fuzzy T) (hf : f.level ∈ [-20, 0, 20, 40, 60])
    (h : f.levelStr = g.levelStr) : f.level = g.level := by
  have hg : ∀ x : Fuzzy T, (x.level ∈ [(-20 : Int), 0, 20, 40, 60] ∧
      (x.levelStr = c!"UNSET" ∧ x.level = -20 ∨ x.levelStr = c!"DEFAULT" ∧ x.level = 0 ∨
        x.levelStr = c!"FUZZY" ∧ x.level = 20 ∨ x.levelStr = c!"SET" ∧ x.level = 40 ∨
        x.levelStr = c!"HARD" ∧ x.level = 60)) ∨ (x.level ∉ [(-20 : Int), 0, 20, 40, 60] ∧ x.levelStr = []) := by
    intro x
    unfold Fuzzy.levelStr levelUnset levelDefault levelFuzzy levelSet levelHard
    by_cases h1 : x.level = -20
    · simp [h1]
    by_cases h2 : x.level = 0
    · simp [h2]
    by_cases h3 : x.level = 20
    · simp [h3]
    by_cases h4 : x.level = 40
    · simp [h4]
    by_cases h5 : x.level = 60
    · simp [h5]
    simp [h1, h2, h3, h4, h5]
  rcases hg f with ⟨_, h1⟩ | ⟨h1, _⟩
  · rcases hg g with ⟨_, h2⟩ | ⟨_, h2⟩
    · rcases h1 with h1 | h1 | h1 | h1 | h1 <;> rcases h2 with h2 | h2 | h2 | h2 | h2 <;>
        (rw [h1.2, h2.2]) <;> (rw [h1.1, h2.1] at h; exact absurd h (by decide))
    · rcases h1 with h1 | h1 | h1 | h1 | h1 <;> (rw [h1.1, h2] at h; exact absurd h (by decide))
  · exact absurd hf h1

example : run (⟨1, 0⟩ : Fuzzy Nat) [.setValue 5 40, .unset, .write 6, .setLevel 60] = ⟨6, 60⟩ := by decide

/-- Non-trivial case for `C28_doc_partial`: an unset value, and set ones of the same level. -/
example : ((⟨3, -20⟩ : Fuzzy Nat).eq ⟨4, -5⟩ = true ∧ DocEq (⟨3, -20⟩ : Fuzzy Nat) ⟨4, -5⟩) ∧
    ((⟨3, 60⟩ : Fuzzy Nat).eq ⟨4, 60⟩ = false ∧ ¬ DocEq (⟨3, 60⟩ : Fuzzy Nat) ⟨4, 60⟩) := by
  refine ⟨⟨by decide, .inl (by decide)⟩, by decide, ?_⟩
  rintro (h | h)
  · exact absurd h.1 (by decide)
  · exact absurd h.2.2 (by decide)

/-- Non-trivial case for `C29_names`. -/
example : (⟨3, 40⟩ : Fuzzy Nat).level ∈ [-20, 0, 20, 40, 60] ∧
    (⟨3, 40⟩ : Fuzzy Nat).levelStr = (⟨4, 40⟩ : Fuzzy Nat).levelStr ∧
    (⟨3, 40⟩ : Fuzzy Nat).levelStr ≠ (⟨4, 60⟩ : Fuzzy Nat).levelStr := by decide

end Verif.Fuzzy
