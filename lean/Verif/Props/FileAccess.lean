import Verif.Model.FileAccess
/-!
C162: asking whether a file is accessible.
-/
namespace Verif.FileAccess

theorem or_and_zero (a b k : Mode) : ((a ||| b) &&& k = 0) ↔ (a &&& k = 0) ∧ (b &&& k = 0) := by
  have : (a ||| b) &&& k = (a &&& k) ||| (b &&& k) := by
    ext i hi
    simp only [BitVec.getElem_and, BitVec.getElem_or]
    cases a[i] <;> cases b[i] <;> cases k[i] <;> rfl
  rw [this]
  constructor
  · intro h
    constructor <;> ext i hi
    · have h := congrArg (fun x : Mode => x[i]) h
      simp only [BitVec.getElem_or] at h
      revert h
      generalize (a &&& k)[i] = x
      generalize (b &&& k)[i] = y
      cases x <;> cases y <;> simp
    · have h := congrArg (fun x : Mode => x[i]) h
      simp only [BitVec.getElem_or] at h
      revert h
      generalize (a &&& k)[i] = x
      generalize (b &&& k)[i] = y
      cases x <;> cases y <;> simp
  · rintro ⟨h1, h2⟩
    rw [h1, h2]
    rfl

theorem access_or (file : Option Perm) (a b : Mode) :
    access file (a ||| b) = true ↔ access file a = true ∧ access file b = true := by
  cases file with
  | none => simp [access]
  | some p =>
    simp only [access, Bool.and_eq_true, Bool.or_eq_true, decide_eq_true_iff, or_and_zero]
    constructor
    · rintro ⟨⟨⟨⟨h1, h2⟩, h3⟩, h4⟩, h5⟩
      refine ⟨⟨⟨⟨h1, ?_⟩, ?_⟩, ?_⟩, ⟨⟨h2, ?_⟩, ?_⟩, ?_⟩
      · exact h3.imp And.left id
      · exact h4.imp And.left id
      · exact h5.imp And.left id
      · exact h3.imp And.right id
      · exact h4.imp And.right id
      · exact h5.imp And.right id
    · rintro ⟨⟨⟨⟨h1, h3⟩, h4⟩, h5⟩, ⟨⟨h2, g3⟩, g4⟩, g5⟩
      refine ⟨⟨⟨⟨h1, h2⟩, ?_⟩, ?_⟩, ?_⟩
      · rcases h3 with h3 | h3
        · exact g3.imp (⟨h3, ·⟩) id
        · exact Or.inr h3
      · rcases h4 with h4 | h4
        · exact g4.imp (⟨h4, ·⟩) id
        · exact Or.inr h4
      · rcases h5 with h5 | h5
        · exact g5.imp (⟨h5, ·⟩) id
        · exact Or.inr h5

/-- C162: a file is accessible with modes composed by `|` exactly if it is with each of them: for any two modes, also
composed ones and ones that are none. -/
theorem C162_compose (file : Option Perm) (a b : Mode) :
    isFileAccessible false file (union a b) = true ↔
      isFileAccessible false file a = true ∧ isFileAccessible false file b = true :=
  access_or file a b

/-- C162: `exist` asks for existence only; the others for existence and the permission of their name. -/
theorem C162_single (file : Option Perm) :
    (isFileAccessible false file exist = true ↔ ∃ p, file = some p) ∧
    (isFileAccessible false file read = true ↔ ∃ p, file = some p ∧ p.mayRead = true) ∧
    (isFileAccessible false file write = true ↔ ∃ p, file = some p ∧ p.mayWrite = true) ∧
    (isFileAccessible false file exec = true ↔ ∃ p, file = some p ∧ p.mayExec = true) := by
  cases file with
  | none => simp [isFileAccessible, access]
  | some p =>
    obtain ⟨r, w, x⟩ := p
    simp only [Option.some.injEq, exists_eq_left', isFileAccessible, access]
    refine ⟨⟨fun _ => ⟨_, rfl⟩, fun _ => ?_⟩, ?_, ?_, ?_⟩ <;> cases r <;> cases w <;> cases x <;> decide

/-- C162: the composed enumerators ask for exactly the permissions in their names. -/
theorem C162_composed (p : Perm) :
    (isFileAccessible false (some p) read_write = true ↔ p.mayRead = true ∧ p.mayWrite = true) ∧
    (isFileAccessible false (some p) read_exec = true ↔ p.mayRead = true ∧ p.mayExec = true) ∧
    (isFileAccessible false (some p) write_exec = true ↔ p.mayWrite = true ∧ p.mayExec = true) ∧
    (isFileAccessible false (some p) read_write_exec = true ↔
      p.mayRead = true ∧ p.mayWrite = true ∧ p.mayExec = true) := by
  obtain ⟨r, w, x⟩ := p
  refine ⟨?_, ?_, ?_, ?_⟩ <;> cases r <;> cases w <;> cases x <;> decide

/-- C162: whatever is asked, a file that does not exist is not accessible, and what is asked includes existence. -/
theorem C162_exist (windows : Bool) (file : Option Perm) (m : Mode) (h : isFileAccessible windows file m = true) :
    isFileAccessible windows file exist = true := by
  cases file with
  | none =>
    unfold isFileAccessible at h
    split at h <;> cases h
  | some p => cases windows <;> rfl

/-- C162: `&` tells whether a permission is among those of a mode. -/
theorem C162_contains (a m : Mode) : inter a m = a ↔ union a m = m := by
  unfold inter union
  constructor
  · intro h
    ext i hi
    have h := congrArg (fun x : Mode => x[i]) h
    simp only [BitVec.getElem_and, BitVec.getElem_or] at h ⊢
    revert h
    cases a[i] <;> cases m[i] <;> simp
  · intro h
    ext i hi
    have h := congrArg (fun x : Mode => x[i]) h
    simp only [BitVec.getElem_and, BitVec.getElem_or] at h ⊢
    revert h
    cases a[i] <;> cases m[i] <;> simp

/-- C162, on Windows: execution is never asked for, as the documentation warns: a mode gives the same with and without
it, and everything else is as on the other platforms. -/
theorem C162_windows (file : Option Perm) (m : Mode) :
    isFileAccessible true file m = isFileAccessible false file (m &&& ~~~exec) := by
  unfold isFileAccessible
  simp only [Bool.true_and, Bool.false_and, decide_eq_true_iff, Bool.false_eq_true, if_false]
  split
  · rfl
  · rename_i h
    have : m &&& ~~~exec = m := by
      have h0 : m.getLsbD 0 = false := by
        cases hb : m.getLsbD 0 with
        | false => rfl
        | true =>
          exfalso
          apply h
          unfold inter
          apply BitVec.eq_of_getLsbD_eq
          intro i hi
          rw [BitVec.getLsbD_and]
          cases i with
          | zero => rw [hb]; rfl
          | succ i =>
            have : exec.getLsbD (i + 1) = false := by
              show (1#32).getLsbD (i + 1) = false
              simp [BitVec.getLsbD_one]
            rw [this]
            rfl
      apply BitVec.eq_of_getLsbD_eq
      intro i hi
      rw [BitVec.getLsbD_and, BitVec.getLsbD_not]
      cases i with
      | zero => rw [h0]; rfl
      | succ i =>
        have : exec.getLsbD (i + 1) = false := by
          show (1#32).getLsbD (i + 1) = false
          simp [BitVec.getLsbD_one]
        rw [this]
        simp [hi]
    rw [this]

/-- Non-trivial case: a file that may be read and executed. -/
example : isFileAccessible false (some ⟨true, false, true⟩) read_exec = true ∧
    isFileAccessible false (some ⟨true, false, true⟩) read_write = false ∧
    isFileAccessible false (some ⟨true, true, true⟩) (read ||| 8) = false ∧
    isFileAccessible true (some ⟨true, false, false⟩) read_exec = true ∧
    inter read read_write = read ∧ inter exec read_write ≠ exec := by decide

end Verif.FileAccess
