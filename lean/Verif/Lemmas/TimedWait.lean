import Verif.Lemmas.Timed
import Verif.Lemmas.WaitHandlerSleep
/-!
Phases of the waits of `WaitHandler`.
-/
namespace Verif.WaitHandler
open Verif.Threads Verif.Timed

variable {T : Type}

/-- Phase of a place. -/
def PC.phase : PC T → Phase
  | .enter _ _ => .begun
  | .asleep _ _ => .armed
  | .ready _ _ late => if late then .late else .armed
  | .leaving _ _ (some false) => .late
  | .idle (some .timeout) => .done
  | _ => .out

/-- Phase of a thread. -/
def phase (s : State T) (i : Nat) : Phase := ((s.pcs[i]?).map PC.phase).getD .out

theorem phase_wake (x : PC T) : (wake x).phase = x.phase := by cases x <;> rfl

theorem phase_get {s : State T} {i : Nat} {x : PC T} (h : s.pcs[i]? = some x) :
    phase s i = x.phase := by simp [phase, h]

theorem phase_goto {s : State T} {i : Nat} {y : PC T} (h : i < s.pcs.length) : phase (goto s i y) i = y.phase :=
  phase_get (by simp [goto, h])

theorem phase_first (o : StatusOp) : (first o : PC T).phase = .out := by cases o <;> rfl
theorem phase_afterDisable (o : StatusOp) : (afterDisable o : PC T).phase = .out := by cases o <;> rfl
theorem phase_afterDrain (o : StatusOp) : (afterDrain o : PC T).phase = .out := by cases o <;> rfl

/-- Thread `i` computes its deadline with its next step. -/
def Arms (s : State T) (i : Nat) : Prop := ∃ p t, s.pcs[i]? = some (.enter p t)

theorem move_out {a b : Prop} {x y : Phase} (h : y = .out) : Move a b x y := by subst h; exact .out

theorem own_move {s s' : State T} {l : Label (Op T)} (h : step s l = some s') :
    Move (l = .run (tid l) ∧ Arms s (tid l)) (l = .timeout (tid l)) (phase s (tid l)) (phase s' (tid l)) := by
  cases l with
  | run i =>
    simp only [step, run, tid] at h
    dsimp only [tid]
    cases hx : s.pcs[i]? with
    | none => rw [hx] at h; cases h
    | some x =>
      rw [hx] at h
      have hlt : i < s.pcs.length := (List.getElem?_eq_some_iff.1 hx).1
      have hn : ∀ y : PC T, phase (goto (notifyAll s) i y) i = y.phase := by
        intro y
        exact phase_goto (by simp [notifyAll, hlt])
      rw [phase_get hx]
      cases x with
      | enter p t =>
        simp only at h
        (repeat' split at h) <;> first
          | (cases h; done)
          | (cases h; rw [phase_goto (by exact hlt)]; exact .out)
          | (cases h; unfold endWait; rw [phase_goto (by exact hlt)]; exact .out)
          | (cases h; rw [phase_goto (by exact hlt)]; exact .arm ⟨rfl, p, t, hx⟩)
      | ready p t late =>
        simp only at h
        have hna : ¬ ((Label.run i : Label (Op T)) = .run i ∧ Arms s i) := by
          rintro ⟨-, p', t', h'⟩; rw [hx] at h'; cases h'
        cases late <;> (repeat' split at h) <;> first
          | (cases h; done)
          | (cases h; rw [phase_goto (by exact hlt)]; exact .out)
          | (cases h; unfold endWait; rw [phase_goto (by exact hlt)]; exact .out)
          | (cases h; rw [phase_goto (by exact hlt)]; exact .same fun _ => hna)
          | (cases h; unfold endWait; rw [phase_goto (by exact hlt)]; exact .same fun _ => hna)
          | (rename_i c; exact absurd rfl c)
          | (rename_i c; cases c; done)
          | (simp at *; done)
      | leaving p t f =>
        simp only at h
        cases h
        rw [phase_goto (by exact (List.getElem?_eq_some_iff.1 hx).1)]
        cases f with
        | none => exact .out
        | some b =>
          cases b <;> cases he : s.enabled <;> simp only [reason, he] <;> first
            | exact .out
            | exact .done
      | _ =>
        simp only at h
        (repeat' split at h) <;> first
          | (cases h; done)
          | (cases h
             rw [phase_goto (by exact (List.getElem?_eq_some_iff.1 hx).1)]
             exact move_out (by first | rfl | exact phase_first _ | exact phase_afterDisable _ | exact phase_afterDrain _))
          | (cases h
             rw [hn]
             exact move_out (by first | rfl | exact phase_first _ | exact phase_afterDisable _ | exact phase_afterDrain _))
  | start i op =>
    simp only [step, start, tid] at h
    dsimp only [tid]
    split at h
    · rename_i r hx
      cases h
      rw [phase_goto (by exact (List.getElem?_eq_some_iff.1 hx).1)]
      cases op <;> first | exact .out | exact .begun
    · cases h
  | spurious i =>
    simp only [step, tid] at h
    dsimp only [tid]
    split at h
    · rename_i p t hx
      cases h
      rw [phase_goto (List.getElem?_eq_some_iff.1 hx).1, phase_get hx]
      exact .same fun _ c => (by cases c.1)
    · cases h
  | timeout i =>
    simp only [step, tid] at h
    dsimp only [tid]
    split at h
    · rename_i p hx
      cases h
      rw [phase_goto (List.getElem?_eq_some_iff.1 hx).1, phase_get hx]
      exact .late rfl
    · cases h

theorem phase_other {s s' : State T} {l : Label (Op T)}
    (h : step s l = some s') {i : Nat} (hi : i ≠ tid l) : phase s' i = phase s i := by
  cases hx : s.pcs[i]? with
  | some x =>
    rcases frame_ne h hi hx with h' | h'
    · rw [phase_get h', phase_get hx]
    · rw [phase_get h', phase_get hx, phase_wake]
  | none =>
    have : s'.pcs[i]? = none := by
      cases hx' : s'.pcs[i]? with
      | none => rfl
      | some x' =>
        obtain ⟨x0, h0, -⟩ := frame_ne' h hi hx'
        rw [hx] at h0
        cases h0
    simp [phase, hx, this]

theorem arms_iff {s s' : State T} {i : Nat} : (waitHandler T).arms s i s' = true ↔ Arms s i := by
  unfold waitHandler Arms
  dsimp only
  constructor
  · intro h
    split at h
    · rename_i p t hx; exact ⟨p, t, hx⟩
    · cases h
  · rintro ⟨p, t, hx⟩
    rw [hx]

theorem good : Good (waitHandler T) (fun _ => True) phase := by
  refine .of_move (fun _ _ _ _ _ => trivial) ?_
  intro (s : State T) l (s' : State T) i _ hs
  change Label (Op T) at l
  rw [show ((waitHandler T).arms s i s' = true) = Arms s i from propext arms_iff]
  by_cases hi : i = tid l
  · rw [hi]; exact own_move hs
  · rw [phase_other hs hi]
    exact .same fun _ c => hi (by rw [c.1]; rfl)

end Verif.WaitHandler
