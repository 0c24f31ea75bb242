import Verif.Lemmas.Timed
import Verif.Lemmas.PyWaitHandler
/-!
Phases of the waits of the Python `WaitHandler`.
-/
namespace Verif.PyWaitHandler
open Verif.Threads Verif.Timed

variable {T : Type}

/-- Phase of a place. -/
def PC.phase : PC T → Phase
  | .acq (.wait _ _) | .body (.wait _ _) => .begun
  | .asleep _ _ => .armed
  | .test _ _ late | .again _ _ late => if late then .late else .armed
  | .leave _ _ met | .ret _ _ met => if met then .out else .late
  | .idle (some (.reason .timeout)) => .done
  | .rel (.reason .timeout) => .late
  | _ => .out

/-- Phase of a thread. -/
def phase (s : Conf (prog T)) (i : Nat) : Phase := ((s.pcs[i]?).map PC.phase).getD .out

theorem phase_get {s : Conf (prog T)} {i : Nat} {x : PC T} (h : s.pcs[i]? = some x) :
    phase s i = x.phase := by
  simp [phase, show s.pcs[i]? = some x from h]

/-- Thread `i` computes its deadline with its next step. -/
def Arms (s : Conf (prog T)) (i : Nat) : Prop := ∃ p t, s.pcs[i]? = some (.body (.wait p t))

theorem run_move {s : Sh T} {i : Nat} {x : PC T} {r : Sh T × PC T × Bool} (h : run i s x = some r) {a b : Prop}
    (ha : a ↔ ∃ p t, x = .body (.wait p t)) : Move a b x.phase r.2.1.phase := by
  have na : x.phase = .armed → ¬ a := by
    intro h e; obtain ⟨p, t, rfl⟩ := ha.1 e; cases h
  cases x with
  | body op =>
    cases op <;> simp only [run] at h <;> cases h <;> first | exact .out | exact .arm (ha.2 ⟨_, _, rfl⟩)
  | test p t l =>
    simp only [run] at h
    cases l <;> (repeat' split at h) <;> first
      | (cases h; exact .out)
      | (cases h; exact .same na)
      | (simp at *; done)
  | again p t l =>
    simp only [run] at h
    split at h
    · cases h
    · cases h; exact .same na
  | leave p t m => cases h; exact .same na
  | ret p t m =>
    cases h
    cases m <;> cases he : s.enabled <;> simp only [reason, he] <;> first | exact .out | exact .done
  | acq op =>
    simp only [run] at h
    split at h
    · cases h
    · cases h
      cases op <;> first | exact .out | exact .begun
  | idle r => cases h
  | asleep p t => cases h
  | notify => cases h; exact .out
  | drainTest => simp only [run] at h; split at h <;> cases h <;> exact .out
  | drainNotify => cases h; exact .out
  | rel r =>
    cases h
    cases r <;> first | exact .out | skip
    rename_i r
    cases r <;> first | exact .out | exact .done

theorem start_move {x y : PC T} {op : Op T} (h : start x op = some y) {a b : Prop} : Move a b x.phase y.phase := by
  cases x <;> cases h
  cases op <;> first | exact .out | exact .begun

theorem step_move {s s' : Conf (prog T)} {l : Label (Op T)} (h : (prog T).step s l = some s') (i : Nat) :
    Move (l = .run i ∧ Arms s i) (l = .timeout i) (phase s i) (phase s' i) := by
  have hs := Prog.step_stepped h
  cases hx : s.pcs[i]? with
  | none =>
    have : s'.pcs[i]? = none := by
      have hl := Prog.stepped_length hs
      rw [List.getElem?_eq_none_iff] at hx ⊢
      omega
    simp only [phase, hx, this]
    exact .out
  | some x =>
    obtain ⟨y, hy, ht⟩ := Prog.track hs hx
    rw [phase_get hx, phase_get hy]
    rcases ht with ⟨op, -, hst, -⟩ | ⟨hl, b, hr⟩ | ⟨hl, hk, -⟩
    · exact start_move hst
    · refine run_move hr ⟨?_, ?_⟩
      · rintro ⟨-, p, t, e⟩
        rw [hx] at e
        cases e
        exact ⟨p, t, rfl⟩
      · rintro ⟨p, t, rfl⟩
        exact ⟨hl, p, t, hx⟩
    · have same : ∀ x, Move (l = .run i ∧ Arms s i) (l = .timeout i) x x := fun x => .same fun _ c => hl c.1
      rcases hk with rfl | hk | hk
      · exact same _
      · cases x <;> cases hk
        exact same _
      · cases x with
        | asleep p t =>
          rcases Prog.late_timeout hs hx hy hl (fun op => rfl) with rfl | h' | ⟨rfl, -⟩
          · exact same _
          · cases h'; exact same _
          · cases t <;> cases hk
            exact .late rfl
        | _ => cases hk

theorem arms_iff {s s' : Conf (prog T)} {i : Nat} : (pyWaitHandler T).arms s i s' = true ↔ Arms s i := by
  unfold pyWaitHandler Arms
  dsimp only
  constructor
  · intro h
    split at h
    · rename_i p t hx; exact ⟨p, t, hx⟩
    · cases h
  · rintro ⟨p, t, hx⟩
    rw [hx]

theorem good : Good (pyWaitHandler T) (fun _ => True) phase := by
  refine .of_move (fun _ _ _ _ _ => trivial) ?_
  intro s l s' i _ hs
  rw [show ((pyWaitHandler T).arms s i s' = true) = Arms s i from propext arms_iff]
  exact step_move hs i

end Verif.PyWaitHandler
