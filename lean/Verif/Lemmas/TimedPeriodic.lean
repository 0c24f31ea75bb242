import Verif.Lemmas.Timed
import Verif.Lemmas.Periodic
/-!
Phases of the timer thread of `PeriodicEventHandler`.
-/
namespace Verif.Periodic
open Verif.Threads Verif.Timed

/-- Phase of a place; `active` is `timer_active_`. -/
def PC.phase (active : Bool) : PC → Phase
  | .lock => .begun
  | .test | .asleep | .again => .armed
  | .late | .timerLock | .timerTest => .late
  | .check => if active then .late else .out
  | .timerCall => .done
  | _ => .out

/-- Phase of a thread. -/
def phase (s : Conf (prog .plain)) (i : Nat) : Phase := ((s.pcs[i]?).map (PC.phase s.sh.active)).getD .out

theorem phase_get {s : Conf (prog .plain)} {i : Nat} {x : PC} (h : s.pcs[i]? = some x) :
    phase s i = x.phase s.sh.active := by
  simp [phase, show s.pcs[i]? = some x from h]

/-- Thread `i` computes its deadline with its next step. -/
def Arms (s : Conf (prog .plain)) (i : Nat) : Prop := s.pcs[i]? = some .lock

theorem ran_move {s s' : Sh} {i : Nat} {x y : PC} {b : Bool} (h : Ran i s x s' y b) {p q : Prop}
    (ha : p ↔ x = .lock) : Move p q (x.phase s.active) (y.phase s'.active) := by
  have na : x.phase s.active = .armed → ¬ p := by
    intro h e; cases ha.1 e; cases h
  cases h <;> first
    | exact .out
    | exact .begun
    | exact .done
    | exact .arm (ha.2 rfl)
    | exact .same na
    | skip
  case stay h => simp only [PC.phase, h]; exact .out
  case late h =>
    cases hs : s.active <;> simp only [PC.phase, hs]
    · exact .out
    · exact .same nofun
  case checkYes h => simp only [PC.phase, h]; exact .same nofun

theorem step_move {s s' : Conf (prog .plain)} {l : Label Op} (hI : (prog .plain).Inv Glob Loc s)
    (h : (prog .plain).step s l = some s') (i : Nat) :
    Move (l = .run i ∧ Arms s i) (l = .timeout i) (phase s i) (phase s' i) := by
  have hs := Prog.step_stepped h
  cases hx : s.pcs[i]? with
  | none =>
    have : s'.pcs[i]? = none := by
      have hl := Prog.stepped_length hs
      rw [List.getElem?_eq_none_iff] at hx ⊢
      omega
    simp only [phase, hx, this]
    exact .out
  | some x =>
    obtain ⟨y, hy, ht⟩ := Prog.track hs hx
    rw [phase_get hx, phase_get hy]
    rcases ht with ⟨op, -, hst, -⟩ | ⟨hl, b, hr⟩ | ⟨hl, hk, hsh⟩
    · cases x <;> cases op <;> cases hst <;> exact .out
    · refine ran_move (run_ran (i := i) (x := x) hr) ⟨?_, ?_⟩
      · rintro ⟨-, e⟩
        exact Option.some.inj (hx.symm.trans e)
      · rintro rfl
        exact ⟨hl, hx⟩
    · have same : ∀ x, Move (l = .run i ∧ Arms s i) (l = .timeout i) x x := fun x => .same fun _ c => hl c.1
      rcases hk with rfl | hk | hk
      · have hp : y.phase s'.sh.active = y.phase s.sh.active := by
          by_cases hc : y = .check
          · subst hc
            rcases hsh with e | ⟨k, w, z, b, hk, -, hw, hr⟩
            · rw [e]
            · have hper : s.sh.periodic = some i := (hI.loc i _ hx).periodic.1 rfl
              have hr := run_ran (i := k) (x := w) hr
              generalize s'.sh = sh' at hr ⊢
              cases hr <;> first
                | rfl
                | (rename_i h; rw [hper] at h; cases h; done)
          · cases y <;> first | rfl | exact absurd rfl hc
        rw [hp]
        exact same _
      · cases x <;> cases hk
        exact same _
      · cases x <;> cases hk
        rcases Prog.late_timeout hs hx hy hl (fun op => by cases op <;> rfl) with h' | h' | ⟨rfl, -⟩
        · cases h'
        · cases h'
        · exact .late rfl

theorem arms_iff {p : Nat} {s s' : Conf (prog .plain)} {i : Nat} :
    (periodic p).arms s i s' = true ↔ Arms s i := by
  unfold periodic Arms
  dsimp only
  constructor
  · intro h
    split at h
    · rename_i hx; exact hx
    · cases h
  · intro hx
    rw [hx]

theorem good (p : Nat) : Good (periodic p) ((prog .plain).Inv Glob Loc) phase := by
  refine .of_move (fun s l s' hi hs => local_.step hi (Label.allowed_true _) (Prog.step_stepped hs)) ?_
  intro s l s' i hI hs
  rw [show ((periodic p).arms s i s' = true) = Arms s i from propext arms_iff]
  exact step_move hI hs i

end Verif.Periodic
