import Verif.Lemmas.Timed
import Verif.Lemmas.Counter
/-!
Phases of the waits of `CounterWaitHandler` and `ConsumerWaitHandler`.
-/
namespace Verif.Counter
open Verif.Threads Verif.Timed
open Verif.WaitHandler (Reason StatusOp)

variable {T : Type}

/-- Phase of a place. -/
def PC.phase : PC T → Phase
  | .enter _ _ | .thEnter _ => .begun
  | .asleep _ _ | .thAsleep _ => .armed
  | .ready _ _ late | .thReady _ late => if late then .late else .armed
  | .idle (some (.reason .timeout)) | .idle (some (.threw .timeout)) => .done
  | _ => .out

/-- Phase of a thread. -/
def phase (s : State T) (i : Nat) : Phase := ((s.pcs[i]?).map PC.phase).getD .out

theorem phase_get {s : State T} {i : Nat} {x : PC T} (h : s.pcs[i]? = some x) :
    phase s i = x.phase := by simp [phase, h]

theorem phase_wake (x : PC T) : (wake x).phase = x.phase := by cases x <;> rfl
theorem phase_wakeTh (x : PC T) : (wakeTh x).phase = x.phase := by cases x <;> rfl

theorem phase_woken {l : List (PC T)} {s' : State T} (h : Woken l s'.pcs) (j : Nat) :
    phase s' j = ((l[j]?).map PC.phase).getD .out := by
  cases hj : l[j]? with
  | some a =>
    obtain ⟨a', h1, rfl | rfl | rfl⟩ := h.get hj
    · rw [phase_get h1]; rfl
    · rw [phase_get h1, phase_wake]; rfl
    · rw [phase_get h1, phase_wakeTh]; rfl
  | none =>
    cases hj' : s'.pcs[j]? with
    | none => simp [phase, hj']
    | some a' =>
      obtain ⟨a, h1, -⟩ := h.get' hj'
      rw [hj] at h1
      cases h1

/-- Thread `i` computes its deadline with its next step. -/
def Arms (s : State T) (i : Nat) : Prop :=
  (∃ c t, s.pcs[i]? = some (.enter c t)) ∨ ∃ t, s.pcs[i]? = some (.thEnter t)

theorem phase_own {s s' : State T} {i : Nat} {x y : PC T} (hx : s.pcs[i]? = some x)
    (h : Woken (s.pcs.set i y) s'.pcs) : phase s' i = y.phase := by
  rw [phase_woken h, get_set_self hx]; rfl

theorem phase_goto {s : State T} {i : Nat} {x y : PC T} (hx : s.pcs[i]? = some x) :
    phase (goto s i y) i = y.phase := phase_own hx (.refl _)

theorem phase_other' {s s' : State T} {i j : Nat} {y : PC T} (hj : j ≠ i)
    (h : Woken (s.pcs.set i y) s'.pcs) : phase s' j = phase s j := by
  rw [phase_woken h, get_set_ne hj]; rfl

theorem move_out {a b : Prop} {x y : Phase} (h : y = .out) : Move a b x y := by subst h; exact .out

theorem ran_move {s s' : State T} {i : Nat} {x : PC T} (hx : s.pcs[i]? = some x) (h : Ran s i x s') {b : Prop} :
    Move (Arms s i) b x.phase (phase s' i) := by
  have w : ∀ y : PC T, Woken (s.pcs.set i y) s'.pcs → phase s' i = y.phase := fun y hy => phase_own hx hy
  have na : x.phase = .armed → ¬ Arms s i := by
    rintro h (⟨c, t, e⟩ | ⟨t, e⟩) <;> rw [hx] at e <;> cases e <;> cases h
  cases h with
  | enterDisabled c t he => rw [w _ (.refl _)]; cases c <;> exact .out
  | enterGrant c t he hv => rw [w _ (decrease_same (goto s i (afterWait c .conditionMet))).1.woken]; cases c <;> exact .out
  | enterSleep c t he hv => rw [w _ (.refl _)]; exact .arm (Or.inl ⟨c, t, hx⟩)
  | readyDisabled c t l he => rw [w _ (.refl _)]; cases c <;> exact .out
  | readyGrant c t l he hv =>
    rw [w _ (decrease_same (goto { s with waiting := s.waiting - 1 } i (afterWait c .conditionMet))).1.woken]
    cases c <;> exact .out
  | readyTimeout c t he hv => rw [w _ (.refl _)]; cases c <;> exact .done
  | readySleep c t he hv => rw [w _ (.refl _)]; exact .same fun _ => na rfl
  | thEnterDisabled t he => rw [w _ (.refl _)]; exact .out
  | thEnterMet t he hv => rw [w _ (.refl _)]; exact .out
  | thEnterSleep t he hv => rw [w _ (.refl _)]; exact .arm (Or.inr ⟨t, hx⟩)
  | thReadyDisabled t l he => rw [w _ (.refl _)]; exact .out
  | thReadyMet t l he hv => rw [w _ (.refl _)]; exact .out
  | thReadyTimeout t he hv => rw [w _ (.refl _)]; exact .done
  | thReadySleep t he hv => rw [w _ (.refl _)]; exact .same fun _ => na rfl
  | inc p => rw [w _ (increment_same (goto s i (.idle none))).1.woken]; exact .out
  | acquire o hm => rw [w _ (.refl _)]; cases o <;> exact .out
  | disableSkip o he => rw [w _ (.refl _)]; cases o <;> exact .out
  | disableNotify o =>
    rw [w (afterDisable o) ?_]
    · cases o <;> exact .out
    · show Woken _ ((s.pcs.map wake).set i (afterDisable o))
      rw [map_wake_set (by cases o <;> rfl)]
      exact .map_wake _
  | drainEnd o hw => rw [w _ (.refl _)]; cases o <;> exact .out
  | drainNotify o =>
    rw [w (.drainTest o) ?_]
    · exact .out
    · show Woken _ ((s.pcs.map wake).set i (.drainTest o))
      rw [map_wake_set rfl]
      exact .map_wake _
  | _ => rw [w _ (.refl _)]; exact .out

theorem step_move {s s' : State T} {l : Label (Op T)} (h : step s l = some s') (i : Nat) :
    Move (l = .run i ∧ Arms s i) (l = .timeout i) (phase s i) (phase s' i) := by
  have other : ∀ (k : Nat) (y : PC T), i ≠ k → l ≠ .run i → phase (goto s k y) i = phase s i := by
    intro k y hk _
    exact phase_other' hk (.refl _)
  have same : l ≠ .run i → ∀ x, Move (l = .run i ∧ Arms s i) (l = .timeout i) x x :=
    fun h x => .same fun _ c => h c.1
  cases step_stepped h with
  | run k x s' hx hr =>
    by_cases hk : i = k
    · subst hk
      rw [phase_get hx]
      have := ran_move hx hr (b := (Label.run i : Label (Op T)) = .timeout i)
      generalize phase s' i = y at this ⊢
      generalize x.phase = z at this ⊢
      cases this with
      | same h => exact .same fun e c => h e c.2
      | out => exact .out
      | begun => exact .begun
      | arm h => exact .arm ⟨rfl, h⟩
      | late h => exact .late h
      | done => exact .done
    · obtain ⟨y, hy⟩ := ran_woken hr
      rw [phase_other' hk hy]
      exact same (fun e => by cases e; exact hk rfl) _
  | start k r op hx =>
    by_cases hk : i = k
    · subst hk
      rw [phase_goto hx]
      cases op <;> first | exact .out | exact .begun
    · rw [other k _ hk nofun]; exact same nofun _
  | spurious k c t hx =>
    by_cases hk : i = k
    · subst hk
      rw [phase_goto hx, phase_get hx]
      exact same nofun _
    · rw [other k _ hk nofun]; exact same nofun _
  | spuriousTh k t hx =>
    by_cases hk : i = k
    · subst hk
      rw [phase_goto hx, phase_get hx]
      exact same nofun _
    · rw [other k _ hk nofun]; exact same nofun _
  | timeout k c hx =>
    by_cases hk : i = k
    · subst hk
      rw [phase_goto hx, phase_get hx]
      exact .late rfl
    · rw [other k _ hk nofun]; exact same nofun _
  | timeoutTh k hx =>
    by_cases hk : i = k
    · subst hk
      rw [phase_goto hx, phase_get hx]
      exact .late rfl
    · rw [other k _ hk nofun]; exact same nofun _

theorem arms_iff {s s' : State T} {i : Nat} : (counter T).arms s i s' = true ↔ Arms s i := by
  unfold counter Arms
  dsimp only
  constructor
  · intro h
    split at h
    · rename_i c t hx; exact Or.inl ⟨c, t, hx⟩
    · rename_i t hx; exact Or.inr ⟨t, hx⟩
    · cases h
  · rintro (⟨p, t, hx⟩ | ⟨t, hx⟩) <;> rw [hx]

theorem good : Good (counter T) (fun _ => True) phase := by
  refine .of_move (fun _ _ _ _ _ => trivial) ?_
  intro (s : State T) l (s' : State T) i _ hs
  change Label (Op T) at l
  rw [show ((counter T).arms s i s' = true) = Arms s i from propext arms_iff]
  exact step_move hs i

end Verif.Counter
