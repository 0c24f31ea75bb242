import Verif.Lemmas.CounterPop
/-!
Waits with a timeout of a `CounterWaitHandler` end.
-/
namespace Verif.Counter
open Verif.Threads
open Verif.WaitHandler (Reason)

variable {T : Type}

/-- Within a wait with a timeout: of `wait_and_decrement`, of `consume`, or of `wait_threshold_reached`. -/
inductive InWait : Option Bool → PC T → Prop
  | enter (c : Bool) : InWait (some c) (.enter c true)
  | asleep (c : Bool) : InWait (some c) (.asleep c true)
  | ready (c l : Bool) : InWait (some c) (.ready c true l)
  | thEnter : InWait none (.thEnter true)
  | thAsleep : InWait none (.thAsleep true)
  | thReady (l : Bool) : InWait none (.thReady true l)

/-- Where it ends. -/
def endOf : Option Bool → Reason → PC T
  | some c, r => afterWait c r
  | none, r => .idle (some (.reason r))

theorem afterWait_wake (c : Bool) (r : Reason) {a : PC T}
    (h : a = afterWait c r ∨ a = wake (afterWait c r) ∨ a = wakeTh (afterWait c r)) : a = afterWait c r := by
  rcases h with h | h | h <;> rw [h] <;> cases c <;> cases r <;> rfl

theorem not_wait_end {w : Option Bool} {r : Reason} : ¬ InWait w (endOf w r : PC T) := by
  intro h
  cases w with
  | none => cases h
  | some c => cases c <;> cases r <;> cases h

theorem wait_ran {s s' : State T} {i : Nat} {x : PC T} {w : Option Bool} (hx : s.pcs[i]? = some x)
    (hw : InWait w x) (h : Ran s i x s') :
    s'.pcs[i]? = some (.asleep (w.getD false) true) ∧ w ≠ none ∨ s'.pcs[i]? = some (.thAsleep true) ∧ w = none ∨
      ∃ r, s'.pcs[i]? = some (endOf w r) := by
  have grant : ∀ (s : State T) (c : Bool) (y : PC T), s.pcs[i]? = some y →
      (decrease (goto s i (afterWait c .conditionMet))).pcs[i]? = some (afterWait c .conditionMet) := by
    intro s c y hy
    obtain ⟨a, ha, hc⟩ := (decrease_same (goto s i (afterWait c .conditionMet))).1.woken.get
      (show (s.pcs.set i (afterWait c .conditionMet))[i]? = _ from get_set_self hy)
    rw [ha, afterWait_wake c _ hc]
  cases hw with
  | enter c =>
    cases h with
    | enterDisabled c t he => exact Or.inr (Or.inr ⟨.disabled, get_set_self hx⟩)
    | enterGrant c t he hv => exact Or.inr (Or.inr ⟨.conditionMet, grant s c _ hx⟩)
    | enterSleep c t he hv => exact Or.inl ⟨get_set_self hx, nofun⟩
  | asleep c => cases h
  | ready c l =>
    cases h with
    | readyDisabled c t l he => exact Or.inr (Or.inr ⟨.disabled, get_set_self hx⟩)
    | readyGrant c t l he hv =>
      exact Or.inr (Or.inr ⟨.conditionMet, grant { s with waiting := s.waiting - 1 } c _ hx⟩)
    | readyTimeout c t he hv => exact Or.inr (Or.inr ⟨.timeout, get_set_self hx⟩)
    | readySleep c t he hv => exact Or.inl ⟨get_set_self hx, nofun⟩
  | thEnter =>
    cases h with
    | thEnterDisabled t he => exact Or.inr (Or.inr ⟨.disabled, get_set_self hx⟩)
    | thEnterMet t he hv => exact Or.inr (Or.inr ⟨.conditionMet, get_set_self hx⟩)
    | thEnterSleep t he hv => exact Or.inr (Or.inl ⟨get_set_self hx, rfl⟩)
  | thAsleep => cases h
  | thReady l =>
    cases h with
    | thReadyDisabled t l he => exact Or.inr (Or.inr ⟨.disabled, get_set_self hx⟩)
    | thReadyMet t l he hv => exact Or.inr (Or.inr ⟨.conditionMet, get_set_self hx⟩)
    | thReadyTimeout t he hv => exact Or.inr (Or.inr ⟨.timeout, get_set_self hx⟩)
    | thReadySleep t he hv => exact Or.inr (Or.inl ⟨get_set_self hx, rfl⟩)

/-- A thread stays in its wait until the wait ends. -/
theorem wait_frame {s s' : State T} {l : Label (Op T)} (h : Stepped s l s') {i : Nat} {x : PC T}
    {w : Option Bool} (hx : s.pcs[i]? = some x) (hw : InWait w x) :
    (∃ y, s'.pcs[i]? = some y ∧ InWait w y) ∨ ∃ r, s'.pcs[i]? = some (endOf w r) := by
  have key : ∀ (k : Nat) (y : PC T) (pcs' : List (PC T)), k ≠ i → Woken (s.pcs.set k y) pcs' →
      ∃ y, pcs'[i]? = some y ∧ InWait w y := by
    intro k y pcs' hk hwk
    have hg : (s.pcs.set k y)[i]? = some x := by
      rw [get_set_ne (fun e => hk e.symm)]; exact hx
    obtain ⟨a', ha', e⟩ := hwk.get hg
    refine ⟨a', ha', ?_⟩
    rcases e with e | e | e <;> subst e
    · exact hw
    · cases hw <;> constructor
    · cases hw <;> constructor
  cases h with
  | run k y s' hy hr =>
    by_cases hk : k = i
    · subst hk
      rw [hx] at hy
      cases hy
      rcases wait_ran hx hw hr with ⟨h, hn⟩ | ⟨h, rfl⟩ | h
      · cases w with
        | none => exact absurd rfl hn
        | some c => exact Or.inl ⟨_, h, .asleep c⟩
      · exact Or.inl ⟨_, h, .thAsleep⟩
      · exact Or.inr h
    · obtain ⟨z, hz⟩ := ran_woken hr
      exact Or.inl (key k z _ hk hz)
  | start k r op hy =>
    exact Or.inl (key k _ _ (by rintro rfl; rw [hx] at hy; cases hy; cases hw) (.refl _))
  | spurious k c t hy =>
    by_cases hk : k = i
    · subst hk
      rw [hx] at hy
      cases hy
      cases hw
      exact Or.inl ⟨_, get_set_self hx, .ready _ _⟩
    · exact Or.inl (key k _ _ hk (.refl _))
  | spuriousTh k t hy =>
    by_cases hk : k = i
    · subst hk
      rw [hx] at hy
      cases hy
      cases hw
      exact Or.inl ⟨_, get_set_self hx, .thReady _⟩
    · exact Or.inl (key k _ _ hk (.refl _))
  | timeout k c hy =>
    by_cases hk : k = i
    · subst hk
      rw [hx] at hy
      cases hy
      cases hw
      exact Or.inl ⟨_, get_set_self hx, .ready _ _⟩
    · exact Or.inl (key k _ _ hk (.refl _))
  | timeoutTh k hy =>
    by_cases hk : k = i
    · subst hk
      rw [hx] at hy
      cases hy
      cases hw
      exact Or.inl ⟨_, get_set_self hx, .thReady _⟩
    · exact Or.inl (key k _ _ hk (.refl _))

/-- Timeouts that are possible again and again occur. -/
def Expires (e : (system T).Execution) : Prop := ∀ i n,
  (∀ m, n ≤ m → ∃ k, m ≤ k ∧ (step (e.at_ k) (.timeout i)).isSome) →
    ∃ m, n ≤ m ∧ step (e.at_ m) (.timeout i) = some (e.at_ (m + 1))

variable (e : (system T).Execution)

theorem wait_ends (hf : e.Fair) (hto : Expires e) (i n : Nat) (x : PC T) (w : Option Bool)
    (hx : (e.at_ n).pcs[i]? = some x) (hw : InWait w x) :
    ∃ m r, n ≤ m ∧ (e.at_ m).pcs[i]? = some (endOf w r) := by
  refine Classical.byContradiction fun hno => ?_
  have hno : ∀ m r, n ≤ m → (e.at_ m).pcs[i]? ≠ some (endOf w r) := fun m r hm h => hno ⟨m, r, hm, h⟩
  have hin : ∀ m, n ≤ m → ∃ y, (e.at_ m).pcs[i]? = some y ∧ InWait w y := by
    intro m hm
    induction hm with
    | refl => exact ⟨x, hx, hw⟩
    | step hm ih =>
      rename_i m
      have hm : n ≤ m := hm
      obtain ⟨y, hy, hwy⟩ := ih
      rcases e.next m with ⟨-, h⟩ | ⟨l, -, h⟩
      · rw [h]; exact ⟨y, hy, hwy⟩
      · rcases wait_frame (step_stepped h) hy hwy with h | ⟨r, h⟩
        · exact h
        · exact absurd h (hno (m + 1) r (by omega))
  -- it sleeps again and again
  have hsl : ∀ m, n ≤ m → ∃ k, m ≤ k ∧ (step (e.at_ k) (.timeout i)).isSome := by
    have asleep : ∀ k y, n ≤ k → (e.at_ k).pcs[i]? = some y → InWait w y → y.active = false →
        (step (e.at_ k) (.timeout i)).isSome := by
      intro k y _ hy hwy ha
      unfold step
      cases hwy <;> first | cases ha; done | (simp only [hy]; rfl)
    intro m hm
    obtain ⟨y, hy, hwy⟩ := hin m hm
    cases ha : y.active with
    | false => exact ⟨m, Nat.le_refl m, asleep m y hm hy hwy ha⟩
    | true =>
      obtain ⟨k, hk, hyk, hr⟩ := active_runs e hf i y ha (by rintro o rfl; cases hwy)
        (by rintro rfl; cases hwy) m hy
      refine ⟨k + 1, by omega, ?_⟩
      rcases wait_ran hyk hwy hr with ⟨h, hn⟩ | ⟨h, rfl⟩ | ⟨r, h⟩
      · cases w with
        | none => exact absurd rfl hn
        | some c => exact asleep (k + 1) _ (by omega) h (.asleep c) rfl
      · exact asleep (k + 1) _ (by omega) h .thAsleep rfl
      · exact absurd h (hno (k + 1) r (by omega))
  obtain ⟨m, hm, hs⟩ := hto i n hsl
  obtain ⟨y, hy, hwy⟩ := hin m hm
  -- then it leaves
  have hs := step_stepped hs
  obtain ⟨z, hz, hlate⟩ : ∃ z, (e.at_ (m + 1)).pcs[i]? = some z ∧
      ((∃ c, w = some c ∧ z = .ready c true true) ∨ w = none ∧ z = .thReady true true) := by
    generalize e.at_ (m + 1) = s' at hs
    cases hs with
    | timeout k c hy' =>
      rw [hy] at hy'
      cases hy'
      cases hwy
      exact ⟨_, get_set_self hy, Or.inl ⟨c, rfl, rfl⟩⟩
    | timeoutTh k hy' =>
      rw [hy] at hy'
      cases hy'
      cases hwy
      exact ⟨_, get_set_self hy, Or.inr ⟨rfl, rfl⟩⟩
  have hza : z.active = true := by rcases hlate with ⟨c, -, rfl⟩ | ⟨-, rfl⟩ <;> rfl
  obtain ⟨k, hk, hyk, hr⟩ := active_runs e hf i z hza
    (by rintro o rfl; rcases hlate with ⟨c, -, h⟩ | ⟨-, h⟩ <;> cases h)
    (by rintro rfl; rcases hlate with ⟨c, -, h⟩ | ⟨-, h⟩ <;> cases h) (m + 1) hz
  have hzw : InWait w z := by
    rcases hlate with ⟨c, rfl, rfl⟩ | ⟨rfl, rfl⟩
    · exact .ready c true
    · exact .thReady true
  rcases wait_ran hyk hzw hr with ⟨h, hn⟩ | ⟨h, rfl⟩ | ⟨r, h⟩
  · rcases hlate with ⟨c, rfl, rfl⟩ | ⟨rfl, -⟩
    · generalize e.at_ (k + 1) = s' at hr h
      cases hr with
      | readyDisabled c t l he =>
        have := (get_set_self hyk).symm.trans h
        cases c <;> cases this
      | readyGrant c t l he hv =>
        obtain ⟨a, ha, hc⟩ := (decrease_same (goto { (e.at_ k) with waiting := (e.at_ k).waiting - 1 } i
          (afterWait c .conditionMet))).1.woken.get
          (show ((e.at_ k).pcs.set i (afterWait c .conditionMet))[i]? = _ from get_set_self hyk)
        rw [afterWait_wake c _ hc] at ha
        have := ha.symm.trans h
        cases c <;> cases this
      | readyTimeout c t he hv =>
        have := (get_set_self hyk).symm.trans h
        cases c <;> cases this
    · exact absurd rfl hn
  · rcases hlate with ⟨c, h, -⟩ | ⟨-, rfl⟩
    · cases h
    · generalize e.at_ (k + 1) = s' at hr h
      cases hr with
      | thReadyDisabled t l he =>
        have := (get_set_self hyk).symm.trans h
        cases this
      | thReadyMet t l he hv =>
        have := (get_set_self hyk).symm.trans h
        cases this
      | thReadyTimeout t he hv =>
        have := (get_set_self hyk).symm.trans h
        cases this
  · exact hno (k + 1) r (by omega) h

end Verif.Counter
