import Verif.Model.CounterDestroy
import Verif.Lemmas.CounterLive
/-!
Destroying a consumer queue whose other threads are idle or wait for elements.
-/
namespace Verif.Counter
open Verif.Threads
open Verif.WaitHandler (Reason StatusOp)

variable {T : Type}

/-- Waits in `wait_and_decrement` or `consume`; `l`: its timeout has passed. -/
def WaitsAs (x0 : PC T) (c t l : Bool) : Prop := (x0 = .asleep c t ∧ l = false) ∨ x0 = .ready c t l

/-- What becomes of a thread at `x0`. -/
inductive Went (x0 : PC T) : PC T → Prop
  | idle (r : Option (Ret T)) (h : x0 = .idle r) : Went x0 (.idle r)
  | asleep (c t l : Bool) (h : WaitsAs x0 c t l) : Went x0 (.asleep c t)
  | ready (c t l : Bool) (h : WaitsAs x0 c t l) (late : Bool) (hl : late = true → (t || l) = true) :
      Went x0 (.ready c t late)
  | ended (c t l : Bool) (h : WaitsAs x0 c t l) (r : Reason) (hr : r = .disabled ∨ (r = .timeout ∧ (t || l) = true))
      (x : PC T) (hx : x = afterWait c r) : Went x0 x

/-- Places of the destroying thread, by the stage and `threads_waiting_`. -/
inductive Place (w k : Nat) : PC T → Prop
  | before (hk : k ≤ 2) (r : Option (Ret T)) : Place w k (.idle r)
  | acquire (hk : k = 3) : Place w k (.acquire .blockingDisable)
  | disableTest (hk : k = 3) : Place w k (.disableTest .blockingDisable)
  | disableNotify (hk : k = 3) : Place w k (.disableNotify .blockingDisable)
  | drainTest (hk : k = 3) : Place w k (.drainTest .blockingDisable)
  | drainNotify (hk : k = 3) : Place w k (.drainNotify .blockingDisable)
  | release (hk : k = 3) (hw : w = 0) : Place w k (.release .blockingDisable)
  | after (hk : 3 ≤ k) (hw : w = 0) (r : Option (Ret T)) : Place w k (.idle r)

theorem Place.less {w w' k : Nat} {x : PC T} (h : Place w k x) (hw : w' ≤ w) : Place w' k x := by
  cases h with
  | before hk r => exact .before hk r
  | acquire hk => exact .acquire hk
  | disableTest hk => exact .disableTest hk
  | disableNotify hk => exact .disableNotify hk
  | drainTest hk => exact .drainTest hk
  | drainNotify hk => exact .drainNotify hk
  | release hk h => exact .release hk (by omega)
  | after hk h r => exact .after hk (by omega) r

structure Dying (s0 : State T) (d : Nat) (s : DState T) : Prop where
  destroyer : s.destroyer = some d
  others : ∀ j : Nat, j ≠ d → ∀ x, s.base.pcs[j]? = some x → ∃ x0, s0.pcs[j]? = some x0 ∧ Went x0 x
  empty : s.base.enabled = true → s.base.value ≤ s.base.threshold
  st : St s.base
  place : ∃ x, s.base.pcs[d]? = some x ∧ Place s.base.waiting s.stage x
  length : s.base.pcs.length = s0.pcs.length

theorem Went.wake {x0 x : PC T} (h : Went x0 x) : Went x0 (wake x) := by
  cases h with
  | idle r h => exact .idle r h
  | asleep c t l h => exact .ready c t l h false nofun
  | ready c t l h late hl => exact .ready c t l h late hl
  | ended c t l h r hr x hx =>
    subst hx
    refine .ended c t l h r hr _ ?_
    cases c <;> cases r <;> rfl

/-- A step of another thread. -/
theorem other_step {s0 b b' : State T} {i : Nat} {x : PC T} (hx : b.pcs[i]? = some x) {x0 : PC T} (hw : Went x0 x)
    (he : b.enabled = true → b.value ≤ b.threshold) (hr : Ran b i x b') :
    ∃ y, b'.pcs = b.pcs.set i y ∧ Went x0 y ∧ b'.enabled = b.enabled ∧ b'.value = b.value ∧
      b'.threshold = b.threshold ∧ b'.waiting ≤ b.waiting := by
  cases hr with
  | readyDisabled c t l he' =>
    cases hw with
    | ready c t l0 h late hl =>
      exact ⟨_, rfl, .ended c t l0 h .disabled (Or.inl rfl) _ rfl, rfl, rfl, rfl, Nat.sub_le _ _⟩
    | ended c' t' l' h r hr x hx => cases c' <;> cases r <;> first | cases hx | (rcases hr with hr | ⟨hr, -⟩ <;> cases hr)
  | readyGrant c t l he' hv => exact absurd hv (Nat.not_lt.2 (he he'))
  | readyTimeout c t he' hv =>
    cases hw with
    | ready c t l0 h late hl =>
      exact ⟨_, rfl, .ended c t l0 h .timeout (Or.inr ⟨rfl, hl rfl⟩) _ rfl, rfl, rfl, rfl, Nat.sub_le _ _⟩
    | ended c' t' l' h r hr x hx => cases c' <;> cases r <;> first | cases hx | (rcases hr with hr | ⟨hr, -⟩ <;> cases hr)
  | readySleep c t he' hv =>
    cases hw with
    | ready c t l0 h late hl => exact ⟨_, rfl, .asleep c t l0 h, rfl, rfl, rfl, Nat.le_refl _⟩
    | ended c' t' l' h r hr x hx => cases c' <;> cases r <;> first | cases hx | (rcases hr with hr | ⟨hr, -⟩ <;> cases hr)
  | _ =>
    exfalso
    cases hw with
    | ended c' t' l' h r hr x hx => cases c' <;> cases r <;> first | (cases hx; done) | (rcases hr with hr | ⟨hr, -⟩ <;> cases hr)

theorem dying_set {s0 : State T} {d : Nat} {s : DState T} {b' : State T} (h : Dying s0 d s) {i : Nat} {y x : PC T}
    (hi : i ≠ d) (hx : s.base.pcs[i]? = some x) (hp : b'.pcs = s.base.pcs.set i y)
    (hy : ∀ x0, Went x0 x → Went x0 y) (he : b'.enabled = s.base.enabled) (hv : b'.value = s.base.value)
    (ht : b'.threshold = s.base.threshold) (hw : b'.waiting ≤ s.base.waiting) (hst : St b') :
    Dying s0 d { s with base := b' } := by
  refine ⟨h.destroyer, ?_, ?_, hst, ?_, ?_⟩
  · intro j hj z hz
    have hz : b'.pcs[j]? = some z := hz
    rw [hp] at hz
    rcases set_get hz with ⟨rfl, rfl, -⟩ | ⟨-, hz⟩
    · obtain ⟨x0, h0, hw⟩ := h.others _ hj x hx
      exact ⟨x0, h0, hy x0 hw⟩
    · exact h.others j hj z hz
  · intro e
    have e : b'.enabled = true := e
    show b'.value ≤ b'.threshold
    rw [hv, ht]
    exact h.empty (he ▸ e)
  · obtain ⟨z, hz, hpl⟩ := h.place
    refine ⟨z, ?_, hpl.less hw⟩
    show b'.pcs[d]? = some z
    rw [hp, get_set_ne (Ne.symm hi)]
    exact hz
  · show b'.pcs.length = _
    rw [hp, List.length_set]
    exact h.length

/-- A step of the destroying thread within `blocking_disable`. -/
theorem dying_own {s0 : State T} {d : Nat} {s : DState T} {b' : State T} (h : Dying s0 d s) (h3 : s.stage = 3)
    {x : PC T} (hx : s.base.pcs[d]? = some x) (hr : Ran s.base d x b') : Dying s0 d { s with base := b' } := by
  have hst : St b' := st_step h.st (.run d x b' hx hr)
  obtain ⟨z, hz, hpl⟩ := h.place
  rw [hx] at hz
  cases hz
  rw [h3] at hpl
  have mk : ∀ (y : PC T) (f : PC T → PC T), (∀ x0 x, Went x0 x → Went x0 (f x)) →
      b'.pcs = (s.base.pcs.map f).set d y → Place b'.waiting 3 y →
      b'.value = s.base.value → b'.threshold = s.base.threshold →
      (b'.enabled = true → s.base.enabled = true) → Dying s0 d { s with base := b' } := by
    intro y f hf hp hpl hv ht he
    refine ⟨h.destroyer, ?_, ?_, hst, ?_, ?_⟩
    · intro j hj w hw
      have hw : b'.pcs[j]? = some w := hw
      rw [hp, get_set_ne hj, List.getElem?_map] at hw
      obtain ⟨a, ha, rfl⟩ := Option.map_eq_some_iff.1 hw
      obtain ⟨x0, h0, hwent⟩ := h.others j hj a ha
      exact ⟨x0, h0, hf x0 a hwent⟩
    · intro e
      show b'.value ≤ b'.threshold
      rw [hv, ht]
      exact h.empty (he e)
    · refine ⟨y, ?_, by rw [h3]; exact hpl⟩
      show b'.pcs[d]? = some y
      rw [hp]
      refine get_set_self (x := f x) ?_
      rw [List.getElem?_map, hx]
      rfl
    · show b'.pcs.length = _
      rw [hp, List.length_set, List.length_map]
      exact h.length
  have mk' : ∀ y : PC T, b'.pcs = s.base.pcs.set d y → Place b'.waiting 3 y →
      b'.value = s.base.value → b'.threshold = s.base.threshold →
      (b'.enabled = true → s.base.enabled = true) → Dying s0 d { s with base := b' } := by
    intro y hp
    refine mk y id (fun _ _ h => h) ?_
    rw [List.map_id]
    exact hp
  cases hpl with
  | before hk => omega
  | acquire =>
    cases hr with
    | acquire o hm => exact mk' _ rfl (.disableTest rfl) rfl rfl id
  | disableTest =>
    cases hr with
    | disableStore o he => exact mk' _ rfl (.disableNotify rfl) rfl rfl nofun
    | disableSkip o he => exact mk' _ rfl (.drainTest rfl) rfl rfl id
  | disableNotify =>
    cases hr with
    | disableNotify o => exact mk _ wake (fun _ _ h => h.wake) rfl (.drainTest rfl) rfl rfl id
  | drainTest =>
    cases hr with
    | drainMore o hw => exact mk' _ rfl (.drainNotify rfl) rfl rfl id
    | drainEnd o hw => exact mk' _ rfl (.release rfl hw) rfl rfl id
  | drainNotify =>
    cases hr with
    | drainNotify o => exact mk _ wake (fun _ _ h => h.wake) rfl (.drainTest rfl) rfl rfl id
  | release hk hw =>
    cases hr with
    | release o => exact mk' _ rfl (.after (Nat.le_refl _) hw none) rfl rfl id
  | after hk hw r => cases hr

theorem dying_stage {s0 : State T} {d : Nat} {s : DState T} (h : Dying s0 d s) (k : Nat)
    (hk : ∀ x, Place s.base.waiting s.stage x → s.base.pcs[d]? = some x → Place s.base.waiting k x) :
    Dying s0 d { s with stage := k } := by
  obtain ⟨x, hx, hp⟩ := h.place
  exact ⟨h.destroyer, h.others, h.empty, h.st, ⟨x, hx, hk x hp hx⟩, h.length⟩

theorem dying_step {s0 : State T} {d : Nat} {s s' : DState T} {l : Label (DOp T)} (h : Dying s0 d s)
    (hs : dstep s l = some s') : Dying s0 d s' := by
  have hd := h.destroyer
  cases l with
  | start i op =>
    cases op <;> simp only [dstep, hd, Option.isSome_some, if_true] at hs <;> cases hs
  | run i =>
    by_cases hi : d = i
    · subst hi
      simp only [dstep, hd, if_true] at hs
      unfold destruct at hs
      obtain ⟨x, hx, hp⟩ := h.place
      split at hs
      · rename_i hk
        cases hs
        refine dying_stage h 1 fun x hp _ => ?_
        rw [hk] at hp
        cases hp with
        | before _ r => exact .before (by omega) r
        | _ => omega
      · rename_i hk
        cases hs
        refine dying_stage h 2 fun x hp _ => ?_
        rw [hk] at hp
        cases hp with
        | before _ r => exact .before (by omega) r
        | _ => omega
      · rename_i hk
        obtain ⟨b, hb, rfl⟩ := Option.map_eq_some_iff.1 hs
        have hb : step s.base (.start d (.status .blockingDisable)) = some b := hb
        have hst := st_step h.st (step_stepped hb)
        cases step_stepped hb with
        | start i r op hx' =>
          refine ⟨hd, ?_, h.empty, hst, ⟨_, get_set_self hx', .acquire rfl⟩, ?_⟩
          · intro j hj w hw
            have hw : (s.base.pcs.set d _)[j]? = some w := hw
            rw [get_set_ne hj] at hw
            exact h.others j hj w hw
          · show (s.base.pcs.set d _).length = _
            rw [List.length_set]
            exact h.length
      · rename_i hk
        split at hs
        · rename_i r hr
          cases hs
          refine dying_stage h 4 fun x hp hx => ?_
          rw [hr] at hx
          cases hx
          rw [hk] at hp
          cases hp with
          | before hk => omega
          | after hk hw r => exact .after (by omega) hw r
        · obtain ⟨b, hb, rfl⟩ := Option.map_eq_some_iff.1 hs
          obtain ⟨x, hx, hr⟩ := run_ran hb
          exact dying_own h hk hx hr
      · cases hs
    · have hne : s.destroyer ≠ some i := by rw [hd]; intro e; cases e; exact hi rfl
      simp only [dstep, hne, if_false] at hs
      obtain ⟨b, hb, rfl⟩ := Option.map_eq_some_iff.1 hs
      obtain ⟨x, hx, hr⟩ := run_ran hb
      have hi' : i ≠ d := fun e => hi e.symm
      obtain ⟨x0, h0, hw⟩ := h.others i hi' x hx
      obtain ⟨y, hp, -, he, hv, ht, hwt⟩ := other_step (s0 := s0) hx hw h.empty hr
      refine dying_set h hi' hx hp ?_ he hv ht hwt (st_step h.st (.run i x b hx hr))
      intro x1 hw1
      obtain ⟨y', hp', hy', -⟩ := other_step (s0 := s0) hx hw1 h.empty hr
      have : y = y' := by
        have e1 : b.pcs[i]? = some y := by rw [hp]; exact get_set_self hx
        have e2 : b.pcs[i]? = some y' := by rw [hp']; exact get_set_self hx
        rw [e1] at e2
        cases e2
        rfl
      rw [this]
      exact hy'
  | spurious i =>
    obtain ⟨b, hb, rfl⟩ := Option.map_eq_some_iff.1 hs
    have hst := st_step h.st (step_stepped hb)
    cases step_stepped hb with
    | spurious i c t hx =>
      refine dying_set h ?_ hx rfl ?_ rfl rfl rfl (Nat.le_refl _) hst
      · rintro rfl
        obtain ⟨x, hx', hp⟩ := h.place
        rw [hx] at hx'; cases hx'; cases hp
      · intro x0 hw
        exact hw.wake
    | spuriousTh i t hx =>
      exfalso
      by_cases hi : i = d
      · subst hi
        obtain ⟨x, hx', hp⟩ := h.place
        rw [hx] at hx'; cases hx'; cases hp
      · obtain ⟨x0, -, hw⟩ := h.others i hi _ hx
        cases hw with
        | ended c' t' l' h r hr x hx => cases c' <;> cases r <;> cases hx
  | timeout i =>
    obtain ⟨b, hb, rfl⟩ := Option.map_eq_some_iff.1 hs
    have hst := st_step h.st (step_stepped hb)
    cases step_stepped hb with
    | timeout i c hx =>
      refine dying_set h ?_ hx rfl ?_ rfl rfl rfl (Nat.le_refl _) hst
      · rintro rfl
        obtain ⟨x, hx', hp⟩ := h.place
        rw [hx] at hx'; cases hx'; cases hp
      · intro x0 hw
        cases hw with
        | asleep c t l h => exact .ready c true l h true (fun _ => rfl)
        | ended c' t' l' h r hr x hx => cases c' <;> cases r <;> cases hx
    | timeoutTh i hx =>
      exfalso
      by_cases hi : i = d
      · subst hi
        obtain ⟨x, hx', hp⟩ := h.place
        rw [hx] at hx'; cases hx'; cases hp
      · obtain ⟨x0, -, hw⟩ := h.others i hi _ hx
        cases hw with
        | ended c' t' l' h r hr x hx => cases c' <;> cases r <;> cases hx

/-- The other threads are idle or wait for elements, of which there are none. -/
structure Calm (s0 : State T) (d : Nat) : Prop where
  st : St s0
  idle : ∃ r, s0.pcs[d]? = some (.idle r)
  others : ∀ (j : Nat) (x : PC T), j ≠ d → s0.pcs[j]? = some x →
    (∃ r, x = .idle r) ∨ (∃ c t, x = .asleep c t) ∨ ∃ c t l, x = .ready c t l
  empty : s0.enabled = true → s0.value ≤ s0.threshold

theorem Calm.dying {s0 : State T} {d : Nat} (h : Calm s0 d) : Dying s0 d ⟨s0, some d, 0⟩ := by
  obtain ⟨r, hr⟩ := h.idle
  refine ⟨rfl, ?_, h.empty, h.st, ⟨_, hr, .before (Nat.zero_le _) r⟩, rfl⟩
  intro j hj x hx
  refine ⟨x, hx, ?_⟩
  rcases h.others j x hj hx with ⟨r, rfl⟩ | ⟨c, t, rfl⟩ | ⟨c, t, l, rfl⟩
  · exact .idle r rfl
  · exact .asleep c t false (Or.inl ⟨rfl, rfl⟩)
  · exact .ready c t l (Or.inr rfl) l (by intro e; rw [e, Bool.or_true])

/-- Within the last stages nobody waits. -/
theorem Dying.none_waits {s0 : State T} {d : Nat} {s : DState T} (h : Dying s0 d s) (h4 : 4 ≤ s.stage) (j : Nat)
    (x : PC T) (hx : s.base.pcs[j]? = some x) : ∃ r, x = .idle r := by
  obtain ⟨z, hz, hp⟩ := h.place
  have hw : s.base.waiting = 0 ∧ ∃ r, z = .idle r := by
    cases hp with
    | before hk => omega
    | after hk hw r => exact ⟨hw, r, rfl⟩
    | _ => omega
  by_cases hj : j = d
  · subst hj
    rw [hx] at hz
    cases hz
    exact hw.2
  · have hc := h.st.count
    rw [hw.1] at hc
    have hc := List.countP_eq_zero.1 hc.symm x (List.mem_of_getElem? hx)
    obtain ⟨x0, -, hwent⟩ := h.others j hj x hx
    cases hwent with
    | idle r h => exact ⟨r, rfl⟩
    | asleep => exact absurd rfl hc
    | ready => exact absurd rfl hc
    | ended c t l h r hr x hx =>
      subst hx
      rcases hr with rfl | ⟨rfl, -⟩ <;> cases c <;> exact ⟨_, rfl⟩

/-- No use of what is gone. -/
theorem Dying.no_hit {s0 : State T} {d : Nat} {s : DState T} (h : Dying s0 d s) : ¬ Hit s := by
  rintro ⟨j, x, hj, hx, hc⟩
  have hj : j ≠ d := by rintro rfl; exact hj h.destroyer
  obtain ⟨x0, -, hw⟩ := h.others j hj x hx
  rcases hc with ⟨-, hc⟩ | ⟨-, hc⟩ | ⟨h4, hc⟩
  · cases hw with
    | ended c t l h r hr x hx =>
      subst hx
      rcases hr with rfl | ⟨rfl, -⟩ <;> cases c <;> cases hc
    | _ => cases hc
  · cases hw with
    | ended c t l h r hr x hx =>
      subst hx
      rcases hr with rfl | ⟨rfl, -⟩ <;> cases c <;> cases hc
    | ready c t l h' late hl =>
      have hc : (s.base.enabled && decide (s.base.value > s.base.threshold)) = true := hc
      rw [Bool.and_eq_true, decide_eq_true_iff] at hc
      have := h.empty hc.1
      omega
    | _ => cases hc
  · obtain ⟨r, rfl⟩ := h.none_waits h4 j x hx
    exact hc r rfl

/-- Until somebody destroys it, the object is that of `Verif.Model.Counter`. -/
theorem whole_reachable {b0 : State T} {s : DState T} (h : (doomed T).Reachable (whole b0) s) :
    s.destroyer = none → s.stage = 0 ∧ (system T).Reachable b0 s.base := by
  refine System.Reachable.invariant (fun s : DState T => s.destroyer = none → s.stage = 0 ∧
    (system T).Reachable b0 s.base) (fun _ => ⟨rfl, .init⟩) ?_ h
  intro s l s' ih hs hn
  have hs : dstep s l = some s' := hs
  have more : ∀ (l : Label (Op T)) (b : State T), s.destroyer = none → step s.base l = some b →
      s.stage = 0 ∧ (system T).Reachable b0 b :=
    fun l b hd hb => ⟨(ih hd).1, .step (ih hd).2 (Label.allowed_true _) hb⟩
  cases l with
  | start i op =>
    cases op with
    | call op =>
      simp only [dstep] at hs
      split at hs
      · cases hs
      · obtain ⟨b, hb, rfl⟩ := Option.map_eq_some_iff.1 hs
        exact more (.start i op) b hn hb
    | destroy =>
      simp only [dstep] at hs
      split at hs
      · cases hs
      · split at hs
        · cases hs; cases hn
        · cases hs
  | run i =>
    simp only [dstep] at hs
    split at hs
    · rename_i hd
      unfold destruct at hs
      exfalso
      split at hs
      · cases hs; rw [hd] at hn; cases hn
      · cases hs; rw [hd] at hn; cases hn
      · obtain ⟨b, hb, rfl⟩ := Option.map_eq_some_iff.1 hs
        rw [hd] at hn; cases hn
      · split at hs
        · cases hs; rw [hd] at hn; cases hn
        · obtain ⟨b, hb, rfl⟩ := Option.map_eq_some_iff.1 hs
          rw [hd] at hn; cases hn
      · cases hs
    · obtain ⟨b, hb, rfl⟩ := Option.map_eq_some_iff.1 hs
      exact more (.run i) b hn hb
  | spurious i =>
    obtain ⟨b, hb, rfl⟩ := Option.map_eq_some_iff.1 hs
    exact more (.spurious i) b hn hb
  | timeout i =>
    obtain ⟨b, hb, rfl⟩ := Option.map_eq_some_iff.1 hs
    exact more (.timeout i) b hn hb

/-- The start of the destruction. -/
theorem destroy_start {b0 : State T} {s s1 : DState T} {d : Nat} (h : (doomed T).Reachable (whole b0) s)
    (hs : (doomed T).step s (.start d .destroy) = some s1) :
    s1 = ⟨s.base, some d, 0⟩ ∧ (system T).Reachable b0 s.base ∧ ∃ r, s.base.pcs[d]? = some (.idle r) := by
  have hs : dstep s (.start d .destroy) = some s1 := hs
  simp only [dstep] at hs
  split at hs
  · cases hs
  · rename_i hd
    have hd : s.destroyer = none := by
      cases hx : s.destroyer with
      | none => rfl
      | some _ => rw [hx] at hd; exact absurd rfl hd
    obtain ⟨h0, hr⟩ := whole_reachable h hd
    split at hs
    · rename_i r hx
      cases hs
      exact ⟨by rw [h0], hr, r, hx⟩
    · cases hs

variable (e : (doomed T).Execution)

/-- The steps of the object. -/
def blabel (n : Nat) : Option (Label (system T).Op) :=
  match e.label n with
  | none => none
  | some (.start i (.call op)) => some (.start i op)
  | some (.start _ .destroy) => none
  | some (.run i) =>
    if (e.at_ n).destroyer = some i then
      match (e.at_ n).stage with
      | 2 => some (.start i (.status .blockingDisable))
      | 3 =>
        match (e.at_ n).base.pcs[i]? with
        | some (.idle _) => none
        | _ => some (.run i)
      | _ => none
    else some (.run i)
  | some (.spurious i) => some (.spurious i)
  | some (.timeout i) => some (.timeout i)

theorem blabel_ok (n : Nat) : match blabel e n with
    | none => (e.at_ (n + 1)).base = (e.at_ n).base
    | some l => step (e.at_ n).base l = some (e.at_ (n + 1)).base := by
  unfold blabel
  rcases e.next n with ⟨hl, h⟩ | ⟨l, hl, h⟩
  · rw [hl]
    simp only
    rw [h]
  · rw [hl]
    have h : dstep (e.at_ n) l = some (e.at_ (n + 1)) := h
    generalize e.at_ (n + 1) = s' at h ⊢
    generalize e.at_ n = s at h ⊢
    cases l with
    | start i op =>
      cases op with
      | call op =>
        simp only [dstep] at h
        split at h
        · cases h
        · obtain ⟨b, hb, rfl⟩ := Option.map_eq_some_iff.1 h
          exact hb
      | destroy =>
        simp only [dstep] at h
        split at h
        · cases h
        · split at h
          · cases h; rfl
          · cases h
    | run i =>
      simp only [dstep] at h
      simp only
      split at h
      · rename_i hd
        rw [if_pos hd]
        unfold destruct at h
        split at h
        · rename_i hk; rw [hk]; cases h; rfl
        · rename_i hk; rw [hk]; cases h; rfl
        · rename_i hk
          rw [hk]
          obtain ⟨b, hb, rfl⟩ := Option.map_eq_some_iff.1 h
          exact hb
        · rename_i hk
          rw [hk]
          simp only
          split at h
          · rename_i r hr
            rw [hr]
            cases h
            rfl
          · rename_i hr
            obtain ⟨b, hb, rfl⟩ := Option.map_eq_some_iff.1 h
            split
            · rename_i h1
              split at h1
              · rename_i r hx; exact absurd hx (hr r)
              · cases h1
            · rename_i h1
              split at h1
              · cases h1
              · cases h1; exact hb
        · cases h
      · rename_i hd
        rw [if_neg hd]
        obtain ⟨b, hb, rfl⟩ := Option.map_eq_some_iff.1 h
        exact hb
    | spurious i =>
      obtain ⟨b, hb, rfl⟩ := Option.map_eq_some_iff.1 h
      exact hb
    | timeout i =>
      obtain ⟨b, hb, rfl⟩ := Option.map_eq_some_iff.1 h
      exact hb

/-- The execution of the object alone. -/
def bare : (system T).Execution where
  at_ n := (e.at_ n).base
  label := blabel e
  ok n := by
    have h := blabel_ok e n
    cases hl : blabel e n with
    | none => rw [hl] at h; exact h
    | some l => rw [hl] at h; exact h

variable {e}

theorem dying_always {s0 : State T} {d : Nat} (hc : Calm s0 d) (h0 : e.at_ 0 = ⟨s0, some d, 0⟩) (n : Nat) :
    Dying s0 d (e.at_ n) :=
  e.stable (Dying s0 d) (fun _ _ _ h hs => dying_step h hs) 0 (by rw [h0]; exact hc.dying) n (Nat.zero_le n)

theorem Dying.own {s0 : State T} {d : Nat} {s : DState T} (h : Dying s0 d s) (hr : (run s.base d).isSome) :
    s.stage = 3 ∧ ∀ r, s.base.pcs[d]? ≠ some (.idle r) := by
  obtain ⟨b, hb⟩ := Option.isSome_iff_exists.1 hr
  obtain ⟨x, hx, hran⟩ := run_ran hb
  obtain ⟨z, hz, hp⟩ := h.place
  rw [hx] at hz
  cases hz
  have hni : ∀ r, s.base.pcs[d]? ≠ some (.idle r) := by
    intro r hi
    rw [hx] at hi
    cases hi
    cases hran
  refine ⟨?_, hni⟩
  cases hp with
  | before hk r => exact absurd hx (hni r)
  | after hk hw r => exact absurd hx (hni r)
  | _ => assumption

/-- Once `blocking_disable` has returned, the destroying thread does nothing else with the object. -/
theorem Dying.finished {s0 : State T} {d : Nat} {s s' : DState T} {l : Label (DOp T)} (h : Dying s0 d s)
    (hf : 3 ≤ s.stage ∧ ∃ r, s.base.pcs[d]? = some (.idle r)) (hs : dstep s l = some s') :
    3 ≤ s'.stage ∧ ∃ r, s'.base.pcs[d]? = some (.idle r) := by
  obtain ⟨h3, r, hr⟩ := hf
  have h' := dying_step h hs
  have hk : 3 ≤ s'.stage := by
    cases l with
    | start i op =>
      cases op <;> simp only [dstep, h.destroyer, Option.isSome_some, if_true] at hs <;> cases hs
    | run i =>
      simp only [dstep] at hs
      split at hs
      · unfold destruct at hs
        split at hs
        · omega
        · omega
        · omega
        · split at hs
          · cases hs; show 3 ≤ 4; omega
          · obtain ⟨b, hb, rfl⟩ := Option.map_eq_some_iff.1 hs
            exact h3
        · cases hs
      · obtain ⟨b, hb, rfl⟩ := Option.map_eq_some_iff.1 hs
        exact h3
    | spurious i => obtain ⟨b, hb, rfl⟩ := Option.map_eq_some_iff.1 hs; exact h3
    | timeout i => obtain ⟨b, hb, rfl⟩ := Option.map_eq_some_iff.1 hs; exact h3
  refine ⟨hk, ?_⟩
  cases l with
  | start i op =>
    cases op <;> simp only [dstep, h.destroyer, Option.isSome_some, if_true] at hs <;> cases hs
  | run i =>
    simp only [dstep] at hs
    split at hs
    · rename_i hd
      rw [h.destroyer] at hd
      cases hd
      unfold destruct at hs
      split at hs
      · omega
      · omega
      · omega
      · split at hs
        · cases hs; exact ⟨r, hr⟩
        · rename_i hn; exact absurd hr (hn r)
      · cases hs
    · rename_i hd
      obtain ⟨b, hb, rfl⟩ := Option.map_eq_some_iff.1 hs
      have hi : i ≠ d := by rintro rfl; exact hd h.destroyer
      obtain ⟨x, hx, hran⟩ := run_ran hb
      obtain ⟨x0, h0, hw⟩ := h.others i hi x hx
      obtain ⟨y, hp, -⟩ := other_step (s0 := s0) hx hw h.empty hran
      refine ⟨r, ?_⟩
      show b.pcs[d]? = _
      rw [hp, get_set_ne (Ne.symm hi)]
      exact hr
  | spurious i =>
    obtain ⟨b, hb, rfl⟩ := Option.map_eq_some_iff.1 hs
    cases step_stepped hb with
    | spurious i c t hx =>
      exact ⟨r, (get_set_ne (by rintro rfl; rw [hr] at hx; cases hx)).trans hr⟩
    | spuriousTh i t hx =>
      exact ⟨r, (get_set_ne (by rintro rfl; rw [hr] at hx; cases hx)).trans hr⟩
  | timeout i =>
    obtain ⟨b, hb, rfl⟩ := Option.map_eq_some_iff.1 hs
    cases step_stepped hb with
    | timeout i c hx =>
      exact ⟨r, (get_set_ne (by rintro rfl; rw [hr] at hx; cases hx)).trans hr⟩
    | timeoutTh i hx =>
      exact ⟨r, (get_set_ne (by rintro rfl; rw [hr] at hx; cases hx)).trans hr⟩

theorem bare_fair {s0 : State T} {d : Nat} (hc : Calm s0 d) (h0 : e.at_ 0 = ⟨s0, some d, 0⟩) (hf : e.Fair) :
    (bare e).Fair := by
  have hD := dying_always hc h0
  intro i n hinf
  have hinf : ∀ m, n ≤ m → ∃ k, m ≤ k ∧ (run (e.at_ k).base i).isSome := hinf
  by_cases hi : i = d
  · subst hi
    have hable : ∀ m, n ≤ m → ∃ k, m ≤ k ∧ ((doomed T).step (e.at_ k) (.run i)).isSome := by
      intro m hm
      obtain ⟨k, hk, hr⟩ := hinf m hm
      refine ⟨k, hk, ?_⟩
      obtain ⟨h3, hn⟩ := (hD k).own hr
      show (dstep (e.at_ k) (.run i)).isSome
      simp only [dstep, (hD k).destroyer, if_true, destruct, h3]
      rw [Option.isSome_map]
      exact hr
    obtain ⟨k, hk, hr⟩ := hinf n (Nat.le_refl n)
    obtain ⟨m, hm, hl⟩ := hf i k (fun m hm => hable m (Nat.le_trans hk hm))
    refine ⟨m, Nat.le_trans hk hm, ?_⟩
    obtain ⟨k', hk', hr'⟩ := hinf m (Nat.le_trans hk hm)
    have h3k := ((hD k).own hr).1
    have hmono : ∀ j, k ≤ j → 3 ≤ (e.at_ j).stage := by
      intro j hj
      refine (e.stable (fun s => Dying s0 i s ∧ 3 ≤ s.stage) ?_ k ⟨hD k, by omega⟩ j hj).2
      rintro s l s' ⟨h, h3⟩ hs
      refine ⟨dying_step h hs, ?_⟩
      have hs : dstep s l = some s' := hs
      cases l with
      | start i op =>
        cases op <;> simp only [dstep, h.destroyer, Option.isSome_some, if_true] at hs <;> cases hs
      | run i =>
        simp only [dstep] at hs
        split at hs
        · unfold destruct at hs
          split at hs
          · omega
          · omega
          · omega
          · split at hs
            · cases hs; show 3 ≤ 4; omega
            · obtain ⟨b, hb, rfl⟩ := Option.map_eq_some_iff.1 hs
              exact h3
          · cases hs
        · obtain ⟨b, hb, rfl⟩ := Option.map_eq_some_iff.1 hs
          exact h3
      | spurious i => obtain ⟨b, hb, rfl⟩ := Option.map_eq_some_iff.1 hs; exact h3
      | timeout i => obtain ⟨b, hb, rfl⟩ := Option.map_eq_some_iff.1 hs; exact h3
    have hnot : ¬ ∃ r, (e.at_ m).base.pcs[i]? = some (.idle r) := by
      intro hidle
      have := (e.stable (fun s => Dying s0 i s ∧ 3 ≤ s.stage ∧ ∃ r, s.base.pcs[i]? = some (.idle r)) (by
        rintro s l s' ⟨h, hf⟩ hs
        exact ⟨dying_step h hs, h.finished hf hs⟩) m ⟨hD m, hmono m hm, hidle⟩ k' hk').2.2
      obtain ⟨r, hr⟩ := this
      exact ((hD k').own hr').2 r hr
    have h3m : (e.at_ m).stage = 3 := by
      obtain ⟨x, hx, hp⟩ := (hD m).place
      cases hp with
      | before hk r => exact absurd ⟨r, hx⟩ hnot
      | after hk hw r => exact absurd ⟨r, hx⟩ hnot
      | _ => assumption
    show blabel e m = some (.run i)
    unfold blabel
    rw [hl]
    simp only [(hD m).destroyer, if_true, h3m]
    split
    · rename_i r hr; exact absurd ⟨r, hr⟩ hnot
    · rfl
  · have hne : ∀ k, (e.at_ k).destroyer ≠ some i := by
      intro k
      rw [(hD k).destroyer]
      intro h
      cases h
      exact hi rfl
    obtain ⟨m, hm, hl⟩ := hf i n (by
      intro m hm
      obtain ⟨k, hk, hr⟩ := hinf m hm
      refine ⟨k, hk, ?_⟩
      show (dstep (e.at_ k) (.run i)).isSome
      simp only [dstep, hne k, if_false, Option.isSome_map]
      exact hr)
    refine ⟨m, hm, ?_⟩
    show blabel e m = some (.run i)
    unfold blabel
    rw [hl]
    simp only [hne m, if_false]

theorem Dying.noTh {s0 : State T} {d : Nat} {s : DState T} (h : Dying s0 d s) : NoTh s.base := by
  intro j x hx
  by_cases hj : j = d
  · subst hj
    obtain ⟨z, hz, hp⟩ := h.place
    rw [hx] at hz
    cases hz
    cases hp <;> rfl
  · obtain ⟨x0, -, hw⟩ := h.others j hj x hx
    cases hw with
    | ended c t l h r hr x hx => subst hx; exact afterWait_th _ _
    | _ => rfl

/-- The destroying thread goes from one stage to the next. -/
theorem stage_next {s0 : State T} {d : Nat} (hc : Calm s0 d) (h0 : e.at_ 0 = ⟨s0, some d, 0⟩) (hf : e.Fair) (k : Nat)
    (P : DState T → Prop) (hP : ∀ s, P s → Dying s0 d s → (destruct s d).isSome)
    (hkeep : ∀ s l s', Dying s0 d s → P s → l ≠ .run d → dstep s l = some s' → P s')
    (Q : DState T → Prop) (hQ : ∀ s s', Dying s0 d s → P s → destruct s d = some s' → Q s')
    (n : Nat) (hn : P (e.at_ n)) : ∃ m, n ≤ m ∧ Q (e.at_ m) := by
  have hD := dying_always hc h0
  obtain ⟨m, hm, ⟨hd, hp⟩, -, hs⟩ := e.runs_at hf d (fun s => Dying s0 d s ∧ P s) (by
    rintro s l s' ⟨hd, hp⟩ hl hs
    exact ⟨dying_step hd hs, hkeep s l s' hd hp hl hs⟩) n ⟨hD n, hn⟩ (by
    rintro m hm ⟨hd, hp⟩
    refine ⟨m, Nat.le_refl m, ?_⟩
    show (dstep (e.at_ m) (.run d)).isSome
    simp only [dstep, hd.destroyer, if_true]
    exact hP _ hp hd)
  refine ⟨m + 1, by omega, ?_⟩
  have hs : dstep (e.at_ m) (.run d) = some (e.at_ (m + 1)) := hs
  simp only [dstep, hd.destroyer, if_true] at hs
  exact hQ _ _ hd hp hs

theorem keep_stage {s0 : State T} {d k : Nat} (s : DState T) (l : Label (DOp T)) (s' : DState T) (h : Dying s0 d s)
    (hk : s.stage = k) (hl : l ≠ .run d) (hs : dstep s l = some s') : s'.stage = k := by
  cases l with
  | start i op =>
    cases op <;> simp only [dstep, h.destroyer, Option.isSome_some, if_true] at hs <;> cases hs
  | run i =>
    have hne : s.destroyer ≠ some i := by
      rw [h.destroyer]
      intro e
      cases e
      exact hl rfl
    simp only [dstep, hne, if_false] at hs
    obtain ⟨b, hb, rfl⟩ := Option.map_eq_some_iff.1 hs
    exact hk
  | spurious i => obtain ⟨b, hb, rfl⟩ := Option.map_eq_some_iff.1 hs; exact hk
  | timeout i => obtain ⟨b, hb, rfl⟩ := Option.map_eq_some_iff.1 hs; exact hk

/-- The destruction ends. -/
theorem destruction_ends {s0 : State T} {d : Nat} (hc : Calm s0 d) (h0 : e.at_ 0 = ⟨s0, some d, 0⟩) (hf : e.Fair) :
    ∃ m, (e.at_ m).stage = 4 := by
  have hD := dying_always hc h0
  obtain ⟨n1, -, h1⟩ := stage_next hc h0 hf 0 (fun s => s.stage = 0) (by
      intro s hs _; simp only [destruct, hs]; rfl)
    (fun s l s' h hk hl hs => keep_stage s l s' h hk hl hs) (fun s => s.stage = 1) (by
      intro s s' _ hs h; simp only [destruct, hs] at h; cases h; rfl) 0 (by rw [h0])
  obtain ⟨n2, -, h2⟩ := stage_next hc h0 hf 0 (fun s => s.stage = 1) (by
      intro s hs _; simp only [destruct, hs]; rfl)
    (fun s l s' h hk hl hs => keep_stage s l s' h hk hl hs) (fun s => s.stage = 2) (by
      intro s s' _ hs h; simp only [destruct, hs] at h; cases h; rfl) n1 h1
  obtain ⟨n3, -, h3, hx3⟩ := stage_next hc h0 hf 0 (fun s => s.stage = 2) (by
      intro s hs hd
      obtain ⟨x, hx, hp⟩ := hd.place
      simp only [destruct, hs, Option.isSome_map]
      cases hp with
      | before hk r => simp only [start, hx]; rfl
      | _ => omega)
    (fun s l s' h hk hl hs => keep_stage s l s' h hk hl hs)
    (fun s => s.stage = 3 ∧ s.base.pcs[d]? = some (.acquire .blockingDisable)) (by
      intro s s' hd hs h
      simp only [destruct, hs] at h
      obtain ⟨b, hb, rfl⟩ := Option.map_eq_some_iff.1 h
      have hb : step s.base (.start d (.status .blockingDisable)) = some b := hb
      refine ⟨rfl, ?_⟩
      cases step_stepped hb with
      | start i r op hx => exact get_set_self hx) n2 h2
  obtain ⟨n4, h34, hx4⟩ := status_returns (bare e) (fun n => (hD n).st) (fun n => (hD n).noTh)
    (bare_fair hc h0 hf) d _ (Or.inr ⟨_, rfl⟩) n3 hx3
  have hx4 : (e.at_ n4).base.pcs[d]? = some (.idle none) := hx4
  by_cases hk : ∃ m, (e.at_ m).stage = 4
  · exact hk
  have hge : ∀ j, n3 ≤ j → (e.at_ j).stage = 3 := by
    intro j hj
    induction hj with
    | refl => exact h3
    | step hj ih =>
      rename_i j
      rcases e.next j with ⟨-, h⟩ | ⟨l, hl, hs⟩
      · rw [h]; exact ih
      · have hs : dstep (e.at_ j) l = some (e.at_ (j + 1)) := hs
        by_cases hld : l = .run d
        · subst hld
          simp only [dstep, (hD j).destroyer, if_true, destruct, ih] at hs
          split at hs
          · exact absurd ⟨j + 1, by rw [← Option.some.inj hs]⟩ hk
          · obtain ⟨b, hb, he⟩ := Option.map_eq_some_iff.1 hs
            rw [← he]
        · exact keep_stage _ _ _ (hD j) ih hld hs
  obtain ⟨m, -, hm⟩ := stage_next hc h0 hf 0
    (fun s => s.stage = 3 ∧ ∃ r, s.base.pcs[d]? = some (.idle r)) (by
      rintro s ⟨hs, r, hr⟩ _
      simp only [destruct, hs, hr]
      rfl)
    (fun s l s' h hk hl hs => ⟨keep_stage s l s' h hk.1 hl hs,
      (h.finished ⟨by rw [hk.1]; exact Nat.le_refl _, hk.2⟩ hs).2⟩) (fun s => s.stage = 4) (by
      rintro s s' _ ⟨hs, r, hr⟩ h
      simp only [destruct, hs, hr] at h
      cases h
      rfl) n4 ⟨hge n4 h34, _, hx4⟩
  exact ⟨m, hm⟩

end Verif.Counter
