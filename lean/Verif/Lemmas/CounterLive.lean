import Verif.Lemmas.Counter
/-!
Status operations and liveness of the counter program.
-/
namespace Verif.Counter
open Verif.Threads
open Verif.WaitHandler (Reason StatusOp)

variable {T : Type}

/-- Holds `status_mutex_`. -/
def PC.holds : PC T → Bool
  | .enableTest _ => true
  | .disableTest _ => true
  | .disableNotify _ => true
  | .drainTest _ => true
  | .drainNotify _ => true
  | .stopTest _ => true
  | .release _ => true
  | _ => false

/-- After the store of `disable` and before the end of the call. -/
def PC.isOff : PC T → Bool
  | .disableNotify _ => true
  | .drainTest _ => true
  | .drainNotify _ => true
  | _ => false

/-- Counted in `threads_waiting_`. -/
def PC.counted : PC T → Bool
  | .asleep _ _ => true
  | .ready _ _ _ => true
  | .thAsleep _ => true
  | .thReady _ _ => true
  | _ => false

structure St (s : State T) : Prop where
  holds : ∀ (j : Nat) (pc : PC T), s.pcs[j]? = some pc → (pc.holds = true ↔ s.status = some j)
  off : ∀ (j : Nat) (pc : PC T), s.pcs[j]? = some pc → pc.isOff = true → s.enabled = false
  count : s.waiting = s.pcs.countP PC.counted
  mem : ∀ j : Nat, s.status = some j → j < s.pcs.length

theorem Woken.get_status {l l' : List (PC T)} (h : Woken l l') {j : Nat} {a' : PC T}
    (hj : l'[j]? = some a') : ∃ a, l[j]? = some a ∧ a'.holds = a.holds ∧ a'.isOff = a.isOff := by
  obtain ⟨a, ha, e⟩ := h.get' hj
  refine ⟨a, ha, ?_⟩
  rcases e with e | e | e <;> rw [e]
  · exact ⟨rfl, rfl⟩
  · cases a <;> exact ⟨rfl, rfl⟩
  · cases a <;> exact ⟨rfl, rfl⟩

theorem Woken.counted {l l' : List (PC T)} (h : Woken l l') :
    l'.countP PC.counted = l.countP PC.counted := by
  refine h.countP _ ?_ ?_ <;>
  · intro a
    cases a <;> rfl

/-- A step of a thread that keeps its relation to `status_mutex_`. -/
theorem st_keep {s s' : State T} {i : Nat} {x y : PC T} (h : St s) (hx : s.pcs[i]? = some x)
    (hw : Woken (s.pcs.set i y) s'.pcs) (hh : y.holds = x.holds)
    (hoff : y.isOff = true → s'.enabled = false) (hst : s'.status = s.status)
    (hen : s.enabled = false → s'.enabled = false ∨ x.holds = true)
    (hc : s'.waiting + (if x.counted then 1 else 0) = s.waiting + (if y.counted then 1 else 0)) : St s' := by
  refine ⟨?_, ?_, ?_, ?_⟩
  rotate_right
  · intro j hj
    rw [hw.length, List.length_set]
    exact h.mem j (hst ▸ hj)
  · intro j pc hj
    obtain ⟨a, ha, e, -⟩ := hw.get_status hj
    rw [e, hst]
    rcases set_get ha with ⟨rfl, e', -⟩ | ⟨-, ha⟩
    · rw [e', hh]; exact h.holds j x hx
    · exact h.holds j a ha
  · intro j pc hj ho
    obtain ⟨a, ha, e1, e2⟩ := hw.get_status hj
    rw [e2] at ho
    rcases set_get ha with ⟨rfl, e', -⟩ | ⟨hne, ha⟩
    · rw [e'] at ho; exact hoff ho
    · rcases hen (h.off j a ha ho) with h1 | h1
      · exact h1
      · have hah : a.holds = true := by cases a <;> first | rfl | cases ho
        have h2 := (h.holds j a ha).1 hah
        rw [(h.holds i x hx).1 h1] at h2
        exact absurd (Option.some.inj h2).symm hne
  · have := countP_set PC.counted y hx
    have := h.count
    rw [hw.counted]
    omega

theorem afterWait_holds (c : Bool) (r : Reason) : (afterWait c r : PC T).holds = false := by
  cases c <;> cases r <;> rfl

theorem afterWait_off (c : Bool) (r : Reason) : (afterWait c r : PC T).isOff = false := by
  cases c <;> cases r <;> rfl

theorem afterWait_counted (c : Bool) (r : Reason) : (afterWait c r : PC T).counted = false := by
  cases c <;> cases r <;> rfl

theorem waiting_pos {s : State T} {i : Nat} {x : PC T} (h : St s) (hx : s.pcs[i]? = some x)
    (hc : x.counted = true) : 0 < s.waiting := by
  rw [h.count]
  exact countP_pos_of_get _ hx hc

theorem st_ran {s s' : State T} {i : Nat} {x : PC T} (h : St s) (hx : s.pcs[i]? = some x)
    (hs : Ran s i x s') : St s' := by
  cases hs with
  | enterGrant c t he hv =>
    have e := (decrease_same (goto s i (afterWait c .conditionMet))).1
    refine st_keep h hx e.woken (afterWait_holds _ _) ?_ e.status ?_ ?_
    · rw [afterWait_off]; nofun
    · intro h1; rw [he] at h1; cases h1
    · rw [e.waiting, afterWait_counted]; rfl
  | readyGrant c t l he hv =>
    have e := (decrease_same (goto { s with waiting := s.waiting - 1 } i (afterWait c .conditionMet))).1
    refine st_keep h hx e.woken (afterWait_holds _ _) ?_ e.status ?_ ?_
    · rw [afterWait_off]; nofun
    · intro h1; rw [he] at h1; cases h1
    · have := waiting_pos h hx rfl
      rw [e.waiting, afterWait_counted]
      show s.waiting - 1 + 1 = s.waiting + 0
      omega
  | inc p =>
    have e := (increment_same (goto s i (.idle none))).1
    refine st_keep h hx e.woken rfl nofun e.status ?_ ?_
    · intro h1; exact Or.inl (e.enabled.trans h1)
    · rw [e.waiting]; rfl
  | enterDisabled c t he =>
    refine st_keep h hx (.refl _) (afterWait_holds _ _) ?_ rfl Or.inl ?_
    · rw [afterWait_off]; nofun
    · rw [afterWait_counted]; rfl
  | readyDisabled c t l he =>
    refine st_keep h hx (.refl _) (afterWait_holds _ _) ?_ rfl Or.inl ?_
    · rw [afterWait_off]; nofun
    · have := waiting_pos h hx rfl
      rw [afterWait_counted]
      show s.waiting - 1 + 1 = s.waiting + 0
      omega
  | readyTimeout c t he hv =>
    refine st_keep h hx (.refl _) (afterWait_holds _ _) ?_ rfl Or.inl ?_
    · rw [afterWait_off]; nofun
    · have := waiting_pos h hx rfl
      rw [afterWait_counted]
      show s.waiting - 1 + 1 = s.waiting + 0
      omega
  | thReadyDisabled t l he =>
    refine st_keep h hx (.refl _) rfl nofun rfl Or.inl ?_
    have := waiting_pos h hx rfl
    show s.waiting - 1 + 1 = s.waiting + 0
    omega
  | thReadyMet t l he hv =>
    refine st_keep h hx (.refl _) rfl nofun rfl Or.inl ?_
    have := waiting_pos h hx rfl
    show s.waiting - 1 + 1 = s.waiting + 0
    omega
  | thReadyTimeout t he hv =>
    refine st_keep h hx (.refl _) rfl nofun rfl Or.inl ?_
    have := waiting_pos h hx rfl
    show s.waiting - 1 + 1 = s.waiting + 0
    omega
  | disableNotify o =>
    have hw : Woken (s.pcs.set i (afterDisable o)) (goto (notifyAll s) i (afterDisable o)).pcs := by
      show Woken _ ((s.pcs.map wake).set i (afterDisable o))
      rw [map_wake_set (by cases o <;> rfl)]
      exact .map_wake _
    have hoff := h.off i _ hx rfl
    exact st_keep h hx hw (by cases o <;> rfl) (fun _ => hoff) rfl Or.inl (by cases o <;> rfl)
  | drainNotify o =>
    have hw : Woken (s.pcs.set i (.drainTest o)) (goto (notifyAll s) i (.drainTest o)).pcs := by
      show Woken _ ((s.pcs.map wake).set i (.drainTest o))
      rw [map_wake_set rfl]
      exact .map_wake _
    have hoff := h.off i _ hx rfl
    exact st_keep h hx hw rfl (fun _ => hoff) rfl Or.inl rfl
  | enableTest o => exact st_keep h hx (.refl _) rfl nofun rfl (fun _ => Or.inr rfl) rfl
  | disableStore o he => exact st_keep h hx (.refl _) rfl (fun _ => rfl) rfl (fun _ => Or.inl rfl) rfl
  | disableSkip o he =>
    exact st_keep h hx (.refl _) (by cases o <;> rfl) (fun _ => he) rfl Or.inl (by cases o <;> rfl)
  | drainMore o hw =>
    have hoff := h.off i _ hx rfl
    exact st_keep h hx (.refl _) rfl (fun _ => hoff) rfl Or.inl rfl
  | drainEnd o hw =>
    have hoff := h.off i _ hx rfl
    exact st_keep h hx (.refl _) (by cases o <;> rfl) (fun _ => hoff) rfl Or.inl (by cases o <;> rfl)
  | acquire o hm =>
    refine ⟨?_, ?_, ?_, ?_⟩
    rotate_right
    · intro j hj
      cases hj
      show i < (s.pcs.set i _).length
      rw [List.length_set]
      exact (List.getElem?_eq_some_iff.1 hx).1
    · intro j pc hj
      show _ ↔ some i = some j
      rcases set_get hj with ⟨rfl, e, -⟩ | ⟨hne, hj⟩
      · subst e; cases o <;> exact ⟨fun _ => rfl, fun _ => rfl⟩
      · rw [h.holds j pc hj, hm]
        exact ⟨nofun, fun e => absurd (Option.some.inj e).symm hne⟩
    · intro j pc hj ho
      rcases set_get hj with ⟨rfl, e, -⟩ | ⟨hne, hj⟩
      · subst e; cases o <;> cases ho
      · exact h.off j pc hj ho
    · have h1 := countP_set PC.counted (first o) hx
      have h2 := h.count
      have e1 : (first o : PC T).counted = false := by cases o <;> rfl
      have e2 : (PC.acquire o : PC T).counted = false := rfl
      rw [e1, e2] at h1
      exact h2.trans h1.symm
  | release o =>
    refine ⟨?_, ?_, ?_, nofun⟩
    · intro j pc hj
      show _ ↔ none = some j
      rcases set_get hj with ⟨rfl, e, -⟩ | ⟨hne, hj⟩
      · subst e; exact ⟨nofun, nofun⟩
      · rw [h.holds j pc hj, (h.holds i _ hx).1 rfl]
        exact ⟨fun e => absurd (Option.some.inj e).symm hne, nofun⟩
    · intro j pc hj ho
      rcases set_get hj with ⟨rfl, e, -⟩ | ⟨hne, hj⟩
      · subst e; cases ho
      · exact h.off j pc hj ho
    · exact h.count.trans (countP_set PC.counted (.idle none) hx).symm
  | _ => exact st_keep h hx (.refl _) rfl nofun rfl Or.inl rfl

theorem st_step {s s' : State T} {l : Label (Op T)} (h : St s) (hs : Stepped s l s') : St s' := by
  cases hs with
  | run i x s' hx hr => exact st_ran h hx hr
  | start i r op hx =>
    exact st_keep h hx (.refl _) (by cases op <;> rfl) (by cases op <;> nofun) rfl Or.inl (by cases op <;> rfl)
  | spurious i c t hx => exact st_keep h hx (.refl _) rfl nofun rfl Or.inl rfl
  | spuriousTh i t hx => exact st_keep h hx (.refl _) rfl nofun rfl Or.inl rfl
  | timeout i c hx => exact st_keep h hx (.refl _) rfl nofun rfl Or.inl rfl
  | timeoutTh i hx => exact st_keep h hx (.refl _) rfl nofun rfl Or.inl rfl

theorem st_reachable {v0 thr : Nat} {b : Bool} {picks : Nat → Nat} {n : Nat} {s : State T}
    {A : Op T → Prop} (h : (system T).ReachableBy A (init thr v0 b picks n) s) : St s := by
  refine System.ReachableBy.invariant St ⟨?_, ?_, ?_, nofun⟩
    (fun _ _ _ hI _ hs => st_step hI (step_stepped hs)) h
  · intro j pc hj
    cases init_pcs hj
    exact ⟨nofun, nofun⟩
  · intro j pc hj ho
    cases init_pcs hj
    cases ho
  · symm
    show List.countP PC.counted (List.replicate n (.idle none)) = 0
    rw [List.countP_eq_zero]
    intro a ha
    rw [(List.mem_replicate.1 ha).2]
    nofun

/-- A surplus with a sleeper: somebody is on the way. -/
theorem surplus_ready {s : State T} (h1 : Sl s) (h2 : St s) (he : s.enabled = true)
    (hv : s.value > s.threshold) {j : Nat} {c t : Bool} (hj : s.pcs[j]? = some (.asleep c t)) :
    ∃ (k : Nat) (c t l : Bool), s.pcs[k]? = some (.ready c t l) := by
  rcases h1 j c t hj with ⟨k, pc, hk, hp⟩ | ⟨-, h⟩
  · have : pc.isOff = true := by cases pc <;> first | rfl | cases hp
    have := h2.off k pc hk this
    rw [he] at this
    cases this
  · obtain ⟨k, pc, hk, hp⟩ := h hv
    cases pc with
    | ready c t l => exact ⟨k, c, t, l, hk⟩
    | _ => cases hp

/-- Running, neither idle nor asleep. -/
def PC.active : PC T → Bool
  | .idle _ => false
  | .asleep _ _ => false
  | .thAsleep _ => false
  | _ => true

theorem Woken.active {l l' : List (PC T)} (h : Woken l l') {j : Nat} {a : PC T}
    (hj : l[j]? = some a) (ha : a.active = true) : l'[j]? = some a := by
  obtain ⟨a', ha', e⟩ := h.get hj
  rcases e with e | e | e <;> subst e
  · exact ha'
  · cases a <;> first | exact ha' | cases ha
  · cases a <;> first | exact ha' | cases ha

theorem frame_active {s s' : State T} {l : Label (Op T)} (h : Stepped s l s') {i : Nat} {x : PC T}
    (hx : s.pcs[i]? = some x) (ha : x.active = true) (hl : l ≠ .run i) : s'.pcs[i]? = some x := by
  cases h with
  | run k y s' hy hr =>
    have hki : i ≠ k := fun c => hl (by rw [c])
    obtain ⟨z, hz⟩ := ran_woken hr
    exact hz.active (by rw [get_set_ne hki]; exact hx) ha
  | start k r op hy =>
    have hki : i ≠ k := by rintro rfl; rw [hx] at hy; cases hy; cases ha
    show (s.pcs.set k _)[i]? = _
    rw [get_set_ne hki]; exact hx
  | spurious k c t hy =>
    have hki : i ≠ k := by rintro rfl; rw [hx] at hy; cases hy; cases ha
    show (s.pcs.set k _)[i]? = _
    rw [get_set_ne hki]; exact hx
  | spuriousTh k t hy =>
    have hki : i ≠ k := by rintro rfl; rw [hx] at hy; cases hy; cases ha
    show (s.pcs.set k _)[i]? = _
    rw [get_set_ne hki]; exact hx
  | timeout k c hy =>
    have hki : i ≠ k := by rintro rfl; rw [hx] at hy; cases hy; cases ha
    show (s.pcs.set k _)[i]? = _
    rw [get_set_ne hki]; exact hx
  | timeoutTh k hy =>
    have hki : i ≠ k := by rintro rfl; rw [hx] at hy; cases hy; cases ha
    show (s.pcs.set k _)[i]? = _
    rw [get_set_ne hki]; exact hx

/-- A step not of thread `i`: its pc stays, or it is woken. -/
theorem frame_sleep {s s' : State T} {l : Label (Op T)} (h : Stepped s l s') {j : Nat} {c t : Bool}
    (hx : s.pcs[j]? = some (.asleep c t)) :
    s'.pcs[j]? = some (.asleep c t) ∨ ∃ l, s'.pcs[j]? = some (.ready c t l) := by
  have key : ∀ (k : Nat) (y : PC T) (pcs' : List (PC T)), k ≠ j → Woken (s.pcs.set k y) pcs' →
      pcs'[j]? = some (.asleep c t) ∨ ∃ l, pcs'[j]? = some (.ready c t l) := by
    intro k y pcs' hk hw
    have hg : (s.pcs.set k y)[j]? = some (.asleep c t) := by
      rw [get_set_ne (fun e => hk e.symm)]; exact hx
    obtain ⟨a', ha', e⟩ := hw.get hg
    rcases e with e | e | e <;> subst e
    · exact Or.inl ha'
    · exact Or.inr ⟨_, ha'⟩
    · exact Or.inl ha'
  cases h with
  | run k y s' hy hr =>
    obtain ⟨z, hz⟩ := ran_woken hr
    refine key k z _ ?_ hz
    rintro rfl
    rw [hx] at hy
    cases hy
    cases hr
  | start k r op hy =>
    exact key k _ _ (by rintro rfl; rw [hx] at hy; cases hy) (.refl _)
  | spurious k c' t' hy =>
    by_cases hk : k = j
    · subst hk
      rw [hx] at hy
      cases hy
      exact Or.inr ⟨_, get_set_self hx⟩
    · exact key k _ _ hk (.refl _)
  | spuriousTh k t hy =>
    exact key k _ _ (by rintro rfl; rw [hx] at hy; cases hy) (.refl _)
  | timeout k c' hy =>
    by_cases hk : k = j
    · subst hk
      rw [hx] at hy
      cases hy
      exact Or.inr ⟨_, get_set_self hx⟩
    · exact key k _ _ hk (.refl _)
  | timeoutTh k hy =>
    exact key k _ _ (by rintro rfl; rw [hx] at hy; cases hy) (.refl _)

/-- A thread that holds no lock request can run. -/
theorem able {s : State T} {i : Nat} {x : PC T} (hx : s.pcs[i]? = some x) (ha : x.active = true)
    (h1 : ∀ o, x ≠ .acquire o) (h2 : x ≠ .popLock) : (run s i).isSome := by
  unfold run
  rw [hx]
  cases x with
  | idle r => cases ha
  | asleep c t => cases ha
  | thAsleep t => cases ha
  | acquire o => exact absurd rfl (h1 o)
  | popLock => exact absurd rfl h2
  | popTake =>
    simp only
    cases hq : s.queue.fg with
    | nil => simp [DBQueue.empty, hq]
    | cons v l => simp [DBQueue.empty, DBQueue.front, DBQueue.pop, hq]
  | _ => simp only [] <;> (repeat' split) <;> rfl

variable (e : (system T).Execution) (hf : e.Fair)

include hf in
/-- Such a thread runs; `K` is what is kept meanwhile. -/
theorem runs (i : Nat) (x : PC T) (ha : x.active = true) (h1 : ∀ o, x ≠ .acquire o) (h2 : x ≠ .popLock)
    (K Q : State T → Prop)
    (hK : ∀ s l s', K s → s.pcs[i]? = some x → Stepped s l s' → l ≠ .run i → K s' ∨ Q s')
    (hQ : ∀ s s', K s → s.pcs[i]? = some x → Ran s i x s' → Q s') :
    e.LeadsTo (fun s => s.pcs[i]? = some x ∧ K s) Q := by
  refine e.leadsTo' hf i _ _ ?_ ?_ ?_
  · rintro s l s' ⟨hx, hk⟩ hs
    have hs := step_stepped hs
    by_cases hl : l = .run i
    · subst hl
      cases hs with
      | run i y s' hy hr =>
        rw [hx] at hy
        cases hy
        exact Or.inr (hQ s s' hk hx hr)
    · rcases hK s l s' hk hx hs hl with h | h
      · exact Or.inl ⟨frame_active hs hx ha hl, h⟩
      · exact Or.inr h
  · rintro s ⟨hx, -⟩
    exact able hx ha h1 h2
  · rintro s s' ⟨hx, hk⟩ hs
    have hs : step s (.run i) = some s' := hs
    cases step_stepped hs with
    | run i y s' hy hr =>
      rw [hx] at hy
      cases hy
      exact hQ s s' hk hx hr

/-- While nobody but the holder of `status_mutex_` runs, `enabled_` is kept. -/
theorem enabled_step {s s' : State T} {l : Label (Op T)} {i : Nat} {x : PC T} (hI : St s)
    (hx : s.pcs[i]? = some x) (hh : x.holds = true) (h : Stepped s l s') (hl : l ≠ .run i) :
    s'.enabled = s.enabled := by
  cases h with
  | run k y s' hy hr =>
    have hki : k ≠ i := fun c => hl (by rw [c])
    have hny : y.holds = true → False := by
      intro h
      have h1 := (hI.holds k y hy).1 h
      rw [(hI.holds i x hx).1 hh] at h1
      exact hki (Option.some.inj h1).symm
    cases hr with
    | enterGrant c t he hv => exact (decrease_same _).1.enabled
    | readyGrant c t l he hv => exact (decrease_same _).1.enabled
    | inc p => exact (increment_same _).1.enabled
    | enableTest o => exact (hny rfl).elim
    | disableStore o he => exact (hny rfl).elim
    | _ => rfl
  | _ => rfl

/-- While the handler is disabled nobody registers as waiting. -/
theorem waiting_step {s s' : State T} {l : Label (Op T)} (he : s.enabled = false) (h : Stepped s l s') :
    s'.waiting ≤ s.waiting := by
  have ff : s.enabled = true → False := fun h => by rw [he] at h; cases h
  cases h with
  | run k y s' hy hr =>
    cases hr with
    | enterGrant c t he hv => exact (ff he).elim
    | readyGrant c t l he hv => exact (ff he).elim
    | enterSleep c t he hv => exact (ff he).elim
    | thEnterSleep t he hv => exact (ff he).elim
    | inc p => exact Nat.le_of_eq (increment_same _).1.waiting
    | readyDisabled c t l he => exact Nat.sub_le _ _
    | thReadyDisabled t l he => exact Nat.sub_le _ _
    | readyTimeout c t he hv => exact (ff he).elim
    | thReadyTimeout t he hv => exact (ff he).elim
    | thReadyMet t l he hv => exact (ff he).elim
    | _ => exact Nat.le_refl _
  | _ => exact Nat.le_refl _

/-- Thread `i` is in the loop of `blocking_disable`. -/
def Draining (i : Nat) (o : StatusOp) (s : State T) : Prop :=
  s.pcs[i]? = some (.drainTest o) ∨ s.pcs[i]? = some (.drainNotify o)

theorem draining_step {s s' : State T} {l : Label (Op T)} {i : Nat} {o : StatusOp}
    (h : Draining i o s) (hs : Stepped s l s') : Draining i o s' ∨ s'.pcs[i]? = some (afterDrain o) := by
  by_cases hl : l = .run i
  · subst hl
    rcases h with h | h
    · cases hs with
      | run i y s' hy hr =>
        rw [h] at hy
        cases hy
        cases hr with
        | drainMore o hw => exact Or.inl (Or.inr (get_set_self h))
        | drainEnd o hw => exact Or.inr (get_set_self h)
    · cases hs with
      | run i y s' hy hr =>
        rw [h] at hy
        cases hy
        cases hr with
        | drainNotify o =>
          refine Or.inl (Or.inl ?_)
          have : (s.pcs.map wake)[i]? = some (.drainNotify o) := by rw [List.getElem?_map, h]; rfl
          exact get_set_self this
  · rcases h with h | h
    · exact Or.inl (Or.inl (frame_active hs h rfl hl))
    · exact Or.inl (Or.inr (frame_active hs h rfl hl))


/-- In `wait_threshold_reached`. -/
def PC.th : PC T → Bool
  | .thEnter _ => true
  | .thAsleep _ => true
  | .thReady _ _ => true
  | _ => false

/-- Nobody uses `wait_threshold_reached`. -/
def NoTh (s : State T) : Prop := ∀ (j : Nat) (pc : PC T), s.pcs[j]? = some pc → pc.th = false

def NoThOp : Op T → Prop
  | .waitThreshold _ => False
  | _ => True

theorem noTh_move {s s' : State T} {i : Nat} {y : PC T} (h : NoTh s)
    (hw : Woken (s.pcs.set i y) s'.pcs) (hy : y.th = false) : NoTh s' := by
  intro j pc hj
  obtain ⟨a, ha, e⟩ := hw.get' hj
  have h1 : a.th = false := by
    rcases set_get ha with ⟨-, e', -⟩ | ⟨-, ha⟩
    · rw [e']; exact hy
    · exact h j a ha
  rcases e with e | e | e <;> rw [e]
  · exact h1
  · cases a <;> first | rfl | cases h1
  · cases a <;> first | rfl | cases h1

theorem afterWait_th (c : Bool) (r : Reason) : (afterWait c r : PC T).th = false := by
  cases c <;> cases r <;> rfl

theorem noTh_step {s s' : State T} {l : Label (Op T)} (h : NoTh s) (hA : l.Allowed NoThOp)
    (hs : Stepped s l s') : NoTh s' := by
  cases hs with
  | run i x s' hx hr =>
    have hxth := h i x hx
    cases hr with
    | enterGrant c t he hv =>
      exact noTh_move h (decrease_same (goto s i (afterWait c .conditionMet))).1.woken (afterWait_th _ _)
    | readyGrant c t l he hv =>
      exact noTh_move h (decrease_same (goto { s with waiting := s.waiting - 1 } i
        (afterWait c .conditionMet))).1.woken (afterWait_th _ _)
    | inc p => exact noTh_move h (increment_same (goto s i (.idle none))).1.woken rfl
    | enterDisabled c t he => exact noTh_move h (.refl _) (afterWait_th _ _)
    | readyDisabled c t l he => exact noTh_move h (.refl _) (afterWait_th _ _)
    | readyTimeout c t he hv => exact noTh_move h (.refl _) (afterWait_th _ _)
    | thEnterDisabled t he => cases hxth
    | thEnterMet t he hv => cases hxth
    | thEnterSleep t he hv => cases hxth
    | thReadyDisabled t l he => cases hxth
    | thReadyMet t l he hv => cases hxth
    | thReadyTimeout t he hv => cases hxth
    | thReadySleep t he hv => cases hxth
    | disableNotify o =>
      have hw : Woken (s.pcs.set i (afterDisable o)) (goto (notifyAll s) i (afterDisable o)).pcs := by
        show Woken _ ((s.pcs.map wake).set i (afterDisable o))
        rw [map_wake_set (by cases o <;> rfl)]
        exact .map_wake _
      exact noTh_move h hw (by cases o <;> rfl)
    | drainNotify o =>
      have hw : Woken (s.pcs.set i (.drainTest o)) (goto (notifyAll s) i (.drainTest o)).pcs := by
        show Woken _ ((s.pcs.map wake).set i (.drainTest o))
        rw [map_wake_set rfl]
        exact .map_wake _
      exact noTh_move h hw rfl
    | acquire o hm => exact noTh_move h (.refl _) (by cases o <;> rfl)
    | disableSkip o he => exact noTh_move h (.refl _) (by cases o <;> rfl)
    | drainEnd o he => exact noTh_move h (.refl _) (by cases o <;> rfl)
    | _ => exact noTh_move h (.refl _) rfl
  | start i r op hx =>
    cases op with
    | waitThreshold t => exact hA.elim
    | _ => exact noTh_move h (.refl _) rfl
  | spurious i c t hx => exact noTh_move h (.refl _) rfl
  | spuriousTh i t hx => cases h i _ hx
  | timeout i c hx => exact noTh_move h (.refl _) rfl
  | timeoutTh i hx => cases h i _ hx

/-- No new call to `wait_threshold_reached` is started in this execution. -/
def NoThExec (e : (system T).Execution) : Prop := ∀ n l, e.label n = some l → l.Allowed NoThOp

/-- Step-indexed leads-to: as `runs`, with facts about the labels of the execution. -/
theorem always {e : (system T).Execution} (I : State T → Prop)
    (hI : ∀ n l, e.label n = some l → ∀ s', Stepped (e.at_ n) l s' → I (e.at_ n) → I s') (h0 : I (e.at_ 0)) :
    ∀ n, I (e.at_ n) := by
  intro n
  induction n with
  | zero => exact h0
  | succ n ih =>
    rcases e.next n with ⟨-, h2⟩ | ⟨l, hl, h2⟩
    · rw [h2]; exact ih
    · exact hI n l hl _ (step_stepped h2) ih

/-- Leads-to with a fact that always holds. -/
theorem leadsTo_with {e : (system T).Execution} {I P Q : State T → Prop} (hI : ∀ n, I (e.at_ n))
    (h : e.LeadsTo (fun s => I s ∧ P s) Q) : e.LeadsTo P Q := fun n hn => h n ⟨hI n, hn⟩

include hf in
/-- A thread woken while the handler is disabled leaves. -/
theorem ready_leaves (i : Nat) (o : StatusOp) (k j : Nat) (c t l : Bool) :
    e.LeadsTo (fun s => s.pcs[j]? = some (.ready c t l) ∧ (St s ∧ s.waiting ≤ k + 1 ∧ Draining i o s))
      (fun s => (s.waiting ≤ k ∧ Draining i o s) ∨ s.pcs[i]? = some (afterDrain o)) := by
  refine runs e hf j (.ready c t l) rfl nofun nofun (fun s => St s ∧ s.waiting ≤ k + 1 ∧ Draining i o s) _ ?_ ?_
  · rintro s l s' ⟨hI, hw, hd⟩ hx hs hl
    have hoff : s.enabled = false := by rcases hd with h | h <;> exact hI.off i _ h rfl
    rcases draining_step hd hs with h | h
    · exact Or.inl ⟨st_step hI hs, Nat.le_trans (waiting_step hoff hs) hw, h⟩
    · exact Or.inr (Or.inr h)
  · rintro s s' ⟨hI, hw, hd⟩ hx hr
    have hoff : s.enabled = false := by rcases hd with h | h <;> exact hI.off i _ h rfl
    have hs : Stepped s (.run j) s' := .run j _ s' hx hr
    rcases draining_step hd hs with h | h
    · left
      refine ⟨?_, h⟩
      cases hr with
      | readyDisabled c t l he =>
        show s.waiting - 1 ≤ k
        omega
      | readyGrant c t l he hv => rw [hoff] at he; cases he
      | readyTimeout c t he hv => rw [hoff] at he; cases he
      | readySleep c t he hv => rw [hoff] at he; cases he
    · exact Or.inr h

/-- Some thread waits if the count is positive. -/
theorem exists_waiter {s : State T} (hI : St s) (hn : NoTh s) (hw : 0 < s.waiting) :
    (∃ (j : Nat) (c t : Bool), s.pcs[j]? = some (.asleep c t)) ∨
    (∃ (j : Nat) (c t l : Bool), s.pcs[j]? = some (.ready c t l)) := by
  rw [hI.count] at hw
  obtain ⟨j, x, hx, hc⟩ := exists_of_countP_pos PC.counted hw
  have := hn j x hx
  cases x with
  | asleep c t => exact Or.inl ⟨j, c, t, hx⟩
  | ready c t l => exact Or.inr ⟨j, c, t, l, hx⟩
  | thAsleep t => cases this
  | thReady t l => cases this
  | _ => cases hc

/-- Thread `i` makes its step in the loop of `blocking_disable`. -/
theorem drain_runs (hS : ∀ n, St (e.at_ n)) (hf : e.Fair) (i : Nat) (o : StatusOp) (k : Nat) (x : PC T)
    (hx : x = .drainTest o ∨ x = .drainNotify o) (n : Nat) (h : (e.at_ n).pcs[i]? = some x)
    (hw : (e.at_ n).waiting ≤ k) :
    ∃ m, n ≤ m ∧ ∃ s, St s ∧ s.pcs[i]? = some x ∧ s.waiting ≤ k ∧ Ran s i x (e.at_ m) := by
  have hoff : x.isOff = true := by rcases hx with rfl | rfl <;> rfl
  have hho : x.holds = true := by rcases hx with rfl | rfl <;> rfl
  refine runs e hf i x (by rcases hx with rfl | rfl <;> rfl) (by rcases hx with rfl | rfl <;> nofun)
    (by rcases hx with rfl | rfl <;> nofun) (fun s => St s ∧ s.waiting ≤ k)
    (fun s' => ∃ s, St s ∧ s.pcs[i]? = some x ∧ s.waiting ≤ k ∧ Ran s i x s') ?_ ?_ n ⟨h, hS n, hw⟩
  · rintro s l s' ⟨hI, hw⟩ hx hs -
    exact Or.inl ⟨st_step hI hs, Nat.le_trans (waiting_step (hI.off i x hx hoff) hs) hw⟩
  · rintro s s' ⟨hI, hw⟩ hx hr
    exact ⟨s, hI, hx, hw, hr⟩

/-- The loop of `blocking_disable` ends if nobody is in `wait_threshold_reached`. -/
theorem drain_ends (hS : ∀ n, St (e.at_ n)) (hN : ∀ n, NoTh (e.at_ n)) (hf : e.Fair) (i : Nat)
    (o : StatusOp) : ∀ k n, Draining i o (e.at_ n) → (e.at_ n).waiting ≤ k →
      ∃ m, n ≤ m ∧ (e.at_ m).pcs[i]? = some (afterDrain o) := by
  -- one round from `drainTest`
  have test : ∀ k n, (e.at_ n).pcs[i]? = some (.drainTest o) → (e.at_ n).waiting ≤ k →
      ∃ m, n ≤ m ∧ (((e.at_ m).pcs[i]? = some (.drainNotify o) ∧ (e.at_ m).waiting ≤ k ∧ 0 < k) ∨
        (e.at_ m).pcs[i]? = some (afterDrain o)) := by
    intro k n h hw
    obtain ⟨m, hm, s, hI, hx, hw', hr⟩ := drain_runs e hS hf i o k _ (Or.inl rfl) n h hw
    refine ⟨m, hm, ?_⟩
    generalize e.at_ m = s' at hr ⊢
    cases hr with
    | drainMore o h0 => exact Or.inl ⟨get_set_self hx, hw', Nat.lt_of_lt_of_le h0 hw'⟩
    | drainEnd o h0 => exact Or.inr (get_set_self hx)
  -- one round from `drainNotify`
  have notify : ∀ k n, (e.at_ n).pcs[i]? = some (.drainNotify o) → (e.at_ n).waiting ≤ k →
      ∃ m, n ≤ m ∧ (e.at_ m).pcs[i]? = some (.drainTest o) ∧ (e.at_ m).waiting ≤ k ∧
        ∀ (j : Nat) (c t : Bool), (e.at_ m).pcs[j]? ≠ some (.asleep c t) := by
    intro k n h hw
    obtain ⟨m, hm, s, hI, hx, hw', hr⟩ := drain_runs e hS hf i o k _ (Or.inr rfl) n h hw
    refine ⟨m, hm, ?_⟩
    generalize e.at_ m = s' at hr ⊢
    cases hr with
    | drainNotify o =>
      refine ⟨?_, hw', ?_⟩
      · have : (s.pcs.map wake)[i]? = some (.drainNotify o) := by rw [List.getElem?_map, hx]; rfl
        exact get_set_self this
      · intro j c t hj
        rcases set_get hj with ⟨-, c, -⟩ | ⟨-, hj⟩
        · cases c
        · obtain ⟨a, -, e⟩ := map_get hj
          cases a <;> cases e
  intro k
  induction k with
  | zero =>
    intro n hd hw
    have fin : ∀ n, (e.at_ n).pcs[i]? = some (.drainTest o) → (e.at_ n).waiting ≤ 0 →
        ∃ m, n ≤ m ∧ (e.at_ m).pcs[i]? = some (afterDrain o) := by
      intro n h hw
      obtain ⟨m, hm, ⟨-, -, c⟩ | h⟩ := test 0 n h hw
      · cases c
      · exact ⟨m, hm, h⟩
    rcases hd with h | h
    · exact fin n h hw
    · obtain ⟨m, hm, h, hw, -⟩ := notify 0 n h hw
      obtain ⟨m', hm', h⟩ := fin m h hw
      exact ⟨m', Nat.le_trans hm hm', h⟩
  | succ k ih =>
    -- with a woken thread
    have woken : ∀ n, Draining i o (e.at_ n) → (e.at_ n).waiting ≤ k + 1 →
        (∀ (j : Nat) (c t : Bool), (e.at_ n).pcs[j]? ≠ some (.asleep c t)) →
        ∃ m, n ≤ m ∧ (e.at_ m).pcs[i]? = some (afterDrain o) := by
      intro n hd hw hs
      by_cases h0 : 0 < (e.at_ n).waiting
      · rcases exists_waiter (hS n) (hN n) h0 with ⟨j, c, t, hj⟩ | ⟨j, c, t, l, hj⟩
        · exact absurd hj (hs j c t)
        · obtain ⟨m, hm, ⟨hw, hd⟩ | h⟩ := ready_leaves e hf i o k j c t l n ⟨hj, hS n, hw, hd⟩
          · obtain ⟨m', hm', h⟩ := ih m hd hw
            exact ⟨m', Nat.le_trans hm hm', h⟩
          · exact ⟨m, hm, h⟩
      · exact ih n hd (by omega)
    have ntf : ∀ n, (e.at_ n).pcs[i]? = some (.drainNotify o) → (e.at_ n).waiting ≤ k + 1 →
        ∃ m, n ≤ m ∧ (e.at_ m).pcs[i]? = some (afterDrain o) := by
      intro n h hw
      obtain ⟨m, hm, h, hw, hs⟩ := notify (k + 1) n h hw
      obtain ⟨m', hm', h⟩ := woken m (Or.inl h) hw hs
      exact ⟨m', Nat.le_trans hm hm', h⟩
    intro n hd hw
    rcases hd with h | h
    · obtain ⟨m, hm, ⟨h, hw, -⟩ | h⟩ := test (k + 1) n h hw
      · obtain ⟨m', hm', h⟩ := ntf m h hw
        exact ⟨m', Nat.le_trans hm hm', h⟩
      · exact ⟨m, hm, h⟩
    · exact ntf n h hw

/-- A holder of `status_mutex_` makes its next step. -/
theorem holder_step (hf : e.Fair) (i : Nat) (x : PC T) (hh : x.holds = true) (n : Nat)
    (h : (e.at_ n).pcs[i]? = some x) :
    ∃ m, n ≤ m ∧ ∃ s, s.pcs[i]? = some x ∧ Ran s i x (e.at_ m) := by
  refine runs e hf i x (by cases x <;> first | rfl | cases hh) (by rintro o rfl; cases hh)
    (by rintro rfl; cases hh) (fun _ => True) (fun s' => ∃ s, s.pcs[i]? = some x ∧ Ran s i x s') ?_ ?_ n
    ⟨h, trivial⟩
  · intro _ _ _ _ _ _ _; exact Or.inl trivial
  · intro s s' _ hx hr; exact ⟨s, hx, hr⟩

/-- A status operation that holds its mutex finishes, if nobody is in `wait_threshold_reached`. -/
theorem holder_ends (hS : ∀ n, St (e.at_ n)) (hN : ∀ n, NoTh (e.at_ n)) (hf : e.Fair) (i : Nat)
    (x : PC T) (hh : x.holds = true) (n : Nat) (h : (e.at_ n).pcs[i]? = some x) :
    ∃ m, n ≤ m ∧ (e.at_ m).pcs[i]? = some (.idle none) ∧ (e.at_ m).status = none := by
  have rel : ∀ o n, (e.at_ n).pcs[i]? = some (.release o) →
      ∃ m, n ≤ m ∧ (e.at_ m).pcs[i]? = some (.idle none) ∧ (e.at_ m).status = none := by
    intro o n h
    obtain ⟨m, hm, s, hx, hr⟩ := holder_step e hf i _ rfl n h
    refine ⟨m, hm, ?_⟩
    generalize e.at_ m = s' at hr ⊢
    cases hr
    exact ⟨get_set_self hx, rfl⟩
  have ena : ∀ o n, (e.at_ n).pcs[i]? = some (.enableTest o) →
      ∃ m, n ≤ m ∧ (e.at_ m).pcs[i]? = some (.idle none) ∧ (e.at_ m).status = none := by
    intro o n h
    obtain ⟨m, hm, s, hx, hr⟩ := holder_step e hf i _ rfl n h
    have h' : (e.at_ m).pcs[i]? = some (.release o) := by
      generalize e.at_ m = s' at hr ⊢
      cases hr
      exact get_set_self hx
    obtain ⟨k, hk, h⟩ := rel o m h'
    exact ⟨k, Nat.le_trans hm hk, h⟩
  have fin : ∀ o n, (e.at_ n).pcs[i]? = some (afterDrain o) →
      ∃ m, n ≤ m ∧ (e.at_ m).pcs[i]? = some (.idle none) ∧ (e.at_ m).status = none := by
    intro o n h
    cases o <;> first | exact rel _ n h | exact ena _ n h
  have drain : ∀ o n, Draining i o (e.at_ n) →
      ∃ m, n ≤ m ∧ (e.at_ m).pcs[i]? = some (.idle none) ∧ (e.at_ m).status = none := by
    intro o n h
    obtain ⟨m, hm, h⟩ := drain_ends e hS hN hf i o _ n h (Nat.le_refl _)
    obtain ⟨k, hk, h⟩ := fin o m h
    exact ⟨k, Nat.le_trans hm hk, h⟩
  have aft : ∀ o n, (e.at_ n).pcs[i]? = some (afterDisable o) →
      ∃ m, n ≤ m ∧ (e.at_ m).pcs[i]? = some (.idle none) ∧ (e.at_ m).status = none := by
    intro o n h
    cases o <;> first | exact rel _ n h | exact drain _ n (Or.inl h)
  have ntf : ∀ o n, (e.at_ n).pcs[i]? = some (.disableNotify o) →
      ∃ m, n ≤ m ∧ (e.at_ m).pcs[i]? = some (.idle none) ∧ (e.at_ m).status = none := by
    intro o n h
    obtain ⟨m, hm, s, hx, hr⟩ := holder_step e hf i _ rfl n h
    have h' : (e.at_ m).pcs[i]? = some (afterDisable o) := by
      generalize e.at_ m = s' at hr ⊢
      cases hr
      have : (s.pcs.map wake)[i]? = some (.disableNotify o) := by rw [List.getElem?_map, hx]; rfl
      exact get_set_self this
    obtain ⟨k, hk, h⟩ := aft o m h'
    exact ⟨k, Nat.le_trans hm hk, h⟩
  have dis : ∀ o n, (e.at_ n).pcs[i]? = some (.disableTest o) →
      ∃ m, n ≤ m ∧ (e.at_ m).pcs[i]? = some (.idle none) ∧ (e.at_ m).status = none := by
    intro o n h
    obtain ⟨m, hm, s, hx, hr⟩ := holder_step e hf i _ rfl n h
    have h' : (e.at_ m).pcs[i]? = some (.disableNotify o) ∨ (e.at_ m).pcs[i]? = some (afterDisable o) := by
      generalize e.at_ m = s' at hr ⊢
      cases hr
      · exact Or.inl (get_set_self hx)
      · exact Or.inr (get_set_self hx)
    rcases h' with h' | h'
    · obtain ⟨k, hk, h⟩ := ntf o m h'
      exact ⟨k, Nat.le_trans hm hk, h⟩
    · obtain ⟨k, hk, h⟩ := aft o m h'
      exact ⟨k, Nat.le_trans hm hk, h⟩
  cases x with
  | release o => exact rel o n h
  | enableTest o => exact ena o n h
  | disableTest o => exact dis o n h
  | disableNotify o => exact ntf o n h
  | drainTest o => exact drain o n (Or.inl h)
  | drainNotify o => exact drain o n (Or.inr h)
  | stopTest o =>
    obtain ⟨m, hm, s, hx, hr⟩ := holder_step e hf i _ rfl n h
    have h' : (e.at_ m).pcs[i]? = some (.disableTest o) ∨ (e.at_ m).pcs[i]? = some (.enableTest o) := by
      generalize e.at_ m = s' at hr ⊢
      cases hr
      · exact Or.inl (get_set_self hx)
      · exact Or.inr (get_set_self hx)
    rcases h' with h' | h'
    · obtain ⟨k, hk, h⟩ := dis o m h'
      exact ⟨k, Nat.le_trans hm hk, h⟩
    · obtain ⟨k, hk, h⟩ := ena o m h'
      exact ⟨k, Nat.le_trans hm hk, h⟩
  | _ => cases hh

/-- `status_mutex_` is free again and again, if nobody is in `wait_threshold_reached`. -/
theorem status_free (hS : ∀ n, St (e.at_ n)) (hN : ∀ n, NoTh (e.at_ n)) (hf : e.Fair) (n : Nat) :
    ∃ m, n ≤ m ∧ (e.at_ m).status = none := by
  cases hs : (e.at_ n).status with
  | none => exact ⟨n, Nat.le_refl n, hs⟩
  | some j =>
    have hlt := (hS n).mem j hs
    have hx : (e.at_ n).pcs[j]? = some (e.at_ n).pcs[j] := List.getElem?_eq_getElem hlt
    obtain ⟨m, hm, -, h⟩ := holder_ends e hS hN hf j _ (((hS n).holds j _ hx).2 hs) n hx
    exact ⟨m, hm, h⟩

/-- Every status operation finishes, if nobody is in `wait_threshold_reached`. -/
theorem status_returns (hS : ∀ n, St (e.at_ n)) (hN : ∀ n, NoTh (e.at_ n)) (hf : e.Fair) (i : Nat)
    (x : PC T) (hx : x.holds = true ∨ ∃ o, x = .acquire o) (n : Nat) (h : (e.at_ n).pcs[i]? = some x) :
    ∃ m, n ≤ m ∧ (e.at_ m).pcs[i]? = some (.idle none) := by
  rcases hx with hx | ⟨o, rfl⟩
  · obtain ⟨m, hm, h, -⟩ := holder_ends e hS hN hf i x hx n h
    exact ⟨m, hm, h⟩
  · have key : e.LeadsTo (fun s => s.pcs[i]? = some (.acquire o))
        (fun s => s.pcs[i]? = some (first o)) := by
      have keep : ∀ s l s', s.pcs[i]? = some (.acquire o) → (system T).step s l = some s' →
          s'.pcs[i]? = some (.acquire o) ∨ s'.pcs[i]? = some (first o) := by
        intro s l s' hx hs
        have hs := step_stepped hs
        by_cases hl : l = .run i
        · subst hl
          cases hs with
          | run i y s' hy hr =>
            rw [hx] at hy
            cases hy
            cases hr
            exact Or.inr (get_set_self hx)
        · exact Or.inl (frame_active hs hx rfl hl)
      refine e.leadsTo hf i _ _ keep ?_ ?_
      · intro n h
        obtain ⟨m, hm, hfree⟩ := status_free e hS hN hf n
        rcases e.until_ _ _ keep n h m hm with h | ⟨k, hk, h⟩
        · refine ⟨m, hm, Or.inl ?_⟩
          show (run (e.at_ m) i).isSome
          unfold run
          rw [h]
          simp only [hfree]
          rfl
        · exact ⟨k, hk, Or.inr h⟩
      · intro s s' hx hs
        have hs : step s (.run i) = some s' := hs
        cases step_stepped hs with
        | run i y s' hy hr =>
          rw [hx] at hy
          cases hy
          cases hr
          exact get_set_self hx
    obtain ⟨m, hm, h⟩ := key n h
    obtain ⟨k, hk, h, -⟩ := holder_ends e hS hN hf i (first o) (by cases o <;> rfl) m h
    exact ⟨k, Nat.le_trans hm hk, h⟩

/-- The number of granted waits only grows. -/
theorem grants_mono {s s' : State T} {l : Label (Op T)} (h : Stepped s l s') : s.grants ≤ s'.grants := by
  obtain ⟨-, h | h | h⟩ := step_counter h
  · exact Nat.le_of_eq h.2.2.symm
  · exact Nat.le_of_eq h.2.2.symm
  · rw [h.2.2.2.2]; exact Nat.le_succ _

/-- A surplus with a sleeper leads to a grant, or the surplus goes away otherwise. -/
theorem surplus_granted (hL : ∀ n, Sl (e.at_ n)) (hS : ∀ n, St (e.at_ n)) (hf : e.Fair) (k n j : Nat)
    (c t : Bool) (he : (e.at_ n).enabled = true) (hv : (e.at_ n).value > (e.at_ n).threshold)
    (hj : (e.at_ n).pcs[j]? = some (.asleep c t)) (hk : (e.at_ n).grants = k) :
    ∃ m, n ≤ m ∧ (k < (e.at_ m).grants ∨ (e.at_ m).enabled = false ∨
      ¬ (e.at_ m).value > (e.at_ m).threshold) := by
  obtain ⟨i, c', t', l', hi⟩ := surplus_ready (hL n) (hS n) he hv hj
  refine runs e hf i (.ready c' t' l') rfl nofun nofun
    (fun s => s.enabled = true ∧ s.value > s.threshold ∧ s.grants = k)
    (fun s => k < s.grants ∨ s.enabled = false ∨ ¬ s.value > s.threshold) ?_ ?_ n ⟨hi, he, hv, hk⟩
  · rintro s l s' ⟨he, hv, hk⟩ hx hs -
    have hm := grants_mono hs
    by_cases h1 : k < s'.grants
    · exact Or.inr (Or.inl h1)
    · cases h2 : s'.enabled with
      | false => exact Or.inr (Or.inr (Or.inl rfl))
      | true =>
        by_cases h3 : s'.value > s'.threshold
        · exact Or.inl ⟨rfl, h3, by omega⟩
        · exact Or.inr (Or.inr (Or.inr h3))
  · rintro s s' ⟨he, hv, hk⟩ hx hr
    left
    cases hr with
    | readyDisabled c t l he' => rw [he] at he'; cases he'
    | readyGrant c t l he' hv' =>
      rw [(decrease_same _).2.2.2]
      show k < s.grants + 1
      omega
    | readyTimeout c t he' hv' => exact absurd hv hv'
    | readySleep c t he' hv' => exact absurd hv hv'

/-- A thread asleep in a disabled handler wakes. -/
theorem disabled_wakes (hL : ∀ n, Sl (e.at_ n)) (hf : e.Fair) (n j : Nat) (c t : Bool)
    (he : (e.at_ n).enabled = false) (hj : (e.at_ n).pcs[j]? = some (.asleep c t)) :
    ∃ m, n ≤ m ∧ ∃ l, (e.at_ m).pcs[j]? = some (.ready c t l) := by
  rcases hL n j c t hj with ⟨i, pc, hi, hp⟩ | ⟨h, -⟩
  · cases pc with
    | disableNotify o =>
      refine runs e hf i (.disableNotify o) rfl nofun nofun (fun s => s.pcs[j]? = some (.asleep c t))
        (fun s => ∃ l, s.pcs[j]? = some (.ready c t l)) ?_ ?_ n ⟨hi, hj⟩
      · intro s l s' hj _ hs _
        exact frame_sleep hs hj
      · intro s s' hj hx hr
        cases hr with
        | disableNotify o =>
          have hne : j ≠ i := by rintro rfl; rw [hj] at hx; cases hx
          refine ⟨false, ?_⟩
          show ((s.pcs.map wake).set i _)[j]? = _
          rw [get_set_ne hne, List.getElem?_map, hj]
          rfl
    | _ => cases hp
  · rw [he] at h; cases h

end Verif.Counter
