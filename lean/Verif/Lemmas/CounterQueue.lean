import Verif.Lemmas.Counter
/-!
Invariants of the consumer queue.
-/
namespace Verif.Counter
open Verif.Threads
open Verif.WaitHandler (Reason StatusOp)

variable {T : Type}

/-- Within the critical section of `pop_queue_mutex_`. -/
def PC.owns : PC T → Bool
  | .popSwap => true
  | .popTake => true
  | _ => false

/-- Elements promised: a granted wait that has not taken its element yet, or an element pushed and not yet
counted. -/
def PC.claims : PC T → Bool
  | .popLock => true
  | .popSwap => true
  | .popTake => true
  | .inc true => true
  | _ => false

/-- Direct use of the counter below the consumer. -/
def PC.raw : PC T → Bool
  | .enter false _ => true
  | .asleep false _ => true
  | .ready false _ _ => true
  | .inc false => true
  | _ => false

theorem Woken.get_owner {l l' : List (PC T)} (h : Woken l l') {j : Nat} {a' : PC T}
    (hj : l'[j]? = some a') : ∃ a, l[j]? = some a ∧ a'.owns = a.owns ∧ a'.claims = a.claims ∧
      (a.raw = false → a'.raw = false) ∧ (a.owns = true → a' = a) := by
  obtain ⟨a, ha, e⟩ := h.get' hj
  refine ⟨a, ha, ?_⟩
  rcases e with e | e | e <;> subst e
  · exact ⟨rfl, rfl, fun h => h, fun _ => rfl⟩
  · cases a with
    | asleep c t => cases c <;> exact ⟨rfl, rfl, fun h => h, nofun⟩
    | _ => exact ⟨rfl, rfl, fun h => h, fun _ => rfl⟩
  · cases a with
    | thAsleep t => exact ⟨rfl, rfl, fun h => h, nofun⟩
    | _ => exact ⟨rfl, rfl, fun h => h, fun _ => rfl⟩

theorem Woken.claims {l l' : List (PC T)} (h : Woken l l') : l'.countP PC.claims = l.countP PC.claims := by
  refine h.countP _ ?_ ?_ <;>
  · intro a
    cases a <;> rfl

/-- The queue: what went in is what came out followed by what is stored; only the owner of
`pop_queue_mutex_` is inside its section. -/
structure Qu (s : State T) : Prop where
  hist : s.pushed = s.popped ++ (s.queue.fg ++ s.queue.bg)
  own : ∀ (j : Nat) (pc : PC T), s.pcs[j]? = some pc → (pc.owns = true ↔ s.popMutex = some j)
  swap : ∀ j : Nat, s.pcs[j]? = some .popSwap → s.queue.fg = []

/-- A step that does not touch the queue. -/
theorem qu_quiet {s s' : State T} {i : Nat} {x y : PC T} (h : Qu s) (hx : s.pcs[i]? = some x)
    (hw : Woken (s.pcs.set i y) s'.pcs) (hxo : x.owns = false) (hyo : y.owns = false)
    (hq : s'.queue = s.queue) (hm : s'.popMutex = s.popMutex) (hpu : s'.pushed = s.pushed)
    (hpo : s'.popped = s.popped) : Qu s' := by
  refine ⟨by rw [hpu, hpo, hq]; exact h.hist, ?_, ?_⟩
  · intro j pc hj
    obtain ⟨a, ha, e, -⟩ := hw.get_owner hj
    rw [e, hm]
    rcases set_get ha with ⟨rfl, e', -⟩ | ⟨-, ha⟩
    · subst e'
      rw [hyo, ← h.own j x hx, hxo]
    · exact h.own j a ha
  · intro j hj
    rw [hq]
    obtain ⟨a, ha, e, -, -, e2⟩ := hw.get_owner hj
    have ho : a.owns = true := e.symm
    cases e2 ho
    rcases set_get ha with ⟨rfl, e', -⟩ | ⟨-, ha⟩
    · subst e'; cases hyo
    · exact h.swap j ha

theorem afterWait_owns (c : Bool) (r : Reason) : (afterWait c r : PC T).owns = false := by
  cases c <;> cases r <;> rfl

theorem qu_ran {s s' : State T} {i : Nat} {x : PC T} (h : Qu s) (hx : s.pcs[i]? = some x)
    (hs : Ran s i x s') : Qu s' := by
  have hself : ∀ (y : PC T), (s.pcs.set i y)[i]? = some y := fun y => get_set_self hx
  cases hs with
  | enterGrant c t he hv =>
    have e := (decrease_same (goto s i (afterWait c .conditionMet))).1
    exact qu_quiet h hx e.woken rfl (afterWait_owns _ _) e.queue e.popMutex e.pushed e.popped
  | readyGrant c t l he hv =>
    have e := (decrease_same (goto { s with waiting := s.waiting - 1 } i (afterWait c .conditionMet))).1
    exact qu_quiet h hx e.woken rfl (afterWait_owns _ _) e.queue e.popMutex e.pushed e.popped
  | inc p =>
    have e := (increment_same (goto s i (.idle none))).1
    exact qu_quiet h hx e.woken rfl rfl e.queue e.popMutex e.pushed e.popped
  | enterDisabled c t he => exact qu_quiet h hx (.refl _) rfl (afterWait_owns _ _) rfl rfl rfl rfl
  | readyDisabled c t l he => exact qu_quiet h hx (.refl _) rfl (afterWait_owns _ _) rfl rfl rfl rfl
  | readyTimeout c t he hv => exact qu_quiet h hx (.refl _) rfl (afterWait_owns _ _) rfl rfl rfl rfl
  | disableNotify o =>
    have hw : Woken (s.pcs.set i (afterDisable o)) (goto (notifyAll s) i (afterDisable o)).pcs := by
      show Woken _ ((s.pcs.map wake).set i (afterDisable o))
      rw [map_wake_set (by cases o <;> rfl)]
      exact .map_wake _
    exact qu_quiet h hx hw rfl (by cases o <;> rfl) rfl rfl rfl rfl
  | drainNotify o =>
    have hw : Woken (s.pcs.set i (.drainTest o)) (goto (notifyAll s) i (.drainTest o)).pcs := by
      show Woken _ ((s.pcs.map wake).set i (.drainTest o))
      rw [map_wake_set rfl]
      exact .map_wake _
    exact qu_quiet h hx hw rfl rfl rfl rfl rfl rfl
  | acquire o hm => exact qu_quiet h hx (.refl _) rfl (by cases o <;> rfl) rfl rfl rfl rfl
  | disableSkip o he => exact qu_quiet h hx (.refl _) rfl (by cases o <;> rfl) rfl rfl rfl rfl
  | drainEnd o he => exact qu_quiet h hx (.refl _) rfl (by cases o <;> rfl) rfl rfl rfl rfl
  | push v =>
    refine ⟨?_, ?_, ?_⟩
    · show s.pushed ++ [v] = s.popped ++ (s.queue.fg ++ (s.queue.bg ++ [v]))
      rw [h.hist]
      simp
    · intro j pc hj
      rcases set_get hj with ⟨rfl, e, -⟩ | ⟨-, hj⟩
      · subst e; exact h.own j (.push v) hx
      · exact h.own j pc hj
    · intro j hj
      rcases set_get hj with ⟨rfl, e, -⟩ | ⟨-, hj⟩
      · cases e
      · exact h.swap j hj
  | popEmpty hm hq =>
    refine ⟨h.hist, ?_, ?_⟩
    · intro j pc hj
      show _ ↔ some i = some j
      rcases set_get hj with ⟨rfl, e, -⟩ | ⟨hne, hj⟩
      · subst e; exact ⟨fun _ => rfl, fun _ => rfl⟩
      · rw [h.own j pc hj, hm]
        exact ⟨nofun, fun e => absurd (Option.some.inj e).symm hne⟩
    · intro j hj
      exact hq
  | popSome hm hq =>
    refine ⟨h.hist, ?_, ?_⟩
    · intro j pc hj
      show _ ↔ some i = some j
      rcases set_get hj with ⟨rfl, e, -⟩ | ⟨hne, hj⟩
      · subst e; exact ⟨fun _ => rfl, fun _ => rfl⟩
      · rw [h.own j pc hj, hm]
        exact ⟨nofun, fun e => absurd (Option.some.inj e).symm hne⟩
    · intro j hj
      rcases set_get hj with ⟨rfl, e, -⟩ | ⟨hne, hj⟩
      · cases e
      · have := (h.own j _ hj).1 rfl
        rw [hm] at this
        cases this
  | popSwap =>
    have hfg := h.swap i hx
    refine ⟨?_, ?_, ?_⟩
    · show s.pushed = s.popped ++ (s.queue.bg ++ [])
      rw [h.hist, hfg]
      simp
    · intro j pc hj
      rcases set_get hj with ⟨rfl, e, -⟩ | ⟨-, hj⟩
      · subst e; exact h.own j .popSwap hx
      · exact h.own j pc hj
    · intro j hj
      rcases set_get hj with ⟨rfl, e, -⟩ | ⟨hne, hj⟩
      · cases e
      · have h1 := (h.own j _ hj).1 rfl
        rw [(h.own i _ hx).1 rfl] at h1
        exact absurd (Option.some.inj h1).symm hne
  | popFail hq =>
    refine ⟨h.hist, ?_, ?_⟩
    · intro j pc hj
      show _ ↔ none = some j
      rcases set_get hj with ⟨rfl, e, -⟩ | ⟨hne, hj⟩
      · subst e; exact ⟨nofun, nofun⟩
      · rw [h.own j pc hj, (h.own i _ hx).1 rfl]
        exact ⟨fun e => absurd (Option.some.inj e).symm hne, nofun⟩
    · intro j hj
      rcases set_get hj with ⟨rfl, e, -⟩ | ⟨hne, hj⟩
      · cases e
      · exact h.swap j hj
  | popTake v l hq =>
    refine ⟨?_, ?_, ?_⟩
    · show s.pushed = (s.popped ++ [v]) ++ (l ++ s.queue.bg)
      rw [h.hist, hq]
      simp
    · intro j pc hj
      show _ ↔ none = some j
      rcases set_get hj with ⟨rfl, e, -⟩ | ⟨hne, hj⟩
      · subst e; exact ⟨nofun, nofun⟩
      · rw [h.own j pc hj, (h.own i _ hx).1 rfl]
        exact ⟨fun e => absurd (Option.some.inj e).symm hne, nofun⟩
    · intro j hj
      rcases set_get hj with ⟨rfl, e, -⟩ | ⟨hne, hj⟩
      · cases e
      · have h1 := (h.own j _ hj).1 rfl
        rw [(h.own i _ hx).1 rfl] at h1
        exact absurd (Option.some.inj h1).symm hne
  | _ => exact qu_quiet h hx (.refl _) rfl rfl rfl rfl rfl rfl

theorem qu_step {s s' : State T} {l : Label (Op T)} (h : Qu s) (hs : Stepped s l s') : Qu s' := by
  cases hs with
  | run i x s' hx hr => exact qu_ran h hx hr
  | start i r op hx => exact qu_quiet h hx (.refl _) rfl (by cases op <;> rfl) rfl rfl rfl rfl
  | spurious i c t hx => exact qu_quiet h hx (.refl _) rfl rfl rfl rfl rfl rfl
  | spuriousTh i t hx => exact qu_quiet h hx (.refl _) rfl rfl rfl rfl rfl rfl
  | timeout i c hx => exact qu_quiet h hx (.refl _) rfl rfl rfl rfl rfl rfl
  | timeoutTh i hx => exact qu_quiet h hx (.refl _) rfl rfl rfl rfl rfl rfl

theorem qu_reachable {v0 thr : Nat} {b : Bool} {picks : Nat → Nat} {n : Nat} {s : State T}
    {A : Op T → Prop} (h : (system T).ReachableBy A (init thr v0 b picks n) s) : Qu s := by
  refine System.ReachableBy.invariant Qu ⟨rfl, ?_, ?_⟩
    (fun _ _ _ hI _ hs => qu_step hI (step_stepped hs)) h
  · intro j pc hj
    cases init_pcs hj
    exact ⟨nofun, nofun⟩
  · intro j hj
    cases init_pcs hj

/-- The counter never promises more than the queue holds. -/
structure Cl (s : State T) : Prop where
  count : s.value + s.pcs.countP PC.claims ≤ s.queue.fg.length + s.queue.bg.length
  take : ∀ j : Nat, s.pcs[j]? = some .popTake → s.queue.fg ≠ []
  raw : ∀ (j : Nat) (pc : PC T), s.pcs[j]? = some pc → pc.raw = false

theorem cl_quiet {s s' : State T} {i : Nat} {x y : PC T} (h : Cl s) (hx : s.pcs[i]? = some x)
    (hw : Woken (s.pcs.set i y) s'.pcs) (hyo : y.owns = false) (hyr : y.raw = false)
    (hq : s'.queue = s.queue)
    (hv : s'.value + (if y.claims then 1 else 0) ≤ s.value + (if x.claims then 1 else 0)) : Cl s' := by
  refine ⟨?_, ?_, ?_⟩
  · rw [hq, hw.claims]
    have := countP_set PC.claims y hx
    have := h.count
    omega
  · intro j hj
    rw [hq]
    obtain ⟨a, ha, e, -, -, e2⟩ := hw.get_owner hj
    have ho : a.owns = true := e.symm
    cases e2 ho
    rcases set_get ha with ⟨rfl, e', -⟩ | ⟨-, ha⟩
    · subst e'; cases hyo
    · exact h.take j ha
  · intro j pc hj
    obtain ⟨a, ha, -, -, e, -⟩ := hw.get_owner hj
    refine e ?_
    rcases set_get ha with ⟨rfl, e', -⟩ | ⟨-, ha⟩
    · subst e'; exact hyr
    · exact h.raw j a ha

theorem afterWait_raw (c : Bool) (r : Reason) : (afterWait c r : PC T).raw = false := by
  cases c <;> cases r <;> rfl

theorem cl_ran {s s' : State T} {i : Nat} {x : PC T} (hQ : Qu s) (h : Cl s) (hx : s.pcs[i]? = some x)
    (hs : Ran s i x s') : Cl s' := by
  have hraw := h.raw i x hx
  have hset : ∀ (y : PC T), _ := fun y => countP_set PC.claims y hx
  have hcount := h.count
  cases hs with
  | enterGrant c t he hv =>
    have e := decrease_same (goto s i (afterWait c .conditionMet))
    cases c with
    | false => cases hraw
    | true =>
      refine cl_quiet h hx e.1.woken rfl rfl e.1.queue ?_
      rw [e.2.1]
      show s.value - 1 + 1 ≤ s.value + 0
      omega
  | readyGrant c t l he hv =>
    have e := decrease_same (goto { s with waiting := s.waiting - 1 } i (afterWait c .conditionMet))
    cases c with
    | false => cases hraw
    | true =>
      refine cl_quiet h hx e.1.woken rfl rfl e.1.queue ?_
      rw [e.2.1]
      show s.value - 1 + 1 ≤ s.value + 0
      omega
  | inc p =>
    have e := increment_same (goto s i (.idle none))
    cases p with
    | false => cases hraw
    | true =>
      refine cl_quiet h hx e.1.woken rfl rfl e.1.queue ?_
      rw [e.2.1]
      show wrap (s.value + 1) + 0 ≤ s.value + 1
      unfold wrap
      omega
  | enterDisabled c t he =>
    exact cl_quiet h hx (.refl _) (afterWait_owns _ _) (afterWait_raw _ _) rfl (by cases c <;> exact Nat.le_refl _)
  | readyDisabled c t l he =>
    exact cl_quiet h hx (.refl _) (afterWait_owns _ _) (afterWait_raw _ _) rfl (by cases c <;> exact Nat.le_refl _)
  | readyTimeout c t he hv =>
    exact cl_quiet h hx (.refl _) (afterWait_owns _ _) (afterWait_raw _ _) rfl (by cases c <;> exact Nat.le_refl _)
  | enterSleep c t he hv =>
    cases c with
    | false => cases hraw
    | true => exact cl_quiet h hx (.refl _) rfl rfl rfl (Nat.le_refl _)
  | readySleep c t he hv =>
    cases c with
    | false => cases hraw
    | true => exact cl_quiet h hx (.refl _) rfl rfl rfl (Nat.le_refl _)
  | disableNotify o =>
    have hw : Woken (s.pcs.set i (afterDisable o)) (goto (notifyAll s) i (afterDisable o)).pcs := by
      show Woken _ ((s.pcs.map wake).set i (afterDisable o))
      rw [map_wake_set (by cases o <;> rfl)]
      exact .map_wake _
    exact cl_quiet h hx hw (by cases o <;> rfl) (by cases o <;> rfl) rfl (by cases o <;> exact Nat.le_refl _)
  | drainNotify o =>
    have hw : Woken (s.pcs.set i (.drainTest o)) (goto (notifyAll s) i (.drainTest o)).pcs := by
      show Woken _ ((s.pcs.map wake).set i (.drainTest o))
      rw [map_wake_set rfl]
      exact .map_wake _
    exact cl_quiet h hx hw rfl rfl rfl (Nat.le_refl _)
  | acquire o hm =>
    exact cl_quiet h hx (.refl _) (by cases o <;> rfl) (by cases o <;> rfl) rfl (by cases o <;> exact Nat.le_refl _)
  | disableSkip o he =>
    exact cl_quiet h hx (.refl _) (by cases o <;> rfl) (by cases o <;> rfl) rfl (by cases o <;> exact Nat.le_refl _)
  | drainEnd o he =>
    exact cl_quiet h hx (.refl _) (by cases o <;> rfl) (by cases o <;> rfl) rfl (by cases o <;> exact Nat.le_refl _)
  | push v =>
    refine ⟨?_, ?_, ?_⟩
    · show s.value + (s.pcs.set i (.inc true)).countP PC.claims ≤ s.queue.fg.length + (s.queue.bg ++ [v]).length
      have := hset (.inc true)
      simp only [PC.claims] at this
      simp at this ⊢
      omega
    · intro j hj
      rcases set_get hj with ⟨rfl, e, -⟩ | ⟨-, hj⟩
      · cases e
      · exact h.take j hj
    · intro j pc hj
      rcases set_get hj with ⟨rfl, e, -⟩ | ⟨-, hj⟩
      · subst e; rfl
      · exact h.raw j pc hj
  | popEmpty hm hq =>
    refine ⟨?_, ?_, ?_⟩
    · have := hset .popSwap
      simp only [PC.claims, if_true] at this
      show s.value + (s.pcs.set i .popSwap).countP PC.claims ≤ s.queue.fg.length + s.queue.bg.length
      omega
    · intro j hj
      rcases set_get hj with ⟨rfl, e, -⟩ | ⟨-, hj⟩
      · cases e
      · exact h.take j hj
    · intro j pc hj
      rcases set_get hj with ⟨rfl, e, -⟩ | ⟨-, hj⟩
      · subst e; rfl
      · exact h.raw j pc hj
  | popSome hm hq =>
    refine ⟨?_, ?_, ?_⟩
    · have := hset .popTake
      simp only [PC.claims, if_true] at this
      show s.value + (s.pcs.set i .popTake).countP PC.claims ≤ s.queue.fg.length + s.queue.bg.length
      omega
    · intro j hj
      exact hq
    · intro j pc hj
      rcases set_get hj with ⟨rfl, e, -⟩ | ⟨-, hj⟩
      · subst e; rfl
      · exact h.raw j pc hj
  | popSwap =>
    have hfg := hQ.swap i hx
    have hpos := countP_pos_of_get PC.claims hx rfl
    rw [hfg] at hcount
    refine ⟨?_, ?_, ?_⟩
    · have := hset .popTake
      simp only [PC.claims, if_true] at this
      show s.value + (s.pcs.set i .popTake).countP PC.claims ≤ s.queue.bg.length + 0
      simp at hcount
      omega
    · intro j hj e
      change s.queue.bg = [] at e
      rw [e] at hcount
      simp only [List.length_nil] at hcount
      omega
    · intro j pc hj
      rcases set_get hj with ⟨rfl, e, -⟩ | ⟨-, hj⟩
      · subst e; rfl
      · exact h.raw j pc hj
  | popFail hq => exact absurd hq (h.take i hx)
  | popTake v l hq =>
    refine ⟨?_, ?_, ?_⟩
    · have := hset (.idle (some (.value v)))
      simp only [PC.claims, if_true] at this
      show s.value + (s.pcs.set i (.idle (some (.value v)))).countP PC.claims ≤ l.length + s.queue.bg.length
      rw [hq] at hcount
      simp at hcount this
      omega
    · intro j hj
      rcases set_get hj with ⟨rfl, e, -⟩ | ⟨hne, hj⟩
      · cases e
      · have h1 := (hQ.own j _ hj).1 rfl
        rw [(hQ.own i _ hx).1 rfl] at h1
        exact absurd (Option.some.inj h1).symm hne
    · intro j pc hj
      rcases set_get hj with ⟨rfl, e, -⟩ | ⟨-, hj⟩
      · subst e; rfl
      · exact h.raw j pc hj
  | _ => exact cl_quiet h hx (.refl _) rfl rfl rfl (Nat.le_refl _)

/-- The calls of `ConsumerWaitHandler`. -/
def Consumer : Op T → Prop
  | .inc => False
  | .waitDec _ => False
  | _ => True

theorem cl_step {s s' : State T} {l : Label (Op T)} (hQ : Qu s) (h : Cl s) (hA : l.Allowed Consumer)
    (hs : Stepped s l s') : Cl s' := by
  cases hs with
  | run i x s' hx hr => exact cl_ran hQ h hx hr
  | start i r op hx =>
    cases op with
    | inc => exact hA.elim
    | waitDec t => exact hA.elim
    | _ => exact cl_quiet h hx (.refl _) rfl rfl rfl (Nat.le_refl _)
  | spurious i c t hx =>
    have := h.raw i _ hx
    cases c with
    | false => cases this
    | true => exact cl_quiet h hx (.refl _) rfl rfl rfl (Nat.le_refl _)
  | timeout i c hx =>
    have := h.raw i _ hx
    cases c with
    | false => cases this
    | true => exact cl_quiet h hx (.refl _) rfl rfl rfl (Nat.le_refl _)
  | spuriousTh i t hx => exact cl_quiet h hx (.refl _) rfl rfl rfl (Nat.le_refl _)
  | timeoutTh i hx => exact cl_quiet h hx (.refl _) rfl rfl rfl (Nat.le_refl _)

theorem cl_reachable {thr : Nat} {b : Bool} {picks : Nat → Nat} {n : Nat} {s : State T}
    (h : (system T).ReachableBy Consumer (init thr 0 b picks n) s) : Cl s := by
  have : Qu s ∧ Cl s := by
    refine System.ReachableBy.invariant (fun s => Qu s ∧ Cl s) ⟨qu_reachable (A := Consumer) .init, ?_⟩
      (fun _ _ _ hI ha hs => ⟨qu_step hI.1 (step_stepped hs), cl_step hI.1 hI.2 ha (step_stepped hs)⟩) h
    refine ⟨?_, ?_, ?_⟩
    · have : (init (T := T) thr 0 b picks n).pcs.countP PC.claims = 0 := by
        rw [List.countP_eq_zero]
        intro a ha
        rw [(List.mem_replicate.1 ha).2]
        nofun
      rw [this]
      exact Nat.le_refl _
    · intro j hj
      cases init_pcs hj
    · intro j pc hj
      cases init_pcs hj
      rfl
  exact this.2

/-- Nobody was told that the queue is empty. -/
def NoInc (s : State T) : Prop :=
  ∀ j : Nat, s.pcs[j]? ≠ some (.idle (some (.threw .inconsistency)))

theorem noInc_move {s s' : State T} {i : Nat} {y : PC T} (h : NoInc s)
    (hw : Woken (s.pcs.set i y) s'.pcs) (hy : y ≠ .idle (some (.threw .inconsistency))) : NoInc s' := by
  intro j hj
  obtain ⟨a, ha, e⟩ := hw.get' hj
  have h1 : a ≠ .idle (some (.threw .inconsistency)) := by
    rcases set_get ha with ⟨-, e', -⟩ | ⟨-, ha⟩
    · rw [e']; exact hy
    · rintro rfl
      exact h j ha
  rcases e with e | e | e
  · exact h1 e.symm
  · cases a <;> first | exact h1 e.symm | cases e
  · cases a <;> first | exact h1 e.symm | cases e

theorem afterWait_noInc (c : Bool) (r : Reason) :
    (afterWait c r : PC T) ≠ .idle (some (.threw .inconsistency)) := by
  intro h
  cases c <;> cases r <;> cases h

theorem noInc_step {s s' : State T} {l : Label (Op T)} (h : NoInc s) (hC : Cl s) (hs : Stepped s l s') :
    NoInc s' := by
  cases hs with
  | run i x s' hx hr =>
    cases hr with
    | enterGrant c t he hv =>
      exact noInc_move h (decrease_same (goto s i (afterWait c .conditionMet))).1.woken (afterWait_noInc _ _)
    | readyGrant c t l he hv =>
      exact noInc_move h (decrease_same (goto { s with waiting := s.waiting - 1 } i
        (afterWait c .conditionMet))).1.woken (afterWait_noInc _ _)
    | inc p => exact noInc_move h (increment_same (goto s i (.idle none))).1.woken nofun
    | enterDisabled c t he => exact noInc_move h (.refl _) (afterWait_noInc _ _)
    | readyDisabled c t l he => exact noInc_move h (.refl _) (afterWait_noInc _ _)
    | readyTimeout c t he hv => exact noInc_move h (.refl _) (afterWait_noInc _ _)
    | popFail hq => exact absurd hq (hC.take i hx)
    | disableNotify o =>
      have hw : Woken (s.pcs.set i (afterDisable o)) (goto (notifyAll s) i (afterDisable o)).pcs := by
        show Woken _ ((s.pcs.map wake).set i (afterDisable o))
        rw [map_wake_set (by cases o <;> rfl)]
        exact .map_wake _
      exact noInc_move h hw (by cases o <;> nofun)
    | drainNotify o =>
      have hw : Woken (s.pcs.set i (.drainTest o)) (goto (notifyAll s) i (.drainTest o)).pcs := by
        show Woken _ ((s.pcs.map wake).set i (.drainTest o))
        rw [map_wake_set rfl]
        exact .map_wake _
      exact noInc_move h hw nofun
    | acquire o hm => exact noInc_move h (.refl _) (by cases o <;> nofun)
    | disableSkip o he => exact noInc_move h (.refl _) (by cases o <;> nofun)
    | drainEnd o he => exact noInc_move h (.refl _) (by cases o <;> nofun)
    | _ => exact noInc_move h (.refl _) nofun
  | start i r op hx => exact noInc_move h (.refl _) (by cases op <;> nofun)
  | spurious i c t hx => exact noInc_move h (.refl _) nofun
  | spuriousTh i t hx => exact noInc_move h (.refl _) nofun
  | timeout i c hx => exact noInc_move h (.refl _) nofun
  | timeoutTh i hx => exact noInc_move h (.refl _) nofun

theorem noInc_reachable {thr : Nat} {b : Bool} {picks : Nat → Nat} {n : Nat} {s : State T}
    (h : (system T).ReachableBy Consumer (init thr 0 b picks n) s) : NoInc s := by
  have : (Qu s ∧ Cl s) ∧ NoInc s := by
    refine System.ReachableBy.invariant (fun s => (Qu s ∧ Cl s) ∧ NoInc s)
      ⟨⟨qu_reachable (A := Consumer) .init, cl_reachable .init⟩, ?_⟩
      (fun _ _ _ hI ha hs => ⟨⟨qu_step hI.1.1 (step_stepped hs), cl_step hI.1.1 hI.1.2 ha (step_stepped hs)⟩,
        noInc_step hI.2 hI.1.2 (step_stepped hs)⟩) h
    intro j hj
    cases init_pcs hj
  exact this.2

/-- Nobody sleeps for the threshold at the threshold. -/
def Th (s : State T) : Prop := ∀ (j : Nat) (t : Bool), s.pcs[j]? = some (.thAsleep t) → s.value ≠ s.threshold

theorem th_move {s s' : State T} {i : Nat} {y : PC T} (h : Th s) (hp : s'.pcs = s.pcs.set i y)
    (hv : s'.value = s.value) (ht : s'.threshold = s.threshold)
    (hy : ∀ t, y = .thAsleep t → s.value ≠ s.threshold) : Th s' := by
  intro j t hj
  rw [hp] at hj
  rw [hv, ht]
  rcases set_get hj with ⟨-, e', -⟩ | ⟨-, ha⟩
  · exact hy t e'.symm
  · exact h j t ha

theorem notifyOne_th {s : State T} {j : Nat} {t : Bool} (h : (notifyOne s).pcs[j]? = some (.thAsleep t)) :
    s.pcs[j]? = some (.thAsleep t) := by
  rcases notifyOne_spec s with ⟨-, e⟩ | ⟨k, c, t, hk, e⟩
  · rw [e] at h; exact h
  · rw [e] at h
    rcases set_get h with ⟨-, e, -⟩ | ⟨-, h⟩
    · cases e
    · exact h

theorem th_decrease {s : State T} {i w : Nat} {y : PC T} (h : s.value > s.threshold)
    (hy : ∀ t, y ≠ .thAsleep t) : Th (decrease (goto { s with waiting := w } i y)) := by
  unfold decrease
  simp only
  split
  · rename_i hv
    intro j t hj
    rw [(notifyOne_same _).2.1, (notifyOne_same _).1.threshold]
    exact Nat.ne_of_gt hv
  · split
    · intro j t hj
      obtain ⟨a, -, e⟩ := map_get hj
      cases a <;> cases e
    · rename_i hne
      intro j t hj
      exact hne

theorem th_increment {s : State T} {i : Nat} (h : s.threshold ≤ s.value) (hb : s.value + 1 < 2 ^ 32) :
    Th (increment (goto s i (.idle none))) := by
  intro j t _
  have e := increment_same (goto s i (.idle none))
  rw [e.2.1, e.1.threshold]
  show wrap (s.value + 1) ≠ s.threshold
  unfold wrap
  omega

theorem afterWait_notTh (c : Bool) (r : Reason) (t : Bool) : (afterWait c r : PC T) ≠ .thAsleep t := by
  intro h
  cases c <;> cases r <;> cases h

theorem th_ran {s s' : State T} {i : Nat} {x : PC T} (h : Th s) (hr : Ran s i x s')
    (hle : s.threshold ≤ s.value) (hb : (∃ p, x = .inc p) → s.value + 1 < 2 ^ 32) : Th s' := by
  cases hr with
  | enterGrant c t he hv => exact th_decrease (w := s.waiting) hv (afterWait_notTh _ _)
  | readyGrant c t l he hv => exact th_decrease hv (afterWait_notTh _ _)
  | inc p => exact th_increment hle (hb ⟨p, rfl⟩)
  | disableNotify o =>
    intro j t hj
    rcases set_get hj with ⟨-, e, -⟩ | ⟨-, hj⟩
    · cases o <;> cases e
    · obtain ⟨a, ha, e⟩ := map_get hj
      cases a <;> cases e
      exact h j t ha
  | drainNotify o =>
    intro j t hj
    rcases set_get hj with ⟨-, e, -⟩ | ⟨-, hj⟩
    · cases e
    · obtain ⟨a, ha, e⟩ := map_get hj
      cases a <;> cases e
      exact h j t ha
  | thEnterSleep t he hv => exact th_move h rfl rfl rfl (fun _ _ => hv)
  | thReadySleep t he hv => exact th_move h rfl rfl rfl (fun _ _ => hv)
  | enterDisabled c t he => exact th_move h rfl rfl rfl (fun t e => absurd e (afterWait_notTh _ _ t))
  | readyDisabled c t l he => exact th_move h rfl rfl rfl (fun t e => absurd e (afterWait_notTh _ _ t))
  | readyTimeout c t he hv => exact th_move h rfl rfl rfl (fun t e => absurd e (afterWait_notTh _ _ t))
  | acquire o hm => exact th_move h rfl rfl rfl (fun t e => by cases o <;> cases e)
  | disableSkip o he => exact th_move h rfl rfl rfl (fun t e => by cases o <;> cases e)
  | drainEnd o he => exact th_move h rfl rfl rfl (fun t e => by cases o <;> cases e)
  | _ => exact th_move h rfl rfl rfl nofun

theorem th_reachable {thr v0 : Nat} {b : Bool} {picks : Nat → Nat} {n : Nat} {s : State T}
    {A : Op T → Prop} (hle : thr ≤ v0) (hb : v0 < 2 ^ 32)
    (h : (system T).ReachableBy A (init thr v0 b picks n) s) (hi : v0 + s.incs < 2 ^ 32) : Th s := by
  have : Ar v0 thr s ∧ (v0 + s.incs < 2 ^ 32 → Th s) := by
    refine System.ReachableBy.invariant (fun s : State T => Ar v0 thr s ∧ (v0 + s.incs < 2 ^ 32 → Th s))
      ⟨ar_init v0 thr hb b picks n, fun _ j t hj => by cases init_pcs hj⟩ ?_ h
    · rintro s l s' ⟨hA, hT⟩ - hs
      have hs := step_stepped hs
      refine ⟨ar_step hA hs, fun hi' => ?_⟩
      have hinc : s.incs ≤ s'.incs := by
        obtain ⟨-, h | h | h⟩ := step_counter hs
        · omega
        · omega
        · omega
      obtain ⟨e1, e2⟩ := hA.exact (by omega)
      have hle' : s.threshold ≤ s.value := by rw [hA.threshold]; exact e2 hle
      have hT := hT (by omega)
      cases hs with
      | run i x s' hx hr =>
        refine th_ran hT hr hle' ?_
        rintro ⟨p, rfl⟩
        cases hr
        have := (increment_same (goto s i (.idle none))).2.2.1
        rw [this] at hi'
        change v0 + (s.incs + 1) < _ at hi'
        omega
      | start i r op hx => exact th_move hT rfl rfl rfl (fun t e => by cases op <;> cases e)
      | spurious i c t hx => exact th_move hT rfl rfl rfl nofun
      | spuriousTh i t hx => exact th_move hT rfl rfl rfl nofun
      | timeout i c hx => exact th_move hT rfl rfl rfl nofun
      | timeoutTh i hx => exact th_move hT rfl rfl rfl nofun
  exact this.2 hi

end Verif.Counter
