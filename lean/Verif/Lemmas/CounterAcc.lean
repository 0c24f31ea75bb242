import Verif.Lemmas.CounterQueue
/-!
`Verif.Counter` used as a consumer: the counter is the number of stored elements that are neither promised
to a consumer nor still to be counted by their producer.
-/
namespace Verif.Counter
open Verif.Threads
open Verif.WaitHandler (Reason StatusOp)

variable {T : Type}

/-- Between storing an element and counting it. -/
def PC.storing : PC T → Bool
  | .inc true => true
  | _ => false

/-- Between the grant and the element. -/
def PC.popping : PC T → Bool
  | .popLock => true
  | .popSwap => true
  | .popTake => true
  | _ => false

structure Ac (s : State T) : Prop where
  stored : s.pushed.length = s.incs + s.pcs.countP PC.storing
  granted : s.grants = s.popped.length + s.pcs.countP PC.popping

theorem Woken.storing {l l' : List (PC T)} (h : Woken l l') :
    l'.countP PC.storing = l.countP PC.storing := by
  refine h.countP _ ?_ ?_ <;>
  · intro a
    cases a <;> rfl

theorem Woken.popping {l l' : List (PC T)} (h : Woken l l') :
    l'.countP PC.popping = l.countP PC.popping := by
  refine h.countP _ ?_ ?_ <;>
  · intro a
    cases a <;> rfl

/-- Bookkeeping of one step of thread `i`. -/
theorem ac_move {s s' : State T} {i : Nat} {x y : PC T} (h : Ac s) (hx : s.pcs[i]? = some x)
    (hw : Woken (s.pcs.set i y) s'.pcs)
    (h1 : s'.pushed.length + s.incs + (if x.storing then 1 else 0) =
      s.pushed.length + s'.incs + (if y.storing then 1 else 0))
    (h2 : s'.grants + s.popped.length + (if x.popping then 1 else 0) =
      s.grants + s'.popped.length + (if y.popping then 1 else 0)) : Ac s' := by
  have a := countP_set PC.storing y hx
  have b := countP_set PC.popping y hx
  have c := h.stored
  have d := h.granted
  refine ⟨?_, ?_⟩
  · rw [hw.storing]; omega
  · rw [hw.popping]; omega

theorem ac_quiet {s s' : State T} {i : Nat} {x y : PC T} (h : Ac s) (hx : s.pcs[i]? = some x)
    (hw : Woken (s.pcs.set i y) s'.pcs) (hp : s'.pushed = s.pushed) (hi : s'.incs = s.incs)
    (hg : s'.grants = s.grants) (ho : s'.popped = s.popped)
    (e1 : x.storing = y.storing) (e2 : x.popping = y.popping) : Ac s' := by
  refine ac_move h hx hw ?_ ?_
  · rw [hp, hi, e1]
  · rw [hg, ho, e2]

theorem ac_ran {s s' : State T} {i : Nat} {x : PC T} (hC : Cl s) (h : Ac s) (hx : s.pcs[i]? = some x)
    (hs : Ran s i x s') : Ac s' := by
  have hraw := hC.raw i x hx
  cases hs with
  | enterGrant c t he hv =>
    have e := decrease_same (goto s i (afterWait c .conditionMet))
    cases c with
    | false => cases hraw
    | true =>
      refine ac_move h hx e.1.woken ?_ ?_
      · rw [e.1.pushed, e.2.2.1]; rfl
      · rw [e.1.popped, e.2.2.2]
        show s.grants + 1 + s.popped.length + 0 = s.grants + s.popped.length + 1
        omega
  | readyGrant c t l he hv =>
    have e := decrease_same (goto { s with waiting := s.waiting - 1 } i (afterWait c .conditionMet))
    cases c with
    | false => cases hraw
    | true =>
      refine ac_move h hx e.1.woken ?_ ?_
      · rw [e.1.pushed, e.2.2.1]; rfl
      · rw [e.1.popped, e.2.2.2]
        show s.grants + 1 + s.popped.length + 0 = s.grants + s.popped.length + 1
        omega
  | inc p =>
    have e := increment_same (goto s i (.idle none))
    cases p with
    | false => cases hraw
    | true =>
      refine ac_move h hx e.1.woken ?_ ?_
      · rw [e.1.pushed, e.2.2.1]
        show s.pushed.length + s.incs + 1 = s.pushed.length + (s.incs + 1) + 0
        omega
      · rw [e.1.popped, e.2.2.2]; rfl
  | enterDisabled c t he => exact ac_quiet h hx (.refl _) rfl rfl rfl rfl (by cases c <;> rfl) (by cases c <;> rfl)
  | readyDisabled c t l he => exact ac_quiet h hx (.refl _) rfl rfl rfl rfl (by cases c <;> rfl) (by cases c <;> rfl)
  | readyTimeout c t he hv => exact ac_quiet h hx (.refl _) rfl rfl rfl rfl (by cases c <;> rfl) (by cases c <;> rfl)
  | disableNotify o =>
    have hw : Woken (s.pcs.set i (afterDisable o)) (goto (notifyAll s) i (afterDisable o)).pcs := by
      show Woken _ ((s.pcs.map wake).set i (afterDisable o))
      rw [map_wake_set (by cases o <;> rfl)]
      exact .map_wake _
    exact ac_quiet h hx hw rfl rfl rfl rfl (by cases o <;> rfl) (by cases o <;> rfl)
  | drainNotify o =>
    have hw : Woken (s.pcs.set i (.drainTest o)) (goto (notifyAll s) i (.drainTest o)).pcs := by
      show Woken _ ((s.pcs.map wake).set i (.drainTest o))
      rw [map_wake_set rfl]
      exact .map_wake _
    exact ac_quiet h hx hw rfl rfl rfl rfl rfl rfl
  | acquire o hm => exact ac_quiet h hx (.refl _) rfl rfl rfl rfl (by cases o <;> rfl) (by cases o <;> rfl)
  | disableSkip o he => exact ac_quiet h hx (.refl _) rfl rfl rfl rfl (by cases o <;> rfl) (by cases o <;> rfl)
  | drainEnd o he => exact ac_quiet h hx (.refl _) rfl rfl rfl rfl (by cases o <;> rfl) (by cases o <;> rfl)
  | push v =>
    refine ac_move h hx (.refl _) ?_ rfl
    show (s.pushed ++ [v]).length + s.incs + 0 = s.pushed.length + s.incs + 1
    rw [List.length_append, List.length_singleton]
    omega
  | popTake v l hq =>
    refine ac_move h hx (.refl _) rfl ?_
    show s.grants + s.popped.length + 1 = s.grants + (s.popped ++ [v]).length + 0
    rw [List.length_append, List.length_singleton]
    omega
  | popFail hq => exact absurd hq (hC.take i hx)
  | _ => exact ac_quiet h hx (.refl _) rfl rfl rfl rfl rfl rfl

theorem ac_step {s s' : State T} {l : Label (Op T)} (hC : Cl s) (h : Ac s) (hA : l.Allowed Consumer)
    (hs : Stepped s l s') : Ac s' := by
  cases hs with
  | run i x s' hx hr => exact ac_ran hC h hx hr
  | start i r op hx =>
    cases op with
    | inc => exact hA.elim
    | waitDec t => exact hA.elim
    | _ => exact ac_quiet h hx (.refl _) rfl rfl rfl rfl rfl rfl
  | spurious i c t hx => exact ac_quiet h hx (.refl _) rfl rfl rfl rfl rfl rfl
  | timeout i c hx => exact ac_quiet h hx (.refl _) rfl rfl rfl rfl rfl rfl
  | spuriousTh i t hx => exact ac_quiet h hx (.refl _) rfl rfl rfl rfl rfl rfl
  | timeoutTh i hx => exact ac_quiet h hx (.refl _) rfl rfl rfl rfl rfl rfl

theorem ac_reachable {thr : Nat} {b : Bool} {picks : Nat → Nat} {n : Nat} {s : State T}
    (h : (system T).ReachableBy Consumer (init thr 0 b picks n) s) : Ac s := by
  have : (system T).ReachableBy Consumer (init thr 0 b picks n) s ∧ Ac s := by
    refine System.ReachableBy.invariant
      (fun s => (system T).ReachableBy Consumer (init thr 0 b picks n) s ∧ Ac s) ⟨.init, ?_⟩
      (fun _ _ _ hI ha hs => ⟨.step hI.1 ha hs, ac_step (cl_reachable hI.1) hI.2 ha (step_stepped hs)⟩) h
    have hz : ∀ p : PC T → Bool, p (.idle none) = false →
        (init (T := T) thr 0 b picks n).pcs.countP p = 0 := by
      intro p hp
      rw [List.countP_eq_zero]
      intro a ha
      rw [(List.mem_replicate.1 ha).2, hp]
      nofun
    exact ⟨by rw [hz _ rfl]; rfl, by rw [hz _ rfl]; rfl⟩
  exact this.2

/-- As long as fewer than 2^32 elements are stored, the counter is the number of stored elements that are
neither promised nor uncounted. -/
theorem stored_eq {thr : Nat} {b : Bool} {picks : Nat → Nat} {n : Nat} {s : State T}
    (h : (system T).ReachableBy Consumer (init thr 0 b picks n) s)
    (hb : s.queue.fg.length + s.queue.bg.length < 2 ^ 32) :
    s.queue.fg.length + s.queue.bg.length =
      s.value + s.pcs.countP PC.popping + s.pcs.countP PC.storing := by
  have hA := ac_reachable h
  have hQ := qu_reachable h
  have hR := ar_reachable (by decide) h
  have hl : s.pushed.length = s.popped.length + (s.queue.fg.length + s.queue.bg.length) := by
    rw [hQ.hist, List.length_append, List.length_append]
  have h1 := hA.stored
  have h2 := hA.granted
  have h3 := hR.mod
  have h4 := hR.bound
  have hC := (cl_reachable h).count
  have hle : s.pcs.countP PC.popping + s.pcs.countP PC.storing ≤ s.pcs.countP PC.claims := by
    clear hC h1 h2 hl hR hQ hA h
    induction s.pcs with
    | nil => simp
    | cons a l ih =>
      rw [List.countP_cons, List.countP_cons, List.countP_cons]
      have : (if a.popping then 1 else 0) + (if a.storing then 1 else 0) ≤
          (if a.claims then 1 else 0) := by
        cases a with
        | inc p => cases p <;> simp [PC.popping, PC.storing, PC.claims]
        | _ => simp [PC.popping, PC.storing, PC.claims]
      omega
  omega

/-- A disabled handler grants nothing. -/
theorem popping_step {s s' : State T} {l : Label (Op T)} (he : s.enabled = false) (hs : Stepped s l s')
    {j : Nat} {y' : PC T} (hj : s'.pcs[j]? = some y') (hp : y'.popping = true) :
    ∃ y, s.pcs[j]? = some y ∧ y.popping = true := by
  have key : ∀ (i : Nat) (x y : PC T), s.pcs[i]? = some x → Woken (s.pcs.set i y) s'.pcs →
      (y.popping = true → x.popping = true) → ∃ y, s.pcs[j]? = some y ∧ y.popping = true := by
    intro i x y hx hw hxy
    obtain ⟨a, ha, e⟩ := hw.get' hj
    have hpa : a.popping = true := by
      rcases e with e | e | e <;> rw [e] at hp
      · exact hp
      · cases a <;> first | exact hp | cases hp
      · cases a <;> first | exact hp | cases hp
    rcases set_get ha with ⟨rfl, e', -⟩ | ⟨-, ha⟩
    · exact ⟨x, hx, hxy (e' ▸ hpa)⟩
    · exact ⟨a, ha, hpa⟩
  cases hs with
  | run i x s' hx hr =>
    cases hr with
    | enterGrant c t he' hv => rw [he] at he'; cases he'
    | readyGrant c t l he' hv => rw [he] at he'; cases he'
    | enterDisabled c t he => exact key i _ _ hx (.refl _) (by cases c <;> nofun)
    | readyDisabled c t l he => exact key i _ _ hx (.refl _) (by cases c <;> nofun)
    | readyTimeout c t he' hv => rw [he] at he'; cases he'
    | inc p => exact key i _ _ hx (increment_same (goto s i (.idle none))).1.woken nofun
    | disableNotify o =>
      refine key i _ (afterDisable o) hx ?_ (by cases o <;> nofun)
      show Woken _ ((s.pcs.map wake).set i (afterDisable o))
      rw [map_wake_set (by cases o <;> rfl)]
      exact .map_wake _
    | drainNotify o =>
      refine key i _ (.drainTest o) hx ?_ nofun
      show Woken _ ((s.pcs.map wake).set i (.drainTest o))
      rw [map_wake_set rfl]
      exact .map_wake _
    | acquire o hm => exact key i _ _ hx (.refl _) (by cases o <;> nofun)
    | disableSkip o he => exact key i _ _ hx (.refl _) (by cases o <;> nofun)
    | drainEnd o he => exact key i _ _ hx (.refl _) (by cases o <;> nofun)
    | popEmpty hm hq => exact key i _ _ hx (.refl _) (fun _ => rfl)
    | popSome hm hq => exact key i _ _ hx (.refl _) (fun _ => rfl)
    | popSwap => exact key i _ _ hx (.refl _) (fun _ => rfl)
    | _ =>
      refine key i _ _ hx (.refl _) ?_
      nofun
  | start i r op hx => exact key i _ _ hx (.refl _) (by cases op <;> nofun)
  | spurious i c t hx => exact key i _ _ hx (.refl _) nofun
  | spuriousTh i t hx => exact key i _ _ hx (.refl _) nofun
  | timeout i c hx => exact key i _ _ hx (.refl _) nofun
  | timeoutTh i hx => exact key i _ _ hx (.refl _) nofun

end Verif.Counter
