import Verif.Model.Counter
import Verif.Lemmas.Threads
/-!
Invariants of the `CounterWaitHandler` / `DBQueueWaitHandler` program.
-/
namespace Verif.Counter
open Verif.Threads
open Verif.WaitHandler (Reason StatusOp)

variable {T : Type}

/-- The branches of `run`. -/
inductive Ran (s : State T) (i : Nat) : PC T → State T → Prop
  | enterDisabled (c t : Bool) (he : s.enabled = false) :
      Ran s i (.enter c t) (goto s i (afterWait c .disabled))
  | enterGrant (c t : Bool) (he : s.enabled = true) (hv : s.value > s.threshold) :
      Ran s i (.enter c t) (decrease (goto s i (afterWait c .conditionMet)))
  | enterSleep (c t : Bool) (he : s.enabled = true) (hv : ¬ s.value > s.threshold) :
      Ran s i (.enter c t) (goto { s with waiting := s.waiting + 1 } i (.asleep c t))
  | readyDisabled (c t l : Bool) (he : s.enabled = false) :
      Ran s i (.ready c t l) (goto { s with waiting := s.waiting - 1 } i (afterWait c .disabled))
  | readyGrant (c t l : Bool) (he : s.enabled = true) (hv : s.value > s.threshold) :
      Ran s i (.ready c t l)
        (decrease (goto { s with waiting := s.waiting - 1 } i (afterWait c .conditionMet)))
  | readyTimeout (c t : Bool) (he : s.enabled = true) (hv : ¬ s.value > s.threshold) :
      Ran s i (.ready c t true) (goto { s with waiting := s.waiting - 1 } i (afterWait c .timeout))
  | readySleep (c t : Bool) (he : s.enabled = true) (hv : ¬ s.value > s.threshold) :
      Ran s i (.ready c t false) (goto s i (.asleep c t))
  | thEnterDisabled (t : Bool) (he : s.enabled = false) :
      Ran s i (.thEnter t) (goto s i (.idle (some (.reason .disabled))))
  | thEnterMet (t : Bool) (he : s.enabled = true) (hv : s.value = s.threshold) :
      Ran s i (.thEnter t) (goto s i (.idle (some (.reason .conditionMet))))
  | thEnterSleep (t : Bool) (he : s.enabled = true) (hv : s.value ≠ s.threshold) :
      Ran s i (.thEnter t) (goto { s with waiting := s.waiting + 1 } i (.thAsleep t))
  | thReadyDisabled (t l : Bool) (he : s.enabled = false) :
      Ran s i (.thReady t l)
        (goto { s with waiting := s.waiting - 1 } i (.idle (some (.reason .disabled))))
  | thReadyMet (t l : Bool) (he : s.enabled = true) (hv : s.value = s.threshold) :
      Ran s i (.thReady t l)
        (goto { s with waiting := s.waiting - 1 } i (.idle (some (.reason .conditionMet))))
  | thReadyTimeout (t : Bool) (he : s.enabled = true) (hv : s.value ≠ s.threshold) :
      Ran s i (.thReady t true)
        (goto { s with waiting := s.waiting - 1 } i (.idle (some (.reason .timeout))))
  | thReadySleep (t : Bool) (he : s.enabled = true) (hv : s.value ≠ s.threshold) :
      Ran s i (.thReady t false) (goto s i (.thAsleep t))
  | push (v : T) : Ran s i (.push v)
      (goto { s with queue := ⟨s.queue.fg, s.queue.bg ++ [v]⟩, pushed := s.pushed ++ [v] } i (.inc true))
  | inc (p : Bool) : Ran s i (.inc p) (increment (goto s i (.idle none)))
  | popEmpty (hm : s.popMutex = none) (hq : s.queue.fg = []) :
      Ran s i .popLock (goto { s with popMutex := some i } i .popSwap)
  | popSome (hm : s.popMutex = none) (hq : s.queue.fg ≠ []) :
      Ran s i .popLock (goto { s with popMutex := some i } i .popTake)
  | popSwap : Ran s i .popSwap (goto { s with queue := ⟨s.queue.bg, []⟩ } i .popTake)
  | popFail (hq : s.queue.fg = []) :
      Ran s i .popTake (goto { s with popMutex := none } i (.idle (some (.threw .inconsistency))))
  | popTake (v : T) (l : List T) (hq : s.queue.fg = v :: l) :
      Ran s i .popTake
        (goto { s with popMutex := none, queue := ⟨l, s.queue.bg⟩, popped := s.popped ++ [v] } i
          (.idle (some (.value v))))
  | acquire (o : StatusOp) (hm : s.status = none) :
      Ran s i (.acquire o) (goto { s with status := some i } i (first o))
  | enableTest (o : StatusOp) : Ran s i (.enableTest o) (goto { s with enabled := true } i (.release o))
  | disableStore (o : StatusOp) (he : s.enabled = true) :
      Ran s i (.disableTest o) (goto { s with enabled := false } i (.disableNotify o))
  | disableSkip (o : StatusOp) (he : s.enabled = false) :
      Ran s i (.disableTest o) (goto s i (afterDisable o))
  | disableNotify (o : StatusOp) : Ran s i (.disableNotify o) (goto (notifyAll s) i (afterDisable o))
  | drainMore (o : StatusOp) (hw : 0 < s.waiting) : Ran s i (.drainTest o) (goto s i (.drainNotify o))
  | drainEnd (o : StatusOp) (hw : s.waiting = 0) : Ran s i (.drainTest o) (goto s i (afterDrain o))
  | drainNotify (o : StatusOp) : Ran s i (.drainNotify o) (goto (notifyAll s) i (.drainTest o))
  | stopOn (o : StatusOp) (he : s.enabled = true) : Ran s i (.stopTest o) (goto s i (.disableTest o))
  | stopOff (o : StatusOp) (he : s.enabled = false) : Ran s i (.stopTest o) (goto s i (.enableTest o))
  | release (o : StatusOp) : Ran s i (.release o) (goto { s with status := none } i (.idle none))

theorem run_ran {s s' : State T} {i : Nat} (h : run s i = some s') :
    ∃ x, s.pcs[i]? = some x ∧ Ran s i x s' := by
  unfold run at h
  cases hx : s.pcs[i]? with
  | none => rw [hx] at h; cases h
  | some x =>
    rw [hx] at h
    refine ⟨x, rfl, ?_⟩
    cases x with
    | idle r => cases h
    | asleep c t => cases h
    | thAsleep t => cases h
    | enter c t =>
      cases he : s.enabled with
      | false => simp only [he] at h; cases h; exact .enterDisabled c t he
      | true =>
        by_cases hv : s.value > s.threshold
        · simp [he, awake, hv, leave, reason] at h
          cases h
          have := Ran.enterGrant (i := i) c t he hv
          have e : s = { s with enabled := true } := by rw [← he]
          rw [e] at this ⊢
          exact this
        · simp [he, awake, hv] at h
          cases h
          have := Ran.enterSleep (i := i) c t he hv
          rw [he] at this
          exact this
    | ready c t l =>
      cases he : s.enabled with
      | false =>
        simp [he, awake, leave, reason] at h
        cases h
        have := Ran.readyDisabled (i := i) c t l he
        rw [he] at this
        exact this
      | true =>
        by_cases hv : s.value > s.threshold
        · simp [he, awake, hv, leave, reason] at h
          cases h
          have := Ran.readyGrant (i := i) c t l he hv
          rw [he] at this
          exact this
        · cases l with
          | true =>
            simp [he, awake, hv, leave, reason] at h
            cases h
            have := Ran.readyTimeout (i := i) c t he hv
            rw [he] at this
            exact this
          | false => simp [he, awake, hv] at h; cases h; exact .readySleep c t he hv
    | thEnter t =>
      cases he : s.enabled with
      | false => simp only [he] at h; cases h; exact .thEnterDisabled t he
      | true =>
        by_cases hv : s.value = s.threshold
        · simp [he, awakeTh, hv, reason] at h; cases h; exact .thEnterMet t he hv
        · simp [he, awakeTh, hv] at h
          cases h
          have := Ran.thEnterSleep (i := i) t he hv
          rw [he] at this
          exact this
    | thReady t l =>
      cases he : s.enabled with
      | false =>
        simp [he, awakeTh, reason] at h
        cases h
        have := Ran.thReadyDisabled (i := i) t l he
        rw [he] at this
        exact this
      | true =>
        by_cases hv : s.value = s.threshold
        · simp [he, awakeTh, hv, reason] at h
          cases h
          have := Ran.thReadyMet (i := i) t l he hv
          rw [he, hv] at this
          exact this
        · cases l with
          | true =>
            simp [he, awakeTh, hv, reason] at h
            cases h
            have := Ran.thReadyTimeout (i := i) t he hv
            rw [he] at this
            exact this
          | false => simp [he, awakeTh, hv] at h; cases h; exact .thReadySleep t he hv
    | push v => cases h; exact .push v
    | inc p => cases h; exact .inc p
    | popLock =>
      simp only at h
      split at h
      · cases h
      · rename_i hm
        have hm : s.popMutex = none := by cases hh : s.popMutex <;> simp_all
        cases hq : s.queue.fg with
        | nil => simp [DBQueue.empty, hq] at h; cases h; exact .popEmpty hm hq
        | cons a l => simp [DBQueue.empty, hq] at h; cases h; exact .popSome hm (by simp [hq])
    | popSwap => cases h; exact .popSwap
    | popTake =>
      cases hq : s.queue.fg with
      | nil => simp [DBQueue.empty, hq] at h; cases h; exact .popFail hq
      | cons a l =>
        simp [DBQueue.empty, DBQueue.front, DBQueue.pop, hq] at h
        cases h
        exact .popTake a l hq
    | acquire o =>
      simp only at h
      split at h
      · cases h
      · rename_i hm
        have hm : s.status = none := by cases hh : s.status <;> simp_all
        cases h
        exact .acquire o hm
    | enableTest o => cases h; exact .enableTest o
    | disableTest o =>
      cases he : s.enabled with
      | true =>
        simp only [he] at h
        cases h
        have := Ran.disableStore (i := i) o he
        exact this
      | false => simp [he] at h; cases h; exact .disableSkip o he
    | disableNotify o => cases h; exact .disableNotify o
    | drainTest o =>
      by_cases hw : 0 < s.waiting
      · simp only [hw, if_true] at h; cases h; exact .drainMore o hw
      · simp only [hw, if_false] at h; cases h; exact .drainEnd o (by omega)
    | drainNotify o => cases h; exact .drainNotify o
    | stopTest o =>
      cases he : s.enabled with
      | true => simp only [he, if_true] at h; cases h; exact .stopOn o he
      | false => simp [he] at h; cases h; exact .stopOff o he
    | release o => cases h; exact .release o

/-- Some threads of the list have been woken. -/
inductive Woken : List (PC T) → List (PC T) → Prop
  | nil : Woken [] []
  | cons (a a' : PC T) (l l' : List (PC T)) (h : a' = a ∨ a' = wake a ∨ a' = wakeTh a) :
      Woken l l' → Woken (a :: l) (a' :: l')

theorem Woken.refl (l : List (PC T)) : Woken l l := by
  induction l with
  | nil => exact .nil
  | cons a l ih => exact .cons a a l l (Or.inl rfl) ih

theorem Woken.map_wake (l : List (PC T)) : Woken l (l.map wake) := by
  induction l with
  | nil => exact .nil
  | cons a l ih => exact .cons a _ l _ (Or.inr (Or.inl rfl)) ih

theorem Woken.map_wakeTh (l : List (PC T)) : Woken l (l.map wakeTh) := by
  induction l with
  | nil => exact .nil
  | cons a l ih => exact .cons a _ l _ (Or.inr (Or.inr rfl)) ih

theorem Woken.set_wake {l : List (PC T)} {k : Nat} {x : PC T} (h : l[k]? = some x) :
    Woken l (l.set k (wake x)) := by
  induction l generalizing k with
  | nil => exact .nil
  | cons a l ih =>
    cases k with
    | zero =>
      simp only [List.getElem?_cons_zero, Option.some.injEq] at h
      subst h
      exact .cons a _ l l (Or.inr (Or.inl rfl)) (.refl l)
    | succ k =>
      simp only [List.getElem?_cons_succ] at h
      exact .cons a a l _ (Or.inl rfl) (ih h)

theorem Woken.length {l l' : List (PC T)} (h : Woken l l') : l'.length = l.length := by
  induction h with
  | nil => rfl
  | cons a a' l l' _ _ ih => simp [ih]

theorem Woken.get' {l l' : List (PC T)} (h : Woken l l') {j : Nat} {a' : PC T} (hj : l'[j]? = some a') :
    ∃ a, l[j]? = some a ∧ (a' = a ∨ a' = wake a ∨ a' = wakeTh a) := by
  induction h generalizing j with
  | nil => simp at hj
  | cons a b l l' hab _ ih =>
    cases j with
    | zero =>
      simp only [List.getElem?_cons_zero, Option.some.injEq] at hj
      subst hj
      exact ⟨a, rfl, hab⟩
    | succ j =>
      simp only [List.getElem?_cons_succ] at hj ⊢
      exact ih hj

theorem Woken.get {l l' : List (PC T)} (h : Woken l l') {j : Nat} {a : PC T} (hj : l[j]? = some a) :
    ∃ a', l'[j]? = some a' ∧ (a' = a ∨ a' = wake a ∨ a' = wakeTh a) := by
  induction h generalizing j with
  | nil => simp at hj
  | cons a b l l' hab _ ih =>
    cases j with
    | zero =>
      simp only [List.getElem?_cons_zero, Option.some.injEq] at hj
      subst hj
      exact ⟨b, rfl, hab⟩
    | succ j =>
      simp only [List.getElem?_cons_succ] at hj ⊢
      exact ih hj

theorem Woken.countP {l l' : List (PC T)} (h : Woken l l') (q : PC T → Bool)
    (h1 : ∀ a, q (wake a) = q a) (h2 : ∀ a, q (wakeTh a) = q a) : l'.countP q = l.countP q := by
  induction h with
  | nil => rfl
  | cons a a' l l' hab _ ih =>
    rw [List.countP_cons, List.countP_cons, ih]
    rcases hab with rfl | rfl | rfl
    · rfl
    · rw [h1]
    · rw [h2]

theorem modify_eq_set {l : List (PC T)} {k : Nat} {x : PC T} (f : PC T → PC T) (h : l[k]? = some x) :
    l.modify k f = l.set k (f x) := by
  induction l generalizing k with
  | nil => simp at h
  | cons a l ih =>
    cases k with
    | zero =>
      simp only [List.getElem?_cons_zero, Option.some.injEq] at h
      subst h
      rfl
    | succ k =>
      simp only [List.getElem?_cons_succ] at h
      simp only [List.modify_succ_cons, List.set_cons_succ, ih h]

theorem mem_sleepers {pcs : List (PC T)} {k : Nat} :
    k ∈ sleepers pcs ↔ ∃ c t, pcs[k]? = some (.asleep c t) := by
  unfold sleepers
  rw [List.mem_filter, List.mem_range]
  constructor
  · rintro ⟨hk, h⟩
    rw [List.getElem?_eq_getElem hk] at h ⊢
    cases hx : pcs[k] with
    | asleep c t => exact ⟨c, t, rfl⟩
    | _ => rw [hx] at h; cases h
  · rintro ⟨c, t, h⟩
    refine ⟨(List.getElem?_eq_some_iff.1 h).1, ?_⟩
    rw [h]
    rfl

/-- `notify_one` wakes exactly one sleeping thread if there is one. -/
theorem notifyOne_spec (s : State T) :
    ((∀ (j : Nat) (c t : Bool), s.pcs[j]? ≠ some (.asleep c t)) ∧ notifyOne s = s) ∨
    ∃ (k : Nat) (c t : Bool), s.pcs[k]? = some (.asleep c t) ∧
      notifyOne s = { s with pcs := s.pcs.set k (.ready c t false), picks := fun n => s.picks (n + 1) } := by
  unfold notifyOne
  cases hl : (sleepers s.pcs)[s.picks 0 % (sleepers s.pcs).length]? with
  | none =>
    left
    refine ⟨?_, by simp only [hl]⟩
    intro j c t hj
    have hm : j ∈ sleepers s.pcs := mem_sleepers.2 ⟨c, t, hj⟩
    have hpos : 0 < (sleepers s.pcs).length := List.length_pos_of_mem hm
    have := List.getElem?_eq_none_iff.1 hl
    have := Nat.mod_lt (s.picks 0) hpos
    omega
  | some k =>
    right
    obtain ⟨c, t, hk⟩ := mem_sleepers.1 (List.mem_of_getElem? hl)
    refine ⟨k, c, t, hk, ?_⟩
    simp only [hl]
    rw [modify_eq_set wake hk]
    rfl

theorem notifyOne_woken (s : State T) : Woken s.pcs (notifyOne s).pcs := by
  rcases notifyOne_spec s with ⟨-, h⟩ | ⟨k, c, t, hk, h⟩
  · rw [h]; exact .refl _
  · rw [h]; exact Woken.set_wake hk

/-- What a change of the counter leaves alone. -/
structure Same (s s' : State T) : Prop where
  threshold : s'.threshold = s.threshold
  enabled : s'.enabled = s.enabled
  waiting : s'.waiting = s.waiting
  status : s'.status = s.status
  queue : s'.queue = s.queue
  popMutex : s'.popMutex = s.popMutex
  pushed : s'.pushed = s.pushed
  popped : s'.popped = s.popped
  woken : Woken s.pcs s'.pcs

theorem notifyOne_same (s : State T) : Same s (notifyOne s) ∧ (notifyOne s).value = s.value ∧
    (notifyOne s).incs = s.incs ∧ (notifyOne s).grants = s.grants := by
  have hw := notifyOne_woken s
  rcases notifyOne_spec s with ⟨-, h⟩ | ⟨k, c, t, hk, h⟩
  · rw [h] at hw ⊢
    exact ⟨⟨rfl, rfl, rfl, rfl, rfl, rfl, rfl, rfl, hw⟩, rfl, rfl, rfl⟩
  · rw [h] at hw ⊢
    exact ⟨⟨rfl, rfl, rfl, rfl, rfl, rfl, rfl, rfl, hw⟩, rfl, rfl, rfl⟩

theorem increment_same (s : State T) : Same s (increment s) ∧
    (increment s).value = wrap (s.value + 1) ∧ (increment s).incs = s.incs + 1 ∧
    (increment s).grants = s.grants := by
  unfold increment
  simp only
  split
  · obtain ⟨h, a, b, c⟩ := notifyOne_same { s with value := wrap (s.value + 1), incs := s.incs + 1 }
    exact ⟨⟨h.1, h.2, h.3, h.4, h.5, h.6, h.7, h.8, h.9⟩, a, b, c⟩
  · exact ⟨⟨rfl, rfl, rfl, rfl, rfl, rfl, rfl, rfl, .refl _⟩, rfl, rfl, rfl⟩

theorem decrease_same (s : State T) : Same s (decrease s) ∧
    (decrease s).value = s.value - 1 ∧ (decrease s).incs = s.incs ∧
    (decrease s).grants = s.grants + 1 := by
  unfold decrease
  simp only
  split
  · obtain ⟨h, a, b, c⟩ := notifyOne_same { s with value := s.value - 1, grants := s.grants + 1 }
    exact ⟨⟨h.1, h.2, h.3, h.4, h.5, h.6, h.7, h.8, h.9⟩, a, b, c⟩
  · split
    · exact ⟨⟨rfl, rfl, rfl, rfl, rfl, rfl, rfl, rfl, .map_wakeTh _⟩, rfl, rfl, rfl⟩
    · exact ⟨⟨rfl, rfl, rfl, rfl, rfl, rfl, rfl, rfl, .refl _⟩, rfl, rfl, rfl⟩

/-- Not asleep on either condition variable. -/
def PC.up : PC T → Bool
  | .asleep _ _ => false
  | .thAsleep _ => false
  | _ => true

theorem map_wake_set {l : List (PC T)} {i : Nat} {y : PC T} (hy : wake y = y) :
    (l.map wake).set i y = (l.set i y).map wake := by
  rw [List.map_set, hy]

/-- Every step: one thread moves, then some are woken. -/
theorem ran_woken {s s' : State T} {i : Nat} {x : PC T} (h : Ran s i x s') :
    ∃ y, Woken (s.pcs.set i y) s'.pcs := by
  cases h with
  | enterGrant c t he hv =>
    exact ⟨_, (decrease_same (goto s i (afterWait c .conditionMet))).1.woken⟩
  | readyGrant c t l he hv =>
    exact ⟨_, (decrease_same
      (goto { s with waiting := s.waiting - 1 } i (afterWait c .conditionMet))).1.woken⟩
  | inc p => exact ⟨_, (increment_same (goto s i (.idle none))).1.woken⟩
  | disableNotify o =>
    refine ⟨afterDisable o, ?_⟩
    show Woken _ ((s.pcs.map wake).set i (afterDisable o))
    rw [map_wake_set (by cases o <;> rfl)]
    exact .map_wake _
  | drainNotify o =>
    refine ⟨.drainTest o, ?_⟩
    show Woken _ ((s.pcs.map wake).set i (.drainTest o))
    rw [map_wake_set rfl]
    exact .map_wake _
  | _ => exact ⟨_, .refl _⟩

/-- The kinds of steps. -/
inductive Stepped (s : State T) : Label (Op T) → State T → Prop
  | run (i : Nat) (x : PC T) (s' : State T) (hx : s.pcs[i]? = some x) (h : Ran s i x s') :
      Stepped s (.run i) s'
  | start (i : Nat) (r : Option (Ret T)) (op : Op T) (hx : s.pcs[i]? = some (.idle r)) :
      Stepped s (.start i op) (goto s i (entry op))
  | spurious (i : Nat) (c t : Bool) (hx : s.pcs[i]? = some (.asleep c t)) :
      Stepped s (.spurious i) (goto s i (.ready c t false))
  | spuriousTh (i : Nat) (t : Bool) (hx : s.pcs[i]? = some (.thAsleep t)) :
      Stepped s (.spurious i) (goto s i (.thReady t false))
  | timeout (i : Nat) (c : Bool) (hx : s.pcs[i]? = some (.asleep c true)) :
      Stepped s (.timeout i) (goto s i (.ready c true true))
  | timeoutTh (i : Nat) (hx : s.pcs[i]? = some (.thAsleep true)) :
      Stepped s (.timeout i) (goto s i (.thReady true true))

theorem step_stepped {s s' : State T} {l : Label (Op T)} (h : step s l = some s') : Stepped s l s' := by
  cases l with
  | run i =>
    obtain ⟨x, hx, h⟩ := run_ran h
    exact .run i x s' hx h
  | start i op =>
    simp only [step, start] at h
    split at h
    · rename_i r hx
      cases h
      exact .start i r op hx
    · cases h
  | spurious i =>
    simp only [step] at h
    split at h
    · rename_i c t hx; cases h; exact .spurious i c t hx
    · rename_i t hx; cases h; exact .spuriousTh i t hx
    · cases h
  | timeout i =>
    simp only [step] at h
    split at h
    · rename_i c hx; cases h; exact .timeout i c hx
    · rename_i hx; cases h; exact .timeoutTh i hx
    · cases h

/-- A step changes the counter by `++`, by a grant, or not at all. -/
theorem step_counter {s s' : State T} {l : Label (Op T)} (h : Stepped s l s') :
    s'.threshold = s.threshold ∧
    ((s'.value = s.value ∧ s'.incs = s.incs ∧ s'.grants = s.grants) ∨
     (s'.value = wrap (s.value + 1) ∧ s'.incs = s.incs + 1 ∧ s'.grants = s.grants) ∨
     (s.enabled = true ∧ s.value > s.threshold ∧ s'.value = s.value - 1 ∧ s'.incs = s.incs ∧
      s'.grants = s.grants + 1)) := by
  cases h with
  | run i x s' hx h =>
    cases h with
    | enterGrant c t he hv =>
      obtain ⟨h, a, b, d⟩ := decrease_same (goto s i (afterWait c .conditionMet))
      exact ⟨h.threshold, Or.inr (Or.inr ⟨he, hv, a, b, d⟩)⟩
    | readyGrant c t l he hv =>
      obtain ⟨h, a, b, d⟩ := decrease_same
        (goto { s with waiting := s.waiting - 1 } i (afterWait c .conditionMet))
      exact ⟨h.threshold, Or.inr (Or.inr ⟨he, hv, a, b, d⟩)⟩
    | inc p =>
      obtain ⟨h, a, b, d⟩ := increment_same (goto s i (.idle none))
      exact ⟨h.threshold, Or.inr (Or.inl ⟨a, b, d⟩)⟩
    | _ => exact ⟨rfl, Or.inl ⟨rfl, rfl, rfl⟩⟩
  | _ => exact ⟨rfl, Or.inl ⟨rfl, rfl, rfl⟩⟩

/-- Arithmetic of the counter. -/
structure Ar (v0 thr : Nat) (s : State T) : Prop where
  threshold : s.threshold = thr
  bound : s.value < 2 ^ 32
  mod : (s.value + s.grants) % 2 ^ 32 = (v0 + s.incs) % 2 ^ 32
  exact : v0 + s.incs < 2 ^ 32 → s.value + s.grants = v0 + s.incs ∧ (thr ≤ v0 → thr ≤ s.value)

theorem ar_init (v0 thr : Nat) (hv : v0 < 2 ^ 32) (b : Bool) (picks : Nat → Nat) (n : Nat) :
    Ar v0 thr (init (T := T) thr v0 b picks n) :=
  ⟨rfl, hv, rfl, fun _ => ⟨rfl, fun h => h⟩⟩

theorem ar_step {v0 thr : Nat} {s s' : State T} {l : Label (Op T)} (h : Ar v0 thr s)
    (hs : Stepped s l s') : Ar v0 thr s' := by
  obtain ⟨ht, h1 | h1 | h1⟩ := step_counter hs
  · obtain ⟨a, b, c⟩ := h1
    exact ⟨ht.trans h.threshold, by rw [a]; exact h.bound, by rw [a, b, c]; exact h.mod,
      by rw [a, b, c]; exact h.exact⟩
  · obtain ⟨a, b, c⟩ := h1
    have hb := h.bound
    have hm := h.mod
    have he := h.exact
    refine ⟨ht.trans h.threshold, ?_, ?_, ?_⟩
    · rw [a, wrap]; omega
    · rw [a, b, c, wrap]; omega
    · rw [a, b, c, wrap]
      intro hlt
      obtain ⟨e1, e2⟩ := he (by omega)
      refine ⟨by omega, fun hle => ?_⟩
      have := e2 hle
      omega
  · obtain ⟨_, hv, a, b, c⟩ := h1
    have hb := h.bound
    have hm := h.mod
    have he := h.exact
    have hth := h.threshold
    refine ⟨ht.trans h.threshold, ?_, ?_, ?_⟩
    · rw [a]; omega
    · rw [a, b, c]; omega
    · rw [a, b, c]
      intro hlt
      obtain ⟨e1, e2⟩ := he hlt
      exact ⟨by omega, fun hle => by omega⟩

theorem ar_reachable {v0 thr : Nat} {b : Bool} {picks : Nat → Nat} {n : Nat} {s : State T}
    {A : Op T → Prop} (hv : v0 < 2 ^ 32)
    (h : (system T).ReachableBy A (init thr v0 b picks n) s) : Ar v0 thr s :=
  System.ReachableBy.invariant (Ar v0 thr) (ar_init v0 thr hv b picks n)
    (fun _ _ _ hI _ hs => ar_step hI (step_stepped hs)) h

/-- A notification of `wait_condition_variable_` to everybody is about to be sent. -/
def PC.pending : PC T → Bool
  | .disableNotify _ => true
  | _ => false

def PC.isReady : PC T → Bool
  | .ready _ _ _ => true
  | _ => false

/-- No sleeper of `wait_and_decrement` is forgotten. -/
def Sl (s : State T) : Prop :=
  ∀ (j : Nat) (c t : Bool), s.pcs[j]? = some (.asleep c t) →
    (∃ (k : Nat) (pc : PC T), s.pcs[k]? = some pc ∧ pc.pending = true) ∨
    (s.enabled = true ∧ (s.value > s.threshold →
      ∃ (k : Nat) (pc : PC T), s.pcs[k]? = some pc ∧ pc.isReady = true))

/-- A step that moves thread `i` only. -/
theorem sl_goto {s s' : State T} {i : Nat} {x y : PC T} (h : Sl s) (hx : s.pcs[i]? = some x)
    (hp : s'.pcs = s.pcs.set i y)
    (hpend : x.pending = true → y.pending = true)
    (hready : x.isReady = true → y.isReady = true ∨ s.enabled = false ∨ ¬ s.value > s.threshold)
    (hen : s.enabled = true → s'.enabled = true ∨ y.pending = true)
    (hval : s'.value > s'.threshold → s.value > s.threshold)
    (hy : ∀ c t, y = .asleep c t → s'.enabled = true ∧ ¬ s'.value > s'.threshold) : Sl s' := by
  have hyi : s'.pcs[i]? = some y := by rw [hp]; exact get_set_self hx
  intro j c t hj
  rw [hp] at hj
  rcases set_get hj with ⟨rfl, e, _⟩ | ⟨hne, hj⟩
  · obtain ⟨h1, h2⟩ := hy c t e.symm
    exact Or.inr ⟨h1, fun c => absurd c h2⟩
  · rcases h j c t hj with ⟨k, pc, hk, hpc⟩ | ⟨he, hr⟩
    · by_cases hki : k = i
      · subst hki
        rw [hx] at hk
        cases hk
        exact Or.inl ⟨k, y, hyi, hpend hpc⟩
      · exact Or.inl ⟨k, pc, by rw [hp, get_set_ne hki]; exact hk, hpc⟩
    · rcases hen he with he' | hpy
      · refine Or.inr ⟨he', fun hv => ?_⟩
        obtain ⟨k, pc, hk, hpc⟩ := hr (hval hv)
        by_cases hki : k = i
        · subst hki
          rw [hx] at hk
          cases hk
          rcases hready hpc with h | h | h
          · exact ⟨k, y, hyi, h⟩
          · rw [he] at h; cases h
          · exact absurd (hval hv) h
        · exact ⟨k, pc, by rw [hp, get_set_ne hki]; exact hk, hpc⟩
      · exact Or.inl ⟨i, y, hyi, hpy⟩

/-- After `notify_all` nobody sleeps. -/
theorem sl_notify {s : State T} {i : Nat} {y : PC T} (hy : ∀ c t, y ≠ .asleep c t) :
    Sl (goto (notifyAll s) i y) := by
  intro j c t hj
  exfalso
  rcases set_get hj with ⟨rfl, e, _⟩ | ⟨hne, hj⟩
  · exact hy c t e.symm
  · obtain ⟨a, ha, e⟩ := map_get hj
    cases a <;> cases e

/-- `notify_one` leaves a woken thread if anybody sleeps. -/
theorem sl_notifyOne {s : State T} (h : s.enabled = true ∨
    ∀ (j : Nat) (c t : Bool), s.pcs[j]? = some (.asleep c t) →
      (∃ (k : Nat) (pc : PC T), s.pcs[k]? = some pc ∧ pc.pending = true)) : Sl (notifyOne s) := by
  rcases notifyOne_spec s with ⟨hn, e⟩ | ⟨k, c, t, hk, e⟩
  · rw [e]
    intro j c t hj
    exact absurd hj (hn j c t)
  · rw [e]
    intro j c' t' hj
    rcases set_get hj with ⟨-, c, -⟩ | ⟨hne, hj⟩
    · cases c
    · rcases h with h | h
      · exact Or.inr ⟨h, fun _ => ⟨k, _, get_set_self hk, rfl⟩⟩
      · obtain ⟨m, pc, hm, hpc⟩ := h j c' t' hj
        refine Or.inl ⟨m, pc, ?_, hpc⟩
        have : m ≠ k := by
          intro c
          subst c
          rw [hk] at hm
          cases hm
          cases hpc
        show (s.pcs.set k _)[m]? = _
        rw [get_set_ne this]
        exact hm

theorem sl_decrease {s : State T} {i w : Nat} {y : PC T}
    (he : s.enabled = true) (hy : ∀ c t, y ≠ .asleep c t) :
    Sl (decrease (goto { s with waiting := w } i y)) := by
  unfold decrease
  simp only
  split
  · exact sl_notifyOne (Or.inl he)
  · rename_i hv
    split
    · rename_i hv
      intro j c t hj
      refine Or.inr ⟨he, fun h => ?_⟩
      change _ > _ at h
      rename_i hv' 
      exact absurd h hv'
    · intro j c t hj
      exact Or.inr ⟨he, fun h => absurd h hv⟩

theorem sl_increment {s : State T} {i : Nat} {x : PC T} (h : Sl s) (hx : s.pcs[i]? = some x)
    (hnp : x.pending = false) : Sl (increment (goto s i (.idle none))) := by
  have hpend : ∀ (k : Nat) (pc : PC T), s.pcs[k]? = some pc → pc.pending = true →
      (goto s i (.idle none)).pcs[k]? = some pc := by
    intro k pc hk hpc
    have : k ≠ i := by
      intro c
      subst c
      rw [hx] at hk
      cases hk
      rw [hnp] at hpc
      cases hpc
    show (s.pcs.set i _)[k]? = _
    rw [get_set_ne this]
    exact hk
  have hold : ∀ (j : Nat) (c t : Bool), (goto s i (.idle none)).pcs[j]? = some (.asleep c t) →
      s.pcs[j]? = some (.asleep c t) := by
    intro j c t hj
    rcases set_get hj with ⟨-, c, -⟩ | ⟨-, hj⟩
    · cases c
    · exact hj
  unfold increment
  simp only
  split
  · refine sl_notifyOne ?_
    cases he : s.enabled with
    | true => exact Or.inl he
    | false =>
      right
      intro j c t hj
      rcases h j c t (hold j c t hj) with ⟨k, pc, hk, hpc⟩ | ⟨c, -⟩
      · exact ⟨k, pc, hpend k pc hk hpc, hpc⟩
      · rw [he] at c; cases c
  · rename_i hv
    intro j c t hj
    rcases h j c t (hold j c t hj) with ⟨k, pc, hk, hpc⟩ | ⟨he, -⟩
    · exact Or.inl ⟨k, pc, hpend k pc hk hpc, hpc⟩
    · exact Or.inr ⟨he, fun h => absurd h hv⟩

theorem afterWait_ne (c : Bool) (r : Reason) (c' t' : Bool) : (afterWait c r : PC T) ≠ .asleep c' t' := by
  intro h
  cases c <;> cases r <;> cases h

theorem sl_ran {s s' : State T} {i : Nat} {x : PC T} (h : Sl s) (hx : s.pcs[i]? = some x)
    (hs : Ran s i x s') : Sl s' := by
  cases hs with
  | enterDisabled c t he =>
    exact sl_goto h hx rfl nofun nofun (fun h => Or.inl h) (fun h => h)
      (fun _ _ c => absurd c (afterWait_ne _ _ _ _))
  | enterGrant c t he hv => exact sl_decrease he (afterWait_ne _ _)
  | enterSleep c t he hv =>
    exact sl_goto h hx rfl nofun nofun (fun h => Or.inl h) (fun h => h) (fun _ _ _ => ⟨he, hv⟩)
  | readyDisabled c t l he =>
    exact sl_goto h hx rfl nofun (fun _ => Or.inr (Or.inl he)) (fun h => Or.inl h) (fun h => h)
      (fun _ _ c => absurd c (afterWait_ne _ _ _ _))
  | readyGrant c t l he hv => exact sl_decrease he (afterWait_ne _ _)
  | readyTimeout c t he hv =>
    exact sl_goto h hx rfl nofun (fun _ => Or.inr (Or.inr hv)) (fun h => Or.inl h) (fun h => h)
      (fun _ _ c => absurd c (afterWait_ne _ _ _ _))
  | readySleep c t he hv =>
    exact sl_goto h hx rfl nofun (fun _ => Or.inr (Or.inr hv)) (fun h => Or.inl h) (fun h => h)
      (fun _ _ _ => ⟨he, hv⟩)
  | inc p => exact sl_increment h hx rfl
  | disableStore o he => exact sl_goto h hx rfl nofun nofun (fun _ => Or.inr rfl) (fun h => h) nofun
  | disableNotify o => exact sl_notify (by intro c t h; cases o <;> cases h)
  | drainNotify o => exact sl_notify nofun
  | enableTest o => exact sl_goto h hx rfl nofun nofun (fun _ => Or.inl rfl) (fun h => h) nofun
  | acquire o hm =>
    exact sl_goto h hx rfl nofun nofun (fun h => Or.inl h) (fun h => h)
      (by intro c t h; cases o <;> cases h)
  | disableSkip o he =>
    exact sl_goto h hx rfl nofun nofun (fun h => Or.inl h) (fun h => h)
      (by intro c t h; cases o <;> cases h)
  | drainEnd o he =>
    exact sl_goto h hx rfl nofun nofun (fun h => Or.inl h) (fun h => h)
      (by intro c t h; cases o <;> cases h)
  | _ => exact sl_goto h hx rfl nofun nofun (fun h => Or.inl h) (fun h => h) nofun

theorem sl_step {s s' : State T} {l : Label (Op T)} (h : Sl s) (hs : Stepped s l s') : Sl s' := by
  cases hs with
  | run i x s' hx hr => exact sl_ran h hx hr
  | start i r op hx =>
    exact sl_goto h hx rfl nofun nofun (fun h => Or.inl h) (fun h => h)
      (by intro c t h; cases op <;> cases h)
  | spurious i c t hx => exact sl_goto h hx rfl nofun nofun (fun h => Or.inl h) (fun h => h) nofun
  | spuriousTh i t hx => exact sl_goto h hx rfl nofun nofun (fun h => Or.inl h) (fun h => h) nofun
  | timeout i c hx => exact sl_goto h hx rfl nofun nofun (fun h => Or.inl h) (fun h => h) nofun
  | timeoutTh i hx => exact sl_goto h hx rfl nofun nofun (fun h => Or.inl h) (fun h => h) nofun

theorem init_pcs {thr v0 : Nat} {b : Bool} {picks : Nat → Nat} {n : Nat} {j : Nat} {pc : PC T}
    (h : (init (T := T) thr v0 b picks n).pcs[j]? = some pc) : pc = .idle none :=
  (List.mem_replicate.1 (List.mem_of_getElem? h)).2

theorem sl_reachable {v0 thr : Nat} {b : Bool} {picks : Nat → Nat} {n : Nat} {s : State T}
    {A : Op T → Prop} (h : (system T).ReachableBy A (init thr v0 b picks n) s) : Sl s :=
  System.ReachableBy.invariant Sl (fun j c t hj => by cases init_pcs hj)
    (fun _ _ _ hI _ hs => sl_step hI (step_stepped hs)) h

end Verif.Counter
