import Verif.Lemmas.CounterQueue
import Verif.Lemmas.CounterLive
/-!
C54–C58: `CounterWaitHandler`, `ConsumerWaitHandler`, `DBQueueWaitHandler` with any number of threads.
-/
namespace Verif.Counter
open Verif.Threads
open Verif.WaitHandler (Reason StatusOp)

variable {T : Type}

/-- C54: the counter is the initial value plus the increments minus the granted waits, in 32-bit
arithmetic; with fewer than 2^32 increments exactly, and it never drops below the threshold if it starts
at or above it. -/
theorem C54_conservation (thr v0 : Nat) (hv : v0 < 2 ^ 32) (b : Bool) (picks : Nat → Nat) (n : Nat)
    (s : State T) (hr : (system T).Reachable (init thr v0 b picks n) s) :
    s.value < 2 ^ 32 ∧ (s.value + s.grants) % 2 ^ 32 = (v0 + s.incs) % 2 ^ 32 ∧
    (v0 + s.incs < 2 ^ 32 → s.value = v0 + s.incs - s.grants ∧ s.grants ≤ v0 + s.incs ∧
      (thr ≤ v0 → thr ≤ s.value)) := by
  have h := ar_reachable hv hr
  refine ⟨h.bound, h.mod, fun hi => ?_⟩
  obtain ⟨h1, h2⟩ := h.exact hi
  exact ⟨by omega, by omega, h2⟩

/-- C54: `incs` counts the executions of `++`, including those within `produce`. -/
theorem C54_increments (s s' : State T) (l : Label (Op T)) (hs : (system T).step s l = some s') :
    (s'.incs = s.incs + 1 ∧ ∃ (i : Nat) (p : Bool), l = .run i ∧ s.pcs[i]? = some (.inc p)) ∨
    (s'.incs = s.incs ∧ ¬ ∃ (i : Nat) (p : Bool), l = .run i ∧ s.pcs[i]? = some (.inc p)) := by
  cases step_stepped hs with
  | run i x s' hx hr =>
    have ne : (∀ p, x ≠ .inc p) → ¬ ∃ (j : Nat) (p : Bool), Label.run (Op := Op T) i = .run j ∧
        s.pcs[j]? = some (.inc p) := by
      rintro h ⟨j, p, e, hj⟩
      cases e
      rw [hx] at hj
      exact h p (Option.some.inj hj)
    cases hr with
    | inc p => exact Or.inl ⟨(increment_same _).2.2.1, i, p, rfl, hx⟩
    | enterGrant c t he hv => exact Or.inr ⟨(decrease_same _).2.2.1, ne nofun⟩
    | readyGrant c t l he hv => exact Or.inr ⟨(decrease_same _).2.2.1, ne nofun⟩
    | _ => exact Or.inr ⟨rfl, ne nofun⟩
  | _ => exact Or.inr ⟨rfl, by rintro ⟨j, p, e, hj⟩; cases e⟩

/-- C54: a wait is granted only while the handler is enabled and the counter exceeds the threshold, one
at a time, to the one thread that then leaves with `condition_met` (`wait_and_decrement`) or goes on to
take its element (`consume`). -/
theorem C54_grant (s s' : State T) (l : Label (Op T)) (hs : (system T).step s l = some s') :
    s'.grants = s.grants ∨
    (s'.grants = s.grants + 1 ∧ s.enabled = true ∧ s.value > s.threshold ∧ s'.value = s.value - 1 ∧
      ∃ (i : Nat) (c t : Bool), l = .run i ∧
        (s.pcs[i]? = some (.enter c t) ∨ ∃ late, s.pcs[i]? = some (.ready c t late)) ∧
        s'.pcs[i]? = some (if c then .popLock else .idle (some (.reason .conditionMet)))) := by
  have h := step_stepped hs
  have hc := step_counter h
  cases h with
  | run i x s' hx hr =>
    have key : ∀ (c : Bool) (s0 : State T), s0.pcs = s.pcs →
        (decrease (goto s0 i (afterWait c .conditionMet))).pcs[i]? =
          some (if c then .popLock else .idle (some (.reason .conditionMet))) := by
      intro c s0 h0
      have hw := (decrease_same (goto s0 i (afterWait c .conditionMet))).1.woken
      have hg : (goto s0 i (afterWait c .conditionMet)).pcs[i]? = some (afterWait c .conditionMet) := by
        show (s0.pcs.set i _)[i]? = _
        rw [h0]
        exact get_set_self hx
      obtain ⟨a', ha', e⟩ := hw.get hg
      rw [ha']
      cases c <;> rcases e with rfl | rfl | rfl <;> rfl
    cases hr with
    | inc p => exact Or.inl (increment_same _).2.2.2
    | enterGrant c t he hv =>
      refine Or.inr ⟨(decrease_same _).2.2.2, he, hv, (decrease_same _).2.1, i, c, t, rfl, Or.inl hx, ?_⟩
      exact key c s rfl
    | readyGrant c t l he hv =>
      refine Or.inr ⟨(decrease_same _).2.2.2, he, hv, (decrease_same _).2.1, i, c, t, rfl, Or.inr ⟨l, hx⟩, ?_⟩
      exact key c _ rfl
    | _ => exact Or.inl rfl
  | _ => exact Or.inl rfl

/-- C54: the reason a wait gives is the right one: `condition_met` is a grant, `disabled` is given by a
disabled handler, `timeout` by an enabled one without surplus to a call with a timeout that expired. -/
theorem C54_reason (s s' : State T) (i : Nat) (t : Bool) (hs : (system T).step s (.run i) = some s')
    (hi : s.pcs[i]? = some (.enter false t) ∨ ∃ late, s.pcs[i]? = some (.ready false t late)) (r : Reason)
    (hr : s'.pcs[i]? = some (.idle (some (.reason r)))) :
    match r with
    | .conditionMet => s'.grants = s.grants + 1
    | .disabled => s.enabled = false
    | .timeout => s.enabled = true ∧ s.value ≤ s.threshold ∧ s.pcs[i]? = some (.ready false t true) := by
  have hs : step s (.run i) = some s' := hs
  have key : ∀ (s0 : State T), s0.pcs = s.pcs → (∃ x, s.pcs[i]? = some x) →
      (decrease (goto s0 i (.idle (some (.reason .conditionMet))))).pcs[i]? =
        some (.idle (some (.reason .conditionMet))) := by
    rintro s0 h0 ⟨x, hx⟩
    have hw := (decrease_same (goto s0 i (.idle (some (.reason .conditionMet))))).1.woken
    have hg : (goto s0 i (.idle (some (.reason .conditionMet)))).pcs[i]? =
        some (.idle (some (.reason .conditionMet))) := by
      show (s0.pcs.set i _)[i]? = _
      rw [h0]
      exact get_set_self hx
    obtain ⟨a', ha', e⟩ := hw.get hg
    rw [ha']
    rcases e with rfl | rfl | rfl <;> rfl
  cases step_stepped hs with
  | run i x s' hx hrn =>
    rcases hi with hi | ⟨late, hi⟩
    · rw [hi] at hx
      cases hx
      cases hrn with
      | enterDisabled c t he =>
        have e := hr.symm.trans (get_set_self hi)
        cases e
        exact he
      | enterGrant c t he hv =>
        have e := hr.symm.trans (key s rfl ⟨_, hi⟩)
        cases e
        exact (decrease_same _).2.2.2
      | enterSleep c t he hv =>
        have e := hr.symm.trans (get_set_self hi)
        cases e
    · rw [hi] at hx
      cases hx
      cases hrn with
      | readyDisabled c t l he =>
        have e := hr.symm.trans (get_set_self hi)
        cases e
        exact he
      | readyGrant c t l he hv =>
        have e := hr.symm.trans (key _ rfl ⟨_, hi⟩)
        cases e
        exact (decrease_same _).2.2.2
      | readyTimeout c t he hv =>
        have e := hr.symm.trans (get_set_self hi)
        cases e
        exact ⟨he, Nat.le_of_not_lt hv, hi⟩
      | readySleep c t he hv =>
        have e := hr.symm.trans (get_set_self hi)
        cases e

/-- Non-trivial case: two waiters, one increment above the threshold, one grant. -/
example : (((system Nat).exec (init 0 0 true (fun _ => 1) 3) [.start 0 (.waitDec false), .run 0,
    .start 1 (.waitDec false), .run 1, .start 2 .inc, .run 2, .run 1]).map
      fun s => (s.value, s.grants, s.incs, s.pcs.countP PC.sleeping)) = some (0, 1, 1, 1) := by decide

/-- C55: when no woken thread is on its way and no notification to all is about to be sent, every thread
asleep in `wait_and_decrement` or `consume` sleeps rightly, whichever thread every `notify_one` picks. -/
theorem C55_no_lost_wakeup (thr v0 : Nat) (b : Bool) (picks : Nat → Nat) (n : Nat) (s : State T)
    (hr : (system T).Reachable (init thr v0 b picks n) s)
    (hq : ∀ (k : Nat) (pc : PC T), s.pcs[k]? = some pc →
      (∀ c t late, pc ≠ .ready c t late) ∧ ∀ o, pc ≠ .disableNotify o)
    (j : Nat) (c t : Bool) (hj : s.pcs[j]? = some (.asleep c t)) :
    s.enabled = true ∧ s.value ≤ s.threshold := by
  rcases sl_reachable hr j c t hj with ⟨k, pc, hk, hp⟩ | ⟨he, h⟩
  · cases pc with
    | disableNotify o => exact absurd rfl ((hq k _ hk).2 o)
    | _ => cases hp
  · refine ⟨he, Nat.le_of_not_lt fun hv => ?_⟩
    obtain ⟨k, pc, hk, hp⟩ := h hv
    cases pc with
    | ready c t l => exact (hq k _ hk).1 c t l rfl
    | _ => cases hp

/-- C55: with a surplus in an enabled handler and a thread asleep, another one is on its way. -/
theorem C55_chain (thr v0 : Nat) (b : Bool) (picks : Nat → Nat) (n : Nat) (s : State T)
    (hr : (system T).Reachable (init thr v0 b picks n) s) (he : s.enabled = true)
    (hv : s.value > s.threshold) (j : Nat) (c t : Bool) (hj : s.pcs[j]? = some (.asleep c t)) :
    ∃ (k : Nat) (c t late : Bool), s.pcs[k]? = some (.ready c t late) :=
  surplus_ready (sl_reachable hr) (st_reachable hr) he hv hj

/-- C55, liveness: under fair scheduling, while a thread sleeps a surplus leads to another granted wait,
unless the handler is disabled or the counter wraps around. -/
theorem C55_granted (thr v0 : Nat) (b : Bool) (picks : Nat → Nat) (n : Nat)
    (e : (system T).Execution) (hf : e.Fair)
    (h0 : (system T).Reachable (init thr v0 b picks n) (e.at_ 0)) (k : Nat) :
    e.LeadsTo (fun s => s.enabled = true ∧ s.value > s.threshold ∧ s.grants = k ∧
        ∃ (j : Nat) (c t : Bool), s.pcs[j]? = some (.asleep c t))
      (fun s => k < s.grants ∨ s.enabled = false ∨ s.value ≤ s.threshold) := by
  rintro m ⟨he, hv, hk, j, c, t, hj⟩
  obtain ⟨m', hm, h⟩ := surplus_granted e (fun m => sl_reachable (e.reachable h0 m))
    (fun m => st_reachable (e.reachable h0 m)) hf k m j c t he hv hj hk
  refine ⟨m', hm, ?_⟩
  rcases h with h | h | h
  · exact Or.inl h
  · exact Or.inr (Or.inl h)
  · exact Or.inr (Or.inr (Nat.le_of_not_lt h))

/-- C55, liveness: under fair scheduling a thread asleep in a disabled handler is woken. -/
theorem C55_disabled_wakes (thr v0 : Nat) (b : Bool) (picks : Nat → Nat) (n : Nat)
    (e : (system T).Execution) (hf : e.Fair)
    (h0 : (system T).Reachable (init thr v0 b picks n) (e.at_ 0)) (j : Nat) (c t : Bool) :
    e.LeadsTo (fun s => s.enabled = false ∧ s.pcs[j]? = some (.asleep c t))
      (fun s => ∃ late, s.pcs[j]? = some (.ready c t late)) := by
  rintro m ⟨he, hj⟩
  exact disabled_wakes e (fun m => sl_reachable (e.reachable h0 m)) hf m j c t he hj

/-- Non-trivial case for `C55_no_lost_wakeup`: one of two sleepers was granted, the other sleeps on. -/
example : ∃ s : State Nat, (system Nat).Reachable (init 0 0 true (fun _ => 1) 3) s ∧
    s.pcs[0]? = some (.asleep false false) ∧
    ∀ (k : Nat) (pc : PC Nat), s.pcs[k]? = some pc →
      (∀ c t late, pc ≠ .ready c t late) ∧ ∀ o, pc ≠ .disableNotify o := by
  refine ⟨_, (system Nat).exec_reachable' [.start 0 (.waitDec false), .run 0,
    .start 1 (.waitDec false), .run 1, .start 2 .inc, .run 2, .run 1] rfl, rfl, ?_⟩
  intro k pc hk
  match k with
  | 0 => cases hk; exact ⟨nofun, nofun⟩
  | 1 => cases hk; exact ⟨nofun, nofun⟩
  | 2 => cases hk; exact ⟨nofun, nofun⟩
  | k + 3 => cases hk

/-- Non-trivial case for `C55_granted` and `C55_disabled_wakes`: a fair execution with two sleepers, one
increment, then `disable`. -/
example : ∃ e : (system Nat).Execution, e.Fair ∧
    (system Nat).Reachable (init 0 0 true (fun _ => 0) 3) (e.at_ 0) ∧
    ((e.at_ 6).enabled = true ∧ (e.at_ 6).value > (e.at_ 6).threshold ∧
      (e.at_ 6).pcs[1]? = some (.asleep false false)) ∧
    ((e.at_ 10).enabled = false ∧ (e.at_ 10).pcs[1]? = some (.asleep false false)) := by
  obtain ⟨e, h1, h2, h3, -⟩ := (system Nat).finite_fair (init 0 0 true (fun _ => 0) 3) _
    [.start 0 (.waitDec false), .run 0, .start 1 (.waitDec false), .run 1, .start 2 .inc, .run 2, .run 0,
      .start 2 (.status .disable), .run 2, .run 2, .run 2, .run 2, .run 1] rfl (by
      intro i
      match i with
      | 0 => rfl
      | 1 => rfl
      | 2 => rfl
      | i + 3 => rfl)
  refine ⟨e, h1, by rw [h2]; exact .init, ?_, ?_⟩
  · obtain ⟨s, hs, he⟩ := h3 6
    rw [he]
    cases hs
    exact ⟨rfl, by decide, rfl⟩
  · obtain ⟨s, hs, he⟩ := h3 10
    rw [he]
    cases hs
    exact ⟨rfl, rfl⟩

/-- C56: the threshold is missed when the handler is disabled: with a thread in `wait_threshold_reached`
`blocking_disable` (and the destructor, which calls it) never returns, in a fair execution. -/
theorem C56_negation_disable : ∃ e : (system Nat).Execution, e.Fair ∧
    (system Nat).Reachable (init 0 1 true (fun _ => 0) 2) (e.at_ 0) ∧
    ∀ n, (e.at_ n).enabled = false ∧ (e.at_ n).pcs[0]? = some (.thAsleep false) ∧
      ∃ pc, (e.at_ n).pcs[1]? = some pc ∧
        (pc = .drainTest .blockingDisable ∨ pc = .drainNotify .blockingDisable) := by
  let s0 : State Nat := ⟨1, 0, false, 1, some 1, {}, none, fun _ => 0, 0, 0, [], [],
    [.thAsleep false, .drainTest .blockingDisable]⟩
  have hr : (system Nat).Reachable (init 0 1 true (fun _ => 0) 2) s0 :=
    (system Nat).exec_reachable' [.start 0 (.waitThreshold false), .run 0,
      .start 1 (.status .blockingDisable), .run 1, .run 1, .run 1] rfl
  have hidle : ∀ i, i ≠ 1 → ∀ n s, (system Nat).exec s0 ([.run 1, .run 1].take n) = some s →
      (system Nat).step s (.run i) = none := by
    intro i hi n s h
    match n, i with
    | _, 1 => exact absurd rfl hi
    | 0, 0 => cases h; rfl
    | 0, i + 2 => cases h; rfl
    | 1, 0 => cases h; rfl
    | 1, i + 2 => cases h; rfl
    | n + 2, 0 =>
      simp only [List.take_succ_cons, List.take_nil] at h
      cases h; rfl
    | n + 2, i + 2 =>
      simp only [List.take_succ_cons, List.take_nil] at h
      cases h; rfl
  obtain ⟨e, hf, h0, hst, -⟩ := (system Nat).cycle_fair s0 [.run 1, .run 1] (by decide) rfl (by
    intro i
    by_cases hi : i = 1
    · exact Or.inl (by rw [hi]; exact List.mem_cons_self)
    · exact Or.inr (hidle i hi))
  refine ⟨e, hf, by rw [h0]; exact hr, ?_⟩
  intro n
  obtain ⟨k, hk, h⟩ := hst n
  generalize e.at_ n = s at h ⊢
  match k, hk with
  | 0, _ => cases h; exact ⟨rfl, rfl, _, rfl, Or.inl rfl⟩
  | 1, _ => cases h; exact ⟨rfl, rfl, _, rfl, Or.inr rfl⟩

/-- C56: the threshold is missed when the counter rises to it: thread 0 sleeps for the threshold 1, the
counter is incremented from 0 to 1 and nothing is left that would wake it. -/
theorem C56_negation_rising : ∃ s : State Nat, (system Nat).Reachable (init 1 0 true (fun _ => 0) 2) s ∧
    s.enabled = true ∧ s.value = s.threshold ∧ s.pcs = [.thAsleep false, .idle none] :=
  ⟨_, (system Nat).exec_reachable' [.start 0 (.waitThreshold false), .run 0, .start 1 .inc, .run 1] rfl,
    rfl, rfl, rfl⟩

/-- C56, what holds: a handler that starts at or above its threshold (as `ConsumerWaitHandler` with
threshold 0 does) lets no thread sleep in `wait_threshold_reached` while the counter is at the threshold,
as long as the counter has not wrapped around.  Missing: thresholds above the initial value, see
`C56_negation_rising`, and disabling, see `C56_negation_disable`. -/
theorem C56_wakes_partial (thr v0 : Nat) (hle : thr ≤ v0) (hv : v0 < 2 ^ 32) (b : Bool) (picks : Nat → Nat)
    (n : Nat) (s : State T) (hr : (system T).Reachable (init thr v0 b picks n) s)
    (hi : v0 + s.incs < 2 ^ 32) (j : Nat) (t : Bool) (hj : s.pcs[j]? = some (.thAsleep t)) :
    thr < s.value := by
  have h1 := th_reachable hle hv hr hi j t hj
  have h2 := ar_reachable hv hr
  have h3 := (h2.exact hi).2 hle
  rw [h2.threshold] at h1
  omega

/-- C56, what holds: if nobody uses `wait_threshold_reached`, then under fair scheduling every `enable`,
`disable`, `blocking_disable` and `stop_and_continue` returns.  Missing: calls of
`wait_threshold_reached`, see `C56_negation_disable`. -/
theorem C56_returns_partial (thr v0 : Nat) (b : Bool) (picks : Nat → Nat) (n : Nat)
    (e : (system T).Execution) (hf : e.Fair)
    (h0 : (system T).ReachableBy (fun op => ∀ t, op ≠ .waitThreshold t) (init thr v0 b picks n) (e.at_ 0))
    (hl : ∀ n l, e.label n = some l → l.Allowed (fun op => ∀ t, op ≠ .waitThreshold t))
    (i : Nat) (o : StatusOp) :
    e.LeadsTo (fun s => s.pcs[i]? = some (.acquire o)) (fun s => s.pcs[i]? = some (.idle none)) := by
  have conv : ∀ l : Label (Op T), l.Allowed (fun op => ∀ t, op ≠ .waitThreshold t) → l.Allowed NoThOp := by
    intro l h
    cases l with
    | start i op => cases op <;> first | trivial | exact h _ rfl
    | _ => trivial
  have hN0 : NoTh (e.at_ 0) := by
    refine System.ReachableBy.invariant NoTh ?_
      (fun s l s' hI ha hs => noTh_step hI (conv l ha) (step_stepped hs)) h0
    intro j pc hj
    cases init_pcs hj
    rfl
  have hN : ∀ m, NoTh (e.at_ m) :=
    always NoTh (fun m l h s' hs hI => noTh_step hI (conv l (hl m l h)) hs) hN0
  have hS : ∀ m, St (e.at_ m) := fun m => st_reachable (e.reachable h0.reachable m)
  intro m hm
  exact status_returns e hS hN hf i _ (Or.inr ⟨o, rfl⟩) m hm

/-- Non-trivial case for `C56_wakes_partial`: a thread waits for all to be consumed. -/
example : ∃ s : State Nat, (system Nat).Reachable (init 0 0 true (fun _ => 0) 2) s ∧
    s.pcs[0]? = some (.thAsleep false) ∧ 0 + s.incs < 2 ^ 32 := by
  refine ⟨_, (system Nat).exec_reachable' [.start 1 (.produce 7), .run 1, .run 1,
    .start 0 (.waitThreshold false), .run 0] rfl, rfl, ?_⟩
  decide

/-- C57: what was put into the queue is what was taken out of it followed by what it holds, in order: no
value is lost, duplicated or reordered. -/
theorem C57_fifo (thr v0 : Nat) (b : Bool) (picks : Nat → Nat) (n : Nat) (s : State T)
    (hr : (system T).Reachable (init thr v0 b picks n) s) :
    s.pushed = s.popped ++ s.queue.fg ++ s.queue.bg := by
  rw [(qu_reachable hr).hist, List.append_assoc]

/-- C57: `popped` is the sequence of the values returned by `consume`: a value is appended to it in
exactly the step in which a call returns it. -/
theorem C57_returned (s s' : State T) (l : Label (Op T)) (hs : (system T).step s l = some s') :
    s'.popped = s.popped ∨
    ∃ (i : Nat) (v : T), l = .run i ∧ s.pcs[i]? = some .popTake ∧ s'.popped = s.popped ++ [v] ∧
      s'.pcs[i]? = some (.idle (some (.value v))) := by
  cases step_stepped hs with
  | run i x s' hx hr =>
    cases hr with
    | popTake v l hq => exact Or.inr ⟨i, v, rfl, hx, rfl, get_set_self hx⟩
    | enterGrant c t he hv => exact Or.inl (decrease_same _).1.popped
    | readyGrant c t l he hv => exact Or.inl (decrease_same _).1.popped
    | inc p => exact Or.inl (increment_same _).1.popped
    | _ => exact Or.inl rfl
  | _ => exact Or.inl rfl

/-- C57: no call returns a value otherwise. -/
theorem C57_returned_only (s s' : State T) (l : Label (Op T)) (hs : (system T).step s l = some s')
    (i : Nat) (v : T) (hi : s'.pcs[i]? = some (.idle (some (.value v)))) :
    s.pcs[i]? = some (.idle (some (.value v))) ∨ (l = .run i ∧ s'.popped = s.popped ++ [v]) := by
  have key : ∀ (k : Nat) (y : PC T), Woken (s.pcs.set k y) s'.pcs → y ≠ .idle (some (.value v)) →
      s.pcs[i]? = some (.idle (some (.value v))) := by
    intro k y hw hy
    obtain ⟨a, ha, e⟩ := hw.get' hi
    have ea : a = .idle (some (.value v)) := by
      rcases e with e | e | e
      · exact e.symm
      · cases a <;> first | exact e.symm | cases e
      · cases a <;> first | exact e.symm | cases e
    subst ea
    rcases set_get ha with ⟨-, e', -⟩ | ⟨-, ha⟩
    · exact absurd e'.symm hy
    · exact ha
  have hwn : ∀ (c : Bool) (r : Reason), (afterWait c r : PC T) ≠ .idle (some (.value v)) := by
    intro c r h
    cases c <;> cases r <;> cases h
  cases step_stepped hs with
  | run k x s' hx hr =>
    cases hr with
    | popTake w l hq =>
      rcases set_get hi with ⟨rfl, e, -⟩ | ⟨-, h⟩
      · cases e
        exact Or.inr ⟨rfl, rfl⟩
      · exact Or.inl h
    | enterGrant c t he hv =>
      exact Or.inl (key k _ (decrease_same (goto s k (afterWait c .conditionMet))).1.woken (hwn _ _))
    | readyGrant c t l he hv =>
      exact Or.inl (key k _ (decrease_same (goto { s with waiting := s.waiting - 1 } k
        (afterWait c .conditionMet))).1.woken (hwn _ _))
    | inc p => exact Or.inl (key k _ (increment_same (goto s k (.idle none))).1.woken nofun)
    | enterDisabled c t he => exact Or.inl (key k _ (.refl _) (hwn _ _))
    | readyDisabled c t l he => exact Or.inl (key k _ (.refl _) (hwn _ _))
    | readyTimeout c t he hv => exact Or.inl (key k _ (.refl _) (hwn _ _))
    | disableNotify o =>
      refine Or.inl (key k (afterDisable o) ?_ (by cases o <;> nofun))
      show Woken _ ((s.pcs.map wake).set k (afterDisable o))
      rw [map_wake_set (by cases o <;> rfl)]
      exact .map_wake _
    | drainNotify o =>
      refine Or.inl (key k (.drainTest o) ?_ nofun)
      show Woken _ ((s.pcs.map wake).set k (.drainTest o))
      rw [map_wake_set rfl]
      exact .map_wake _
    | acquire o hm => exact Or.inl (key k _ (.refl _) (by cases o <;> nofun))
    | disableSkip o he => exact Or.inl (key k _ (.refl _) (by cases o <;> nofun))
    | drainEnd o he => exact Or.inl (key k _ (.refl _) (by cases o <;> nofun))
    | _ => exact Or.inl (key k _ (.refl _) nofun)
  | start k r op hx => exact Or.inl (key k _ (.refl _) (by cases op <;> nofun))
  | spurious k c t hx => exact Or.inl (key k _ (.refl _) nofun)
  | spuriousTh k t hx => exact Or.inl (key k _ (.refl _) nofun)
  | timeout k c hx => exact Or.inl (key k _ (.refl _) nofun)
  | timeoutTh k hx => exact Or.inl (key k _ (.refl _) nofun)

/-- C57: `pushed` is the sequence of the values given to `produce`. -/
theorem C57_produced (s s' : State T) (l : Label (Op T)) (hs : (system T).step s l = some s') :
    (s'.pushed = s.pushed ∧ ∀ (i : Nat) (v : T), l = .run i → s.pcs[i]? ≠ some (.push v)) ∨
    ∃ (i : Nat) (v : T), l = .run i ∧ s.pcs[i]? = some (.push v) ∧ s'.pushed = s.pushed ++ [v] := by
  cases step_stepped hs with
  | run i x s' hx hr =>
    have ne : (∀ v, x ≠ .push v) → ∀ (j : Nat) (v : T), Label.run (Op := Op T) i = .run j →
        s.pcs[j]? ≠ some (.push v) := by
      intro h j v e hj
      cases e
      rw [hx] at hj
      exact h v (Option.some.inj hj)
    cases hr with
    | push v => exact Or.inr ⟨i, v, rfl, hx, rfl⟩
    | enterGrant c t he hv => exact Or.inl ⟨(decrease_same _).1.pushed, ne nofun⟩
    | readyGrant c t l he hv => exact Or.inl ⟨(decrease_same _).1.pushed, ne nofun⟩
    | inc p => exact Or.inl ⟨(increment_same _).1.pushed, ne nofun⟩
    | _ => exact Or.inl ⟨rfl, ne nofun⟩
  | _ => exact Or.inl ⟨rfl, nofun⟩

/-- Non-trivial case: two producers and two consumers; the second consumer takes its value after a swap
with a third element pushed in between. -/
example : (((system Nat).exec (init 0 0 true (fun _ => 0) 2) [.start 0 (.produce 5), .run 0, .run 0,
    .start 0 (.produce 6), .run 0, .run 0, .start 1 (.consume false), .run 1, .run 1, .run 1,
    .start 0 (.produce 7), .run 0, .run 1, .run 0]).map
      fun s => (s.pushed, s.popped, s.queue.fg, s.queue.bg)) = some ([5, 6, 7], [5], [6], [7]) := by decide

/-- C58, what holds: a consumer constructed with the initial value 0 (the default) never throws the
exception for an empty queue, and the counter together with the waits granted and not yet served never
exceeds the elements stored.  Missing: other initial values, see `C58_negation`. -/
theorem C58_never_empty_partial (thr : Nat) (b : Bool) (picks : Nat → Nat) (n : Nat) (s : State T)
    (hr : (system T).ReachableBy (fun op => op ≠ .inc ∧ ∀ t, op ≠ .waitDec t) (init thr 0 b picks n) s) :
    (∀ i : Nat, s.pcs[i]? ≠ some (.idle (some (.threw .inconsistency)))) ∧
    (∀ i : Nat, s.pcs[i]? = some .popTake → s.queue.fg ≠ []) ∧
    s.value + s.pcs.countP (fun | .popLock => true | .popSwap => true | .popTake => true | _ => false) ≤
      s.queue.fg.length + s.queue.bg.length := by
  have hr' : (system T).ReachableBy Consumer (init thr 0 b picks n) s := by
    refine hr.mono ?_
    rintro op ⟨h1, h2⟩
    cases op with
    | inc => exact h1 rfl
    | waitDec t => exact h2 t rfl
    | _ => trivial
  have hC := cl_reachable hr'
  refine ⟨noInc_reachable hr', hC.take, ?_⟩
  have : s.pcs.countP (fun | .popLock => true | .popSwap => true | .popTake => true | _ => false) ≤
      s.pcs.countP PC.claims := by
    refine List.countP_mono_left ?_
    intro a _ h
    cases a <;> first | rfl | cases h
  have := hC.count
  omega

/-- C58 fails for other initial values: `consume` on a new consumer with initial value 1 throws the
exception for an inconsistent state. -/
theorem C58_negation : ∃ s : State Nat,
    (system Nat).ReachableBy (fun op => op ≠ .inc ∧ ∀ t, op ≠ .waitDec t) (init 0 1 true (fun _ => 0) 1) s ∧
    s.pcs = [.idle (some (.threw .inconsistency))] := by
  refine ⟨_, (system Nat).exec_reachable (s := init 0 1 true (fun _ => 0) 1)
    [.start 0 (.consume false), .run 0, .run 0, .run 0, .run 0] ?_ .init rfl, rfl⟩
  intro l hl
  simp only [List.mem_cons, List.not_mem_nil, or_false] at hl
  rcases hl with rfl | rfl | rfl | rfl | rfl <;> first | trivial | exact ⟨nofun, nofun⟩

/-- Non-trivial case for `C58_never_empty_partial`: a consumer between its grant and its element. -/
example : ∃ s : State Nat,
    (system Nat).ReachableBy (fun op => op ≠ .inc ∧ ∀ t, op ≠ .waitDec t) (init 0 0 true (fun _ => 0) 2) s ∧
    s.pcs[0]? = some .popTake := by
  refine ⟨_, (system Nat).exec_reachable (s := init 0 0 true (fun _ => 0) 2)
    [.start 0 (.consume false), .run 0, .start 1 (.produce 4), .run 1, .run 1, .run 0, .run 0, .run 0] ?_ .init rfl, rfl⟩
  intro l hl
  simp only [List.mem_cons, List.not_mem_nil, or_false] at hl
  rcases hl with rfl | rfl | rfl | rfl | rfl | rfl | rfl | rfl <;> first | trivial | exact ⟨nofun, nofun⟩

end Verif.Counter
