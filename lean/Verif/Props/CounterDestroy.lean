import Verif.Lemmas.CounterDestroy
/-!
C161: destroying a consumer queue or a counter that other threads wait on.
-/
namespace Verif.Counter
open Verif.Threads
open Verif.WaitHandler (Reason StatusOp)

variable {T : Type}

/-- C161, as far as it holds: if, when its destruction starts, the other threads make no call or wait for elements in
`consume` or `wait_and_decrement`, and there are none, then no thread uses a member that has been destroyed, and when
the object is gone no thread is within a call.  (Missing: the other calls, and elements that arrived before, see the
negations; and the mutex that the last call releases, see `C53_negation`.) -/
theorem C161_safe_partial (thr v0 : Nat) (b : Bool) (picks : Nat → Nat) (n : Nat) (w s1 : DState T)
    (hr : (doomed T).Reachable (whole (init thr v0 b picks n)) w) (d : Nat)
    (hd : (doomed T).step w (.start d .destroy) = some s1)
    (hothers : ∀ (j : Nat) (x : PC T), j ≠ d → w.base.pcs[j]? = some x →
      (∃ r, x = .idle r) ∨ (∃ c t, x = .asleep c t) ∨ ∃ c t l, x = .ready c t l)
    (hempty : w.base.enabled = true → w.base.value ≤ w.base.threshold)
    (s : DState T) (hs : (doomed T).Reachable s1 s) :
    ¬ Hit s ∧ (s.stage = 4 → ∀ (j : Nat) (x : PC T), s.base.pcs[j]? = some x → ∃ r, x = .idle r) := by
  obtain ⟨rfl, hr, hd⟩ := destroy_start hr hd
  have hc : Calm w.base d := ⟨st_reachable hr, hd, hothers, hempty⟩
  have h : Dying w.base d s := System.Reachable.invariant (Dying w.base d) hc.dying (fun _ _ _ h hs => dying_step h hs) hs
  exact ⟨h.no_hit, fun h4 j x hx => h.none_waits (by omega) j x hx⟩

/-- C161, as far as it holds: in this case the waiting calls end because of the destruction: `consume` throws
`DisabledException` and `wait_and_decrement` returns `disabled`, unless they have a timeout that passes before.
(Missing: as above.) -/
theorem C161_reason_partial (thr v0 : Nat) (b : Bool) (picks : Nat → Nat) (n : Nat) (w s1 : DState T)
    (hr : (doomed T).Reachable (whole (init thr v0 b picks n)) w) (d : Nat)
    (hd : (doomed T).step w (.start d .destroy) = some s1)
    (hothers : ∀ (j : Nat) (x : PC T), j ≠ d → w.base.pcs[j]? = some x →
      (∃ r, x = .idle r) ∨ (∃ c t, x = .asleep c t) ∨ ∃ c t l, x = .ready c t l)
    (hempty : w.base.enabled = true → w.base.value ≤ w.base.threshold)
    (s : DState T) (hs : (doomed T).Reachable s1 s) (h4 : s.stage = 4) (j : Nat) (t : Bool) :
    (w.base.pcs[j]? = some (.asleep true t) → s.base.pcs[j]? = some (.idle (some (.threw .disabled))) ∨
      (t = true ∧ s.base.pcs[j]? = some (.idle (some (.threw .timeout))))) ∧
    (w.base.pcs[j]? = some (.asleep false t) → s.base.pcs[j]? = some (.idle (some (.reason .disabled))) ∨
      (t = true ∧ s.base.pcs[j]? = some (.idle (some (.reason .timeout))))) := by
  obtain ⟨rfl, hr, hd⟩ := destroy_start hr hd
  have hc : Calm w.base d := ⟨st_reachable hr, hd, hothers, hempty⟩
  have h : Dying w.base d s := System.Reachable.invariant (Dying w.base d) hc.dying (fun _ _ _ h hs => dying_step h hs) hs
  have key : ∀ c : Bool, w.base.pcs[j]? = some (.asleep c t) → s.base.pcs[j]? = some (afterWait c .disabled) ∨
      (t = true ∧ s.base.pcs[j]? = some (afterWait c .timeout)) := by
    intro c hj
    have hjd : j ≠ d := by
      rintro rfl
      obtain ⟨r, hr⟩ := hd
      rw [hj] at hr
      cases hr
    have hlt : j < s.base.pcs.length := by
      rw [h.length]
      exact (List.getElem?_eq_some_iff.1 hj).1
    have hx : s.base.pcs[j]? = some s.base.pcs[j] := List.getElem?_eq_getElem hlt
    obtain ⟨x0, h0, hw⟩ := h.others j hjd _ hx
    obtain ⟨r, hidle⟩ := h.none_waits (by omega) j _ hx
    rw [hj] at h0
    cases h0
    rw [hidle] at hx hw
    rw [hx]
    cases hw with
    | idle r h => cases h
    | ended c' t' l h r' hr' x hx' =>
      rcases h with ⟨h1, rfl⟩ | h1
      · cases h1
        rcases hr' with rfl | ⟨rfl, ht⟩
        · exact Or.inl (by rw [hx'])
        · exact Or.inr ⟨by simpa using ht, by rw [hx']⟩
      · cases h1
  exact ⟨key true, key false⟩

/-- C161, as far as it holds: in this case the destructor ends, under fair scheduling.  (Missing: as above.) -/
theorem C161_ends_partial (thr v0 : Nat) (b : Bool) (picks : Nat → Nat) (n : Nat) (w s1 : DState T)
    (hr : (doomed T).Reachable (whole (init thr v0 b picks n)) w) (d : Nat)
    (hd : (doomed T).step w (.start d .destroy) = some s1)
    (hothers : ∀ (j : Nat) (x : PC T), j ≠ d → w.base.pcs[j]? = some x →
      (∃ r, x = .idle r) ∨ (∃ c t, x = .asleep c t) ∨ ∃ c t l, x = .ready c t l)
    (hempty : w.base.enabled = true → w.base.value ≤ w.base.threshold)
    (e : (doomed T).Execution) (hf : e.Fair) (h0 : e.at_ 0 = s1) : ∃ m, (e.at_ m).stage = 4 := by
  obtain ⟨rfl, hr, hd⟩ := destroy_start hr hd
  exact destruction_ends ⟨st_reachable hr, hd, hothers, hempty⟩ h0 hf

/-- Non-trivial case: one thread waits in `consume`, another, with a timeout, in `wait_and_decrement`; the third
destroys the object. -/
example : ∃ w s1 : DState Nat, (doomed Nat).Reachable (whole (init 0 0 true (fun _ => 0) 3)) w ∧
    w.base.pcs = [.idle none, .asleep true false, .asleep false true] ∧ w.base.enabled = true ∧
    w.base.value = w.base.threshold ∧ (doomed Nat).step w (.start 0 .destroy) = some s1 ∧
    ∃ s : DState Nat, (doomed Nat).Reachable s1 s ∧ s.stage = 4 ∧
      s.base.pcs = [.idle none, .idle (some (.threw .disabled)), .idle (some (.reason .timeout))] :=
  ⟨_, _, (doomed Nat).exec_reachable' [.start 1 (.call (.consume false)), .run 1, .start 2 (.call (.waitDec true)),
    .run 2] rfl, rfl, rfl, rfl, rfl, _, (doomed Nat).exec_reachable' [.run 0, .run 0, .run 0, .run 0, .timeout 2,
      .run 2, .run 0, .run 0, .run 1, .run 0, .run 0, .run 0] rfl, rfl, rfl⟩

/-- C161 does not hold: a consumer that has been granted an element, and has not taken it yet, does so from a queue that
no longer exists: the destructors of the derived classes do not wait for it. -/
theorem C161_negation_granted : ∃ s : DState Nat,
    (doomed Nat).Reachable (whole (init 0 0 true (fun _ => 0) 2)) s ∧ Hit s ∧
    s.base.pcs = [.idle none, .popLock] ∧ s.stage = 1 :=
  ⟨_, (doomed Nat).exec_reachable' [.start 0 (.call (.produce 7)), .run 0, .run 0, .start 1 (.call (.consume false)),
    .run 1, .start 0 .destroy, .run 0] rfl,
    ⟨1, .popLock, nofun, rfl, Or.inl ⟨Nat.le_refl _, rfl⟩⟩, rfl, rfl⟩

/-- C161 does not hold: such a consumer is not waited for at all: the destructor of the base class ends while it is
within `consume`. -/
theorem C161_negation_gone : ∃ s : DState Nat,
    (doomed Nat).Reachable (whole (init 0 0 true (fun _ => 0) 2)) s ∧ s.stage = 4 ∧
    s.base.pcs = [.idle none, .popLock] :=
  ⟨_, (doomed Nat).exec_reachable' [.start 0 (.call (.produce 7)), .run 0, .run 0, .start 1 (.call (.consume false)),
    .run 1, .start 0 .destroy, .run 0, .run 0, .run 0, .run 0, .run 0, .run 0, .run 0, .run 0, .run 0] rfl, rfl, rfl⟩

/-- C161 does not hold: an element that arrived before the destruction started, and for which a consumer has been woken,
is granted during the destruction: the consumer reads `threshold_` after its destruction. -/
theorem C161_negation_element : ∃ s : DState Nat,
    (doomed Nat).Reachable (whole (init 0 0 true (fun _ => 0) 2)) s ∧ Hit s ∧
    s.base.pcs = [.idle none, .ready true false false] ∧ s.stage = 2 :=
  ⟨_, (doomed Nat).exec_reachable' [.start 1 (.call (.consume false)), .run 1, .start 0 (.call (.produce 7)), .run 0,
    .run 0, .start 0 .destroy, .run 0, .run 0] rfl,
    ⟨1, .ready true false false, nofun, rfl, Or.inr (Or.inl ⟨Nat.le_refl _, rfl⟩)⟩, rfl, rfl⟩

/-- C161 does not hold: while a thread sleeps in `wait_all_consumed`, the condition variable on which it sleeps is
destroyed, and the destructor never ends: nothing wakes the thread, and the destructor waits for it for ever. -/
theorem C161_negation_hangs : ∃ e : (doomed Nat).Execution, e.Fair ∧
    (doomed Nat).Reachable (whole (init 0 1 true (fun _ => 0) 2)) (e.at_ 0) ∧
    ∀ n, Hit (e.at_ n) ∧ (e.at_ n).stage = 3 ∧ (e.at_ n).base.pcs[0]? = some (.thAsleep false) := by
  let s0 : DState Nat := ⟨⟨1, 0, false, 1, some 1, {}, none, fun _ => 0, 0, 0, [], [],
    [.thAsleep false, .drainTest .blockingDisable]⟩, some 1, 3⟩
  have hr : (doomed Nat).Reachable (whole (init 0 1 true (fun _ => 0) 2)) s0 :=
    (doomed Nat).exec_reachable' [.start 0 (.call (.waitThreshold false)), .run 0, .start 1 .destroy, .run 1, .run 1,
      .run 1, .run 1, .run 1, .run 1] rfl
  have hidle : ∀ i, i ≠ 1 → ∀ n s, (doomed Nat).exec s0 ([.run 1, .run 1].take n) = some s →
      (doomed Nat).step s (.run i) = none := by
    intro i hi n s h
    match n, i with
    | _, 1 => exact absurd rfl hi
    | 0, 0 => cases h; rfl
    | 0, i + 2 => cases h; rfl
    | 1, 0 => cases h; rfl
    | 1, i + 2 => cases h; rfl
    | n + 2, 0 =>
      simp only [List.take_succ_cons, List.take_nil] at h
      cases h; rfl
    | n + 2, i + 2 =>
      simp only [List.take_succ_cons, List.take_nil] at h
      cases h; rfl
  obtain ⟨e, hf, he0, hst, -⟩ := (doomed Nat).cycle_fair s0 [.run 1, .run 1] (by decide) rfl (by
    intro i
    by_cases hi : i = 1
    · exact Or.inl (by rw [hi]; exact List.mem_cons_self)
    · exact Or.inr (hidle i hi))
  refine ⟨e, hf, by rw [he0]; exact hr, ?_⟩
  intro n
  obtain ⟨k, hk, h⟩ := hst n
  generalize e.at_ n = s at h ⊢
  match k, hk with
  | 0, _ => cases h; exact ⟨⟨0, .thAsleep false, nofun, rfl, Or.inr (Or.inl ⟨by decide, rfl⟩)⟩, rfl, rfl⟩
  | 1, _ => cases h; exact ⟨⟨0, .thAsleep false, nofun, rfl, Or.inr (Or.inl ⟨by decide, rfl⟩)⟩, rfl, rfl⟩

end Verif.Counter
