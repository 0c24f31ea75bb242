import Verif.Lemmas.SlotThreadPoolShared
/-!
C160: `enable` and `disable` of a `SlotThreadPool` called by several threads.
-/
namespace Verif.SlotThreadPool
open Verif.Threads

variable {T : Type}

/-- C160, as far as it holds: as long as no `enable` overlaps a `disable`, any number of threads call `enable` at the
same time, or `disable` at the same time, and everything else at any time: `threads_` is never changed while another
thread uses it, and emptying it never destroys a thread that runs.  (Missing: an `enable` during a `disable`, for which
both happen, see the negations.) -/
theorem C160_no_race_partial (n c d : Nat) (picks : Nat → Nat) (ends : Nat → Ending) (s : State T)
    (hr : (phased T).Reachable (init n c d picks ends) s) : ¬ Race s ∧ ¬ Aborts s := by
  obtain ⟨h, -, -⟩ := shared_reachable hr
  constructor
  · rintro ⟨i, j, x, y, hne, hx, hy, hw, hu⟩
    refine hne (h.one i j x y hx hy ?_ ?_)
    · cases x <;> first | rfl | (cases hw; done)
    · cases y <;> first | rfl | (cases hu; done)
  · rintro ⟨i, j, y, hx, hj, hy, hne⟩
    obtain ⟨-, -, h3⟩ := h.owned i _ hx
    rcases h3 j hj with h4 | h4
    · cases h4
    · rw [hy] at h4; cases h4; exact hne rfl

/-- C160, as far as it holds: whichever threads called them, once all calls of `enable` and `disable` have returned, an
enabled pool has exactly `number_of_threads` threads, and a disabled one has none: no thread is in the routine of the
pool.  (Missing: as above.) -/
theorem C160_threads_partial (n c d : Nat) (picks : Nat → Nat) (ends : Nat → Ending) (s : State T)
    (hr : (phased T).Reachable (init n c d picks ends) s)
    (hrest : ∀ (i : Nat) (x : PC T), s.pcs[i]? = some x → x ≠ .enableTest ∧ (∀ k, x ≠ .spawn k) ∧ x ≠ .disableTest ∧
      x ≠ .disableCall ∧ ∀ l, x ≠ .joining l) :
    (s.enabled = true → s.threads.length = n) ∧
    (s.enabled = false → s.threads = [] ∧
      ∀ (i : Nat) (x : PC T), s.pcs[i]? = some x → x ≠ .next ∧ x ≠ .consuming ∧ (∀ id, x ≠ .look id) ∧
        (∀ id t, x ≠ .exec id t) ∧ ∀ id t, x ≠ .inside id t) := by
  obtain ⟨h, -, hn⟩ := shared_reachable hr
  obtain ⟨h1, h2⟩ := h.rest (by
    intro i x hx
    obtain ⟨-, a, -, b, e⟩ := hrest i x hx
    cases x with
    | spawn k => exact absurd rfl (a k)
    | disableCall => exact absurd rfl b
    | joining l => exact absurd rfl (e l)
    | _ => rfl)
  refine ⟨fun e => hn ▸ h1 e, fun e => ⟨h2 e, ?_⟩⟩
  intro i x hx
  have hl : x.live = false := by
    cases hl : x.live with
    | false => rfl
    | true =>
      have := h.member i x hx hl
      rw [h2 e] at this
      cases this
  refine ⟨?_, ?_, ?_, ?_, ?_⟩ <;> intros <;> rintro rfl <;> cases hl

/-- C160, as far as it holds: even with calls in progress, no more than `number_of_threads` tasks are executed at the
same time.  (Missing: as above.) -/
theorem C160_bound_partial (n c d : Nat) (picks : Nat → Nat) (ends : Nat → Ending) (s : State T)
    (hr : (phased T).Reachable (init n c d picks ends) s) :
    s.pcs.countP (fun | .inside _ _ => true | _ => false) ≤ n := by
  obtain ⟨h, -, hn⟩ := shared_reachable hr
  have h1 : s.pcs.countP (fun | .inside _ _ => true | _ => false) ≤ s.pcs.countP PC.live := by
    apply List.countP_mono_left
    intro x _ hx
    cases x <;> first | rfl | (cases hx; done)
  have h2 : s.threads.length ≤ s.n := by
    by_cases ho : ∃ (i : Nat) (x : PC T), s.pcs[i]? = some x ∧ x.owner = true
    · obtain ⟨i, x, hx, ho⟩ := ho
      have := h.owned i x hx
      cases x with
      | spawn k => have := this.2; omega
      | disableCall => have := this.2; omega
      | joining l => have := this.2.1; omega
      | _ => cases ho
    · obtain ⟨a, b⟩ := h.rest fun i x hx => by
        cases hx' : x.owner with
        | false => rfl
        | true => exact absurd ⟨i, x, hx, hx'⟩ ho
      cases he : s.enabled with
      | false => rw [b he]; exact Nat.zero_le _
      | true => rw [a he]; exact Nat.le_refl _
  have := h.most
  omega

/-- C160, as far as it holds: nothing is added to or taken from `threads_` while a `disable` goes through it, so that it
joins exactly the threads that it then removes.  (Missing: as above.) -/
theorem C160_joined_partial (n c d : Nat) (picks : Nat → Nat) (ends : Nat → Ending) (s s' : State T)
    (hr : (phased T).Reachable (init n c d picks ends) s) (lab : Label (Op T))
    (hs : (phased T).step s lab = some s') (i : Nat) (l : List Nat) :
    (s.pcs[i]? = some .disableCall → s'.pcs[i]? = some (.joining l) → l = s'.threads) ∧
    (s.pcs[i]? = some (.joining l) → ∀ l', s'.pcs[i]? = some (.joining l') → s'.threads = s.threads) := by
  obtain ⟨h, -, -⟩ := shared_reachable hr
  obtain ⟨-, hs⟩ := phased_step hs
  have hst := step_stepped hs
  constructor
  · intro hi hi'
    cases hst with
    | run j x s' hx hran =>
      by_cases e : j = i
      · subst e
        rw [hi] at hx
        cases hx
        cases hran with
        | stay x q hc hq hn =>
          have hi' : s.pcs[j]? = _ := hi'
          rw [hi] at hi'; cases hi'
        | disableRet q r hq hr' =>
          have hi' : (s.pcs.set j _)[j]? = _ := hi'
          rw [get_set_self hi] at hi'
          cases hi'
          rfl
      · exfalso
        have key : s'.pcs[i]? = some .disableCall := by
          cases hran with
          | stay x q hc hq hn => exact hi
          | spawnOne k m hm =>
            show ((s.pcs.set m .next).set j (.spawn k))[i]? = _
            rw [get_set_ne (Ne.symm e), get_set_ne (by rintro rfl; rw [hi] at hm; cases hm)]
            exact hi
          | _ => exact (get_set_ne (Ne.symm e)).trans hi
        rw [key] at hi'; cases hi'
    | start j r op hx =>
      have e : i ≠ j := by rintro rfl; rw [hi] at hx; cases hx
      have hi' : (s.pcs.set j _)[i]? = _ := hi'
      rw [get_set_ne e, hi] at hi'
      cases hi'
    | spurious j q hq => have hi' : s.pcs[i]? = _ := hi'; rw [hi] at hi'; cases hi'
    | timeout j q hq => have hi' : s.pcs[i]? = _ := hi'; rw [hi] at hi'; cases hi'
  · intro hi l' hi'
    cases hst with
    | run j x s' hx hran =>
      cases hran with
      | spawnOne k m hm =>
        have e := h.one i j _ _ hi hx rfl rfl
        subst e
        rw [hi] at hx
        cases hx
      | joinEnd =>
        have e := h.one i j _ _ hi hx rfl rfl
        subst e
        have hi' : (s.pcs.set i _)[i]? = _ := hi'
        rw [get_set_self hi] at hi'
        cases hi'
      | _ => rfl
    | _ => rfl

/-- Non-trivial case: two threads enable the pool, one of them creates its two threads while the other returns; then
both disable it, one waits for the threads while the other returns. -/
example : ∃ s s' : State Nat, (phased Nat).Reachable (init 2 2 2 (fun _ => 0)) s ∧
    s.pcs = [.spawn 1, .idle (some .done), .next, .dormant] ∧ s.enabled = true ∧
    (phased Nat).Reachable (init 2 2 2 (fun _ => 0)) s' ∧
    s'.pcs = [.joining [2, 3], .idle (some .done), .next, .next] ∧ s'.enabled = false :=
  ⟨_, _, (phased Nat).exec_reachable' [.start 0 .enable, .start 1 .enable, .run 0, .run 1, .run 0] rfl, rfl, rfl,
    (phased Nat).exec_reachable' [.start 0 .enable, .start 1 .enable, .run 0, .run 1, .run 0, .run 0, .run 0,
      .start 0 .disable, .start 1 .disable, .run 0, .run 1, .run 0, .run 0, .run 0, .run 0] rfl, rfl, rfl⟩

/-- Non-trivial case of `C160_threads_partial`: both have returned, the threads have ended. -/
example : ∃ s : State Nat, (phased Nat).Reachable (init 2 2 2 (fun _ => 0)) s ∧
    s.pcs = [.idle (some .done), .idle (some .done), .ended, .ended] ∧ s.enabled = false ∧ s.threads = [] :=
  ⟨_, (phased Nat).exec_reachable' [.start 0 .enable, .start 1 .enable, .run 0, .run 1, .run 0, .run 0, .run 0,
      .start 0 .disable, .start 1 .disable, .run 0, .run 1, .run 0, .run 0, .run 0, .run 0,
      .run 2, .run 2, .run 3, .run 3, .run 0, .run 0, .run 0] rfl, rfl, rfl, rfl⟩

/-- C160 does not hold: `disable` called while `enable` creates the threads goes through `threads_` while `enable` adds
to it. -/
theorem C160_negation_race : ∃ s : State Nat, (system Nat).Reachable (init 2 2 2 (fun _ => 0)) s ∧ Race s :=
  ⟨_, (system Nat).exec_reachable' [.start 0 .enable, .run 0, .run 0, .start 1 .disable, .run 1, .run 1, .run 1, .run 1,
    .run 1] rfl, 0, 1, _, _, by decide, rfl, rfl, rfl, rfl⟩

/-- C160 does not hold: `enable` called after `disable` has joined the threads and before it empties `threads_` creates
threads that `disable` then destroys while they run, which ends the process. -/
theorem C160_negation_aborts : ∃ s : State Nat, (system Nat).Reachable (init 1 2 2 (fun _ => 0)) s ∧ Aborts s :=
  ⟨_, (system Nat).exec_reachable' [.start 0 .enable, .run 0, .run 0, .run 0, .start 0 .disable, .run 0, .run 0, .run 0,
    .run 0, .run 0, .run 2, .run 2, .run 0, .start 1 .enable, .run 1, .run 1, .run 1] rfl,
    0, 3, _, rfl, .tail _ (.head _), rfl, nofun⟩

/-- C160 does not hold: a first `disable` empties `threads_` while a second one, which an `enable` in between made
possible, goes through it. -/
theorem C160_negation_clear : ∃ s : State Nat, (system Nat).Reachable (init 1 2 2 (fun _ => 0)) s ∧ Race s ∧
    s.pcs[0]? = some (.joining []) ∧ s.pcs[1]? = some (.joining [2, 3]) :=
  ⟨_, (system Nat).exec_reachable' [.start 0 .enable, .run 0, .run 0, .run 0, .start 0 .disable, .run 0, .run 0, .run 0,
    .run 0, .run 0, .run 2, .run 2, .run 0, .start 1 .enable, .run 1, .run 1, .run 1, .start 1 .disable, .run 1, .run 1,
    .run 1, .run 1] rfl,
    ⟨0, 1, _, _, by decide, rfl, rfl, rfl, rfl⟩, rfl, rfl⟩

/-- C160 does not hold: a `disable` that finds another one in progress returns at once, although the documentation says
that `disable` blocks until every thread has finished: thread 1 has called `disable`, it has returned, and a task is
being executed. -/
theorem C160_negation_early : ∃ s s' : State Nat, (phased Nat).Reachable (init 1 2 1 (fun _ => 0)) s ∧
    s.pcs[1]? = some .disableTest ∧ s.pcs[2]? = some (.inside 1 7) ∧
    step s (.run 1) = some s' ∧ s'.pcs[1]? = some (.idle (some .done)) ∧ s'.pcs[2]? = some (.inside 1 7) :=
  ⟨_, _, (phased Nat).exec_reachable' [.start 0 (.slot 1 7), .run 0, .start 0 .enable, .run 0, .run 0, .run 0,
    .start 0 (.emit 1), .run 0, .run 0, .run 0, .run 2, .run 2, .run 2, .run 2, .run 2, .run 2, .run 2,
    .start 0 .disable, .run 0, .start 1 .disable] rfl, rfl, rfl, rfl, rfl, rfl⟩

end Verif.SlotThreadPool
