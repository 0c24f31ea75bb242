import Verif.Props.SlotThreadPool
import Verif.Lemmas.SlotThreadPoolCtl
/-!
C81, C82: the threads of a `SlotThreadPool` that one thread enables and disables, any number of threads
use.
-/
namespace Verif.SlotThreadPool
open Verif.Threads

variable {T : Type}

/-- C81: once `disable()` has returned, and until `enable()` is called again, no thread of the pool is
anywhere in its routine, and every task that was started has finished. -/
theorem C81_quiet (n c d : Nat) (picks : Nat → Nat) (ends : Nat → Ending) (s : State T)
    (hr : (controlled T).Reachable (init n (c + 1) d picks ends) s) (he : s.enabled = false)
    (r : Option Ret) (h0 : s.pcs[0]? = some (.idle r)) :
    (∀ (i : Nat) (x : PC T), s.pcs[i]? = some x → x ≠ .next ∧ x ≠ .consuming ∧ (∀ id, x ≠ .look id) ∧
      (∀ id t, x ≠ .exec id t) ∧ ∀ id t, x ≠ .inside id t) ∧
    s.threads = [] ∧
    ∀ id, s.started.countP (fun p => p.1 == id) = s.finished.countP (fun p => p.1 == id) := by
  obtain ⟨hC, hs, -, -⟩ := ctl_reachable hr
  have ht : s.threads = [] := (hC.phase _ h0).2 he
  have hno : ∀ (i : Nat) (x : PC T), s.pcs[i]? = some x → x.live = false := by
    intro i x hx
    cases hl : x.live with
    | false => rfl
    | true =>
      have := hC.member i x hx hl
      rw [ht] at this
      cases this
  refine ⟨?_, ht, ?_⟩
  · intro i x hx
    have := hno i x hx
    refine ⟨?_, ?_, ?_, ?_, ?_⟩ <;> intros <;> rintro rfl <;> cases this
  · intro id
    rw [(inv_reachable hs).running id]
    rcases Nat.eq_zero_or_pos (s.pcs.countP (PC.within id)) with e | e
    · rw [e]; rfl
    · obtain ⟨j, z, hz, hw⟩ := exists_of_countP_pos _ e
      have := hno j z hz
      cases z <;> first | (cases this; done) | (cases hw; done)

/-- C81: while the pool is disabled and no `enable` or `disable` is in progress, no step of any thread
starts a task. -/
theorem C81_no_start (n c d : Nat) (picks : Nat → Nat) (ends : Nat → Ending) (s s' : State T)
    (hr : (controlled T).Reachable (init n (c + 1) d picks ends) s) (he : s.enabled = false)
    (r : Option Ret) (h0 : s.pcs[0]? = some (.idle r)) (l : Label (Op T))
    (hs : (controlled T).step s l = some s') :
    s'.started = s.started ∧ (s'.pcs[0]? = some (.idle r) → s'.enabled = false) := by
  obtain ⟨hC, -, -, -⟩ := ctl_reachable hr
  obtain ⟨-, hs⟩ := controlled_step hs
  constructor
  · rcases C60_started_only s s' l hs with h | ⟨i, id, t, -, hi, -, -⟩
    · exact h
    · exact absurd rfl (((C81_quiet n c d picks ends s hr he r h0).1 i _ hi).2.2.2.1 id t)
  · intro _
    cases step_stepped hs with
    | run i x s' hx hran =>
      cases hran with
      | enableStore he' =>
        have := hC.only i _ hx rfl
        subst this
        rw [h0] at hx
        cases hx
      | disableStore r he' hq => rfl
      | _ => exact he
    | _ => exact he

/-- Non-trivial case: a disabled pool with a task in its queue, that has run another. -/
example : ∃ s : State Nat, (controlled Nat).Reachable (init 1 1 1 (fun _ => 0)) s ∧ s.enabled = false ∧
    s.pcs[0]? = some (.idle (some .done)) ∧ s.started = [(1, 7)] ∧
    s.q.queue.fg ++ s.q.queue.bg = [1] :=
  ⟨_, (controlled Nat).exec_reachable' (setUp ++ [.run 1, .run 1, .run 1, .run 1, .run 1, .run 1, .run 1,
    .start 0 .disable, .run 0, .run 0, .run 0, .run 0, .run 0, .run 1, .run 1, .run 1,
    .run 0, .run 0, .start 0 (.emit 1), .run 0, .run 0, .run 0]) rfl, rfl, rfl, rfl, rfl⟩

/-- C82: never more than `number_of_threads` tasks are being executed, whatever the number of calls to
`enable`, `disable` and `emit`; and between calls of `enable` and `disable`, an enabled pool owns exactly
`number_of_threads` threads. -/
theorem C82_threads (n c d : Nat) (picks : Nat → Nat) (ends : Nat → Ending) (s : State T)
    (hr : (controlled T).Reachable (init n (c + 1) d picks ends) s) :
    s.pcs.countP (fun | .inside _ _ => true | _ => false) ≤ n ∧
    (s.enabled = true → (∃ r, s.pcs[0]? = some (.idle r)) → s.threads.length = n) := by
  obtain ⟨hC, -, hn, hpos⟩ := ctl_reachable hr
  constructor
  · have h1 : s.pcs.countP (fun | .inside _ _ => true | _ => false) ≤ s.pcs.countP PC.live := by
      apply List.countP_mono_left
      intro x _ hx
      cases x <;> first | rfl | (cases hx; done)
    have h2 : s.threads.length ≤ s.n := by
      cases h0 : s.pcs[0]? with
      | none =>
        have := List.getElem?_eq_none_iff.1 h0
        omega
      | some x =>
        have hp := hC.phase x h0
        have key : ((s.enabled = true → s.threads.length = s.n) ∧ (s.enabled = false → s.threads = [])) →
            s.threads.length ≤ s.n := by
          rintro ⟨a, b⟩
          cases he : s.enabled with
          | false => rw [b he]; exact Nat.zero_le _
          | true => rw [a he]; exact Nat.le_refl _
        cases x with
        | spawn k => have := hp.2; omega
        | disableCall => have := hp.2; omega
        | joining l => have := hp.2.1; omega
        | _ => exact key hp
    have := hC.most
    omega
  · rintro he ⟨r, h0⟩
    rw [← hn]
    exact (hC.phase _ h0).1 he

/-- Non-trivial case: two threads, both executing a task, a third emit waiting. -/
example : ∃ s : State Nat, (controlled Nat).Reachable (init 2 1 2 (fun _ => 0)) s ∧ s.enabled = true ∧
    s.pcs = [.idle (some .done), .inside 1 7, .inside 1 7] ∧ s.q.queue.fg ++ s.q.queue.bg = [1] :=
  ⟨_, (controlled Nat).exec_reachable' [.start 0 (.slot 1 7), .run 0, .start 0 .enable, .run 0, .run 0,
    .run 0, .run 0, .start 0 (.emit 1), .run 0, .run 0, .run 0, .start 0 (.emit 1), .run 0, .run 0, .run 0,
    .start 0 (.emit 1), .run 0, .run 0, .run 0, .run 1, .run 1, .run 1, .run 1, .run 1, .run 1, .run 1,
    .run 2, .run 2, .run 2, .run 2, .run 2, .run 2] rfl, rfl, rfl, rfl⟩

end Verif.SlotThreadPool
