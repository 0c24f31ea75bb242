import Verif.Lemmas.SlotThreadPoolTasks
import Verif.Props.SlotThreadPoolLive
/-!
C158: tasks of a `SlotThreadPool` that use their pool.
-/
namespace Verif.SlotThreadPool
open Verif.Threads

variable {T : Type} {c d : Nat}

theorem polite_of {e : (tasked T c d).Execution}
    (hp : ∀ m i op, e.label m = some (.start i op) → c ≤ i → (∃ id, op = .emit id) ∨ ∃ id t, op = .slot id t)
    (m : Nat) (l : Label (Op T)) (hl : e.label m = some l) : polite c l := by
  cases l with
  | start i op =>
    by_cases hi : c ≤ i
    · rcases hp m i op hl hi with ⟨id, rfl⟩ | ⟨id, t, rfl⟩ <;> trivial
    · cases op <;> first | trivial | exact Nat.lt_of_not_le hi
  | _ => trivial

/-- C158, what holds: a call of `emit` or `slot` that a task makes on the pool that executes it returns or throws,
in every fair execution in which tasks make no other calls on it, whatever the clients do, and whatever the tasks
that are executed at the same time do.  (`w` is a thread of the pool and `w - d` the call of its task.)  Missing:
`disable` and `wait_all_consumed`, see `C158_negation_disable` and `C158_negation_wait`. -/
theorem C158_calls_return_partial (n : Nat) (picks : Nat → Nat) (ends : Nat → Ending)
    (e : (tasked T c d).Execution) (hf : e.Fair) (h0 : e.at_ 0 = taskedInit n c d picks ends)
    (hp : ∀ m i op, e.label m = some (.start i op) → c ≤ i → (∃ id, op = .emit id) ∨ ∃ id t, op = .slot id t)
    (m w : Nat) (op : Op T) (hw : c + d ≤ w) (hm : e.label m = some (.start w op)) :
    ∃ (k : Nat) (r : Ret), m < k ∧ (e.at_ k).pcs[w - d]? = some (.idle (some r)) := by
  have hO := plain_outside e (polite_of hp) hf (by rw [h0]; exact calls_init n picks ends)
  have hR : ∀ m, (system T).Reachable (init n (c + d) d picks ends) ((plain e).at_ m) :=
    (plain e).reachable (by show (system T).Reachable _ (e.at_ 0); rw [h0]; exact .init)
  rcases e.next m with ⟨h, -⟩ | ⟨l, hl, hs⟩
  · rw [hm] at h; cases h
  · rw [hm] at hl
    cases hl
    have hs : (actual c d (e.at_ m) (.start w op)).bind (step (e.at_ m)) = some (e.at_ (m + 1)) := hs
    obtain ⟨l', ha, hs⟩ := Option.bind_eq_some_iff.1 hs
    have hl' : l' = .start (w - d) op := by
      simp only [actual] at ha
      rw [if_neg (by omega)] at ha
      split at ha
      · cases ha; rfl
      · cases ha
    subst hl'
    have hx : (e.at_ (m + 1)).pcs[w - d]? = some (entry op) := by
      have hs := step_stepped hs
      generalize hsh : e.at_ (m + 1) = s' at hs
      cases hs with
      | start i r op hz => exact get_set_self hz
    rcases hp m w op hm (by omega) with ⟨id, rfl⟩ | ⟨id, t, rfl⟩
    · obtain ⟨k, r, hk, h⟩ := emit_returns (plain e) hR hO _ id (m + 1) hx
      exact ⟨k, r, hk, h⟩
    · obtain ⟨k, r, hk, h⟩ := slot_returns (plain e) hR hO _ id (m + 1) t hx
      exact ⟨k, r, hk, h⟩

/-- C158, what holds: tasks may emit further tasks, and register them.  In a `SlotThreadPool` that nobody disables,
whose tasks call nothing but `emit` and `slot` of it, each a finite number of times, every emit that was accepted,
by a client or by a task, is executed; under the assumptions on exceptions and on the size of the queue
of C155. -/
theorem C158_executed_partial (n : Nat) (picks : Nat → Nat) (ends : Nat → Ending)
    (e : (tasked T c d).Execution) (hf : e.Fair) (h0 : e.at_ 0 = taskedInit n c d picks ends)
    (hp : ∀ m i op, e.label m = some (.start i op) → c ≤ i → (∃ id, op = .emit id) ∨ ∃ id t, op = .slot id t)
    (hfin : ∀ w m, ∃ k, m ≤ k ∧ ((∀ id t, (e.at_ k).pcs[w]? ≠ some (.inside id t)) ∨
      ∀ k', k ≤ k' → ∀ op, e.label k' ≠ some (.start w op)))
    (hl : ∀ m i, e.label m ≠ some (.start i .disable))
    (hb : ∀ m, (e.at_ m).q.queue.fg.length + (e.at_ m).q.queue.bg.length < 2 ^ 32)
    (ho : ∀ k, ends k ≠ .throwsOther) (m : Nat)
    (ht : ∀ k, (List.range k).countP (fun i => ends i = .throwsDisabled) < (e.at_ m).threads.length)
    (id : Nat) :
    ∃ k, m ≤ k ∧ (e.at_ m).emitted.count id ≤ (e.at_ k).finished.countP (fun p => p.1 == id) := by
  have hfin' : ∀ w m, ∃ k, m ≤ k ∧ (inTask (e.at_ k) w = false ∨
      ∀ k', k ≤ k' → ∀ op, e.label k' ≠ some (.start w op)) := by
    intro w m
    obtain ⟨k, hk, h⟩ := hfin w m
    refine ⟨k, hk, h.imp_left fun h => ?_⟩
    cases hi : inTask (e.at_ k) w with
    | false => rfl
    | true =>
      obtain ⟨id, t, hi⟩ := inTask_iff.1 hi
      exact absurd hi (h id t)
  have hF := plain_fair e (polite_of hp) hf n picks ends h0 hfin'
  refine C155_executed_partial n (c + d) d picks ends (plain e) hF h0 ?_ hb ho m ht id
  intro m l h
  have h : plabel e m = some l := h
  obtain ⟨l0, h1, h2⟩ := Option.bind_eq_some_iff.1 h
  cases l with
  | start i op =>
    have hd : op ≠ .disable := by
      rintro rfl
      rcases actual_start h2 with ⟨-, rfl⟩ | ⟨-, -, rfl⟩ <;> exact hl _ _ h1
    exact hd
  | _ => trivial

/-- C158, what holds: `disable()`, called by a client, returns, though tasks call `emit` and `slot` of the pool
(each a finite number of times) while it waits for them. -/
theorem C158_disable_returns_partial (n : Nat) (picks : Nat → Nat) (ends : Nat → Ending)
    (e : (tasked T c d).Execution) (hf : e.Fair) (h0 : e.at_ 0 = taskedInit n c d picks ends)
    (hp : ∀ m i op, e.label m = some (.start i op) → c ≤ i → (∃ id, op = .emit id) ∨ ∃ id t, op = .slot id t)
    (hfin : ∀ w m, ∃ k, m ≤ k ∧ ((∀ id t, (e.at_ k).pcs[w]? ≠ some (.inside id t)) ∨
      ∀ k', k ≤ k' → ∀ op, e.label k' ≠ some (.start w op)))
    (ho : ∀ k, ends k ≠ .throwsOther) (i : Nat) :
    e.LeadsTo (fun s => s.pcs[i]? = some .disableTest) (fun s => s.pcs[i]? = some (.idle (some .done))) := by
  have hfin' : ∀ w m, ∃ k, m ≤ k ∧ (inTask (e.at_ k) w = false ∨
      ∀ k', k ≤ k' → ∀ op, e.label k' ≠ some (.start w op)) := by
    intro w m
    obtain ⟨k, hk, h⟩ := hfin w m
    refine ⟨k, hk, h.imp_left fun h => ?_⟩
    cases hi : inTask (e.at_ k) w with
    | false => rfl
    | true =>
      obtain ⟨id, t, hi⟩ := inTask_iff.1 hi
      exact absurd hi (h id t)
  have hF := plain_fair e (polite_of hp) hf n picks ends h0 hfin'
  exact C85_disable_returns n (c + d) d picks ends (plain e) hF h0 ho i

/-- Executions that do a given list of things and then nothing more, because nobody can do anything. -/
theorem finite_tasks (s0 s1 : State T) (ls : List (Label (Op T)))
    (h1 : (tasked T c d).exec s0 ls = some s1) (hend : ∀ i, (tasked T c d).step s1 (.run i) = none) :
    ∃ e : (tasked T c d).Execution, e.Fair ∧ e.at_ 0 = s0 ∧ (∀ m, e.label m = ls[m]?) ∧
      (∀ m, (tasked T c d).exec s0 (ls.take m) = some (e.at_ m)) ∧ ∀ m, ls.length ≤ m → e.at_ m = s1 := by
  obtain ⟨e, hf, e0, hst, hlab⟩ := (tasked T c d).finite_fair' s0 s1 ls h1 hend
  have hst : ∀ m, (tasked T c d).exec s0 (ls.take m) = some (e.at_ m) := by
    intro m
    obtain ⟨s, hs, he⟩ := hst m
    rw [he]; exact hs
  refine ⟨e, hf, e0, hlab, hst, ?_⟩
  intro m hm
  have ht : ls.take m = ls := List.take_of_length_le hm
  exact (Option.some.inj (h1.symm.trans ((congrArg _ ht).symm.trans (hst m)))).symm

/-- A client (thread 0) registers task 7 under id 1, enables a pool of one thread (thread 2) and emits id 1.  The
task emits id 1 once more (the call is thread 1) and ends; the second time it makes no calls. -/
def reemit : List (Label (Op Nat)) :=
  setUp ++ List.replicate 7 (.run 2) ++ [.start 2 (.emit 1), .run 2, .run 2, .run 2] ++ List.replicate 11 (.run 2)

/-- Non-trivial case for the theorems on C158: a fair execution that meets their hypotheses, in which the task emits
from within the pool; the emit is accepted and executed. -/
example : ∃ e : (tasked Nat 1 1).Execution, e.Fair ∧ e.at_ 0 = taskedInit 1 1 1 (fun _ => 0) ∧
    (∀ m i op, e.label m = some (.start i op) → 1 ≤ i → (∃ id, op = .emit id) ∨ ∃ id t, op = .slot id t) ∧
    (∀ w m, ∃ k, m ≤ k ∧ ((∀ id t, (e.at_ k).pcs[w]? ≠ some (.inside id t)) ∨
      ∀ k', k ≤ k' → ∀ op, e.label k' ≠ some (.start w op))) ∧
    (∀ m i, e.label m ≠ some (.start i .disable)) ∧
    (∀ m, (e.at_ m).q.queue.fg.length + (e.at_ m).q.queue.bg.length < 2 ^ 32) ∧
    e.label 17 = some (.start 2 (.emit 1)) ∧
    (e.at_ 17).pcs = [.idle (some .done), .idle none, .inside 1 7] ∧ (e.at_ 17).threads.length = 1 ∧
    (e.at_ 21).pcs = [.idle (some .done), .idle (some .done), .inside 1 7] ∧ (e.at_ 21).emitted = [1, 1] ∧
    (e.at_ 32).finished = [(1, 7), (1, 7)] ∧
    (e.at_ 32).pcs = [.idle (some .done), .idle (some .done), .consuming] := by
  obtain ⟨s1, h1⟩ : ∃ s1, (tasked Nat 1 1).exec (taskedInit 1 1 1 (fun _ => 0)) reemit = some s1 := ⟨_, rfl⟩
  obtain ⟨e, hf, e0, hlab, hst, hlast⟩ := finite_tasks (taskedInit 1 1 1 (fun _ => 0)) s1 reemit h1 (by
    cases h1
    intro i
    match i with
    | 0 => rfl
    | 1 => rfl
    | 2 => rfl
    | _ + 3 => rfl)
  have hmem : ∀ m i op, e.label m = some (.start i op) →
      (i = 0 ∧ op ≠ .disable) ∨ (i = 2 ∧ op = .emit 1) := by
    intro m i op h
    rw [hlab] at h
    have h : (Label.start i op : Label (Op Nat)) ∈ reemit := List.mem_of_getElem? h
    simp only [reemit, setUp, List.mem_append, List.mem_cons, List.not_mem_nil, or_false, List.mem_replicate,
      reduceCtorEq, and_false, Label.start.injEq, false_or] at h
    rcases h with (⟨rfl, rfl⟩ | ⟨rfl, rfl⟩ | ⟨rfl, rfl⟩) | ⟨rfl, rfl⟩
    · exact Or.inl ⟨rfl, nofun⟩
    · exact Or.inl ⟨rfl, nofun⟩
    · exact Or.inl ⟨rfl, nofun⟩
    · exact Or.inr ⟨rfl, rfl⟩
  have h17 := hst 17
  have h21 := hst 21
  have h32 := hst 32
  refine ⟨e, hf, e0, ?_, ?_, ?_, ?_, hlab 17, ?_, ?_, ?_, ?_, ?_, ?_⟩
  · intro m i op h hi
    rcases hmem m i op h with ⟨rfl, -⟩ | ⟨-, rfl⟩
    · omega
    · exact Or.inl ⟨1, rfl⟩
  · intro w m
    refine ⟨m + 32, by omega, Or.inr fun k' hk' op h => ?_⟩
    rw [hlab, List.getElem?_eq_none (show 32 ≤ k' by omega)] at h
    cases h
  · intro m i h
    rcases hmem m i _ h with ⟨-, h⟩ | ⟨-, h⟩
    · exact h rfl
    · cases h
  · have hb : ∀ k < 33, ((tasked Nat 1 1).exec (taskedInit 1 1 1 (fun _ => 0)) (reemit.take k)).all
        (fun (s : State Nat) => decide (s.q.queue.fg.length + s.q.queue.bg.length < 2 ^ 32)) = true := by decide
    intro m
    by_cases hm : m < 33
    · have h := hb m hm
      rw [hst m] at h
      exact of_decide_eq_true h
    · rw [hlast m (show 32 ≤ m by omega)]
      cases h1
      decide
  · exact congrArg State.pcs (Option.some.inj h17).symm
  · exact congrArg (fun s : State Nat => s.threads.length) (Option.some.inj h17).symm
  · exact congrArg State.pcs (Option.some.inj h21).symm
  · exact congrArg State.emitted (Option.some.inj h21).symm
  · exact congrArg State.finished (Option.some.inj h32).symm
  · exact congrArg State.pcs (Option.some.inj h32).symm

/-- The task disables its pool. -/
def stops : List (Label (Op Nat)) :=
  setUp ++ List.replicate 7 (.run 2) ++ [.start 2 .disable] ++ List.replicate 5 (.run 2)

/-- C158 fails: `disable()` called by a task waits for the thread that executes this task: it joins itself.  (Where
that is detected, `join` throws, and the process ends because `disable` is `noexcept`.) -/
theorem C158_negation_disable : ∃ e : (tasked Nat 1 1).Execution, e.Fair ∧
    e.at_ 0 = taskedInit 1 1 1 (fun _ => 0) ∧ e.label 17 = some (.start 2 .disable) ∧
    ∀ m, 23 ≤ m → (e.at_ m).pcs = [.idle (some .done), .joining [2], .inside 1 7] := by
  obtain ⟨s1, h1⟩ : ∃ s1, (tasked Nat 1 1).exec (taskedInit 1 1 1 (fun _ => 0)) stops = some s1 := ⟨_, rfl⟩
  obtain ⟨e, hf, e0, hlab, hst, hlast⟩ := finite_tasks (taskedInit 1 1 1 (fun _ => 0)) s1 stops h1 (by
    cases h1
    intro i
    match i with
    | 0 => rfl
    | 1 => rfl
    | 2 => rfl
    | _ + 3 => rfl)
  refine ⟨e, hf, e0, hlab 17, fun m hm => ?_⟩
  rw [hlast m hm]
  cases h1
  rfl

/-- The client emits twice; the task waits until everything is consumed. -/
def waits : List (Label (Op Nat)) :=
  setUp ++ [.start 0 (.emit 1), .run 0, .run 0, .run 0] ++ List.replicate 7 (.run 2) ++
    [.start 2 (.waitAll false), .run 2, .run 2]

/-- C158 fails: in a pool of one thread, `wait_all_consumed()` called by a task never returns when another task is
queued, which nobody will take: the pool is stuck for ever. -/
theorem C158_negation_wait : ∃ e : (tasked Nat 1 1).Execution, e.Fair ∧
    e.at_ 0 = taskedInit 1 1 1 (fun _ => 0) ∧ e.label 21 = some (.start 2 (.waitAll false)) ∧
    ∀ m, 24 ≤ m → (e.at_ m).pcs = [.idle (some .done), .waitCall, .inside 1 7] ∧ (e.at_ m).enabled = true ∧
      (e.at_ m).emitted = [1, 1] ∧ (e.at_ m).started = [(1, 7)] := by
  obtain ⟨s1, h1⟩ : ∃ s1, (tasked Nat 1 1).exec (taskedInit 1 1 1 (fun _ => 0)) waits = some s1 := ⟨_, rfl⟩
  obtain ⟨e, hf, e0, hlab, hst, hlast⟩ := finite_tasks (taskedInit 1 1 1 (fun _ => 0)) s1 waits h1 (by
    cases h1
    intro i
    match i with
    | 0 => rfl
    | 1 => rfl
    | 2 => rfl
    | _ + 3 => rfl)
  refine ⟨e, hf, e0, hlab 21, fun m hm => ?_⟩
  rw [hlast m hm]
  cases h1
  exact ⟨rfl, rfl, rfl, rfl⟩

end Verif.SlotThreadPool
