import Verif.Lemmas.SlotThreadPoolEnds
import Verif.Props.Counter
/-!
C83, C84, C85: what a `DBQueueWaitHandler` and a `SlotThreadPool` get done in fair executions.
-/
namespace Verif.Counter
open Verif.Threads

variable {T : Type}

/-- C83: in a `DBQueueWaitHandler` that stays enabled, is used through `produce`, `consume` and the
calls that neither of them excludes, and never stores 2^32 elements, everything stored at any moment is
returned by calls of `consume()`, in the order it was stored, provided that again and again some thread is
inside `consume()`.  (The same thread may be inside for ever, asleep.) -/
theorem C83_consumed (b : Bool) (picks : Nat → Nat) (N : Nat) (e : (system T).Execution) (hf : e.Fair)
    (h0 : e.at_ 0 = init 0 0 b picks N)
    (hl : ∀ n l, e.label n = some l → l.Allowed fun op => op ≠ .inc ∧ ∀ t, op ≠ .waitDec t)
    (he : ∀ n, (e.at_ n).enabled = true)
    (hb : ∀ n, (e.at_ n).queue.fg.length + (e.at_ n).queue.bg.length < 2 ^ 32)
    (hc : ∀ m, ∃ k, m ≤ k ∧ ∃ (j : Nat) (x : PC T), (e.at_ k).pcs[j]? = some x ∧
      ((∃ t, x = .enter true t) ∨ (∃ t, x = .asleep true t) ∨ (∃ t l, x = .ready true t l) ∨
        x = .popLock ∨ x = .popSwap ∨ x = .popTake))
    (n : Nat) : ∃ m, n ≤ m ∧ (e.at_ n).pushed <+: (e.at_ m).popped := by
  have hR : ∀ n, (system T).ReachableBy Consumer (init 0 0 b picks N) (e.at_ n) := by
    intro n
    induction n with
    | zero => rw [h0]; exact .init
    | succ n ih =>
      rcases e.next n with ⟨-, h⟩ | ⟨l, h1, h⟩
      · rw [h]; exact ih
      · refine .step ih ?_ h
        have := hl n l h1
        cases l with
        | start i op =>
          cases op with
          | inc => exact this.1 rfl
          | waitDec t => exact this.2 t rfl
          | _ => trivial
        | _ => trivial
  have key : ∀ g k, n ≤ k → (e.at_ n).pushed.length - (e.at_ k).popped.length = g →
      ∃ m, n ≤ m ∧ (e.at_ n).pushed.length ≤ (e.at_ m).popped.length := by
    intro g
    induction g using Nat.strongRecOn with
    | ind g ih =>
      intro k hk hg
      by_cases hle : (e.at_ n).pushed.length ≤ (e.at_ k).popped.length
      · exact ⟨k, hk, hle⟩
      · have hpush := (mono_exec e hk).2.1.length_le
        obtain ⟨k', hk', h⟩ := queue_progress e hR hf he hb k (by omega) (fun m _ => by
          obtain ⟨i, hi, j, x, hx, h⟩ := hc m
          refine ⟨i, hi, j, x, hx, ?_⟩
          rcases h with ⟨t, rfl⟩ | ⟨t, rfl⟩ | ⟨t, l, rfl⟩ | rfl | rfl | rfl <;> rfl)
        exact ih _ (by omega) k' (Nat.le_trans hk hk') rfl
  obtain ⟨m, hm, hlen⟩ := key _ n (Nat.le_refl n) rfl
  refine ⟨m, hm, List.prefix_of_prefix_length_le (mono_exec e hm).2.1 ?_ hlen⟩
  rw [(qu_reachable (hR m)).hist]
  exact List.prefix_append _ _

/-- One thread consumes for ever, the other has produced once: the consumer takes the element, returns,
calls again and falls asleep. -/
def served : List (Label (Op Nat)) :=
  [.start 0 (.consume false), .run 0, .start 1 (.produce 5), .run 1, .run 1, .run 0, .run 0, .run 0, .run 0,
   .start 0 (.consume false), .run 0]

/-- Non-trivial case for `C83_consumed`: a fair execution that meets its hypotheses, with an element stored
and not yet returned at moment 5. -/
example : ∃ e : (system Nat).Execution, e.Fair ∧ e.at_ 0 = init 0 0 true (fun _ => 0) 2 ∧
    (∀ n l, e.label n = some l → l.Allowed fun op => op ≠ .inc ∧ ∀ t, op ≠ .waitDec t) ∧
    (∀ m, ∃ k, m ≤ k ∧ (e.at_ k).pcs[0]? = some (.asleep true false)) ∧
    (e.at_ 5).pushed = [5] ∧ (e.at_ 5).popped = [] ∧ (e.at_ 11).popped = [5] := by
  obtain ⟨s1, h1⟩ : ∃ s1, (system Nat).exec (init 0 0 true (fun _ => 0) 2) served = some s1 := ⟨_, rfl⟩
  have hend : ∀ i, (system Nat).step s1 (.run i) = none := by
    cases h1
    intro i
    match i with
    | 0 => rfl
    | 1 => rfl
    | _ + 2 => rfl
  obtain ⟨e, hf, e0, hst, hlab⟩ := (system Nat).finite_fair (init 0 0 true (fun _ => 0) 2) s1 served h1 hend
  refine ⟨e, hf, e0, ?_, ?_, ?_, ?_, ?_⟩
  · intro m l hm
    have key : ∀ l : Label (Op Nat), l ∈ served → l.Allowed fun op => op ≠ .inc ∧ ∀ t, op ≠ .waitDec t := by
      intro l hl
      simp only [served, List.mem_cons, List.not_mem_nil, or_false] at hl
      rcases hl with rfl | rfl | rfl | rfl | rfl | rfl | rfl | rfl | rfl | rfl | rfl <;>
        first | trivial | exact ⟨nofun, nofun⟩
    exact key l (hlab m l hm)
  · intro m
    obtain ⟨s', hs', he'⟩ := hst (m + 11)
    have ht : served.take (m + 11) = served := List.take_of_length_le (by show 11 ≤ _; omega)
    have : some s1 = some s' := h1.symm.trans ((congrArg _ ht).symm.trans hs')
    refine ⟨m + 11, by omega, ?_⟩
    rw [he', ← Option.some.inj this]
    cases h1
    rfl
  all_goals
    first
    | obtain ⟨s, hs, he⟩ := hst 5
      rw [he]
      cases hs
      rfl
    | obtain ⟨s, hs, he⟩ := hst 11
      rw [he]
      cases hs
      rfl

end Verif.Counter

namespace Verif.SlotThreadPool
open Verif.Threads

variable {T : Type}

/-- C155, what holds: in a `SlotThreadPool` that nobody disables and whose queue never stores 2^32 ids, when
tasks throw nothing but `utils::DisabledException`, and fewer executions do so than the pool has threads,
every emit that was accepted is executed: for every moment there is a later one at which the tasks of every
id have ended at least as many times as the id had been emitted.  Missing: the same for any exceptions, see
`C155_negation_disabled` and `C155_negation_other`. -/
theorem C155_executed_partial (n c d : Nat) (picks : Nat → Nat) (ends : Nat → Ending)
    (e : (system T).Execution) (hf : e.Fair) (h0 : e.at_ 0 = init n c d picks ends)
    (hl : ∀ m l, e.label m = some l → l.Allowed (· ≠ .disable))
    (hb : ∀ m, (e.at_ m).q.queue.fg.length + (e.at_ m).q.queue.bg.length < 2 ^ 32)
    (ho : ∀ k, ends k ≠ .throwsOther) (m : Nat)
    (ht : ∀ k, (List.range k).countP (fun i => ends i = .throwsDisabled) < (e.at_ m).threads.length)
    (id : Nat) :
    ∃ k, m ≤ k ∧ (e.at_ m).emitted.count id ≤ (e.at_ k).finished.countP (fun p => p.1 == id) := by
  have hR : ∀ k, (system T).Reachable (init n c d picks ends) (e.at_ k) :=
    e.reachable (by rw [h0]; exact .init)
  have hN : ∀ k, NoDis (e.at_ k) := by
    intro k
    induction k with
    | zero =>
      rw [h0]
      have hpc : ∀ x : PC T, x ∈ (init n c d picks ends : State T).pcs → x = .idle none ∨ x = .dormant := by
        intro x hx
        rcases List.mem_append.1 hx with h | h
        · exact Or.inl (List.eq_of_mem_replicate h)
        · exact Or.inr (List.eq_of_mem_replicate h)
      refine ⟨?_, rfl, ?_⟩
      · intro j x hj
        rcases hpc x (List.mem_of_getElem? hj) with rfl | rfl <;> exact ⟨nofun, nofun⟩
      · rw [List.countP_eq_zero.2 fun x hx => by rcases hpc x hx with rfl | rfl <;> nofun]
        exact Nat.zero_le _
    | succ k ih =>
      rcases e.next k with ⟨-, h⟩ | ⟨l, h1, h⟩
      · rw [h]; exact ih
      · exact noDis_step (inv_reachable (hR k)) (inv_reachable (hR (k + 1))) ih
          (by rw [ends_reachable (hR k)]; exact ho) (hl k l h1) (step_stepped h)
  have he : ∀ k, (e.at_ k).q.enabled = true := fun k => (hN k).enabled
  obtain ⟨j, hj⟩ := one_lives e hR hN ho m ht
  obtain ⟨k1, hk1, h1⟩ := all_pushed e hR hf m id
  obtain ⟨k2, hk2, h2⟩ := all_popped e hR hf he hb k1 j fun k hk => hj k (by omega)
  obtain ⟨k3, hk3, h3⟩ := all_finished e hR hf k2 id
  refine ⟨k3, by omega, ?_⟩
  have hp : (e.at_ k1).q.pushed <+: (e.at_ k2).q.popped := by
    refine List.prefix_of_prefix_length_le (Counter.mono_exec (queueExec e) hk2).2.1 ?_ h2
    show (e.at_ k2).q.popped <+: (e.at_ k2).q.pushed
    rw [(Counter.qu_reachable (queue_reachable (hR k2))).hist]
    exact List.prefix_append _ _
  have := hp.sublist.count_le id
  omega

/-- C84: in a `SlotThreadPool` that nobody disables, that has created at least one thread, whose tasks
return and whose queue never stores 2^32 ids, every emit that was accepted is executed: for every moment
there is a later one at which the tasks of every id have finished at least as many times as the id had been
emitted. -/
theorem C84_executed (n c d : Nat) (picks : Nat → Nat) (ends : Nat → Ending) (e : (system T).Execution)
    (hf : e.Fair) (h0 : e.at_ 0 = init n c d picks ends)
    (hl : ∀ m l, e.label m = some l → l.Allowed (· ≠ .disable))
    (hb : ∀ m, (e.at_ m).q.queue.fg.length + (e.at_ m).q.queue.bg.length < 2 ^ 32)
    (ho : ∀ k, ends k = .returns) (m : Nat) (ht : (e.at_ m).threads ≠ []) (id : Nat) :
    ∃ k, m ≤ k ∧ (e.at_ m).emitted.count id ≤ (e.at_ k).finished.countP (fun p => p.1 == id) := by
  refine C155_executed_partial n c d picks ends e hf h0 hl hb (fun k => by rw [ho k]; nofun) m ?_ id
  intro k
  rw [List.countP_eq_zero.2 fun i _ => by rw [ho i]; nofun]
  exact List.length_pos_iff.2 ht

/-- C85: `disable()` (and with it the destructor, which calls it) returns in every fair execution, whatever
the other threads do: the task queue lets its waiters go, every thread of the pool finishes its task, if
it has one, and ends.  (A task is taken to end, without an exception other than `DisabledException`, which
would end the process.) -/
theorem C85_disable_returns (n c d : Nat) (picks : Nat → Nat) (ends : Nat → Ending) (e : (system T).Execution) (hf : e.Fair)
    (h0 : e.at_ 0 = init n c d picks ends) (ho : ∀ k, ends k ≠ .throwsOther) (i : Nat) :
    e.LeadsTo (fun s => s.pcs[i]? = some .disableTest) (fun s => s.pcs[i]? = some (.idle (some .done))) := by
  intro m hx
  exact disable_returns e (e.reachable (by rw [h0]; exact .init)) ho hf m i hx

/-- Executions that do a given list of things and then nothing more, because nobody can do anything. -/
theorem finite_case (n c d : Nat) (picks : Nat → Nat) (ends : Nat → Ending) (ls : List (Label (Op T)))
    (s1 : State T) (h1 : (system T).exec (init n c d picks ends) ls = some s1)
    (hend : ∀ i, (system T).step s1 (.run i) = none) (hall : ∀ l, l ∈ ls → l.Allowed (· ≠ .disable))
    (hlen : s1.emitted.length < 2 ^ 32) :
    ∃ e : (system T).Execution, e.Fair ∧ e.at_ 0 = init n c d picks ends ∧
      (∀ m l, e.label m = some l → l.Allowed (· ≠ .disable)) ∧
      (∀ m, (e.at_ m).q.queue.fg.length + (e.at_ m).q.queue.bg.length < 2 ^ 32) ∧
      ∀ m, (system T).exec (init n c d picks ends) (ls.take m) = some (e.at_ m) := by
  obtain ⟨e, hf, e0, hst, hlab⟩ := (system T).finite_fair (init n c d picks ends) s1 ls h1 hend
  have hst : ∀ m, (system T).exec (init n c d picks ends) (ls.take m) = some (e.at_ m) := by
    intro m
    obtain ⟨s, hs, he⟩ := hst m
    rw [he]; exact hs
  refine ⟨e, hf, e0, fun m l hm => hall l (hlab m l hm), ?_, hst⟩
  intro m
  have hR : (system T).Reachable (init n c d picks ends) (e.at_ m) := e.reachable (by rw [e0]; exact .init) m
  have hp := (Counter.qu_reachable (queue_reachable hR)).hist
  have hm : (e.at_ m).emitted.length < 2 ^ 32 := by
    have hmono : ∀ k, m ≤ k → (e.at_ m).emitted <+: (e.at_ k).emitted := by
      intro k hk
      induction hk with
      | refl => exact List.prefix_refl _
      | @step k hk ih =>
        rcases e.next k with ⟨-, h⟩ | ⟨l, -, h⟩
        · rw [h]; exact ih
        · rcases C60_emitted_only _ _ l h with h | ⟨i, id, -, -, h⟩
          · rw [h]; exact ih
          · rw [h]; exact ih.trans (List.prefix_append _ _)
    have h2 := (hmono (m + ls.length) (by omega)).length_le
    have ht : ls.take (m + ls.length) = ls := List.take_of_length_le (by omega)
    have h3 := hst (m + ls.length)
    have h3 : some s1 = some (e.at_ (m + ls.length)) := h1.symm.trans ((congrArg _ ht).symm.trans h3)
    rw [← Option.some.inj h3] at h2
    omega
  have hlen : (e.at_ m).q.pushed.length ≤ (e.at_ m).emitted.length := by
    rcases (inv_reachable hR).emitted with ⟨h, -⟩ | ⟨j, v, -, h⟩
    · rw [h]; exact Nat.le_refl _
    · rw [h, List.length_append]; omega
  have := congrArg List.length hp
  simp only [List.length_append] at this
  omega

/-- A client registers, enables, emits once; the worker executes it and sleeps. -/
def once : List (Label (Op Nat)) :=
  setUp ++ [.run 1, .run 1, .run 1, .run 1, .run 1, .run 1, .run 1, .run 1, .run 1, .run 1]

/-- Non-trivial case for `C84_executed`: a fair execution without `disable` that has a thread, an accepted
emit that is not yet taken at moment 10 and is finished at the end. -/
example : ∃ e : (system Nat).Execution, e.Fair ∧ e.at_ 0 = init 1 1 1 (fun _ => 0) ∧
    (∀ m l, e.label m = some l → l.Allowed (· ≠ .disable)) ∧
    (∀ m, (e.at_ m).q.queue.fg.length + (e.at_ m).q.queue.bg.length < 2 ^ 32) ∧
    (e.at_ 10).threads = [1] ∧ (e.at_ 10).emitted = [1] ∧ (e.at_ 10).q.popped = [] ∧
    (e.at_ 20).finished = [(1, 7)] := by
  obtain ⟨s1, h1⟩ : ∃ s1, (system Nat).exec (init 1 1 1 (fun _ => 0)) once = some s1 := ⟨_, rfl⟩
  obtain ⟨e, hf, e0, hl, hb, hst⟩ := finite_case 1 1 1 (fun _ => 0) (fun _ => .returns) once s1 h1 (by
    cases h1
    intro i
    match i with
    | 0 => rfl
    | 1 => rfl
    | _ + 2 => rfl) (by
    intro l hl
    simp only [once, setUp, List.cons_append, List.nil_append, List.mem_cons, List.not_mem_nil, or_false] at hl
    rcases hl with rfl | rfl | rfl | rfl | rfl | rfl | rfl | rfl | rfl | rfl | rfl | rfl | rfl | rfl |
      rfl | rfl | rfl | rfl | rfl | rfl <;> first | trivial | nofun) (by cases h1; decide)
  have h10 := hst 10
  have h20 := hst 20
  refine ⟨e, hf, e0, hl, hb, ?_, ?_, ?_, ?_⟩
  · exact congrArg State.threads (Option.some.inj h10).symm
  · exact congrArg State.emitted (Option.some.inj h10).symm
  · exact congrArg (fun s : State Nat => s.q.popped) (Option.some.inj h10).symm
  · exact congrArg State.finished (Option.some.inj h20).symm

/-- The first execution that ends throws `DisabledException`, the others return. -/
def firstStops : Nat → Ending
  | 0 => .throwsDisabled
  | _ + 1 => .returns

/-- A client registers task 7, enables a pool of two threads and emits twice; the first thread executes it
and ends, the second one executes it and sleeps. -/
def twice : List (Label (Op Nat)) :=
  [.start 0 (.slot 1 7), .run 0, .start 0 .enable, .run 0, .run 0, .run 0, .run 0,
   .start 0 (.emit 1), .run 0, .run 0, .run 0, .start 0 (.emit 1), .run 0, .run 0, .run 0] ++
  List.replicate 8 (.run 1) ++ List.replicate 9 (.run 2)

theorem twice_allowed (l : Label (Op Nat)) (hl : l ∈ twice) : l.Allowed (· ≠ .disable) := by
  simp only [twice, List.mem_append, List.mem_cons, List.not_mem_nil, or_false, List.mem_replicate] at hl
  rcases hl with (hl | hl) | hl
  · rcases hl with rfl | rfl | rfl | rfl | rfl | rfl | rfl | rfl | rfl | rfl | rfl | rfl | rfl | rfl | rfl <;>
      first | trivial | nofun
  · rw [hl.2]; trivial
  · rw [hl.2]; trivial

/-- Non-trivial case for `C155_executed_partial`: a pool of two threads, of which one ends with the
exception of the first task; the second emit, which was accepted before, is executed by the other. -/
example : ∃ e : (system Nat).Execution, e.Fair ∧ e.at_ 0 = init 2 1 2 (fun _ => 0) firstStops ∧
    (∀ m l, e.label m = some l → l.Allowed (· ≠ .disable)) ∧
    (∀ m, (e.at_ m).q.queue.fg.length + (e.at_ m).q.queue.bg.length < 2 ^ 32) ∧
    (∀ k, firstStops k ≠ .throwsOther) ∧
    (∀ k, (List.range k).countP (fun i => firstStops i = .throwsDisabled) < (e.at_ 15).threads.length) ∧
    (e.at_ 15).emitted = [1, 1] ∧ (e.at_ 15).finished = [] ∧
    (e.at_ 32).finished = [(1, 7), (1, 7)] ∧ (e.at_ 32).pcs = [.idle (some .done), .ended, .consuming] := by
  obtain ⟨s1, h1⟩ : ∃ s1, (system Nat).exec (init 2 1 2 (fun _ => 0) firstStops) twice = some s1 := ⟨_, rfl⟩
  obtain ⟨e, hf, e0, hl, hb, hst⟩ := finite_case 2 1 2 (fun _ => 0) firstStops twice s1 h1 (by
    cases h1
    intro i
    match i with
    | 0 => rfl
    | 1 => rfl
    | 2 => rfl
    | _ + 3 => rfl) twice_allowed (by cases h1; decide)
  have h15 := hst 15
  have h32 := hst 32
  refine ⟨e, hf, e0, hl, hb, ?_, ?_, ?_, ?_, ?_, ?_⟩
  · intro k
    cases k <;> nofun
  · intro k
    have ht : (e.at_ 15).threads = [1, 2] := congrArg State.threads (Option.some.inj h15).symm
    rw [ht]
    have hk : ∀ k, stopped firstStops k ≤ 1 := by
      intro k
      induction k with
      | zero => exact Nat.zero_le _
      | succ k ih =>
        rw [stopped_succ]
        cases k with
        | zero => exact Nat.le_refl _
        | succ k => exact ih
    exact Nat.lt_succ_of_le (hk k)
  · exact congrArg State.emitted (Option.some.inj h15).symm
  · exact congrArg State.finished (Option.some.inj h15).symm
  · exact congrArg State.finished (Option.some.inj h32).symm
  · exact congrArg State.pcs (Option.some.inj h32).symm

/-- A client registers task 7, enables a pool of one thread and emits; the thread executes the task and
ends.  The client emits again and waits. -/
def stuck : List (Label (Op Nat)) :=
  setUp ++ List.replicate 8 (.run 1) ++
  [.start 0 (.emit 1), .run 0, .run 0, .run 0, .start 0 (.waitAll false), .run 0, .run 0]

/-- C155 fails: a task that throws `utils::DisabledException` (which it gets from any queue of the library
that is disabled) silently ends the thread that executes it.  In a pool of one thread, which stays enabled,
the next emit is accepted and never executed, and `wait_all_consumed()` never returns. -/
theorem C155_negation_disabled : ∃ e : (system Nat).Execution, e.Fair ∧
    e.at_ 0 = init 1 1 1 (fun _ => 0) firstStops ∧
    (∀ m l, e.label m = some l → l.Allowed (· ≠ .disable)) ∧
    ∀ m, 25 ≤ m → (e.at_ m).enabled = true ∧ (e.at_ m).q.enabled = true ∧ (e.at_ m).emitted = [1, 1] ∧
      (e.at_ m).started = [(1, 7)] ∧ (e.at_ m).finished = [(1, 7)] ∧ (e.at_ m).pcs = [.waitCall, .ended] := by
  obtain ⟨s1, h1⟩ : ∃ s1, (system Nat).exec (init 1 1 1 (fun _ => 0) firstStops) stuck = some s1 := ⟨_, rfl⟩
  obtain ⟨e, hf, e0, hl, -, hst⟩ := finite_case 1 1 1 (fun _ => 0) firstStops stuck s1 h1 (by
    cases h1
    intro i
    match i with
    | 0 => rfl
    | 1 => rfl
    | _ + 2 => rfl) (by
    intro l hl
    simp only [stuck, setUp, List.mem_append, List.mem_cons, List.not_mem_nil, or_false, List.mem_replicate] at hl
    rcases hl with (hl | hl) | hl
    · rcases hl with rfl | rfl | rfl | rfl | rfl | rfl | rfl | rfl | rfl | rfl <;> first | trivial | nofun
    · rw [hl.2]; trivial
    · rcases hl with rfl | rfl | rfl | rfl | rfl | rfl | rfl <;> first | trivial | nofun) (by cases h1; decide)
  refine ⟨e, hf, e0, hl, ?_⟩
  intro m hm
  have ht : stuck.take m = stuck := List.take_of_length_le (show stuck.length ≤ m from hm)
  have h : some s1 = some (e.at_ m) := h1.symm.trans ((congrArg _ ht).symm.trans (hst m))
  rw [← Option.some.inj h]
  cases h1
  exact ⟨rfl, rfl, rfl, rfl, rfl, rfl⟩

/-- C155 fails: any other exception of a task is caught by nobody and ends the process. -/
theorem C155_negation_other : ∃ s : State Nat,
    (system Nat).Reachable (init 1 1 1 (fun _ => 0) fun _ => .throwsOther) s ∧ s.emitted = [1] ∧
    s.started = [(1, 7)] ∧ s.enabled = true ∧ s.pcs = [.idle (some .done), .terminated] :=
  ⟨_, (system Nat).exec_reachable' (setUp ++ List.replicate 8 (.run 1)) rfl, rfl, rfl, rfl, rfl⟩

/-- Non-trivial case for `C85_disable_returns`: `disable()` is called while the worker is inside a task;
the call waits for it. -/
example : (((system Nat).exec (init 1 1 1 (fun _ => 0)) (setUp ++
    [.run 1, .run 1, .run 1, .run 1, .run 1, .run 1, .run 1, .start 0 .disable, .run 0, .run 0, .run 0,
     .run 0, .run 0])).map fun (s : State Nat) => ((s.pcs, s.started, s.finished), (run s 0).isSome)) =
    some (([.joining [1], .inside 1 7], [(1, 7)], []), false) := rfl

end Verif.SlotThreadPool
