import Verif.Lemmas.SlotThreadPoolInv
import Verif.Lemmas.CounterAcc
import Verif.Lemmas.CounterLive
/-!
C60–C62: the slot thread pool.
-/
namespace Verif.SlotThreadPool
open Verif.Threads
open Verif.WaitHandler (Reason StatusOp)

variable {T : Type}

/-- C60: in every state, a task id has been started at most as many times as it was emitted: executions
correspond to distinct earlier emits. -/
theorem C60_once (n c d : Nat) (picks : Nat → Nat) (ends : Nat → Ending) (s : State T)
    (hr : (system T).Reachable (init n c d picks ends) s) (id : Nat) :
    s.started.countP (fun p => p.1 == id) ≤ s.emitted.count id := by
  have h := inv_reachable hr
  have hQ := Counter.qu_reachable (queue_reachable hr)
  have h1 := h.taken id
  have h2 : s.q.popped.count id ≤ s.q.pushed.count id := by
    rw [hQ.hist, List.count_append]
    exact Nat.le_add_right _ _
  have h3 : s.q.pushed.count id ≤ s.emitted.count id := by
    rcases h.emitted with ⟨e, -⟩ | ⟨j, k, -, e⟩
    · rw [e]; exact Nat.le_refl _
    · rw [e, List.count_append]; exact Nat.le_add_right _ _
  omega

/-- C60: nothing is lost: an accepted emit has been started, or is in the hands of a worker about to run it,
or is in the queue, or is being stored in it by the emitting thread. -/
theorem C60_conservation (n c d : Nat) (picks : Nat → Nat) (ends : Nat → Ending) (s : State T)
    (hr : (system T).Reachable (init n c d picks ends) s) (id : Nat) :
    ∃ storing, s.emitted.count id = s.started.countP (fun p => p.1 == id) +
      s.pcs.countP (fun | .look k => k == id | .exec k _ => k == id | _ => false) +
      (s.q.queue.fg ++ s.q.queue.bg).count id + storing ∧ storing ≤ 1 ∧
      (storing = 1 → ∃ (j : Nat) (k : Nat), s.pcs[j]? = some (.emitCall k) ∧
        s.q.pcs[j]? = some (.push id)) := by
  have h := inv_reachable hr
  have hQ := Counter.qu_reachable (queue_reachable hr)
  have h1 := h.taken id
  have h2 : s.q.pushed.count id = s.q.popped.count id + (s.q.queue.fg ++ s.q.queue.bg).count id := by
    rw [hQ.hist, List.count_append]
  have e3 : s.pcs.countP (fun | .look k => k == id | .exec k _ => k == id | _ => false) =
      s.pcs.countP (PC.flying id) := rfl
  rw [e3]
  rcases h.emitted with ⟨e, -⟩ | ⟨j, k, hj, e⟩
  · exact ⟨0, by rw [e]; omega, by omega, nofun⟩
  · obtain ⟨x, hx, hk⟩ := h.pool_pc hj
    have hx' : ∃ m, x = .emitCall m := by
      cases x <;> first | exact ⟨_, rfl⟩ | cases hk
    obtain ⟨m, rfl⟩ := hx'
    refine ⟨[k].count id, ?_, ?_, ?_⟩
    · rw [e, List.count_append]; omega
    · rw [List.count_singleton]; split <;> omega
    · intro h1
      rw [List.count_singleton] at h1
      split at h1
      · rename_i e
        have e : k = id := by simpa using e
        subst e
        exact ⟨j, m, hx, hj⟩
      · cases h1

/-- C60: the task run for an id is the one registered under it, in `started` as in `finished`. -/
theorem C60_task (n c d : Nat) (picks : Nat → Nat) (ends : Nat → Ending) (s : State T)
    (hr : (system T).Reachable (init n c d picks ends) s) (id : Nat) (t : T) :
    ((id, t) ∈ s.started → StdMap.get id s.slots = some t) ∧
    ((id, t) ∈ s.finished → StdMap.get id s.slots = some t) :=
  ⟨(inv_reachable hr).started id t, (inv_reachable hr).finished id t⟩

/-- C60: a registered task is never replaced or removed. -/
theorem C60_kept (s s' : State T) (l : Label (Op T)) (hs : (system T).step s l = some s') (id : Nat) (t : T)
    (hg : StdMap.get id s.slots = some t) : StdMap.get id s'.slots = some t :=
  slots_step (step_stepped hs) hg

/-- C60: `emit` of an id that is not registered throws and changes nothing; of a registered one, it is
accepted, and stores exactly that id. -/
theorem C60_emit (n c d : Nat) (picks : Nat → Nat) (ends : Nat → Ending) (s s' : State T)
    (hr : (system T).Reachable (init n c d picks ends) s) (i id : Nat)
    (hi : s.pcs[i]? = some (.emitLock id)) (hs : (system T).step s (.run i) = some s') :
    (StdMap.get id s.slots = none →
      s' = { s with pcs := s.pcs.set i (.idle (some (.threw .valueNotAllowed))) }) ∧
    (StdMap.get id s.slots ≠ none → s'.emitted = s.emitted ++ [id] ∧ s'.slotsMutex = some i ∧
      s'.pcs[i]? = some (.emitCall id) ∧ s'.q.pcs[i]? = some (.push id) ∧ s'.q.queue = s.q.queue) := by
  have h := inv_reachable hr
  have hs : step s (.run i) = some s' := hs
  cases step_stepped hs with
  | run i x s' hx hr =>
    rw [hi] at hx
    cases hx
    cases hr with
    | stay x q hc hq hn => cases hc
    | emitUnknown id hm hg => exact ⟨fun _ => rfl, fun e => absurd hg e⟩
    | emitKnown id t r hm hg hq =>
      refine ⟨fun e => (by rw [hg] at e; cases e), fun _ => ⟨rfl, rfl, get_set_self hi, get_set_self hq, rfl⟩⟩

/-- C60: accepted emits are recorded only by `emit`. -/
theorem C60_emitted_only (s s' : State T) (l : Label (Op T)) (hs : (system T).step s l = some s') :
    s'.emitted = s.emitted ∨ ∃ (i id : Nat), l = .run i ∧ s.pcs[i]? = some (.emitLock id) ∧
      s'.emitted = s.emitted ++ [id] := by
  cases step_stepped hs with
  | run i x s' hx hr =>
    cases hr with
    | emitKnown id t r hm hg hq => exact Or.inr ⟨i, id, rfl, hx, rfl⟩
    | _ => exact Or.inl rfl
  | _ => exact Or.inl rfl

/-- C60: `slot` of an id that is registered throws and changes nothing; of a new one, it registers the
task under that id and leaves the others alone. -/
theorem C60_slot (s s' : State T) (i id : Nat) (t : T) (hi : s.pcs[i]? = some (.slotLock id t))
    (hs : (system T).step s (.run i) = some s') :
    (StdMap.get id s.slots ≠ none →
      s' = { s with pcs := s.pcs.set i (.idle (some (.threw .valueNotAllowed))) }) ∧
    (StdMap.get id s.slots = none → s'.pcs[i]? = some (.idle (some .done)) ∧
      ∀ k, StdMap.get k s'.slots = if k = id then some t else StdMap.get k s.slots) := by
  have hs : step s (.run i) = some s' := hs
  cases step_stepped hs with
  | run i x s' hx hr =>
    rw [hi] at hx
    cases hx
    cases hr with
    | stay x q hc hq hn => cases hc
    | slotKnown id t t' hm hg => exact ⟨fun _ => rfl, fun e => by rw [hg] at e; cases e⟩
    | slotNew id t hm hg =>
      exact ⟨fun e => absurd hg e, fun _ => ⟨get_set_self hi, fun k => StdMap.get_put id k t s.slots⟩⟩

/-- C60: a task starts only in a worker that took its id, one execution per id taken. -/
theorem C60_started_only (s s' : State T) (l : Label (Op T)) (hs : (system T).step s l = some s') :
    s'.started = s.started ∨ ∃ (i id : Nat) (t : T), l = .run i ∧ s.pcs[i]? = some (.exec id t) ∧
      s'.pcs[i]? = some (.inside id t) ∧ s'.started = s.started ++ [(id, t)] := by
  cases step_stepped hs with
  | run i x s' hx hr =>
    cases hr with
    | exec id t => exact Or.inr ⟨i, id, t, rfl, hx, get_set_self hx, rfl⟩
    | _ => exact Or.inl rfl
  | _ => exact Or.inl rfl

/-- C60: no worker ever meets an id without a task, nor an exception it does not catch, except one thrown
by a task. -/
theorem C60_no_abort (n c d : Nat) (picks : Nat → Nat) (ends : Nat → Ending) (s : State T)
    (hr : (system T).Reachable (init n c d picks ends) s) (i : Nat) (hi : s.pcs[i]? = some .terminated) :
    ∃ k, k < s.finished.length ∧ ends k = .throwsOther := by
  have := (inv_reachable hr).thrown i hi
  rw [ends_reachable hr] at this
  exact this

/-- The labels of a client that registers task 7 under id 1, enables the pool and emits id 1. -/
def setUp : List (Label (Op Nat)) :=
  [.start 0 (.slot 1 7), .run 0, .start 0 .enable, .run 0, .run 0, .run 0,
   .start 0 (.emit 1), .run 0, .run 0, .run 0]

/-- Non-trivial case: a task is emitted twice and run once so far; an emit of an unregistered id and a
second registration throw. -/
example : (((system Nat).exec (init 1 1 1 (fun _ => 0)) (setUp ++
    [.start 0 (.emit 1), .run 0, .run 0, .run 0,
     .run 1, .run 1, .run 1, .run 1, .run 1, .run 1, .run 1, .start 0 (.slot 1 8), .run 0])).map
      fun (s : State Nat) => (s.emitted, s.started, s.finished, s.slots, s.q.queue.fg ++ s.q.queue.bg)) =
    some ([1, 1], [(1, 7)], [], [(1, 7)], [1]) := rfl

example : (((system Nat).exec (init 1 1 1 (fun _ => 0)) (setUp ++ [.start 0 (.emit 2), .run 0])).map
      fun (s : State Nat) => (s.emitted, s.pcs[0]?)) =
    some ([1], some (.idle (some (.threw .valueNotAllowed)))) := rfl

/-- The queue is never enabled again. -/
theorem disabled_step {s s' : State T} {l : Label (Op T)} (h : Inv s) (hs : Stepped s l s')
    (he : s.q.enabled = false) : s'.q.enabled = false := by
  rcases step_queue hs with e | ⟨l', hl, -⟩
  · rw [e]; exact he
  · have hl := Counter.step_stepped hl
    revert hl
    generalize s'.q = q'
    intro hl
    cases hl with
    | run i x q' hx hr =>
      obtain ⟨z, hz, hk⟩ := h.pool_pc hx
      cases hr with
      | enableTest o => cases z <;> cases hk
      | disableStore o he' => rfl
      | enterGrant c t he' hv => rw [he] at he'; cases he'
      | readyGrant c t l he' hv => rw [he] at he'; cases he'
      | inc p =>
        obtain ⟨e, -⟩ := Counter.increment_same (Counter.goto s.q i (.idle none))
        rw [e.enabled]; exact he
      | _ => exact he
    | _ => exact he

/-- A worker between the grant of an element and the start of its task. -/
def PC.claiming (x : PC T) (y : Counter.PC Nat) : Prop :=
  (∃ k, x = .look k) ∨ (∃ k t, x = .exec k t) ∨ y.popping = true

theorem claiming_step {s s' : State T} {l : Label (Op T)} (h : Inv s) (he : s.q.enabled = false)
    (hs : Stepped s l s') {j : Nat} {x' : PC T} {y' : Counter.PC Nat} (hx' : s'.pcs[j]? = some x')
    (hy' : s'.q.pcs[j]? = some y') (hc : x'.claiming y') :
    ∃ x y, s.pcs[j]? = some x ∧ s.q.pcs[j]? = some y ∧ x.claiming y := by
  have hpop : y'.popping = true → ∃ x y, s.pcs[j]? = some x ∧ s.q.pcs[j]? = some y ∧ x.claiming y := by
    intro hp
    have : ∃ y, s.q.pcs[j]? = some y ∧ y.popping = true := by
      rcases step_queue hs with e | ⟨l', hl, -⟩
      · rw [e] at hy'; exact ⟨y', hy', hp⟩
      · exact Counter.popping_step he (Counter.step_stepped hl) hy' hp
    obtain ⟨y, hy, hp⟩ := this
    obtain ⟨x, hx, -⟩ := h.pool_pc hy
    exact ⟨x, y, hx, hy, Or.inr (Or.inr hp)⟩
  have hold : s.pcs[j]? = some x' → x'.claiming y' → ∃ x y, s.pcs[j]? = some x ∧ s.q.pcs[j]? = some y ∧
      x.claiming y := by
    intro hx hc
    obtain ⟨y, hy, -⟩ := h.queue_pc hx
    rcases hc with hc | hc | hc
    · exact ⟨x', y, hx, hy, Or.inl hc⟩
    · exact ⟨x', y, hx, hy, Or.inr (Or.inl hc)⟩
    · exact hpop hc
  have hset : ∀ (i : Nat) (x1 : PC T), (s.pcs.set i x1)[j]? = some x' → (∀ k, x1 ≠ .look k) →
      (∀ k t, x1 ≠ .exec k t) → ∃ x y, s.pcs[j]? = some x ∧ s.q.pcs[j]? = some y ∧ x.claiming y := by
    intro i x1 hx h1 h2
    rcases set_get hx with ⟨rfl, rfl, -⟩ | ⟨-, hx⟩
    · rcases hc with ⟨k, e⟩ | ⟨k, t, e⟩ | hc
      · exact absurd e (h1 k)
      · exact absurd e (h2 k t)
      · exact hpop hc
    · exact hold hx hc
  cases hs with
  | run i x s' hx hr =>
    cases hr with
    | stay x q hc' hq hn => exact hold hx' hc
    | consumeRet q r hq hr =>
      rcases set_get hx' with ⟨rfl, e, -⟩ | ⟨-, hx'⟩
      · obtain ⟨y, y0, hy, hk, hy0, hw⟩ := h.went hx hq
        rw [hr] at hy0
        cases hy0
        obtain ⟨z, hz, hran⟩ := Counter.run_ran hq
        rw [hy] at hz
        cases hz
        refine ⟨_, y, hx, hy, ?_⟩
        rcases consumed_value h hx hq hr with ⟨v, rfl, hp, -⟩ | ⟨rfl, -⟩ | rfl
        · have : y = .popTake := by
            have hne : q.popped ≠ s.q.popped := by
              rw [hp]
              intro e
              have := congrArg List.length e
              simp at this
            clear hy' hpop hold hset
            cases hran with
            | popTake v l hq => rfl
            | enterGrant c t he' hv => rw [he] at he'; cases he'
            | readyGrant c t l he' hv => rw [he] at he'; cases he'
            | inc p => exact absurd (Counter.increment_same _).1.popped hne
            | _ => exact absurd rfl hne
          subst this
          exact Or.inr (Or.inr rfl)
        · cases e
          rcases hc with ⟨k, e⟩ | ⟨k, t, e⟩ | hc
          · cases e
          · cases e
          · have hy' : q.pcs[j]? = some y' := hy'
            rw [hr] at hy'; cases hy'; cases hc
        · cases e
          rcases hc with ⟨k, e⟩ | ⟨k, t, e⟩ | hc
          · cases e
          · cases e
          · have hy' : q.pcs[j]? = some y' := hy'
            rw [hr] at hy'; cases hy'; cases hc
      · exact hold hx' hc
    | lookSome id t hm hg =>
      rcases set_get hx' with ⟨rfl, e, -⟩ | ⟨-, hx'⟩
      · exact ⟨_, y', hx, hy', Or.inl ⟨id, rfl⟩⟩
      · exact hold hx' hc
    | spawnOne k d hd =>
      rcases set_get hx' with ⟨rfl, e, -⟩ | ⟨-, hx'⟩
      · subst e
        rcases hc with ⟨k, e⟩ | ⟨k, t, e⟩ | hc
        · cases e
        · cases e
        · exact hpop hc
      · exact hset d _ hx' nofun nofun
    | inside id t =>
      refine hset i _ hx' ?_ ?_
      · cases s.ends s.finished.length <;> nofun
      · cases s.ends s.finished.length <;> nofun
    | _ =>
      refine hset i _ hx' ?_ ?_
      · nofun
      · nofun
  | start i r op hx => exact hset i _ hx' (by cases op <;> nofun) (by cases op <;> nofun)
  | spurious i q hq => exact hold hx' hc
  | timeout i q hq => exact hold hx' hc

/-- C61, what goes wrong, for all histories: once the queue of the pool is disabled and every worker has
finished what it had taken, no task is ever started again, whatever is called. -/
theorem C61_never_again (n c d : Nat) (picks : Nat → Nat) (ends : Nat → Ending) (e : (system T).Execution)
    (h0 : (system T).Reachable (init n c d picks ends) (e.at_ 0)) (m : Nat)
    (he : (e.at_ m).q.enabled = false)
    (hn : ∀ (i : Nat) (x : PC T) (y : Counter.PC Nat), (e.at_ m).pcs[i]? = some x →
      (e.at_ m).q.pcs[i]? = some y → (∀ k, x ≠ .look k) ∧ (∀ k t, x ≠ .exec k t) ∧ y ≠ .popLock ∧
        y ≠ .popSwap ∧ y ≠ .popTake) :
    ∀ m', m ≤ m' → (e.at_ m').started = (e.at_ m).started := by
  have hI : ∀ k, Inv (e.at_ k) := fun k => inv_reachable (e.reachable h0 k)
  suffices H : ∀ m', m ≤ m' → (e.at_ m').started = (e.at_ m).started ∧ (e.at_ m').q.enabled = false ∧
      ∀ (i : Nat) (x : PC T) (y : Counter.PC Nat), (e.at_ m').pcs[i]? = some x →
        (e.at_ m').q.pcs[i]? = some y → ¬ x.claiming y from fun m' hm => (H m' hm).1
  intro m' hm
  induction hm with
  | refl =>
    refine ⟨rfl, he, ?_⟩
    intro i x y hx hy hc
    obtain ⟨h1, h2, h3, h4, h5⟩ := hn i x y hx hy
    rcases hc with ⟨k, hc⟩ | ⟨k, t, hc⟩ | hc
    · exact h1 k hc
    · exact h2 k t hc
    · cases y <;> first | exact h3 rfl | exact h4 rfl | exact h5 rfl | cases hc
  | @step k hk ih =>
    obtain ⟨ih1, ih2, ih3⟩ := ih
    rcases e.next k with ⟨-, h⟩ | ⟨l, -, h⟩
    · rw [h]; exact ⟨ih1, ih2, ih3⟩
    · have hs := step_stepped h
      have hIk := hI k
      refine ⟨?_, disabled_step hIk hs ih2, ?_⟩
      · rw [← ih1]
        rcases C60_started_only _ _ l h with h | ⟨i, id, t, -, hi, -⟩
        · exact h
        · obtain ⟨y, hy, -⟩ := hIk.queue_pc hi
          exact absurd (Or.inr (Or.inl ⟨id, t, rfl⟩)) (ih3 i _ y hi hy)
      · intro i x y hx hy hc
        obtain ⟨x0, y0, hx0, hy0, hc0⟩ := claiming_step hIk ih2 hs hx hy hc
        exact ih3 i x0 y0 hx0 hy0 hc0

/-- Once `disable` has reached the queue. -/
structure Off (s : State T) : Prop where
  release : ∀ j : Nat, s.q.pcs[j]? = some (.release .disable) → s.q.enabled = false
  joining : ∀ (j : Nat) (l : List Nat), s.pcs[j]? = some (.joining l) → s.q.enabled = false

theorem release_step {q q' : Counter.State Nat} {l : Label (Counter.Op Nat)} (hS : Counter.St q)
    (hs : Counter.Stepped q l q') (he : q.enabled = true) (he' : q'.enabled = true)
    (hk : ∀ (j : Nat) (y : Counter.PC Nat), q.pcs[j]? = some y → kind y ≠ .other)
    (h : ∀ j : Nat, q.pcs[j]? ≠ some (.release .disable)) (j : Nat) :
    q'.pcs[j]? ≠ some (.release .disable) := by
  intro hj
  have key : ∀ (i : Nat) (y : Counter.PC Nat), Counter.Woken (q.pcs.set i y) q'.pcs →
      y ≠ .release .disable → False := by
    intro i y hw hy
    obtain ⟨a, ha, e⟩ := hw.get' hj
    have hpa : a = .release .disable := by
      rcases e with e | e | e
      · exact e.symm
      · cases a <;> first | exact e.symm | cases e
      · cases a <;> first | exact e.symm | cases e
    subst hpa
    rcases set_get ha with ⟨rfl, e', -⟩ | ⟨-, ha⟩
    · exact hy e'.symm
    · exact h j ha
  cases hs with
  | run i x q' hx hr =>
    cases hr with
    | enterGrant c t he' hv =>
      exact key i _ (Counter.decrease_same (Counter.goto q i (Counter.afterWait c .conditionMet))).1.woken
        (by cases c <;> nofun)
    | readyGrant c t l he' hv =>
      exact key i _ (Counter.decrease_same (Counter.goto { q with waiting := q.waiting - 1 } i
        (Counter.afterWait c .conditionMet))).1.woken (by cases c <;> nofun)
    | enterDisabled c t he => exact key i _ (.refl _) (by cases c <;> nofun)
    | readyDisabled c t l he => exact key i _ (.refl _) (by cases c <;> nofun)
    | readyTimeout c t he' hv => exact key i _ (.refl _) (by cases c <;> nofun)
    | inc p => exact key i _ (Counter.increment_same (Counter.goto q i (.idle none))).1.woken nofun
    | disableNotify o =>
      have := hS.off i _ hx rfl
      rw [he] at this
      cases this
    | drainNotify o =>
      have := hS.off i _ hx rfl
      rw [he] at this
      cases this
    | acquire o hm => exact key i _ (.refl _) (by cases o <;> nofun)
    | disableSkip o he'' => rw [he] at he''; cases he''
    | drainEnd o hw =>
      have := hS.off i _ hx rfl
      rw [he] at this
      cases this
    | enableTest o =>
      exact absurd rfl (hk i _ hx)
    | _ =>
      refine key i _ (.refl _) ?_
      nofun
  | start i r op hx => exact key i _ (.refl _) (by cases op <;> nofun)
  | spurious i c t hx => exact key i _ (.refl _) nofun
  | spuriousTh i t hx => exact key i _ (.refl _) nofun
  | timeout i c hx => exact key i _ (.refl _) nofun
  | timeoutTh i hx => exact key i _ (.refl _) nofun

theorem off_step {s s' : State T} {l : Label (Op T)} (h : Inv s) (hS : Counter.St s.q) (hO : Off s)
    (hs : Stepped s l s') : Off s' := by
  cases he' : s'.q.enabled with
  | false => exact ⟨fun _ _ => he', fun _ _ _ => he'⟩
  | true =>
    have he : s.q.enabled = true := by
      cases he : s.q.enabled with
      | true => rfl
      | false => rw [disabled_step h hs he] at he'; cases he'
    have hr : ∀ j : Nat, s.q.pcs[j]? ≠ some (.release .disable) := fun j hj => by
      have := hO.release j hj
      rw [he] at this
      cases this
    have hj : ∀ (j : Nat) (l : List Nat), s.pcs[j]? ≠ some (.joining l) := fun j l hj => by
      have := hO.joining j l hj
      rw [he] at this
      cases this
    have hkind : ∀ (j : Nat) (y : Counter.PC Nat), s.q.pcs[j]? = some y → kind y ≠ .other := by
      intro j y hy
      obtain ⟨x, -, hk⟩ := h.pool_pc hy
      rw [hk]
      cases x <;> nofun
    constructor
    · intro j hj
      rcases step_queue hs with e | ⟨l', hl, -⟩
      · rw [e] at hj; exact absurd hj (hr j)
      · exact absurd hj (release_step hS (Counter.step_stepped hl) he he' hkind hr j)
    · intro j l hj'
      exfalso
      have hset : ∀ (i : Nat) (x : PC T), (s.pcs.set i x)[j]? = some (.joining l) →
          (∀ l, x ≠ .joining l) → False := by
        intro i x hx hn
        rcases set_get hx with ⟨rfl, e, -⟩ | ⟨-, hx⟩
        · exact hn l e.symm
        · exact hj j l hx
      cases hs with
      | run i x s' hx hran =>
        cases hran with
        | stay x q hc hq hn => exact hj j l hj'
        | joinEnd => exact hj i _ hx
        | joinOne k l hk => exact hj i _ hx
        | disableRet q r hq hret =>
          obtain ⟨y, hy, hran⟩ := Counter.run_ran hq
          have hk := h.sync i _ y hx hy
          clear he' hkind
          cases hran with
          | release o =>
            cases o with
            | disable => exact hr i hy
            | _ => cases hk
          | acquire o hm =>
            have := hret
            rw [show ((Counter.goto { s.q with status := some i } i (Counter.first o)).pcs[i]?) = _ from get_set_self hy] at this
            cases o <;> cases this
          | disableStore o he =>
            have := hret
            rw [show ((Counter.goto { s.q with enabled := false } i (.disableNotify o)).pcs[i]?) = _ from get_set_self hy] at this
            cases this
          | disableSkip o he0 => rw [he] at he0; cases he0
          | disableNotify o =>
            have := hS.off i _ hy rfl
            rw [he] at this
            cases this
          | enterDisabled c t he0 => rw [he] at he0; cases he0
          | readyDisabled c t l he0 => rw [he] at he0; cases he0
          | enterGrant c t he0 hv => cases c <;> cases t <;> cases hk
          | enterSleep c t he0 hv => cases c <;> cases t <;> cases hk
          | readyGrant c t l he0 hv => cases c <;> cases t <;> cases l <;> cases hk
          | readyTimeout c t he0 hv => cases c <;> cases t <;> cases hk
          | readySleep c t he0 hv => cases c <;> cases t <;> cases hk
          | inc p => cases p <;> cases hk
          | _ => cases hk
        | consumeRet q r hq hr => exact hset i _ hj' (by intro l; unfold consumed; split <;> nofun)
        | spawnOne k d hd =>
          rcases set_get hj' with ⟨rfl, e, -⟩ | ⟨-, hj'⟩
          · cases e
          · exact hset d _ hj' nofun
        | inside id t => exact hset i _ hj' (by intro l; cases s.ends s.finished.length <;> nofun)
        | _ =>
          refine hset i _ hj' ?_
          nofun
      | start i r op hx => exact hset i _ hj' (by cases op <;> nofun)
      | spurious i q hq => exact hj j l hj'
      | timeout i q hq => exact hj j l hj'

theorem off_reachable {n c d : Nat} {picks : Nat → Nat} {ends : Nat → Ending} {s : State T}
    (hr : (system T).Reachable (init n c d picks ends) s) : Off s := by
  have : (system T).Reachable (init n c d picks ends) s ∧ Off s := by
    refine System.Reachable.invariant (S := system T)
      (fun s => (system T).Reachable (init n c d picks ends) s ∧ Off s) ⟨.init, ?_, ?_⟩ ?_ hr
    · intro j hj
      cases Counter.init_pcs hj
    · intro j l hj
      rcases List.mem_append.1 (List.mem_of_getElem? hj) with h | h
      · cases List.eq_of_mem_replicate h
      · cases List.eq_of_mem_replicate h
    · rintro s l s' ⟨hr, ih⟩ hs
      exact ⟨.step hr (Label.allowed_true l) hs,
        off_step (inv_reachable hr) (Counter.st_reachable (queue_reachable hr)) ih (step_stepped hs)⟩
  exact this.2

/-- C61: whenever a `disable()` that found the pool enabled waits for its threads, and from then on for
ever, the queue is disabled: no later `enable()` changes that. -/
theorem C61_queue_stays_disabled (n c d : Nat) (picks : Nat → Nat) (ends : Nat → Ending) (e : (system T).Execution)
    (h0 : (system T).Reachable (init n c d picks ends) (e.at_ 0)) (m i : Nat) (l : List Nat)
    (hi : (e.at_ m).pcs[i]? = some (.joining l)) : ∀ m', m ≤ m' → (e.at_ m').q.enabled = false := by
  intro m' hm
  induction hm with
  | refl => exact (off_reachable (e.reachable h0 m)).joining i l hi
  | @step k hk ih =>
    rcases e.next k with ⟨-, h⟩ | ⟨l, -, h⟩
    · rw [h]; exact ih
    · exact disabled_step (inv_reachable (e.reachable h0 k)) (step_stepped h) ih

/-- A client that registers a task, enables, disables and enables the pool, and emits the task. -/
def again : List (Label (Op Nat)) :=
  [.start 0 (.slot 1 7), .run 0, .start 0 .enable, .run 0, .run 0, .run 0, .run 1, .run 1,
   .start 0 .disable, .run 0, .run 0, .run 0, .run 0, .run 0, .run 1, .run 0, .run 0,
   .start 0 .enable, .run 0, .run 0, .run 0, .run 2, .run 2,
   .start 0 (.emit 1), .run 0, .run 0, .run 0]

/-- C61 fails: a pool that is enabled, disabled and enabled again, in a fair execution in which every call
returns, never runs the task emitted then, although it is enabled and has a thread. -/
theorem C61_negation : ∃ e : (system Nat).Execution, e.Fair ∧ e.at_ 0 = init 1 1 2 (fun _ => 0) ∧
    (∀ m, 27 ≤ m → (e.at_ m).enabled = true ∧ (e.at_ m).emitted = [1] ∧
      (e.at_ m).pcs[0]? = some (.idle (some .done))) ∧
    ∀ m, (e.at_ m).started = [] := by
  obtain ⟨s1, h1⟩ : ∃ s1, (system Nat).exec (init 1 1 2 (fun _ => 0)) again = some s1 := ⟨_, rfl⟩
  have hend : ∀ i, (system Nat).step s1 (.run i) = none := by
    cases h1
    intro i
    match i with
    | 0 => rfl
    | 1 => rfl
    | 2 => rfl
    | _ + 3 => rfl
  obtain ⟨e, hf, e0, hst, -⟩ := (system Nat).finite_fair (init 1 1 2 (fun _ => 0)) s1 again h1 hend
  have hlate : ∀ m, 27 ≤ m → e.at_ m = s1 := by
    intro m hm
    obtain ⟨s, hs, he⟩ := hst m
    have ht : again.take m = again := List.take_of_length_le hm
    have : some s1 = some s := h1.symm.trans ((congrArg _ ht).symm.trans hs)
    rw [he, ← Option.some.inj this]
  refine ⟨e, hf, e0, ?_, ?_⟩
  · intro m hm
    rw [hlate m hm]
    cases h1
    exact ⟨rfl, rfl, rfl⟩
  · intro m
    by_cases hm : 27 ≤ m
    · rw [hlate m hm]
      cases h1
      rfl
    · have hmono : ∀ k, m ≤ k → ∃ l, (e.at_ k).started = (e.at_ m).started ++ l := by
        intro k hk
        induction hk with
        | refl => exact ⟨[], by simp⟩
        | @step k hk ih =>
          obtain ⟨l, hl⟩ := ih
          rcases e.next k with ⟨-, h⟩ | ⟨lab, -, h⟩
          · rw [h]; exact ⟨l, hl⟩
          · rcases C60_started_only _ _ lab h with h | ⟨i, id, t, -, -, -, h⟩
            · rw [h]; exact ⟨l, hl⟩
            · rw [h, hl]; exact ⟨l ++ [(id, t)], by simp⟩
      obtain ⟨l, hl⟩ := hmono 27 (by omega)
      rw [hlate 27 (Nat.le_refl _)] at hl
      have : s1.started = [] := by cases h1; rfl
      rw [this] at hl
      exact (List.append_eq_nil_iff.1 hl.symm).1

/-- C61, what holds: disabling removes nothing from the queue: the steps of a thread within `disable()`
leave the queue and the records of emits and executions alone.  Missing: that a later `enable()` makes the
pool work on them, see `C61_negation`. -/
theorem C61_kept_partial (n c d : Nat) (picks : Nat → Nat) (ends : Nat → Ending) (s s' : State T)
    (hr : (system T).Reachable (init n c d picks ends) s) (i : Nat) (x : PC T)
    (hi : s.pcs[i]? = some x) (hx : x = .disableTest ∨ x = .disableCall ∨ ∃ l, x = .joining l)
    (hs : (system T).step s (.run i) = some s') :
    s'.q.queue = s.q.queue ∧ s'.emitted = s.emitted ∧ s'.started = s.started ∧ s'.slots = s.slots := by
  have h := inv_reachable hr
  have hqueue : ∀ q, need x = .disable → Counter.run s.q i = some q → q.queue = s.q.queue := by
    intro q hn hq
    obtain ⟨y, hy, hran⟩ := Counter.run_ran hq
    have hk := h.sync i _ y hi hy
    rw [hn] at hk
    cases hran with
    | enterGrant c t he0 hv => exact (Counter.decrease_same _).1.queue
    | readyGrant c t l he0 hv => exact (Counter.decrease_same _).1.queue
    | inc p => exact (Counter.increment_same _).1.queue
    | push v => cases hk
    | popSwap => cases hk
    | popTake v l hq => cases hk
    | _ => rfl
  have hs : step s (.run i) = some s' := hs
  cases step_stepped hs with
  | run i x' s' hx' hran =>
    rw [hi] at hx'
    cases hx'
    rcases hx with rfl | rfl | ⟨l, rfl⟩
    · cases hran with
      | stay x q hc hq hn => cases hc
      | disableStore r he hq => exact ⟨rfl, rfl, rfl, rfl⟩
      | disableSkip he => exact ⟨rfl, rfl, rfl, rfl⟩
    · cases hran with
      | stay x q hc hq hn => exact ⟨hqueue q rfl hq, rfl, rfl, rfl⟩
      | disableRet q r hq hr => exact ⟨hqueue q rfl hq, rfl, rfl, rfl⟩
    · cases hran with
      | stay x q hc hq hn => cases hc
      | joinEnd => exact ⟨rfl, rfl, rfl, rfl⟩
      | joinOne j l hj => exact ⟨rfl, rfl, rfl, rfl⟩

/-- Non-trivial case: `disable` joining its worker with a task in the queue. -/
example : ∃ s : State Nat, (system Nat).Reachable (init 1 1 1 (fun _ => 0)) s ∧
    s.pcs[0]? = some (.joining [1]) ∧ s.q.queue.fg ++ s.q.queue.bg = [1] ∧ s.q.enabled = false :=
  ⟨_, (system Nat).exec_reachable' (setUp ++ [.start 0 .disable, .run 0, .run 0, .run 0, .run 0, .run 0])
    rfl, rfl, rfl, rfl⟩

/-- C62 fails: `wait_all_consumed` returns `condition_met` while the only task emitted, before the call and
from the same thread, has not even been started. -/
theorem C62_negation : ∃ s : State Nat, (system Nat).Reachable (init 1 1 1 (fun _ => 0)) s ∧
    s.pcs = [.idle (some (.reason .conditionMet)), .look 1] ∧ s.emitted = [1] ∧ s.started = [] ∧
    s.finished = [] :=
  ⟨_, (system Nat).exec_reachable' (setUp ++ [.run 1, .run 1, .run 1, .run 1, .run 1,
    .start 0 (.waitAll false), .run 0, .run 0]) rfl, rfl, rfl, rfl, rfl⟩

/-- C62, what holds: when `wait_all_consumed` returns `condition_met` (and fewer than 2^32 tasks are
queued), every task left in the queue is already promised to a worker that is about to take it, or belongs
to an `emit` that has not returned.  Missing: that the tasks have been executed, see `C62_negation`. -/
theorem C62_taken_partial (n c d : Nat) (picks : Nat → Nat) (ends : Nat → Ending) (s s' : State T)
    (hr : (system T).Reachable (init n c d picks ends) s) (i : Nat) (hi : s.pcs[i]? = some .waitCall)
    (hs : (system T).step s (.run i) = some s')
    (hret : s'.pcs[i]? = some (.idle (some (.reason .conditionMet))))
    (hb : s'.q.queue.fg.length + s'.q.queue.bg.length < 2 ^ 32) :
    s'.q.queue.fg.length + s'.q.queue.bg.length =
      s'.q.pcs.countP (fun | .popLock => true | .popSwap => true | .popTake => true | _ => false) +
      s'.q.pcs.countP (fun | .inc true => true | _ => false) := by
  have h := inv_reachable hr
  have hr' : (system T).Reachable (init n c d picks ends) s' := .step hr (Label.allowed_true _) hs
  have heq := Counter.stored_eq (queue_reachable hr') hb
  have hthr : s'.q.threshold = 0 := (Counter.ar_reachable (by decide) (queue_reachable hr')).threshold
  have hv : s'.q.value = s'.q.threshold := by
    have hs : step s (.run i) = some s' := hs
    cases step_stepped hs with
    | run i x s' hx hran =>
      rw [hi] at hx
      cases hx
      cases hran with
      | stay x q hc hq hn =>
        have hret : s.pcs[i]? = _ := hret
        rw [hi] at hret
        cases hret
      | waitRet q r hq hr =>
        have hret : (s.pcs.set i (.idle (waited r)))[i]? = _ := hret
        rw [get_set_self hi] at hret
        have hw : waited r = some (.reason .conditionMet) := by
          simpa using hret
        obtain ⟨y, hy, hran⟩ := Counter.run_ran hq
        have hk := h.sync i _ y hi hy
        show q.value = q.threshold
        clear heq hthr hb hr'
        have hr' : r = some (.reason .conditionMet) := by
          cases r with
          | none => cases hw
          | some r =>
            cases r <;> cases hw
            rfl
        subst hr'
        have no : ∀ (p : List (Counter.PC Nat)) (z : Counter.PC Nat), p = s.q.pcs.set i z →
            p[i]? = some (.idle (some (.reason .conditionMet))) →
            z = .idle (some (.reason .conditionMet)) := by
          intro p z e h
          rw [e, get_set_self hy] at h
          exact Option.some.inj h
        cases hran with
        | thEnterMet t he hv => exact hv
        | thReadyMet t l he hv => exact hv
        | thEnterDisabled t he => cases no _ _ rfl hr
        | thEnterSleep t he hv => cases no _ _ rfl hr
        | thReadyDisabled t l he => cases no _ _ rfl hr
        | thReadyTimeout t he hv => cases no _ _ rfl hr
        | thReadySleep t he hv => cases no _ _ rfl hr
        | enterDisabled c t he0 => cases c <;> cases t <;> cases hk
        | readyDisabled c t l he0 => cases c <;> cases t <;> cases l <;> cases hk
        | enterGrant c t he0 hv => cases c <;> cases t <;> cases hk
        | enterSleep c t he0 hv => cases c <;> cases t <;> cases hk
        | readyGrant c t l he0 hv => cases c <;> cases t <;> cases l <;> cases hk
        | readyTimeout c t he0 hv => cases c <;> cases t <;> cases hk
        | readySleep c t he0 hv => cases c <;> cases t <;> cases hk
        | inc p => cases p <;> cases hk
        | acquire o hm => cases o <;> cases hk
        | disableStore o he => cases o <;> cases hk
        | disableSkip o he => cases o <;> cases hk
        | disableNotify o => cases o <;> cases hk
        | release o => cases o <;> cases hk
        | _ => cases hk
  rw [heq, hv, hthr]
  show 0 + s'.q.pcs.countP Counter.PC.popping + s'.q.pcs.countP Counter.PC.storing = _
  rw [Nat.zero_add]
  have e1 : (Counter.PC.popping : Counter.PC Nat → Bool) =
      fun | .popLock => true | .popSwap => true | .popTake => true | _ => false := by
    funext x
    cases x <;> rfl
  have e2 : (Counter.PC.storing : Counter.PC Nat → Bool) = fun | .inc true => true | _ => false := by
    funext x
    cases x with
    | inc b => cases b <;> rfl
    | _ => rfl
  rw [e1, e2]

/-- Non-trivial case: `wait_all_consumed` returning `condition_met` with one task still in the queue, about
to be taken by the worker that was promised it. -/
example : ∃ s s' : State Nat, (system Nat).Reachable (init 1 1 1 (fun _ => 0)) s ∧
    s.pcs[0]? = some .waitCall ∧ (system Nat).step s (.run 0) = some s' ∧
    s'.pcs[0]? = some (.idle (some (.reason .conditionMet))) ∧
    s'.q.queue.fg.length + s'.q.queue.bg.length = 1 :=
  ⟨_, _, (system Nat).exec_reachable' (setUp ++ [.run 1, .run 1, .start 0 (.waitAll false), .run 0]) rfl,
    rfl, rfl, rfl, rfl⟩

/-- Non-trivial case for `C60_no_abort`: the task throws something that is not a `std::exception`. -/
example : ∃ s : State Nat, (system Nat).Reachable (init 1 1 1 (fun _ => 0) (fun _ => .throwsOther)) s ∧
    s.pcs[1]? = some .terminated ∧ s.finished = [(1, 7)] :=
  ⟨_, (system Nat).exec_reachable' (setUp ++ List.replicate 8 (.run 1)) rfl, rfl, rfl⟩

/-- Non-trivial case for `C60_emit` and `C60_slot`: an id that is registered, and one that is not. -/
example : ∃ s s' t t' : State Nat, (system Nat).Reachable (init 1 1 1 (fun _ => 0)) s ∧
    s.pcs[0]? = some (.emitLock 1) ∧ (system Nat).step s (.run 0) = some s' ∧ StdMap.get 1 s.slots = some 7 ∧
    (system Nat).Reachable (init 1 1 1 (fun _ => 0)) t ∧
    t.pcs[0]? = some (.slotLock 2 8) ∧ (system Nat).step t (.run 0) = some t' ∧ StdMap.get 2 t.slots = none ∧
    StdMap.get 2 t'.slots = some 8 :=
  ⟨_, _, _, _, (system Nat).exec_reachable' (setUp ++ [.start 0 (.emit 1)]) rfl, rfl, rfl, rfl,
    (system Nat).exec_reachable' (setUp ++ [.start 0 (.slot 2 8)]) rfl, rfl, rfl, rfl, rfl⟩

end Verif.SlotThreadPool
