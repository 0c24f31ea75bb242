import Verif.Lemmas.LockOrder
import Verif.Lemmas.RaceMoves
/-!
C200: threads do not wait for ever for the mutexes of these classes.
-/
namespace Verif.Race

/-- `event_mutex_`, then that of the period, `internal_callback_mutex_`, `wait_mutex_`. -/
def evRank : EvM → Nat
  | .event => 0
  | .entries => 0
  | .periodic => 1
  | .internal => 2
  | .wait => 3

/-- `status_mutex_`, then that of the condition variable; `pop_queue_mutex_`, then those of the queue. -/
def qRank : QM → Nat
  | .status => 0
  | .consumer => 0
  | .cv => 1
  | .pop => 1
  | .fore => 2
  | .back => 3

/-- `signal_received_cv_mutex_`, `active_callbacks_mutex_`, `last_id_mutex_`. -/
def sigRank : SigM → Nat
  | .received => 0
  | .instance_ => 0
  | .active => 1
  | .lastId => 2

/-- C200, `EventHandler` whose callback does not use it. -/
theorem C200_eventHandler_partial (s : State EvM EvV Unit) (hr : Reachable eventHandler.quiet () s) :
    Unstuck eventHandler.quiet s :=
  unstuck evRank 3 (fun m => by cases m <;> decide) (by decide) hr

/-- C200, `PeriodicEventHandler`, with its thread, whose callback does not use it. -/
theorem C200_periodic_partial (s : State EvM EvV Unit) (hr : Reachable periodicHandler.quiet () s) :
    Unstuck periodicHandler.quiet s :=
  unstuck evRank 3 (fun m => by cases m <;> decide) (by decide) hr

/-- C200, `FileWatcherHandler`, `StdinEventHandler`, whose callback does not use them. -/
theorem C200_worker_partial (s : State EvM EvV Unit) (hr : Reachable workerHandler.quiet () s) :
    Unstuck workerHandler.quiet s :=
  unstuck evRank 3 (fun m => by cases m <;> decide) (by decide) hr

/-- C200, `LogEventHandler`, `LogSevereEventHandler`, whose callback does not use them. -/
theorem C200_log_partial (s : State EvM EvV Unit) (hr : Reachable logHandler.quiet () s) :
    Unstuck logHandler.quiet s :=
  unstuck evRank 3 (fun m => by cases m <;> decide) (by decide) hr

/-- C200, `SignalManager`, with its thread, whose callbacks do not use it. -/
theorem C200_signalManager_partial (s : State SigM SigV Unit) (hr : Reachable signalManager.quiet () s) :
    Unstuck signalManager.quiet s :=
  unstuck sigRank 2 (fun m => by cases m <;> decide) (by decide) hr

/-- C200, `WaitHandler`, `BooleanWaitHandler`, `IntWaitHandler`, whose predicates do not use them. -/
theorem C200_waitHandler_partial (a : Bool) (s : State QM QV Bool) (hr : Reachable waitHandler.quiet a s) :
    Unstuck waitHandler.quiet s :=
  unstuck qRank 3 (fun m => by cases m <;> decide) (by decide) hr

/-- C200, `CounterWaitHandler`, `DBQueueWaitHandler`. -/
theorem C200_queueHandler (a : Bool) (s : State QM QV Bool) (hr : Reachable queueHandler a s) :
    Unstuck queueHandler s :=
  unstuck qRank 3 (fun m => by cases m <;> decide) (by decide) hr

/-- C200, `DBQueue` with any number of consumers. -/
theorem C200_dbQueue (a : Bool) (s : State QM QV Bool) (hr : Reachable dbQueueMany a s) : Unstuck dbQueueMany s :=
  unstuck qRank 3 (fun m => by cases m <;> decide) (by decide) hr

/-- C200, `TSafeRandomManager`. -/
theorem C200_random (s : State Bool Bool Unit) (hr : Reachable tsafeRandom () s) : Unstuck tsafeRandom s :=
  unstuck (fun _ => 0) 0 (fun _ => Nat.le_refl _) (by decide) hr

/-- C200, an `OwnerPtr` whose deleter uses neither it nor its lessees, and lessees that are used by threads which do not
use the owner meanwhile. -/
theorem C200_owner_partial (s : State OwnM Unit Unit) (hr : Reachable ownerLessees.quiet () s) :
    Unstuck ownerLessees.quiet s :=
  unstuck (fun m => match m with | .owner => 0 | .data => 1) 1 (fun m => by cases m <;> decide) (by decide) hr

/-- C200, `SlotThreadPool` with its queue; tasks may use the pool. -/
theorem C200_pool (s : State PlM Unit Unit) (hr : Reachable poolQueue () s) : Unstuck poolQueue s :=
  unstuck (fun m => match m with | .slots => 0 | .queue m => qRank m + 1) 4
    (fun m => by rcases m with _ | m; · decide
                 cases m <;> decide) (by decide) hr

/-- `event_mutex_` of the handlers, then the mutexes of the manager, then the other mutexes of the handlers. -/
def sgRank : SgM → Nat
  | .handler _ .internal => 3
  | .handler _ .wait => 4
  | .handler _ _ => 0
  | .manager .received => 0
  | .manager .instance_ => 1
  | .manager .active => 2
  | .manager .lastId => 3

/-- C200, any number of `SignalEventHandler`s of one signal with the manager and its thread, whose callbacks do not use
them. -/
theorem C200_signals_partial (n : Nat) (s : State SgM Unit Unit) (hr : Reachable (signals .skip n) () s) :
    Unstuck (signals .skip n) s := by
  refine unstuck sgRank 4 (fun m => ?_) (fun c hc => ?_) hr
  · rcases m with ⟨_, m⟩ | m <;> cases m <;> simp [sgRank]
  · simp only [signals, List.mem_append, List.mem_flatMap, List.mem_singleton] at hc
    rcases hc with ⟨k, -, hc⟩ | rfl
    · simp only [sgCalls, List.mem_cons, List.not_mem_nil, or_false] at hc
      rcases hc with rfl | rfl | rfl | rfl | rfl <;>
      simp [setCallback, unsetCallback, waitForEvent, changeCount, sgEvent, eventOccurred, sgSet, sgUnset, sigRegister,
        sigUnregister, sigNewId, waitOn, guarded, when_, seqs, rd, wr, Cmd.on, Cmd.plug, ordered, sgRank]
    · have h : ∀ H, H = [(SgM.manager .active, Mode.excl), (SgM.manager .received, Mode.excl)] →
          ordered sgRank (signals .skip n).recursive H (anyOf ((List.range n).map (sgEvent .skip))) = some H := by
        rintro H rfl
        refine ordered_anyOf fun c hc => ?_
        obtain ⟨k, -, rfl⟩ := List.mem_map.1 hc
        simp [sgEvent, eventOccurred, guarded, when_, seqs, rd, wr, Cmd.on, Cmd.plug, ordered, sgRank]
      have h := h _ rfl
      generalize anyOf ((List.range n).map (sgEvent .skip)) = B at h ⊢
      show ordered sgRank (signals .skip n).recursive [] ((sigThread.on SgM.manager).plug B) = some []
      rw [show (sigThread.on SgM.manager).plug B = Cmd.loop (guarded (.manager .received)
        [waitOn (.manager .received) .skip,
         when_ [guarded (.manager .active) [.loop (seqs [.read id, B])]]]) from rfl]
      simp [guarded, waitOn, when_, seqs, ordered, sgRank, h]

/-- The mutexes of the handlers, then those of the `MultipleEventHandler`. -/
def mulRank : MulM → Nat
  | .child _ m => evRank m
  | .parent m => evRank m + 4

/-- C200, a `MultipleEventHandler` with any number of handlers, whose callback does not use them. -/
theorem C200_multiple_partial (n : Nat) (s : State MulM Unit Unit) (hr : Reachable (multiple n) () s) :
    Unstuck (multiple n) s := by
  refine unstuck mulRank 7 (fun m => ?_) (fun c hc => ?_) hr
  · rcases m with ⟨_, m⟩ | m <;> cases m <;> simp [mulRank, evRank]
  · simp only [multiple, List.mem_append, List.mem_flatMap] at hc
    rcases hc with hc | ⟨k, -, hc⟩
    · simp only [mulParent, Obj.quiet, eventHandler, handler, List.append_nil, List.map_cons, List.map_nil,
        List.mem_cons, List.not_mem_nil, or_false] at hc
      rcases hc with rfl | rfl | rfl | rfl | rfl | rfl <;>
      simp [setCallback, unsetCallback, waitForEvent, changeCount, eventOccurred,
        waitOn, guarded, when_, seqs, rd, wr, Cmd.on, Cmd.plug, ordered, mulRank, evRank]
    · simp only [mulChild, List.mem_cons, List.not_mem_nil, or_false] at hc
      rcases hc with rfl | rfl | rfl <;>
      simp [setCallback, unsetCallback, waitForEvent, changeCount, eventOccurred,
        waitOn, guarded, when_, seqs, rd, wr, Cmd.on, Cmd.plug, ordered, mulRank, evRank]

/-! ## The deadlocks there are -/

section
variable {M V S : Type}

/-- A thread that is about to take a mutex it has got, which may not be taken again. -/
theorem deadlock_self {o : Obj M V S} {s : State M V S} {i : Nat} {m : M} {x : Mode} {k : List (Cmd M V S)}
    (ht : (s.th i).todo = .lock m :: k) (hr : o.recursive m = false) (hm : (m, x) ∈ (s.th i).held) :
    Deadlock o s (· = i) := by
  refine ⟨⟨i, rfl⟩, ?_⟩
  rintro j rfl
  refine ⟨.inl ⟨m, k, ht, ?_⟩, j, rfl, .inl ⟨m, k, x, ht, hm⟩⟩
  rintro ⟨-, h⟩
  rcases h with h | h
  · rw [hr] at h; simp at h
  · exact h x hm

/-- Two threads, each about to take a mutex that the other has got. -/
theorem deadlock_two {o : Obj M V S} {s : State M V S} {i j : Nat} (hij : i ≠ j) {m m' : M} {x x' : Mode}
    {k k' : List (Cmd M V S)} (hi : (s.th i).todo = .lock m :: k) (hm : (m, x) ∈ (s.th j).held)
    (hj : (s.th j).todo = .lock m' :: k') (hm' : (m', x') ∈ (s.th i).held) :
    Deadlock o s (fun a => a = i ∨ a = j) := by
  refine ⟨⟨i, .inl rfl⟩, ?_⟩
  rintro a (rfl | rfl)
  · exact ⟨.inl ⟨m, k, hi, fun h => h.1 j hij.symm x hm⟩, j, .inr rfl, .inl ⟨m, k, x, hi, hm⟩⟩
  · exact ⟨.inl ⟨m', k', hj, fun h => h.1 i hij x' hm'⟩, i, .inl rfl, .inl ⟨m', k', x', hj, hm'⟩⟩
end

/-- A callback of an `EventHandler` sets a callback while another thread does. -/
theorem C200_negation_callback : ∃ s D, Reachable eventHandler () s ∧ Deadlock eventHandler s D :=
  ⟨_, _, two_threads ([.start 0 5] ++ steps 0 7 ++ [.start 1 0] ++ steps 1 5 ++ [.call 0 0] ++ steps 0 1) rfl,
    deadlock_two (i := 0) (j := 1) (by decide) rfl (.head _) rfl (.head _)⟩

/-- A callback of a `SignalManager` registers another. -/
theorem C200_negation_signalManager : ∃ s D, Reachable signalManager () s ∧ Deadlock signalManager s D :=
  ⟨_, _, two_threads ([.start 0 3] ++ steps 0 7 ++ [.go 0 false] ++ steps 0 7 ++ [.call 0 1] ++ steps 0 1) rfl,
    deadlock_self (i := 0) rfl rfl (.head _)⟩

/-- The predicate of a wait on a `WaitHandler` calls `get_value`. -/
theorem C200_negation_predicate : ∃ s D, Reachable waitHandler true s ∧ Deadlock waitHandler s D :=
  ⟨_, _, two_threads ([.start 0 4] ++ steps 0 8 ++ [.call 0 5] ++ steps 0 1) rfl,
    deadlock_self (i := 0) rfl rfl (.head _)⟩

/-- The thread that resets an `OwnerPtr` has a `GuardedPtr` of one of its lessees. -/
theorem C200_negation_owner : ∃ s D, Reachable ownerLessees () s ∧ Deadlock ownerLessees s D :=
  ⟨_, _, two_threads ([.start 0 2] ++ steps 0 4 ++ [.go 0 false, .call 0 0] ++ steps 0 7) rfl,
    deadlock_self (i := 0) rfl rfl (.tail _ (.head _))⟩

/-- A thread changes a `SafeDatabase` while it has an iterator. -/
theorem C200_negation_iterator : ∃ s D, Reachable safeDatabase () s ∧ Deadlock safeDatabase s D :=
  ⟨_, _, two_threads ([.start 0 4] ++ steps 0 4 ++ [.call 0 0] ++ steps 0 1) rfl,
    deadlock_self (i := 0) rfl rfl (.head _)⟩

/-- A callback of a `SignalEventHandler` unsets it: the thread of the manager holds `active_callbacks_mutex_` already. -/
theorem C200_negation_signals : ∃ s D, Reachable (signals .client 1) () s ∧ Deadlock (signals .client 1) s D :=
  ⟨_, _, two_threads ([.start 0 5] ++ steps 0 7 ++ [.go 0 false] ++ steps 0 15 ++ [.call 0 1] ++ steps 0 26) rfl,
    deadlock_self (i := 0) rfl rfl (.tail _ (.tail _ (.head _)))⟩

/-! ## Cases: threads do have to wait -/

/-- A thread that sets a callback waits for one that is in the callback. -/
example : ∃ s, Reachable eventHandler.quiet () s ∧ Blocked eventHandler.quiet s 1 ∧ Waits s 1 0 :=
  ⟨_, two_threads ([.start 0 5] ++ steps 0 7 ++ [.start 1 0] ++ steps 1 5) rfl,
    .inl ⟨_, _, rfl, fun h => h.1 0 (by decide) .excl (.head _)⟩, .inl ⟨_, _, _, rfl, .head _⟩⟩

/-- The thread of the period is in the callback, holding its mutex, for which the thread that unsets the callback waits. -/
example : ∃ s, Reachable periodicHandler.quiet () s ∧ Waits s 1 0 ∧ (s.th 0).held = [(.internal, .excl), (.periodic, .excl)] :=
  ⟨_, two_threads ([.start 1 1] ++ steps 1 20 ++ [.start 0 6] ++ steps 0 7 ++ [.go 0 false] ++ steps 0 8) rfl,
    .inl ⟨_, _, _, rfl, .tail _ (.head _)⟩, rfl⟩

/-- A task of a pool emits another: the thread of the pool holds `slots_mutex_` and takes that of the queue. -/
example : ∃ s a b, Reachable poolQueue () s ∧ (s.th 0).todo = .lock (.queue .back) :: (a ++ .client :: b) ∧
    (s.th 0).held = [(.slots, .excl)] :=
  ⟨_, [_, _, _], _,
    two_threads ([.start 0 4] ++ steps 0 12 ++ [.go 0 false] ++ steps 0 74 ++ [.call 0 0] ++ steps 0 8) rfl, rfl, rfl⟩

/-- The thread of the manager waits for a handler that another thread raises an event of. -/
example : ∃ s, Reachable (signals .skip 2) () s ∧ Waits s 0 1 ∧
    (s.th 0).held = [(.manager .active, .excl), (.manager .received, .excl)] :=
  ⟨_, two_threads ([.start 0 10] ++ steps 0 7 ++ [.go 0 false] ++ steps 0 9 ++ [.start 1 4] ++ steps 1 3) rfl,
    .inl ⟨_, _, _, rfl, .head _⟩, rfl⟩

/-- A handler registered in a `MultipleEventHandler` raises its event while another thread sets the callback of that. -/
example : ∃ s, Reachable (multiple 1) () s ∧ Waits s 0 1 ∧ (s.th 0).held = [(.child 0 .internal, .excl)] :=
  ⟨_, two_threads ([.start 0 7] ++ steps 0 8 ++ [.start 1 0] ++ steps 1 6) rfl,
    .inl ⟨_, _, _, rfl, .head _⟩, rfl⟩

/-- A thread that unsets the callback of a `FileWatcherHandler` waits for one that sets it. -/
example : ∃ s, Reachable workerHandler.quiet () s ∧ Waits s 1 0 :=
  ⟨_, two_threads ([.start 0 0] ++ steps 0 17 ++ [.start 1 1] ++ steps 1 1) rfl, .inl ⟨_, _, _, rfl, .head _⟩⟩

/-- The callback of a `LogEventHandler` runs, another entry waits for it. -/
example : ∃ s, Reachable logHandler.quiet () s ∧ Waits s 1 0 :=
  ⟨_, two_threads ([.start 0 6] ++ steps 0 12 ++ [.start 1 6] ++ steps 1 8) rfl, .inl ⟨_, _, _, rfl, .head _⟩⟩

/-- A thread that unregisters a callback of a `SignalManager` waits for one that registers one. -/
example : ∃ s, Reachable signalManager.quiet () s ∧ Waits s 1 0 :=
  ⟨_, two_threads ([.start 0 1] ++ steps 0 15 ++ [.start 1 2] ++ steps 1 1) rfl, .inl ⟨_, _, _, rfl, .head _⟩⟩

/-- A thread that is to wait for a value waits for the one that sets it. -/
example : ∃ s, Reachable waitHandler.quiet true s ∧ Waits s 1 0 :=
  ⟨_, two_threads ([.start 0 6] ++ steps 0 3 ++ [.start 1 4] ++ steps 1 1) rfl, .inl ⟨_, _, _, rfl, .head _⟩⟩

/-- A consumer waits for a producer that increments the counter. -/
example : ∃ s, Reachable queueHandler true s ∧ Waits s 1 0 :=
  ⟨_, two_threads ([.start 0 9] ++ steps 0 6 ++ [.start 1 7] ++ steps 1 1) rfl, .inl ⟨_, _, _, rfl, .head _⟩⟩

/-- A producer waits for the consumer that swaps the queues. -/
example : ∃ s, Reachable dbQueueMany true s ∧ Waits s 1 0 :=
  ⟨_, two_threads ([.start 0 3] ++ steps 0 13 ++ [.start 1 0] ++ steps 1 1) rfl, .inl ⟨_, _, _, rfl, .head _⟩⟩

/-- A thread that seeds waits for one that draws a number. -/
example : ∃ s, Reachable tsafeRandom () s ∧ Waits s 1 0 :=
  ⟨_, two_threads ([.start 0 0] ++ steps 0 5 ++ [.start 1 1] ++ steps 1 1) rfl, .inl ⟨_, _, _, rfl, .head _⟩⟩

/-- Two threads reset an owner. -/
example : ∃ s, Reachable ownerLessees.quiet () s ∧ Waits s 1 0 :=
  ⟨_, two_threads ([.start 0 0] ++ steps 0 16 ++ [.start 1 0] ++ steps 1 1) rfl, .inl ⟨_, _, _, rfl, .tail _ (.head _)⟩⟩

end Verif.Race
