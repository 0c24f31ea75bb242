import Verif.Lemmas.RaceMoves
/-!
C199: classes meant to be used by several threads have no data races.
-/
namespace Verif.Race

/-- `callback_` by `internal_callback_mutex_`, what the hooks set by `event_mutex_`. -/
def evGuards : Unit → EvV → List EvM
  | _, .callback => [.internal]
  | _, .worker => [.event]
  | _, .entries => [.entries]
  | _, .handlers => []
  | _, .threshold => []

/-- C199, `EventHandler`: whatever any number of threads and the callbacks call, no two accesses race. -/
theorem C199_eventHandler (s : State EvM EvV Unit) (hr : Reachable eventHandler () s) : ¬ Race s :=
  no_race evGuards [()] (fun _ => List.mem_singleton.2 rfl) (by decide) hr

/-- C199, `PeriodicEventHandler`, with its thread. -/
theorem C199_periodic (s : State EvM EvV Unit) (hr : Reachable periodicHandler () s) : ¬ Race s :=
  no_race evGuards [()] (fun _ => List.mem_singleton.2 rfl) (by decide) hr

/-- C199, `SignalEventHandler`, `FileWatcherHandler`, `StdinEventHandler`. -/
theorem C199_worker (s : State EvM EvV Unit) (hr : Reachable workerHandler () s) : ¬ Race s :=
  no_race evGuards [()] (fun _ => List.mem_singleton.2 rfl) (by decide) hr

/-- C199, `LogEventHandler`, `LogSevereEventHandler`, once constructed, with the thread of the log. -/
theorem C199_log (s : State EvM EvV Unit) (hr : Reachable logHandler () s) : ¬ Race s :=
  no_race evGuards [()] (fun _ => List.mem_singleton.2 rfl) (by decide) hr

/-- C199, `SignalManager`, with its thread. -/
theorem C199_signalManager (s : State SigM SigV Unit) (hr : Reachable signalManager () s) : ¬ Race s :=
  no_race (fun _ v => match v with | .callbacks => [.active] | .lastId => [.lastId]) [()]
    (fun _ => List.mem_singleton.2 rfl) (by decide) hr

/-- C199, `WaitHandler`, `BooleanWaitHandler`, `IntWaitHandler`, predicates included. -/
theorem C199_waitHandler (a : Bool) (s : State QM QV Bool) (hr : Reachable waitHandler a s) : ¬ Race s :=
  no_race (fun _ _ => [.cv]) [false, true] (by decide) (by decide) hr

/-- `value_` by the mutex of the condition variable; each queue by the mutex of the end it serves as; both pointers are
read under either mutex and written under both; the elements of the foreground queue by `m`. -/
def queueGuards (m : QM) : Bool → QV → List QM
  | _, .value => [.cv]
  | _, .pointers => [.fore, .back]
  | a, .shape x => if x = a then [.fore] else [.back]
  | a, .elements x => if x = a then [m] else [.back]

/-- C199, `CounterWaitHandler` and `DBQueueWaitHandler`, for any number of producers and consumers: although `front` gives
a reference that is used after the mutex of the queue is released. -/
theorem C199_queueHandler (a : Bool) (s : State QM QV Bool) (hr : Reachable queueHandler a s) : ¬ Race s :=
  no_race (queueGuards .pop) [false, true] (by decide) (by decide) hr

/-- C199, `DBQueue` with one consumer, as documented. -/
theorem C199_dbQueue (a : Bool) (s : State QM QV Bool) (hr : Reachable dbQueue a s) : ¬ Race s :=
  no_race (queueGuards .consumer) [false, true] (by decide) (by decide) hr

/-- C199, `DBQueue` with any number of consumers, if they take values by `front_and_pop`. -/
theorem C199_dbQueue_noFront (a : Bool) (s : State QM QV Bool) (hr : Reachable dbQueueNoFront a s) : ¬ Race s :=
  no_race (queueGuards .fore) [false, true] (by decide) (by decide) hr

/-- C199, `TSafeRandomManager`. -/
theorem C199_random (s : State Bool Bool Unit) (hr : Reachable tsafeRandom () s) : ¬ Race s :=
  no_race (fun _ v => [v]) [()] (fun _ => List.mem_singleton.2 rfl) (by decide) hr

/-- C199, `SafeDatabase`, iterators and calls made while they exist included; `begin` is missing
(`C199_negation_begin`). -/
theorem C199_safeDatabase_partial (s : State Unit Unit Unit) (hr : Reachable safeDatabaseNoBegin () s) : ¬ Race s :=
  no_race (fun _ _ => [()]) [()] (fun _ => List.mem_singleton.2 rfl) (by decide) hr

/-- C199, `OwnerPtr` used by one thread at a time and its lessees by any; `operator bool` of lessees is missing
(`C199_negation_lessee`). -/
theorem C199_owner_partial (s : State OwnM Unit Unit) (hr : Reachable ownerLesseesLock () s) : ¬ Race s :=
  no_race (fun _ _ => [.owner, .data]) [()] (fun _ => List.mem_singleton.2 rfl) (by decide) hr

/-- C199, `SlotThreadPool`; `enable` and `disable` are missing (`C199_negation_pool`). -/
theorem C199_pool_partial (s : State Unit Bool Unit) (hr : Reachable poolRunning () s) : ¬ Race s :=
  no_race (fun _ _ => [()]) [()] (fun _ => List.mem_singleton.2 rfl) (by decide) hr

/-! ## The races there are -/

/-- Two threads register handlers in one `MultipleEventHandler`: both change its list. -/
theorem C199_negation_multiple : ∃ s, Reachable multipleHandler () s ∧ Race s :=
  ⟨_, two_threads [.start 0 6, .start 1 6] rfl, 0, 1, .handlers, by decide, ⟨_, _, _, rfl, rfl⟩,
    .inl ⟨_, _, _, rfl, rfl⟩⟩

/-- `begin` of a `SafeDatabase` reads the map while another thread writes it. -/
theorem C199_negation_begin : ∃ s, Reachable safeDatabase () s ∧ Race s :=
  ⟨_, two_threads ([.start 0 0] ++ steps 0 6 ++ [.start 1 3] ++ steps 1 1) rfl, 0, 1, (), by decide,
    ⟨_, _, _, rfl, rfl⟩, .inr ⟨_, _, rfl, rfl⟩⟩

/-- A lessee is checked while its owner is reset. -/
theorem C199_negation_lessee : ∃ s, Reachable ownerLessees () s ∧ Race s :=
  ⟨_, two_threads ([.start 0 0] ++ steps 0 16 ++ [.start 1 3]) rfl, 0, 1, (), by decide,
    ⟨_, _, _, rfl, rfl⟩, .inr ⟨_, _, rfl, rfl⟩⟩

/-- One thread enables a `SlotThreadPool`, another disables it as soon as `enabled_` is set: the first still appends to
`threads_` while the second reads it. -/
theorem C199_negation_pool : ∃ s, Reachable pool () s ∧ Race s :=
  ⟨_, two_threads ([.start 0 0] ++ steps 0 2 ++ [.start 1 1] ++ steps 1 3) rfl, 0, 1, false, by decide,
    ⟨_, _, _, rfl, rfl⟩, .inr ⟨_, _, rfl, rfl⟩⟩

/-- The thread of the log reads `threshold_` of a `LogSevereEventHandler` while the constructor sets it: the consumer
is registered before. -/
theorem C199_negation_construct : ∃ s, Reachable logConstructing () s ∧ Race s :=
  ⟨_, two_threads ([.start 0 6] ++ steps 0 19 ++ [.start 1 7] ++ steps 1 1) rfl, 0, 1, .threshold, by decide,
    ⟨_, _, _, rfl, rfl⟩, .inr ⟨_, _, rfl, rfl⟩⟩

/-- A consumer of a `DBQueue` reads what `front` gave while another consumer pops it. -/
theorem C199_negation_front : ∃ s, Reachable dbQueueMany true s ∧ Race s :=
  ⟨_, two_threads ([.start 1 4] ++ steps 1 9 ++ [.start 0 5] ++ steps 0 7) rfl, 0, 1, .elements true, by decide,
    ⟨_, _, _, rfl, rfl⟩, .inr ⟨_, _, rfl, rfl⟩⟩

/-! ## Cases: threads do get to these accesses -/

/-- A producer is about to change `value_` while a consumer is about to take a value. -/
example : ∃ s, Reachable queueHandler true s ∧ Writes s 0 .value ∧ Reads s 1 (.shape true) :=
  ⟨_, two_threads ([.start 1 11] ++ steps 1 11 ++ [.go 1 false] ++ steps 1 17 ++ [.start 0 9] ++ steps 0 6) rfl, ⟨_, _, _, rfl, rfl⟩, ⟨_, _, rfl, rfl⟩⟩

/-- The consumer copies the element at the front of one queue while a producer writes one of the other. -/
example : ∃ s, Reachable dbQueue false s ∧ Reads s 0 (.elements false) ∧ Writes s 1 (.elements true) :=
  ⟨_, two_threads ([.start 0 3] ++ steps 0 4 ++ [.go 0 false] ++ steps 0 10 ++ [.start 1 0] ++ steps 1 7) rfl,
    ⟨_, _, rfl, rfl⟩, ⟨_, _, _, rfl, rfl⟩⟩

/-- A callback is read while another thread waits to set it. -/
example : ∃ s, Reachable eventHandler () s ∧ Reads s 0 .callback ∧ ∃ k, (s.th 1).todo = .lock .internal :: k :=
  ⟨_, two_threads ([.start 0 5] ++ steps 0 5 ++ [.start 1 0] ++ steps 1 5) rfl, ⟨_, _, rfl, rfl⟩, ⟨_, rfl⟩⟩

/-- The thread of a `PeriodicEventHandler` is about to be stored, another thread waits to unset the callback. -/
example : ∃ s m k x, Reachable periodicHandler () s ∧ Writes s 0 .worker ∧ (s.th 1).todo = .lock m :: k ∧ (m, x) ∈ (s.th 0).held :=
  ⟨_, _, _, _, two_threads ([.start 0 0] ++ steps 0 22 ++ [.start 1 1] ++ steps 1 1) rfl, ⟨_, _, _, rfl, rfl⟩, rfl, .head _⟩

/-- `callback_id_`, `file_watch_handler_` or `stdin_listener_thread_` is about to be set, another thread waits to reset it. -/
example : ∃ s m k x, Reachable workerHandler () s ∧ Writes s 0 .worker ∧ (s.th 1).todo = .lock m :: k ∧ (m, x) ∈ (s.th 0).held :=
  ⟨_, _, _, _, two_threads ([.start 0 0] ++ steps 0 17 ++ [.start 1 1] ++ steps 1 1) rfl, ⟨_, _, _, rfl, rfl⟩, rfl, .head _⟩

/-- An entry is about to be stored, another is to be. -/
example : ∃ s m k x, Reachable logHandler () s ∧ Writes s 0 .entries ∧ (s.th 1).todo = .lock m :: k ∧ (m, x) ∈ (s.th 0).held :=
  ⟨_, _, _, _, two_threads ([.start 0 6] ++ steps 0 5 ++ [.start 1 6] ++ steps 1 3) rfl, ⟨_, _, _, rfl, rfl⟩, rfl, .head _⟩

/-- A callback is about to be registered, another thread waits to unregister one. -/
example : ∃ s m k x, Reachable signalManager () s ∧ Writes s 0 .callbacks ∧ (s.th 1).todo = .lock m :: k ∧ (m, x) ∈ (s.th 0).held :=
  ⟨_, _, _, _, two_threads ([.start 0 1] ++ steps 0 15 ++ [.start 1 2] ++ steps 1 1) rfl, ⟨_, _, _, rfl, rfl⟩, rfl, .head _⟩

/-- A value is about to be set, another thread waits to get it. -/
example : ∃ s m k x, Reachable waitHandler true s ∧ Writes s 0 .value ∧ (s.th 1).todo = .lock m :: k ∧ (m, x) ∈ (s.th 0).held :=
  ⟨_, _, _, _, two_threads ([.start 0 6] ++ steps 0 3 ++ [.start 1 5] ++ steps 1 1) rfl, ⟨_, _, _, rfl, rfl⟩, rfl, .head _⟩

/-- A consumer is about to take the element at the front, another waits to pop. -/
example : ∃ s m k x, Reachable dbQueueNoFront true s ∧ Writes s 0 (.elements true) ∧ (s.th 1).todo = .lock m :: k ∧ (m, x) ∈ (s.th 0).held :=
  ⟨_, _, _, _, two_threads ([.start 0 5] ++ steps 0 13 ++ [.start 1 4] ++ steps 1 1) rfl, ⟨_, _, _, rfl, rfl⟩, rfl, .head _⟩

/-- A random number is about to be drawn, another thread waits to seed. -/
example : ∃ s m k x, Reachable tsafeRandom () s ∧ Writes s 0 true ∧ (s.th 1).todo = .lock m :: k ∧ (m, x) ∈ (s.th 0).held :=
  ⟨_, _, _, _, two_threads ([.start 0 0] ++ steps 0 5 ++ [.start 1 1] ++ steps 1 1) rfl, ⟨_, _, _, rfl, rfl⟩, rfl, .head _⟩

/-- An element is about to be added to a `SafeDatabase`, another waits to be. -/
example : ∃ s m k x, Reachable safeDatabaseNoBegin () s ∧ Writes s 0 () ∧ (s.th 1).todo = .lock m :: k ∧ (m, x) ∈ (s.th 0).held :=
  ⟨_, _, _, _, two_threads ([.start 0 0] ++ steps 0 6 ++ [.start 1 0] ++ steps 1 1) rfl, ⟨_, _, _, rfl, rfl⟩, rfl, .head _⟩

/-- An `OwnerPtr` is about to be reset, another thread waits to use it. -/
example : ∃ s m k x, Reachable ownerLesseesLock () s ∧ Writes s 0 () ∧ (s.th 1).todo = .lock m :: k ∧ (m, x) ∈ (s.th 0).held :=
  ⟨_, _, _, _, two_threads ([.start 0 0] ++ steps 0 16 ++ [.start 1 0] ++ steps 1 1) rfl, ⟨_, _, _, rfl, rfl⟩, rfl, .tail _ (.head _)⟩

/-- A slot is about to be added, another thread waits to emit. -/
example : ∃ s m k x, Reachable poolRunning () s ∧ Writes s 0 true ∧ (s.th 1).todo = .lock m :: k ∧ (m, x) ∈ (s.th 0).held :=
  ⟨_, _, _, _, two_threads ([.start 0 1] ++ steps 0 6 ++ [.start 1 0] ++ steps 1 1) rfl, ⟨_, _, _, rfl, rfl⟩, rfl, .head _⟩

end Verif.Race
