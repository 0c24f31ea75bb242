import Verif.Model.Counter
/-!
Destruction of a `DBQueueWaitHandler` (or `CounterWaitHandler`) that other threads still use.  The only destructor with
a body that does something is that of the base class, `~WaitHandler` (`cpp_utils/include/cpp_utils/wait/impl/
WaitHandler.ipp`:45-49), of which WaitHandler.hpp:80-84 says "It disables and blocks until every thread has finished".
It is executed last: `queue_` and `pop_queue_mutex_` (DBQueueWaitHandler.hpp:73-77) are destroyed before it, and so are
`threshold_reached_cv_` and `threshold_` (CounterWaitHandler.hpp:133-135).

The object is that of `Verif.Model.Counter`; the thread that destroys it makes the steps below.  Which steps of the
other threads use a member that no longer exists is a property of the state before the step (`Hit`), after which nothing
is said.

Simplified: the members of one class are destroyed in one step; a call that is granted an element once the derived part
is gone also finds `get_next_value_` pure (ConsumerWaitHandler.hpp:169), of which only the use of `queue_` is kept; the
end of a call is the step in which it decrements `threads_waiting_` (see `Verif.Model.Counter`), so that the mutex that
it releases later is not seen (for which see `C53_negation`).
-/
namespace Verif.Counter
open Verif.Threads
open Verif.WaitHandler (Reason StatusOp)

/-- What a thread may start: a call of the object (CounterWaitHandler.hpp, ConsumerWaitHandler.hpp) or its
destruction. -/
inductive DOp (T : Type)
  | call (op : Op T)
  | destroy

/-- The object, who destroys it, and how far this is: 0 it is whole, 1 `~DBQueueWaitHandler` has destroyed its members,
2 `~CounterWaitHandler` has (CounterWaitHandler.cpp:37-39), 3 within `~WaitHandler` (WaitHandler.ipp:45-49), 4 all is
gone. -/
structure DState (T : Type) where
  base : State T
  destroyer : Option Nat
  stage : Nat

variable {T : Type}

/-- Next step of the destroying thread: destructors of derived classes first, then `blocking_disable`,
WaitHandler.ipp:45-49. -/
def destruct (s : DState T) (i : Nat) : Option (DState T) :=
  match s.stage with
  | 0 => some { s with stage := 1 }
  | 1 => some { s with stage := 2 }
  | 2 => (start s.base i (.status .blockingDisable)).map fun b => { s with base := b, stage := 3 }
  | 3 =>
    match s.base.pcs[i]? with
    | some (.idle _) => some { s with stage := 4 }
    | _ => (run s.base i).map fun b => { s with base := b }
  | _ => none

/-- Transitions of an object that is destroyed at some time; nobody starts a call afterwards (what a caller has to see
to in any case), WaitHandler.ipp:45-49. -/
def dstep (s : DState T) : Label (DOp T) → Option (DState T)
  | .start i (.call op) =>
    if s.destroyer.isSome then none else (start s.base i op).map fun b => { s with base := b }
  | .start i .destroy =>
    if s.destroyer.isSome then none
    else
      match s.base.pcs[i]? with
      | some (.idle _) => some { s with destroyer := some i }
      | _ => none
  | .run i =>
    if s.destroyer = some i then destruct s i else (run s.base i).map fun b => { s with base := b }
  | .spurious i => (step s.base (.spurious i)).map fun b => { s with base := b }
  | .timeout i => (step s.base (.timeout i)).map fun b => { s with base := b }

/-- The transition system, WaitHandler.ipp:45-49. -/
def doomed (T : Type) : System := ⟨DState T, DOp T, dstep⟩

/-- The next step uses `queue_` or `pop_queue_mutex_`, ConsumerWaitHandler.ipp:43-57, DBQueueWaitHandler.ipp:26-66. -/
def PC.usesQueue : PC T → Bool
  | .push _ => true
  | .popLock => true
  | .popSwap => true
  | .popTake => true
  | _ => false

/-- The thread sleeps on `threshold_reached_cv_`, or its next step uses it or `threshold_`: CounterWaitHandler.cpp:45,
65-104 and 121-136; a woken `wait_and_decrement` has a copy of `threshold_` and uses the member when it decrements,
141-155. -/
def PC.usesThreshold (s : State T) : PC T → Bool
  | .enter _ _ => true
  | .thEnter _ => true
  | .thAsleep _ => true
  | .thReady _ _ => true
  | .inc _ => true
  | .ready _ _ _ => s.enabled && decide (s.value > s.threshold)
  | _ => false

/-- A thread is about to use, or sleeps on, a member that has been destroyed: undefined behaviour.  (Once all is gone:
any thread within a call.)  WaitHandler.ipp:45-49, DBQueueWaitHandler.hpp:73-77, CounterWaitHandler.hpp:133-135. -/
def Hit (s : DState T) : Prop :=
  ∃ (j : Nat) (x : PC T), s.destroyer ≠ some j ∧ s.base.pcs[j]? = some x ∧
    ((1 ≤ s.stage ∧ x.usesQueue = true) ∨ (2 ≤ s.stage ∧ x.usesThreshold s.base = true) ∨
     (4 ≤ s.stage ∧ ∀ r, x ≠ .idle r))

/-- The object before its destruction, CounterWaitHandler.cpp:28-35. -/
def whole (b : State T) : DState T := ⟨b, none, 0⟩

end Verif.Counter
