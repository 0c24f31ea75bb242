import Verif.Model.Basic
/-!
Vocabulary for the models of concurrent code: a program with any number of threads, executions.

Granularity: what is done while a mutex is held and without blocking is one step when everything it
touches is only accessed under that mutex, since no other thread can see anything in between; atomics
that are read without the mutex, and notifications outside it, are steps of their own.  A thread that waits on a condition variable is *asleep*;
a notification, a spurious wake-up or a timeout makes it *ready*; only then, in a later step, it takes
the mutex again and evaluates its predicate.
-/
namespace Verif.Threads

/-- Labels: a client starts a call, a thread executes its next step, the environment acts on a sleeping
thread. -/
inductive Label (Op : Type)
  | start (i : Nat) (op : Op)
  | run (i : Nat)
  | spurious (i : Nat)
  | timeout (i : Nat)

/-- A transition system with labels as above. -/
structure System where
  State : Type
  Op : Type
  step : State → Label Op → Option State

/-- Clients only start calls that satisfy `A`. -/
def Label.Allowed {Op : Type} (A : Op → Prop) : Label Op → Prop
  | .start _ op => A op
  | _ => True

/-- States that can be reached from `s0` when clients only start calls that satisfy `A`. -/
inductive System.ReachableBy (S : System) (A : S.Op → Prop) (s0 : S.State) : S.State → Prop
  | init : S.ReachableBy A s0 s0
  | step {s s' : S.State} {l : Label S.Op} : S.ReachableBy A s0 s → l.Allowed A →
      S.step s l = some s' → S.ReachableBy A s0 s'

/-- States that can be reached from `s0`. -/
def System.Reachable (S : System) (s0 s : S.State) : Prop := S.ReachableBy (fun _ => True) s0 s

/-- The state after a list of transitions. -/
def System.exec (S : System) (s : S.State) : List (Label S.Op) → Option S.State
  | [] => some s
  | l :: ls => (S.step s l).bind fun s' => S.exec s' ls

/-- An infinite execution; `none` is a moment at which nothing happens. -/
structure System.Execution (S : System) where
  at_ : Nat → S.State
  label : Nat → Option (Label S.Op)
  ok : ∀ n, match label n with
    | none => at_ (n + 1) = at_ n
    | some l => S.step (at_ n) l = some (at_ (n + 1))

/-- Fair scheduling and fair mutexes: a thread that is able to execute its next step again and again
eventually does.  (Nothing is assumed about clients, spurious wake-ups or timeouts.) -/
def System.Execution.Fair {S : System} (e : S.Execution) : Prop :=
  ∀ i n, (∀ m, n ≤ m → ∃ k, m ≤ k ∧ (S.step (e.at_ k) (.run i)).isSome) →
    ∃ m, n ≤ m ∧ e.label m = some (.run i)

/-- Whenever `P` holds, `Q` holds then or later. -/
def System.Execution.LeadsTo {S : System} (e : S.Execution) (P Q : S.State → Prop) : Prop :=
  ∀ n, P (e.at_ n) → ∃ m, n ≤ m ∧ Q (e.at_ m)

end Verif.Threads
