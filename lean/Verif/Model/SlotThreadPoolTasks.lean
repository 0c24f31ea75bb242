import Verif.Model.SlotThreadPool
/-!
A `SlotThreadPool` whose tasks use the pool: a task is a function of the client
(`cpp_utils/include/cpp_utils/thread_pool/task/Task.hpp`), executed by a thread of the pool
(SlotThreadPool.cpp:149) that holds no mutex then, so it can call `emit`, `slot`, `wait_all_consumed`, `disable` and
`enable` of its own pool.

The pool is that of `Verif.Model.SlotThreadPool`.  Simplified: of the threads there, `c` are threads of clients and
`d` belong to one thread of the pool each (thread `h + d` has `h`): a call a task makes is executed by this second
thread of control, and the thread of the pool does nothing until it has returned.  (What a call does depends on the
thread that makes it in `join` only: a thread that joins itself gets an exception, which ends the process since
`disable` is `noexcept`; here it waits for ever.)
-/
namespace Verif.SlotThreadPool
open Verif.Threads

variable {T : Type}

/-- Within a task, SlotThreadPool.cpp:149. -/
def inTask (s : State T) (i : Nat) : Bool :=
  match s.pcs[i]? with
  | some (.inside _ _) => true
  | _ => false

/-- Within a call. -/
def busy (s : State T) (i : Nat) : Bool :=
  match s.pcs[i]? with
  | some (.idle _) => false
  | some _ => true
  | none => false

/-- What executes the next step of thread `i`: the call its task has made, if there is one. -/
def acting (c d : Nat) (s : State T) (i : Nat) : Option Nat :=
  if i < c then some i
  else if i < c + d then none
  else if inTask s i && busy s (i - d) then some (i - d)
  else some i

/-- Transitions of the pool that are transitions of the pool with such tasks: a client makes a call, a task makes
a call (SlotThreadPool.cpp:149), a thread executes its next step. -/
def actual (c d : Nat) (s : State T) : Label (Op T) → Option (Label (Op T))
  | .start i op =>
    if i < c then some (.start i op)
    else if c + d ≤ i ∧ inTask s i then some (.start (i - d) op)
    else none
  | .run i => (acting c d s i).map .run
  | .spurious i => (acting c d s i).map .spurious
  | .timeout i => (acting c d s i).map .timeout

/-- The pool with tasks that use it, SlotThreadPool.cpp:38-156. -/
def tasked (T : Type) (c d : Nat) : System :=
  ⟨State T, Op T, fun s l => (actual c d s l).bind (step s)⟩

/-- A new pool of `n` threads, SlotThreadPool.cpp:30-36, used by `c` threads, with a supply of `d` threads. -/
def taskedInit (n c d : Nat) (picks : Nat → Nat) (ends : Nat → Ending := fun _ => .returns) : State T :=
  init n (c + d) d picks ends

end Verif.SlotThreadPool
