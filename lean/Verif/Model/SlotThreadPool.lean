import Verif.Model.Counter
import Verif.Model.StdMap
/-!
`SlotThreadPool` (`cpp_utils/src/cpp/thread_pool/pool/SlotThreadPool.cpp`) as a concurrent program.  Its
queue is the model of `DBQueueWaitHandler` in `Verif.Model.Counter`, step by step: a call to the queue is
as many steps here as there, so that everything the pool's threads can do to each other in between is in
the model.

Simplified: the threads of the pool come from a supply of threads that do not run yet (`dormant`), of any
size, instead of being created; a task is an opaque value, running it is one step in which it starts and
one in which it ends, by returning or by throwing (so a task that never ends is not modelled; tasks that
call the pool are in `Verif.Model.SlotThreadPoolTasks`); an exception that nobody catches ends the process,
of which the model only keeps the thread that threw it (`terminated`); `enable` and
`disable` called at the same time from two threads race on `threads_` (no mutex protects it): the states in
which they do are in `Verif.Model.SlotThreadPoolShared`, what happens afterwards is not modelled; the destructor is `disable` and a further `disable` of the queue, and is not
modelled apart from them.
-/
namespace Verif.SlotThreadPool
open Verif.Threads
open Verif.WaitHandler (Reason)

/-- Calls of the public interface, SlotThreadPool.hpp:76-125. -/
inductive Op (T : Type)
  | enable
  | disable
  | emit (id : Nat)
  | slot (id : Nat) (t : T)
  | waitAll (timed : Bool)

/-- What a call gave. -/
inductive Ret
  | done
  | threw (e : Exc)
  | reason (r : Reason)
  deriving DecidableEq

/-- How the execution of a task ends: it returns, it throws `utils::DisabledException`, which
SlotThreadPool.cpp:152-155 takes for the end of the queue, or it throws something else, which nobody
catches. -/
inductive Ending
  | returns
  | throwsDisabled
  | throwsOther
  deriving DecidableEq

/-- Where a thread is; the lines are those of SlotThreadPool.cpp. -/
inductive PC (T : Type)
  | idle (last : Option Ret)
  /-- a thread the pool has not created yet -/
  | dormant
  /-- 52 -/
  | enableTest
  /-- 55-60, `k` threads still to create -/
  | spawn (k : Nat)
  /-- 66 -/
  | disableTest
  /-- 69, within `task_queue_.disable()` -/
  | disableCall
  /-- 71-76, the threads still to join -/
  | joining (l : List Nat)
  /-- 84, before taking `slots_mutex_` -/
  | emitLock (id : Nat)
  /-- 94, within `task_queue_.produce`, holding `slots_mutex_` -/
  | emitCall (id : Nat)
  /-- 103, before taking `slots_mutex_` -/
  | slotLock (id : Nat) (t : T)
  /-- 120, before the call -/
  | waitEnter (timed : Bool)
  /-- 120, within `task_queue_.wait_all_consumed` -/
  | waitCall
  /-- a thread of the pool at the beginning of the loop, 132 -/
  | next
  /-- 132, within `task_queue_.consume()` -/
  | consuming
  /-- 135, with the id it took -/
  | look (id : Nat)
  /-- 149, about to run the task -/
  | exec (id : Nat) (t : T)
  /-- 149, within the task -/
  | inside (id : Nat) (t : T)
  /-- 156 -/
  | ended
  /-- 141, `tsnh`, or an exception that is not caught at 152: the process is over -/
  | terminated

/-- `task_queue_`, `slots_`, holder of `slots_mutex_`, `enabled_`, `number_of_threads_`, `threads_`;
`emitted`, `started` and `finished` record the emits that were accepted and the executions of tasks;
`ends k` is how the execution ends that is the `k`-th to end. -/
structure State (T : Type) where
  q : Counter.State Nat
  slots : List (Nat × T)
  slotsMutex : Option Nat
  enabled : Bool
  n : Nat
  threads : List Nat
  emitted : List Nat
  started : List (Nat × T)
  finished : List (Nat × T)
  ends : Nat → Ending
  pcs : List (PC T)

variable {T : Type}

/-- Thread `i` goes to `pc`. -/
def goto (s : State T) (i : Nat) (pc : PC T) : State T := { s with pcs := s.pcs.set i pc }

/-- Thread `i` calls the queue and goes to `pc`. -/
def call (s : State T) (i : Nat) (op : Counter.Op Nat) (pc : PC T) : Option (State T) :=
  (Counter.start s.q i op).map fun q => goto { s with q := q } i pc

/-- Thread `i` executes a step within the queue; when the call returns, it goes on with `k`. -/
def within (s : State T) (i : Nat) (k : State T → Option (Counter.Ret Nat) → State T) :
    Option (State T) :=
  (Counter.run s.q i).map fun (q : Counter.State Nat) =>
    match q.pcs[i]? with
    | some (.idle r) => k { s with q := q } r
    | _ => { s with q := q }

/-- The threads not created yet. -/
def PC.isDormant : PC T → Bool
  | .dormant => true
  | _ => false

/-- Where a thread of the pool goes when its task has ended, SlotThreadPool.cpp:149-155. -/
def Ending.goes : Ending → PC T
  | .returns => .next
  | .throwsDisabled => .ended
  | .throwsOther => .terminated

/-- Next step of thread `i`; `none` when it has none or is blocked. -/
def run (s : State T) (i : Nat) : Option (State T) :=
  match s.pcs[i]? with
  | none => none
  | some pc =>
    match pc with
    | .idle _ => none
    | .dormant => none
    | .ended => none
    | .terminated => none
    | .enableTest =>
      if s.enabled then some (goto s i (.idle (some .done)))
      else some (goto { s with enabled := true } i (.spawn s.n))
    | .spawn 0 => some (goto s i (.idle (some .done)))
    | .spawn (k + 1) =>
      match s.pcs.findIdx? PC.isDormant with
      | none => none
      | some j => some { s with threads := s.threads ++ [j], pcs := (s.pcs.set j .next).set i (.spawn k) }
    | .disableTest =>
      if s.enabled then call { s with enabled := false } i (.status .disable) .disableCall
      else some (goto s i (.idle (some .done)))
    | .disableCall => within s i fun s _ => goto s i (.joining s.threads)
    | .joining [] => some (goto { s with threads := [] } i (.idle (some .done)))
    | .joining (j :: l) =>
      match s.pcs[j]? with
      | some .ended => some (goto s i (.joining l))
      | _ => none
    | .emitLock id =>
      if s.slotsMutex.isSome then none
      else
        match StdMap.get id s.slots with
        | none => some (goto s i (.idle (some (.threw .valueNotAllowed))))
        | some _ => call { s with slotsMutex := some i, emitted := s.emitted ++ [id] } i (.produce id)
            (.emitCall id)
    | .emitCall _ => within s i fun s _ => goto { s with slotsMutex := none } i (.idle (some .done))
    | .slotLock id t =>
      if s.slotsMutex.isSome then none
      else
        match StdMap.get id s.slots with
        | some _ => some (goto s i (.idle (some (.threw .valueNotAllowed))))
        | none => some (goto { s with slots := StdMap.put id t s.slots } i (.idle (some .done)))
    | .waitEnter timed => call s i (.waitThreshold timed) .waitCall
    | .waitCall => within s i fun s r =>
        goto s i (.idle (match r with | some (.reason r) => some (.reason r) | _ => none))
    | .next => call s i (.consume false) .consuming
    | .consuming => within s i fun s r =>
        goto s i (match r with
          | some (.value v) => .look v
          | some (.threw .disabled) => .ended
          | _ => .terminated)
    | .look id =>
      if s.slotsMutex.isSome then none
      else
        match StdMap.get id s.slots with
        | none => some (goto s i .terminated)
        | some t => some (goto s i (.exec id t))
    | .exec id t => some (goto { s with started := s.started ++ [(id, t)] } i (.inside id t))
    | .inside id t =>
      some (goto { s with finished := s.finished ++ [(id, t)] } i (s.ends s.finished.length).goes)

/-- First step of a call. -/
def entry : Op T → PC T
  | .enable => .enableTest
  | .disable => .disableTest
  | .emit id => .emitLock id
  | .slot id t => .slotLock id t
  | .waitAll timed => .waitEnter timed

/-- Transitions; wake-ups and timeouts are those of the queue. -/
def step (s : State T) : Label (Op T) → Option (State T)
  | .start i op =>
    match s.pcs[i]? with
    | some (.idle _) => some (goto s i (entry op))
    | _ => none
  | .run i => run s i
  | .spurious i => (Counter.step s.q (.spurious i)).map fun q => { s with q := q }
  | .timeout i => (Counter.step s.q (.timeout i)).map fun q => { s with q := q }

/-- The transition system. -/
def system (T : Type) : System := ⟨State T, Op T, step⟩

/-- A new pool of `n` threads, SlotThreadPool.cpp:30-36 and SlotThreadPool.hpp:151, used by `c` client
threads; `d` is the size of the supply of threads, `picks` the choice of `notify_one` and `ends` the way in
which the executions of tasks end. -/
def init (n c d : Nat) (picks : Nat → Nat) (ends : Nat → Ending := fun _ => .returns) : State T :=
  { q := Counter.init 0 0 true picks (c + d), slots := [], slotsMutex := none, enabled := false, n := n,
    threads := [], emitted := [], started := [], finished := [], ends := ends,
    pcs := List.replicate c (.idle none) ++ List.replicate d .dormant }

/-- The pool when `enable` and `disable` (SlotThreadPool.cpp:50-78) are only called by thread 0, everything
else by any thread: the two are not meant to be called at the same time, see above. -/
def controlled (T : Type) : System :=
  ⟨State T, Op T, fun s l =>
    match l with
    | .start i .enable => if i = 0 then step s l else none
    | .start i .disable => if i = 0 then step s l else none
    | _ => step s l⟩

end Verif.SlotThreadPool
