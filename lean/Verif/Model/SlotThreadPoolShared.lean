import Verif.Model.SlotThreadPool
/-!
`enable` and `disable` of a `SlotThreadPool` (`cpp_utils/src/cpp/thread_pool/pool/SlotThreadPool.cpp`:50-78) called by
several threads.  They share `enabled_`, which is atomic, and `threads_`, a `std::vector` without a mutex.

The pool is that of `Verif.Model.SlotThreadPool`, all of whose threads may call everything (`system`).  There, each
access to `threads_` is one step; that two of them take place at the same time is a property of the state before both
(`Race`), and that the process ends is one of the state before it does (`Aborts`).
-/
namespace Verif.SlotThreadPool
open Verif.Threads

variable {T : Type}

/-- Within `enable`, SlotThreadPool.cpp:50-62. -/
def PC.enabling : PC T → Bool
  | .enableTest => true
  | .spawn _ => true
  | _ => false

/-- Within `disable`, SlotThreadPool.cpp:64-78. -/
def PC.disabling : PC T → Bool
  | .disableTest => true
  | .disableCall => true
  | .joining _ => true
  | _ => false

/-- Changing `threads_`: adding to it (SlotThreadPool.cpp:57-59), emptying it (76). -/
def PC.writes : PC T → Bool
  | .spawn (_ + 1) => true
  | .joining [] => true
  | _ => false

/-- Changing `threads_` or going through it (SlotThreadPool.cpp:57-59, 71-76). -/
def PC.uses : PC T → Bool
  | .spawn (_ + 1) => true
  | .joining _ => true
  | _ => false

/-- A thread changes `threads_` while another uses it: undefined behaviour, SlotThreadPool.cpp:57-59, 71-76. -/
def Race (s : State T) : Prop :=
  ∃ (i j : Nat) (x y : PC T), i ≠ j ∧ s.pcs[i]? = some x ∧ s.pcs[j]? = some y ∧ x.writes = true ∧ y.uses = true

/-- `threads_.clear()` (SlotThreadPool.cpp:76) is about to destroy a thread that runs, so that nobody can have joined
it: the destructor of `std::thread` ends the process. -/
def Aborts (s : State T) : Prop :=
  ∃ (i j : Nat) (y : PC T), s.pcs[i]? = some (.joining []) ∧ j ∈ s.threads ∧ s.pcs[j]? = some y ∧ y ≠ .ended

/-- The pool when `enable` (SlotThreadPool.cpp:50-62) is not called during a `disable` (64-78), nor `disable` during an
`enable`.  Otherwise every thread calls everything at any time. -/
def phased (T : Type) : System :=
  ⟨State T, Op T, fun s l =>
    match l with
    | .start _ .enable => if s.pcs.any PC.disabling then none else step s l
    | .start _ .disable => if s.pcs.any PC.enabling then none else step s l
    | _ => step s l⟩

end Verif.SlotThreadPool
