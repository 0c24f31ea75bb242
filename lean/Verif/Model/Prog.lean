import Verif.Model.Threads
/-!
Concurrent programs given by what one thread does: shared data, places in the code, and for each place
its next step.  Granularity as in `Verif.Model.Threads`.
-/
namespace Verif.Threads

/-- A program executed by any number of threads. -/
structure Prog where
  /-- shared data -/
  Sh : Type
  /-- places in the code with the local data -/
  PC : Type
  /-- calls -/
  Op : Type
  /-- a client starts a call on a thread that is outside any call -/
  start : PC → Op → Option PC
  /-- next step of thread `i`: the new shared data, the new place, and whether it notifies all threads
  that are asleep; `none` when there is no next step (outside any call, asleep, blocked on a mutex) -/
  run : Nat → Sh → PC → Option (Sh × PC × Bool)
  /-- where a thread that is asleep goes on when it is woken; `none` when it is not asleep -/
  woken : PC → Option PC
  /-- where a thread that is asleep goes on when its timeout expires -/
  late : PC → Option PC

/-- Shared data and threads. -/
structure Conf (P : Prog) where
  sh : P.Sh
  pcs : List P.PC

/-- Effect of `notify_all` on a thread. -/
def Prog.wake (P : Prog) (x : P.PC) : P.PC := (P.woken x).getD x

/-- Transitions. -/
def Prog.step (P : Prog) (s : Conf P) : Label P.Op → Option (Conf P)
  | .start i op => (s.pcs[i]?.bind fun x => P.start x op).map fun y => ⟨s.sh, s.pcs.set i y⟩
  | .run i => (s.pcs[i]?.bind (P.run i s.sh)).map fun r =>
      ⟨r.1, (if r.2.2 then s.pcs.map P.wake else s.pcs).set i r.2.1⟩
  | .spurious i => (s.pcs[i]?.bind P.woken).map fun y => ⟨s.sh, s.pcs.set i y⟩
  | .timeout i => (s.pcs[i]?.bind P.late).map fun y => ⟨s.sh, s.pcs.set i y⟩

/-- The transition system of a program. -/
abbrev Prog.system (P : Prog) : System := ⟨Conf P, P.Op, P.step⟩

/-- `n` threads at place `x`. -/
def Prog.init (P : Prog) (sh : P.Sh) (x : P.PC) (n : Nat) : Conf P := ⟨sh, List.replicate n x⟩

end Verif.Threads
