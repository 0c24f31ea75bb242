import Verif.Model.Race
/-!
Waiting for mutexes: objects of `Verif.Model.Race` whose callbacks are given, and several objects used together.

Simplified as there; besides, only waiting for a mutex is waiting here: a wait on a condition variable may end at any
moment, and waiting for the end of a thread is left out (C75, C80, C85, C112 and C167 are about these).
-/
namespace Verif.Race

variable {M M' V S : Type}

/-- Callbacks do `body`. -/
def Cmd.plug (c body : Cmd M V S) : Cmd M V S :=
  match c with
  | .client => body
  | .seq a b => .seq (a.plug body) (b.plug body)
  | .alt a b => .alt (a.plug body) (b.plug body)
  | .loop a => .loop (a.plug body)
  | c => c

/-- A command as one of several objects: mutexes get other names, which member is accessed is forgotten. -/
def Cmd.on (f : M → M') : Cmd M V S → Cmd M' Unit Unit
  | .skip => .skip
  | .lock m => .lock (f m)
  | .unlock m => .unlock (f m)
  | .lockShared m => .lockShared (f m)
  | .unlockShared m => .unlockShared (f m)
  | .read _ => .read id
  | .write _ _ => .write id id
  | .seq a b => .seq (a.on f) (b.on f)
  | .alt a b => .alt (a.on f) (b.on f)
  | .loop a => .loop (a.on f)
  | .client => .client

/-- Callbacks of the object do not call it. -/
def Obj.quiet (o : Obj M V S) : Obj M V S := ⟨o.calls.map fun c => c.plug .skip, o.recursive⟩

/-- Thread `i` waits for a mutex that it cannot take. -/
def Blocked (o : Obj M V S) (s : State M V S) (i : Nat) : Prop :=
  (∃ m k, (s.th i).todo = Cmd.lock m :: k ∧
    ¬ (s.FreeFor i m ∧ (o.recursive m = true ∨ ∀ x, (m, x) ∉ (s.th i).held))) ∨
  (∃ m k, (s.th i).todo = Cmd.lockShared m :: k ∧
    ¬ (s.FreeForShared i m ∧ (m, Mode.excl) ∉ (s.th i).held))

/-- Thread `i` is about to take a mutex that thread `j` holds. -/
def Waits (s : State M V S) (i j : Nat) : Prop :=
  (∃ m k x, (s.th i).todo = Cmd.lock m :: k ∧ (m, x) ∈ (s.th j).held) ∨
  (∃ m k, (s.th i).todo = Cmd.lockShared m :: k ∧ (m, Mode.excl) ∈ (s.th j).held)

/-- The threads `D` wait for ever: each of them for a mutex that one of them holds. -/
def Deadlock (o : Obj M V S) (s : State M V S) (D : Nat → Prop) : Prop :=
  (∃ i, D i) ∧ ∀ i, D i → Blocked o s i ∧ ∃ j, D j ∧ Waits s i j

/-- No threads wait for ever, and as long as a thread is in a call, some thread in a call can go on. -/
def Unstuck [DecidableEq M] (o : Obj M V S) (s : State M V S) : Prop :=
  (∀ D, ¬ Deadlock o s D) ∧
  ∀ i, (s.th i).todo ≠ [] →
    ∃ j s', (s.th j).todo ≠ [] ∧ Step o s s' ∧ s'.th j ≠ s.th j ∧ ∀ k, k ≠ j → s'.th k = s.th k

/-- Any of several commands. -/
def anyOf (cs : List (Cmd M V S)) : Cmd M V S := cs.foldr .alt .skip

/-! ### Handlers of one signal and their manager -/

/-- Mutexes of handlers, by number, and of the manager. -/
inductive SgM
  | handler (n : Nat) (m : EvM)
  | manager (m : SigM)
deriving DecidableEq

abbrev SgCmd := Cmd SgM Unit Unit

/-- `callback_set_nts_` of a `SignalEventHandler`, include/cpp_utils/event/impl/SignalEventHandler.ipp:59-68 -/
def sgSet : SgCmd := when_ [(guarded SigM.instance_ [] : SigCmd).on .manager, sigRegister.on .manager]

/-- `callback_unset_nts_`, SignalEventHandler.ipp:70-77 -/
def sgUnset : SgCmd := when_ [(guarded SigM.instance_ [] : SigCmd).on .manager, sigUnregister.on .manager]

/-- An event of handler `n`, whose callback does `cb`. -/
def sgEvent (cb : SgCmd) (n : Nat) : SgCmd := (eventOccurred.on (.handler n)).plug cb

/-- Calls of handler `n`. -/
def sgCalls (cb : SgCmd) (n : Nat) : List SgCmd :=
  [((setCallback .client).on (.handler n)).plug sgSet, ((unsetCallback .client).on (.handler n)).plug sgUnset,
   waitForEvent.on (.handler n), changeCount.on (.handler n), sgEvent cb n]

/-- `n` handlers of one signal, all that clients may do with them, and the thread of the manager. -/
def signals (cb : SgCmd) (n : Nat) : Obj SgM Unit Unit :=
  ⟨(List.range n).flatMap (sgCalls cb) ++ [(sigThread.on .manager).plug (anyOf ((List.range n).map (sgEvent cb)))],
   fun m => match m with | .handler _ m => evRecursive m | .manager m => decide (m = .instance_)⟩

/-! ### A MultipleEventHandler and its handlers -/

/-- Mutexes of the handlers registered, by number, and of the `MultipleEventHandler`. -/
inductive MulM
  | child (n : Nat) (m : EvM)
  | parent (m : EvM)
deriving DecidableEq

abbrev MulCmd := Cmd MulM Unit Unit

/-- Calls of the `MultipleEventHandler`, whose callback does not use handlers. -/
def mulParent : List MulCmd :=
  eventHandler.quiet.calls.map fun c => c.on .parent

/-- What happens to handler `n`: it is registered, include/cpp_utils/event/impl/MultipleEventHandler.ipp:28-43, its events
raise events of the `MultipleEventHandler`. -/
def mulChild (n : Nat) : List MulCmd :=
  [((setCallback .skip).on (.child n)), ((eventOccurred.on (.child n)).plug ((eventOccurred.plug .skip).on .parent)),
   (unsetCallback .skip).on (.child n)]

/-- A `MultipleEventHandler` with `n` handlers. -/
def multiple (n : Nat) : Obj MulM Unit Unit :=
  ⟨mulParent ++ (List.range n).flatMap mulChild,
   fun m => match m with | .child _ m => evRecursive m | .parent m => evRecursive m⟩

/-! ### A pool with its queue -/

/-- `slots_mutex_` and the mutexes of the queue. -/
inductive PlM
  | slots
  | queue (m : QM)
deriving DecidableEq

abbrev PlCmd := Cmd PlM Unit Unit

/-- A call of the queue. -/
def plQueue (c : QCmd) : PlCmd := c.on .queue

/-- `emit`, `slot`, `wait_all_consumed` and the routine of the threads of a `SlotThreadPool`,
src/cpp/thread_pool/pool/SlotThreadPool.cpp:80-156, the disabling of the queue, 64-78; tasks may use the pool. -/
def poolQueue : Obj PlM Unit Unit :=
  ⟨[guarded .slots [rd (), when_ [plQueue dbPush, plQueue counterInc]],
    guarded .slots [rd (), when_ [wr ()]],
    plQueue waitThreshold,
    plQueue whDisable,
    .loop (seqs [plQueue waitAndDecrement, when_ [plQueue getNextValue, guarded .slots [rd ()], .client]])],
   fun m => match m with | .slots => false | .queue m => qRecursive m⟩

end Verif.Race
