import Verif.Model.Threads

/-!
The threads of `filewatch::FileWatch` (`thirdparty/filewatch/FileWatch.hpp`, the branches for `_WIN32`) and its destructor.

Thread 0 is `_watch_thread`, thread 1 `_callback_thread`, thread `k + 2` is client `k`.  Changes are only counted, as each of them makes
one call of the callback (which changes count is in `Model/FileWatchWin.lean`).  The object has been constructed; the constructor
waits for `_running`, `/repo/thirdparty/filewatch/FileWatch.hpp:263-264`.
-/
namespace Verif.FileStopWin
open Verif.Threads

/-- `monitor_directory`. -/
inductive W
  /-- `/repo/thirdparty/filewatch/FileWatch.hpp:428-436` -/
  | ask
  /-- `WaitForMultipleObjects`, `/repo/thirdparty/filewatch/FileWatch.hpp:438` -/
  | wait
  /-- `/repo/thirdparty/filewatch/FileWatch.hpp:485-489`, with the number of changes read -/
  | push (n : Nat)
  /-- `/repo/thirdparty/filewatch/FileWatch.hpp:490` -/
  | notify
  /-- `/repo/thirdparty/filewatch/FileWatch.hpp:491` -/
  | test
  /-- `/repo/thirdparty/filewatch/FileWatch.hpp:493-498` -/
  | cancel
  | ended
deriving DecidableEq

/-- `callback_thread`. -/
inductive C
  /-- `/repo/thirdparty/filewatch/FileWatch.hpp:602` -/
  | test
  /-- `/repo/thirdparty/filewatch/FileWatch.hpp:604` -/
  | lock
  /-- `/repo/thirdparty/filewatch/FileWatch.hpp:605` -/
  | look
  /-- the predicate, `/repo/thirdparty/filewatch/FileWatch.hpp:607-610` -/
  | pred
  /-- the predicate was false; the mutex is still held -/
  | prep
  | asleep
  /-- woken, without the mutex -/
  | woken
  /-- `/repo/thirdparty/filewatch/FileWatch.hpp:612-614` -/
  | swap
  /-- `/repo/thirdparty/filewatch/FileWatch.hpp:616-628`, with the number of calls that are left -/
  | calls (n : Nat)
  | ended
deriving DecidableEq

/-- `destroy`, and what else clients do. -/
inductive D
  | idle
  /-- `/repo/thirdparty/filewatch/FileWatch.hpp:269` -/
  | flag
  /-- `/repo/thirdparty/filewatch/FileWatch.hpp:272` -/
  | setEvent
  /-- `/repo/thirdparty/filewatch/FileWatch.hpp:276` -/
  | notify
  /-- `/repo/thirdparty/filewatch/FileWatch.hpp:277` -/
  | joinW
  /-- `/repo/thirdparty/filewatch/FileWatch.hpp:278` -/
  | joinC
  /-- the destructor has returned -/
  | done
  /-- something happens to the watched file -/
  | change
  /-- the directory can no longer be watched -/
  | fail
deriving DecidableEq

/-- Calls of clients: the destructor, a change of the file, and what makes `GetOverlappedResult` fail (the directory is deleted, the
drive is removed). -/
inductive Op
  | destroy
  | change
  | fail
deriving DecidableEq

/-- The object: `_destory`, `_close_event`, whether `_callback_mutex` is held by `_callback_thread` (the other thread holds it for one
step), the changes the system has for `_watch_thread`, the size of `_callback_information`, whether the directory can no longer be
watched; the calls of the callback so far, and the changes; the threads.
`/repo/thirdparty/filewatch/FileWatch.hpp:171-184`. -/
structure St where
  destroyed : Bool := false
  closed : Bool := false
  held : Bool := false
  pending : Nat := 0
  info : Nat := 0
  broken : Bool := false
  called : Nat := 0
  made : Nat := 0
  w : W := .ask
  c : C := .test
  clients : List D
deriving DecidableEq

/-- `notify_all`. -/
def St.wake (s : St) : St := if s.c = .asleep then { s with c := .woken } else s

/-- The next step of `_watch_thread`.  An exception of `GetOverlappedResult` ends it: `set_exception` then throws too, as the
promise has its value, and that is caught; `/repo/thirdparty/filewatch/FileWatch.hpp:245-261, 426-499`. -/
def stepW (s : St) : Option St :=
  match s.w with
  | .ask => some { s with w := .wait }
  | .wait =>
    if s.broken then some { s with w := .ended }
    else if 0 < s.pending then some { s with w := .push s.pending, pending := 0 }
    else if s.closed then some { s with w := .push 0 }
    else none
  | .push n => if s.held then none else some { s with w := .notify, info := s.info + n }
  | .notify => some { s.wake with w := .test }
  | .test => some { s with w := if s.destroyed then .cancel else .ask }
  | .cancel => some { s with w := .ended }
  | .ended => none

/-- The next step of `_callback_thread`, `/repo/thirdparty/filewatch/FileWatch.hpp:600-630`.  Callbacks return. -/
def stepC (s : St) : Option St :=
  match s.c with
  | .test => some { s with c := if s.destroyed then .ended else .lock }
  | .lock => if s.held then none else some { s with c := .look, held := true }
  | .look => some { s with c := if s.info = 0 ∧ s.destroyed = false then .pred else .swap }
  | .pred => some { s with c := if 0 < s.info ∨ s.destroyed = true then .swap else .prep }
  | .prep => some { s with c := .asleep, held := false }
  | .asleep => none
  | .woken => if s.held then none else some { s with c := .pred, held := true }
  | .swap => some { s with c := .calls s.info, info := 0, held := false }
  | .calls 0 => some { s with c := .test }
  | .calls (n + 1) => some { s with c := .calls n, called := s.called + 1 }
  | .ended => none

/-- The next step of a client, `/repo/thirdparty/filewatch/FileWatch.hpp:267-284`.  The object is destroyed once. -/
def stepD (s : St) (k : Nat) : D → Option St
  | .idle => none
  | .flag => if s.destroyed then none else some { s with destroyed := true, clients := s.clients.set k .setEvent }
  | .setEvent => some { s with closed := true, clients := s.clients.set k .notify }
  | .notify => some { s.wake with clients := s.clients.set k .joinW }
  | .joinW => if s.w = .ended then some { s with clients := s.clients.set k .joinC } else none
  | .joinC => if s.c = .ended then some { s with clients := s.clients.set k .done } else none
  | .done => none
  | .change => some { s with pending := s.pending + 1, made := s.made + 1, clients := s.clients.set k .idle }
  | .fail => some { s with broken := true, clients := s.clients.set k .idle }

/-- A client begins a call. -/
def begin_ : Op → D
  | .destroy => .flag
  | .change => .change
  | .fail => .fail

/-- Transitions; the condition variable may wake `_callback_thread` without notification. -/
def step (s : St) : Label Op → Option St
  | .run 0 => stepW s
  | .run 1 => stepC s
  | .run (k + 2) => s.clients[k]?.bind (stepD s k)
  | .start (k + 2) op => if s.clients[k]? = some .idle then some { s with clients := s.clients.set k (begin_ op) } else none
  | .spurious 1 => if s.c = .asleep then some { s with c := .woken } else none
  | _ => none

/-- The transition system. -/
abbrev system : System := ⟨St, Op, step⟩

/-- The object with `n` clients. -/
def init (n : Nat) : St := { clients := List.replicate n .idle }

end Verif.FileStopWin
