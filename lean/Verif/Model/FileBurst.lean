import Verif.Model.FileWatch
/-!
The queue of `inotify` between the kernel and the `read` of `filewatch::FileWatch` (`thirdparty/filewatch/FileWatch.hpp`),
as inotify(7) describes it: equal events that follow each other are merged, and the queue is bounded.
-/
namespace Verif.FileBurst
open Verif.FileWatch (Ev Filter Change)

/-- What is in the queue: an event of the watched directory, or `IN_Q_OVERFLOW`. -/
inductive Item
  | ev (e : Ev)
  | overflow
deriving DecidableEq

/-- An event occurs: a full queue (`max_queued_events`) takes one `IN_Q_OVERFLOW` and no event, and an event equal to the
last one of the queue is merged with it.  All changes in the directory that `inotify_add_watch` is told to watch
(FileWatch.hpp:527-543) go to this queue, also those of other files. -/
def push (limit : Nat) (q : List Item) (e : Ev) : List Item :=
  if limit ≤ q.length then if .overflow ∈ q then q else q ++ [.overflow]
  else if q.getLast? = some (.ev e) then q
  else q ++ [.ev e]

/-- `IN_Q_OVERFLOW` has `len` 0 and so no name (FileWatch.hpp:567). -/
def Item.event : Item → Ev
  | .ev e => e
  | .overflow => ⟨none, false, false, false⟩

/-- What happens, in order: an event, or a `read` (FileWatch.hpp:558) that takes the first `k` items. -/
inductive In
  | event (e : Ev)
  | read (k : Nat)
deriving DecidableEq

/-- The queue afterwards, and what has been noted (FileWatch.hpp:562-590). -/
def run (limit : Nat) (f : Filter) (q : List Item) : List In → List Item × List (Str × Change)
  | [] => (q, [])
  | .event e :: is => run limit f (push limit q e) is
  | .read k :: is =>
    let r := run limit f (q.drop k) is
    (r.1, FileWatch.notes f ((q.take k).map Item.event) ++ r.2)

end Verif.FileBurst
