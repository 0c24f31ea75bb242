import Verif.Model.Basic
/-!
`DBQueue` (`cpp_utils/include/cpp_utils/queue/DBQueue.hpp`): a queue with a foreground (read) and a
background (written) part.
-/
namespace Verif.DBQueue

/-- Foreground and background queue, DBQueue.hpp:146-154. -/
structure Queue (T : Type) where
  fg : List T := []
  bg : List T := []
deriving DecidableEq

variable {T : Type}

/-- `swap`, DBQueue.hpp:47-58: the foreground is cleared, then the two are exchanged. -/
def swap (q : Queue T) : Queue T := ⟨q.bg, []⟩

/-- `push`, DBQueue.hpp:61-74. -/
def push (q : Queue T) (v : T) : Queue T := ⟨q.fg, q.bg ++ [v]⟩

/-- `front`, DBQueue.hpp:78-88: undefined when the foreground is empty. -/
def front (q : Queue T) : Res T :=
  match q.fg with
  | [] => .ub
  | v :: _ => .ok v

/-- `pop`, DBQueue.hpp:91-95: undefined when the foreground is empty. -/
def pop (q : Queue T) : Res (Queue T) :=
  match q.fg with
  | [] => .ub
  | _ :: l => .ok ⟨l, q.bg⟩

/-- `front_and_pop`, DBQueue.hpp:98-111. -/
def frontAndPop (q : Queue T) : Res (T × Queue T) :=
  match q.fg with
  | [] => .ub
  | v :: l => .ok (v, ⟨l, q.bg⟩)

/-- `empty`, DBQueue.hpp:114-118. -/
def empty (q : Queue T) : Bool := q.fg.isEmpty

/-- `both_empty`, DBQueue.hpp:121-126. -/
def bothEmpty (q : Queue T) : Bool := q.fg.isEmpty && q.bg.isEmpty

/-- `size`, DBQueue.hpp:129-133. -/
def size (q : Queue T) : Nat := q.fg.length

/-- `clear`, DBQueue.hpp:136-142. -/
def clear (_ : Queue T) : Queue T := ⟨[], []⟩

end Verif.DBQueue
