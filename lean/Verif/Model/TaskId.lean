import Verif.Model.Basic
/-!
`cpp_utils/src/cpp/thread_pool/task/TaskId.cpp`: `new_unique_task_id`.
-/
namespace Verif.TaskId

/-- Body of `new_unique_task_id`, TaskId.cpp:29-33: the post-increment of `std::atomic<unsigned int>` is one
indivisible step; it returns the old value, and the new one wraps around (`TaskId`, TaskId.hpp:31, is
`unsigned int`, taken to have 32 bits). -/
def newId (counter : Nat) : Nat × Nat := (counter, (counter + 1) % 2^32)

/-- A run of the process: the threads that call the function, in the order in which their increments take
effect, from a counter.  The calls with the ids they return; TaskId.cpp:31-32. -/
def calls : Nat → List Nat → List (Nat × Nat)
  | _, [] => []
  | c, thread :: rest => (thread, (newId c).1) :: calls (newId c).2 rest

/-- A whole run: the counter starts at 0, TaskId.cpp:31. -/
def run (threads : List Nat) : List (Nat × Nat) := calls 0 threads

end Verif.TaskId
