import Verif.Model.Prog
import Verif.Model.Random
/-!
`TSafeRandomManager` (`cpp_utils/src/cpp/math/random/TSafeRandomManager.cpp`) used by any number of threads.
Its two pseudo-random generators are `Atomicable<std::mt19937>` (`cpp_utils/include/cpp_utils/types/Atomicable.hpp`):
an engine and a mutex in one object.

Drawing a number reads the state of the engine and writes the next one; the two are steps of their own, so
that what the mutexes prevent can be seen.  `std::random_device` is an input, and taken to be thread safe
(TSafeRandomManager.hpp:125-130).
-/
namespace Verif.TSafeRandom
open Verif.Threads
open Verif.Random (Engine Call)

variable {Seed Num : Type}

/-- The two generators with their mutexes, TSafeRandomManager.hpp:132-136; `log` records the calls in the
order in which they are completed, with the thread and the number given. -/
structure Sh (E : Engine Seed Num) where
  std : E.St
  stdMutex : Option Nat
  seedGen : E.St
  seedMutex : Option Nat
  log : List (Nat × Call Seed Num × Option Num)

/-- Where a call is. -/
inductive Place (E : Engine Seed Num)
  /-- before taking the mutex: TSafeRandomManager.cpp:42, 49, 56 (`pure_rand`, 35-38, takes none) -/
  | lock
  /-- with the mutex: 43, 50, 57 -/
  | body
  /-- 58, the generator is seeded -/
  | draw
  /-- 43 or 58, the state of the generator has been read -/
  | store (st : E.St)

/-- Outside any call, with what the last one gave, or within a call. -/
inductive PC (E : Engine Seed Num)
  | idle (last : Option (Option Num))
  | busy (c : Call Seed Num) (p : Place E)

/-- The call of thread `i` is complete: it is recorded. -/
def Sh.done {E : Engine Seed Num} (s : Sh E) (i : Nat) (c : Call Seed Num) (r : Option Num) : Sh E :=
  { s with log := s.log ++ [(i, c, r)] }

/-- Next step of a thread: `pure_rand` TSafeRandomManager.cpp:35-38, `sequence_rand` 40-44, `seed` 46-51,
`seeded_rand` 53-59; `rand` 61-77 only calls these.  The last step of a call also leaves the mutex. -/
def run (E : Engine Seed Num) (i : Nat) (s : Sh E) : PC E → Option (Sh E × PC E × Bool)
  | .idle _ => none
  | .busy (.pure x) _ => some (s.done i (.pure x) (some x), .idle (some (some x)), false)
  | .busy .sequence .lock =>
    if s.stdMutex.isSome then none else some ({ s with stdMutex := some i }, .busy .sequence .body, false)
  | .busy .sequence (.store st) =>
    some (({ s with std := (E.next st).2, stdMutex := none } : Sh E).done i .sequence (some (E.next st).1),
      .idle (some (some (E.next st).1)), false)
  | .busy .sequence _ => some (s, .busy .sequence (.store s.std), false)
  | .busy (.seed k) .lock =>
    if s.stdMutex.isSome then none else some ({ s with stdMutex := some i }, .busy (.seed k) .body, false)
  | .busy (.seed k) _ =>
    some (({ s with std := E.seed k, stdMutex := none } : Sh E).done i (.seed k) none, .idle (some none), false)
  | .busy (.seeded k) .lock =>
    if s.seedMutex.isSome then none else some ({ s with seedMutex := some i }, .busy (.seeded k) .body, false)
  | .busy (.seeded k) .body => some ({ s with seedGen := E.seed k }, .busy (.seeded k) .draw, false)
  | .busy (.seeded k) .draw => some (s, .busy (.seeded k) (.store s.seedGen), false)
  | .busy (.seeded k) (.store st) =>
    some (({ s with seedGen := (E.next st).2, seedMutex := none } : Sh E).done i (.seeded k) (some (E.next st).1),
      .idle (some (some (E.next st).1)), false)

/-- The program; nobody sleeps.  The calls are those of TSafeRandomManager.hpp:80-121. -/
def prog (E : Engine Seed Num) : Prog where
  Sh := Sh E
  PC := PC E
  Op := Call Seed Num
  start
    | .idle _, c => some (.busy c .lock)
    | .busy _ _, _ => none
  run := run E
  woken _ := none
  late _ := none

/-- Constructor, TSafeRandomManager.cpp:28-33, and `n` threads; `d` is the state of a default-constructed
engine. -/
def init (E : Engine Seed Num) (d : E.St) (original : Seed) (n : Nat) : Conf (prog E) :=
  (prog E).init (⟨E.seed original, none, d, none, []⟩ : Sh E) (.idle none : PC E) n

end Verif.TSafeRandom
