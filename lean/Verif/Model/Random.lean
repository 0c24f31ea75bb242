import Verif.Model.Basic
/-!
`RandomManager` (`cpp_utils/src/cpp/math/random/RandomManager.cpp`) and `TSafeRandomManager`
(same operations, each under the lock of its generator, TSafeRandomManager.cpp:28-77).

The generator (`std::mt19937` in the code) is a parameter; `std::random_device` is an input.
-/
namespace Verif.Random

/-- A pseudo-random engine: state, state after seeding, next number. -/
structure Engine (Seed Num : Type) where
  St : Type
  seed : Seed → St
  next : St → Num × St

variable {Seed Num : Type}

/-- The two pseudo-random generators of the object, RandomManager.hpp:127-139. -/
structure State (E : Engine Seed Num) where
  std : E.St
  seedGen : E.St

/-- Public calls; `pure` carries the number that the random device gives. -/
inductive Call (Seed Num : Type)
  | pure (device : Num)
  | sequence
  | seed (s : Seed)
  | seeded (s : Seed)

/-- Constructor, RandomManager.cpp:27-32; `d` is the state of a default-constructed engine. -/
def init (E : Engine Seed Num) (d : E.St) (original : Seed) : State E := ⟨E.seed original, d⟩

/-- One call: `pure_rand` RandomManager.cpp:34-37, `sequence_rand` 39-42, `seed` 44-48,
`seeded_rand` 50-55. -/
def step (E : Engine Seed Num) (s : State E) : Call Seed Num → State E × Option Num
  | .pure x => (s, some x)
  | .sequence => let r := E.next s.std; ({ s with std := r.2 }, some r.1)
  | .seed k => ({ s with std := E.seed k }, none)
  | .seeded k =>
    let g := E.seed k
    let r := E.next g
    ({ s with seedGen := r.2 }, some r.1)

/-- State after a history of calls. -/
def after (E : Engine Seed Num) (s : State E) (cs : List (Call Seed Num)) : State E :=
  cs.foldl (fun s c => (step E s c).1) s

end Verif.Random
