/-!
Specifications for the arithmetic helpers: plain statements on `Nat`, independent
of the model.
-/
namespace Verif.Spec

/-- The sum the documentation of `arithmetic_progression_sum` describes:
`lowest + (lowest + interval) + ...`, `steps` terms. -/
def progressionSum (lowest interval : Nat) : Nat → Nat
  | 0 => 0
  | steps + 1 => progressionSum lowest interval steps + (lowest + steps * interval)

example : progressionSum 1 1 10 = 55 := rfl
example : progressionSum 0 2 5 = 20 := rfl

end Verif.Spec
