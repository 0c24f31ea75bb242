import Verif.Model.ReturnCode
/-!
C37: comparison, conversion and printing of return codes.
-/
namespace Verif.ReturnCode

/-- C37: `==` is equality of codes, `!=` its negation, `!rc` holds exactly when `rc` is not OK, and
`<` is a strict total order compatible with `==`. -/
theorem C37_compare (a b c : Code) :
    (eq a b = true ↔ a = b) ∧ (ne a b = !eq a b) ∧ (not a = true ↔ a ≠ .ok) ∧
    lt a a = false ∧ (lt a b = true → lt b c = true → lt a c = true) ∧
    (lt a b = true ∨ eq a b = true ∨ lt b a = true) ∧
    (lt a b = true → eq a b = false ∧ lt b a = false) ∧
    (a ≠ .ok → lt .ok a = true) := by
  cases a <;> cases b <;> cases c <;> decide

/-- C37: a DDS code converts to OK only if it is OK; the codes with an equivalent keep their meaning;
every other DDS error is an error; any other integer is unknown. -/
theorem C37_convert (n : Int) :
    (ofDds n = .ok ↔ n = 0) ∧ (ofDds n = .preconditionNotMet ↔ n = 4) ∧
    (ofDds n = .notEnabled ↔ n = 6) ∧ (ofDds n = .noData ↔ n = 11) ∧
    (ofDds n = .error ↔ (1 ≤ n ∧ n ≤ 12) ∧ n ≠ 4 ∧ n ≠ 6 ∧ n ≠ 11) ∧
    (ofDds n = .unknown ↔ n < 0 ∨ 12 < n) := by
  unfold ofDds
  split <;> simp_all <;> omega

/-- C37: every code prints, and distinct codes print differently. -/
theorem C37_print (a b : Code) :
    (∃ s, print a = some s) ∧ (print a = print b → a = b) := by
  constructor
  · cases a <;> exact ⟨_, rfl⟩
  · cases a <;> cases b <;> decide

/-- Non-trivial case. -/
example : ofDds 11 = .noData ∧ lt (ofDds 1) (ofDds 11) = true ∧
    print (ofDds (-7)) = some c!"{Unknown}" := by decide

end Verif.ReturnCode
