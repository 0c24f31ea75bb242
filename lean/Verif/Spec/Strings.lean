/-!
Specifications for string helpers, in terms of concatenation only.
-/
namespace Verif.Spec

variable {α : Type}

/-- `pat` occurs in `s` at position `i`. -/
def OccursAt (pat s : List α) (i : Nat) : Prop := ∃ p q, s = p ++ pat ++ q ∧ p.length = i

/-- `pat` occurs somewhere in `s`. -/
def Contains (pat s : List α) : Prop := ∃ i, OccursAt pat s i

/-- `p` is what precedes the leftmost occurrence of `pat` in `s`, `q` what follows it. -/
def LeftmostAt (pat s p q : List α) : Prop :=
  s = p ++ pat ++ q ∧ ∀ j, j < p.length → ¬ OccursAt pat s j

/-- `ps` are the pieces of `s` cut at the leftmost, non-overlapping occurrences of `d`. -/
inductive LeftmostCut (d : List α) : List α → List (List α) → Prop
  | last {s} : ¬ Contains d s → LeftmostCut d s [s]
  | cut {s p q ps} : LeftmostAt d s p q → LeftmostCut d q ps → LeftmostCut d s (p :: ps)

/-- `pieces` are what is left of `s` when some occurrences of members of `ds` are
taken out: `s` is the first piece followed by (delimiter, piece) pairs. -/
def Woven (ds : List (List α)) (s : List α) (pieces : List (List α)) : Prop :=
  ∃ (p0 : List α) (rest : List (List α × List α)),
    pieces = p0 :: rest.map (·.2) ∧ s = p0 ++ (rest.map fun x => x.1 ++ x.2).flatten ∧
    ∀ x ∈ rest, x.1 ∈ ds

/-- Simultaneous left-to-right replacement of `a` by `b`: cut at the leftmost
occurrences of `a` and join with `b`. -/
def SimultaneousReplace (a b s s' : List α) : Prop :=
  ∃ ps, LeftmostCut a s ps ∧ s' = List.intercalate b ps

/-- `n` successive replacements of the leftmost occurrence lead from `s` to `s'`. -/
inductive Replacements (a b : List α) : Nat → List α → List α → Prop
  | none (s) : Replacements a b 0 s s
  | one {n s p q s'} : LeftmostAt a s p q → Replacements a b n (p ++ b ++ q) s' →
      Replacements a b (n + 1) s s'

end Verif.Spec
