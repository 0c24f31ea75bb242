import Verif.Model.Random
/-!
C40: independence and reproducibility of the random features.
-/
namespace Verif.Random

variable {Seed Num : Type}

/-- The `k`-th number (from 0) of the sequence of a seed, by the engine alone. -/
def nth (E : Engine Seed Num) : E.St → Nat → Num
  | g, 0 => (E.next g).1
  | g, k + 1 => nth E (E.next g).2 k

/-- Number of `sequence_rand` calls. -/
def sequences (cs : List (Call Seed Num)) : Nat :=
  cs.countP fun c => match c with | .sequence => true | _ => false

theorem out_eq (E : Engine Seed Num) (cs : List (Call Seed Num)) (hns : ∀ k, Call.seed k ∉ cs)
    (s : State E) :
    (step E (after E s cs) .sequence).2 = some (nth E s.std (sequences cs)) := by
  induction cs generalizing s with
  | nil => rfl
  | cons c cs ih =>
    have h' : ∀ k, Call.seed k ∉ cs := fun k hk => hns k (by simp [hk])
    have := ih h' (step E s c).1
    simp only [after, List.foldl_cons] at this ⊢
    rw [this]
    cases c with
    | seed k => exact absurd (by simp) (hns k)
    | _ => simp [step, sequences, List.countP_cons, nth]

/-- C40: after any history, the next `sequence_rand` gives the `k`-th number of seed `s`, where `s` is
the last seed given and `k` the number of `sequence_rand` since. -/
theorem C40_sequence (E : Engine Seed Num) (st : State E) (pre post : List (Call Seed Num)) (s : Seed)
    (h : ∀ k, Call.seed k ∉ post) :
    (step E (after E st (pre ++ .seed s :: post)) .sequence).2 =
      some (nth E (E.seed s) (sequences post)) := by
  have : after E st (pre ++ .seed s :: post) = after E (step E (after E st pre) (.seed s)).1 post := by
    simp [after, List.foldl_append]
  rw [this, out_eq E post h]
  rfl

/-- C40: the same from construction when no seed was given. -/
theorem C40_construction (E : Engine Seed Num) (d : E.St) (original : Seed)
    (cs : List (Call Seed Num)) (h : ∀ k, Call.seed k ∉ cs) :
    (step E (after E (init E d original) cs) .sequence).2 =
      some (nth E (E.seed original) (sequences cs)) :=
  out_eq E cs h _

/-- C40: `seeded_rand(s)` is a function of `s` only, and `pure_rand` is the number of the device,
after any two histories on any two objects. -/
theorem C40_seeded (E : Engine Seed Num) (st st' : State E) (cs cs' : List (Call Seed Num)) (s : Seed)
    (x : Num) :
    (step E (after E st cs) (.seeded s)).2 = (step E (after E st' cs') (.seeded s)).2 ∧
    (step E (after E st cs) (.seeded s)).2 = some (nth E (E.seed s) 0) ∧
    (step E (after E st cs) (.pure x)).2 = some x :=
  ⟨rfl, rfl, rfl⟩

/-- Non-trivial case: an engine that adds seven, with calls of the other features in between. -/
example :
    let E : Engine Nat Nat := ⟨Nat, fun s => 100 * s, fun g => (g + 7, g + 7)⟩
    (step E (after E (init E (0 : Nat) 1)
      [.sequence, .seed 3, .seeded 9, .sequence, .pure 5]) .sequence).2 = some 314 := by
  rfl

end Verif.Random
