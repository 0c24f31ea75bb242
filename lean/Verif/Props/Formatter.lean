import Verif.Model.Formatter
/-!
C18: Formatter.
-/
namespace Verif.Formatter

/-- The object after streaming the pieces in order. -/
def build (pieces : List Str) : Formatter := pieces.foldl Formatter.stream {}

theorem build_ss (pieces : List Str) : (build pieces).ss = pieces.flatten := by
  have H : ∀ (ps : List Str) (f : Formatter), (ps.foldl Formatter.stream f).ss = f.ss ++ ps.flatten := by
    intro ps
    induction ps with
    | nil => intro f; simp
    | cons p ps ih => intro f; simp [ih, Formatter.stream]
  show (pieces.foldl Formatter.stream {}).ss = _
  simpa using H pieces {}

/-- C18 is false: a streamed NUL character cuts the result. -/
theorem C18_negation : ∃ pieces, (build pieces).toString ≠ pieces.flatten :=
  ⟨[c!"a", ['\x00'], c!"b"], by decide⟩

/-- C18, what holds: the concatenation up to the first NUL ... -/
theorem C18_prefix_partial (pieces : List Str) :
    (build pieces).toString = pieces.flatten.takeWhile (· ≠ '\x00') := by
  rw [Formatter.toString, build_ss]

/-- ... hence the whole concatenation exactly when no piece contains NUL (the full
claim has no such hypothesis). -/
theorem C18_partial (pieces : List Str) :
    (build pieces).toString = pieces.flatten ↔ ∀ p ∈ pieces, '\x00' ∉ p := by
  rw [C18_prefix_partial]
  constructor
  · intro h p hp h0
    have hm : '\x00' ∈ pieces.flatten := List.mem_flatten.2 ⟨p, hp, h0⟩
    rw [← h] at hm
    have := List.all_takeWhile (l := pieces.flatten) (p := fun c => decide (c ≠ '\x00'))
    have := List.all_eq_true.1 this _ hm
    simp at this
  · intro h
    have : ∀ c ∈ pieces.flatten, (decide (c ≠ '\x00')) = true := by
      intro c hc
      obtain ⟨p, hp, hcp⟩ := List.mem_flatten.1 hc
      simp; rintro rfl; exact h p hp hcp
    generalize pieces.flatten = l at this
    induction l with
    | nil => rfl
    | cons a l ih =>
      rw [List.takeWhile_cons_of_pos (p := fun x => decide (x ≠ '\x00')) (this a (by simp)), ih (fun c hc => this c (by simp [hc]))]

example : (build [c!"object: ", c!"7"]).toString = c!"object: 7" := by decide

end Verif.Formatter
