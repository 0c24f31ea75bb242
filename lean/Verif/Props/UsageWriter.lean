import Verif.Model.UsageWriter
/-!
C179: the usage text arrives whole, or the caller can tell that it did not.

`pieces` is what `printUsage` hands to its writer, piece by piece, each with the number of bytes that the destination
takes at that moment: an execution with every possible sequence of short writes.
-/
namespace Verif.Usage

/-- C179 (function or temporary of the user): it is called with every piece, in order and unchanged. -/
theorem C179_function (pieces : List (Bytes × Nat)) (w : Writer) (hw : w = .function ∨ w = .temporary) :
    (w.all Sink.fresh pieces).calls = pieces.map Prod.fst := by
  have h : ∀ (ps : List (Bytes × Nat)) (s : Sink), (w.all s ps).calls = s.calls ++ ps.map Prod.fst := by
    intro ps
    induction ps with
    | nil => intro s; simp [Writer.all]
    | cons p ps ih =>
      intro s
      rcases hw with rfl | rfl <;> simp [Writer.all, ih, Writer.write]
  simpa [Sink.fresh] using h pieces Sink.fresh

example : (Writer.all .function Sink.fresh [([97, 98], 0), ([99], 1)]).calls = [[97, 98], [99]] := by decide

theorem ostream_bad (ps : List (Bytes × Nat)) (s : Sink) (h : s.good = false) : Writer.all .ostream s ps = s := by
  induction ps with
  | nil => rfl
  | cons p ps ih => simp [Writer.all, Writer.write, h, ih]

/-- C179 (`std::ostream`): what arrives is a beginning of the text, and the stream is `good()` afterwards exactly
when every byte has arrived. -/
theorem C179_ostream (pieces : List (Bytes × Nat)) :
    (Writer.all .ostream Sink.fresh pieces).text <+: (pieces.map Prod.fst).flatten ∧
    ((Writer.all .ostream Sink.fresh pieces).good = true ↔
      (Writer.all .ostream Sink.fresh pieces).text = (pieces.map Prod.fst).flatten) := by
  have h : ∀ (ps : List (Bytes × Nat)) (s : Sink), s.good = true →
      ∃ t, (Writer.all .ostream s ps).text = s.text ++ t ∧ t <+: (ps.map Prod.fst).flatten ∧
        ((Writer.all .ostream s ps).good = true ↔ t = (ps.map Prod.fst).flatten) := by
    intro ps
    induction ps with
    | nil => intro s hs; exact ⟨[], by simp [Writer.all], by simp, by simp [Writer.all, hs]⟩
    | cons p ps ih =>
      intro s hs
      obtain ⟨d, room⟩ := p
      by_cases hr : d.length ≤ room
      · have e : Writer.write .ostream s d room = { s with text := s.text ++ d, good := true } := by
          simp [Writer.write, hs, hr, List.take_of_length_le hr]
        obtain ⟨t, h1, h2, h3⟩ := ih { s with text := s.text ++ d, good := true } rfl
        refine ⟨d ++ t, ?_, ?_, ?_⟩
        · simp only [Writer.all, e, h1, List.append_assoc]
        · simpa using h2
        · simp only [Writer.all, e, h3]
          simp
      · have e : Writer.write .ostream s d room = { s with text := s.text ++ d.take room, good := false } := by
          simp [Writer.write, hs, hr]
        refine ⟨d.take room, ?_, ?_, ?_⟩
        · simp only [Writer.all, e]; rw [ostream_bad _ _ rfl]
        · simp only [List.map_cons, List.flatten_cons]
          exact (List.take_prefix _ _).trans (List.prefix_append _ _)
        · simp only [Writer.all, e]
          rw [ostream_bad _ _ rfl]
          simp only [List.map_cons, List.flatten_cons]
          constructor
          · intro h; exact absurd h (by simp)
          · intro h
            have := congrArg List.length h
            simp at this
            omega
  obtain ⟨t, h1, h2, h3⟩ := h pieces Sink.fresh rfl
  have h1' : (Writer.all .ostream Sink.fresh pieces).text = t := by simpa [Sink.fresh] using h1
  rw [h1']
  exact ⟨h2, h3⟩

example : (Writer.all .ostream Sink.fresh [([97, 98], 9), ([99, 100], 1), ([101], 9)]).text = [97, 98, 99] ∧
    (Writer.all .ostream Sink.fresh [([97, 98], 9), ([99, 100], 1), ([101], 9)]).good = false := by decide

/-- The bytes that do not arrive through `write` or `fwrite`. -/
theorem all_text (w : Writer) (hw : w = .syscall ∨ w = .stream) (ps : List (Bytes × Nat)) (s : Sink) :
    (w.all s ps).text = s.text ++ (ps.map fun p => p.1.take p.2).flatten := by
  induction ps generalizing s with
  | nil => simp [Writer.all]
  | cons p ps ih =>
    rcases hw with rfl | rfl <;> simp [Writer.all, ih, Writer.write]

theorem whole_iff (ps : List (Bytes × Nat)) :
    (ps.map fun p => p.1.take p.2).flatten = (ps.map Prod.fst).flatten ↔ ∀ p ∈ ps, p.1.length ≤ p.2 := by
  constructor
  · intro h
    have hl := congrArg List.length h
    have key : ∀ (qs : List (Bytes × Nat)),
        (qs.map fun p => p.1.take p.2).flatten.length ≤ (qs.map Prod.fst).flatten.length ∧
        ((qs.map fun p => p.1.take p.2).flatten.length = (qs.map Prod.fst).flatten.length →
          ∀ p ∈ qs, p.1.length ≤ p.2) := by
      intro qs
      induction qs with
      | nil => exact ⟨Nat.le_refl _, fun _ p hp => by cases hp⟩
      | cons q qs ih =>
        obtain ⟨i1, i2⟩ := ih
        simp only [List.map_cons, List.flatten_cons, List.length_append, List.length_take]
        refine ⟨by omega, fun e p hp => ?_⟩
        rcases List.mem_cons.1 hp with rfl | hp
        · omega
        · exact i2 (by omega) p hp
    exact (key ps).2 hl
  · intro h
    congr 1
    apply List.map_congr_left
    intro p hp
    exact List.take_of_length_le (h p hp)

/-- C179 (`fwrite`): the error indicator of the stream is set exactly when a byte is missing. -/
theorem C179_fwrite (pieces : List (Bytes × Nat)) :
    (Writer.all .stream Sink.fresh pieces).error = false ↔
      (Writer.all .stream Sink.fresh pieces).text = (pieces.map Prod.fst).flatten := by
  have h : ∀ (ps : List (Bytes × Nat)) (s : Sink),
      (Writer.all .stream s ps).error = false ↔ s.error = false ∧ ∀ p ∈ ps, p.1.length ≤ p.2 := by
    intro ps
    induction ps with
    | nil => intro s; simp [Writer.all]
    | cons p ps ih =>
      intro s
      simp [Writer.all, ih, Writer.write, and_assoc]
  rw [h, all_text .stream (.inr rfl)]
  simp only [Sink.fresh, List.nil_append, true_and]
  exact (whole_iff pieces).symm

example : (Writer.all .stream Sink.fresh [([97, 98], 1), ([99], 9)]).error = true ∧
    (Writer.all .stream Sink.fresh [([97, 98], 1), ([99], 9)]).text = [97, 99] := by decide

/-- C179 (`write`): the text arrives whole exactly when the system takes the whole of every piece.  Missing: a
caller cannot tell which of the two happened (`C179_negation`). -/
theorem C179_syscall_partial (pieces : List (Bytes × Nat)) :
    (Writer.all .syscall Sink.fresh pieces).text = (pieces.map Prod.fst).flatten ↔
      ∀ p ∈ pieces, p.1.length ≤ p.2 := by
  rw [all_text .syscall (.inl rfl)]
  simpa [Sink.fresh] using whole_iff pieces

example : (Writer.all .syscall Sink.fresh [([97, 98], 2), ([99], 9)]).text = [97, 98, 99] := by decide

/-- C179 does not hold for `printUsage(write, fd, usage)`: for every text of two pieces whose first has at least two
bytes, a short write leaves a hole in the middle of the text, and nothing that the caller can look at differs from a
call that wrote the whole text. -/
theorem C179_negation (a b : Bytes) (ha : 2 ≤ a.length) (hb : b ≠ []) :
    ∃ rooms rooms' : Nat × Nat,
      let short := Writer.all .syscall Sink.fresh [(a, rooms.1), (b, rooms.2)]
      let whole := Writer.all .syscall Sink.fresh [(a, rooms'.1), (b, rooms'.2)]
      whole.text = a ++ b ∧
      short.text.length < (a ++ b).length ∧ b <:+ short.text ∧ short.text ≠ b ∧
      short.good = whole.good ∧ short.error = whole.error ∧ short.calls = whole.calls := by
  refine ⟨(1, b.length), (a.length, b.length), ?_⟩
  simp only [Writer.all, Writer.write, Sink.fresh, List.nil_append, List.take_length]
  refine ⟨trivial, ?_, List.suffix_append _ _, ?_, trivial, trivial, trivial⟩
  · simp only [List.length_append, List.length_take]; omega
  · intro h
    have := congrArg List.length h
    simp only [List.length_append, List.length_take] at this
    omega

end Verif.Usage
