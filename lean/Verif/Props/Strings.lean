import Verif.Lemmas.Strings
/-!
C05 - C10: split, replace, strip.
-/
namespace Verif.Strings
open Verif.Spec

variable {α : Type} [DecidableEq α]

/-! ## C05 -/

/-- C05: with a non-empty delimiter `split_string` returns; the result is never
empty, joins back to the source, no piece contains the delimiter, and the cuts are
the leftmost non-overlapping occurrences. -/
theorem C05_split (s d : List α) (hd : d ≠ []) :
    ∃ ps, SplitReturns s d ps ∧ ps ≠ [] ∧ List.intercalate d ps = s ∧
      (∀ p ∈ ps, ¬ Contains d p) ∧ LeftmostCut d s ps := by
  obtain ⟨ps, h, hc⟩ := split_spec (s := s) hd
  exact ⟨ps, ⟨_, h⟩, leftmostCut_ne_nil hc, leftmostCut_join hc, leftmostCut_pieces hd hc, hc⟩

/-- C05: the result is unique (the loop is deterministic and so is the specification). -/
theorem C05_unique (s d : List α) (hd : d ≠ []) (ps qs : List (List α))
    (h : SplitReturns s d ps) (hq : LeftmostCut d s qs) : ps = qs := by
  obtain ⟨ps', h', hc⟩ := split_spec (s := s) hd
  rw [splitReturns_iff_split hd, h'] at h
  cases h
  exact leftmostCut_unique hc hq

example : SplitReturns c!"aaab" c!"aa" [c!"", c!"ab"] := ⟨10, by decide⟩
example : SplitReturns c!"Some String" c!" " [c!"Some", c!"String"] := ⟨10, by decide⟩

/-! ## C06 -/

omit [DecidableEq α] in
theorem leftmostCut_woven {d s : List α} {ps} (h : LeftmostCut d s ps) : Woven [d] s ps := by
  induction h with
  | last => exact ⟨_, [], rfl, by simp, by simp⟩
  | cut hl hc ih =>
    rename_i s p q ps
    obtain ⟨p0, rest, rfl, hs, hd⟩ := ih
    refine ⟨p, (d, p0) :: rest, rfl, ?_, ?_⟩
    · rw [hl.1, hs]; simp
    · intro x hx
      rcases List.mem_cons.1 hx with rfl | hx
      · simp
      · exact hd x hx

/-- What `splitMany` does to the tail of a woven list. -/
theorem splitMany_tail (ds : List (List α)) (d : List α) (hd : d ≠ [])
    (rest : List (List α × List α)) (hr : ∀ x ∈ rest, x.1 ∈ ds) :
    ∃ rest' : List (List α × List α), splitMany (rest.map (·.2)) d = some (rest'.map (·.2)) ∧
      (rest'.map fun x => x.1 ++ x.2).flatten = (rest.map fun x => x.1 ++ x.2).flatten ∧
      (∀ x ∈ rest', x.1 ∈ d :: ds) ∧
      (∀ x ∈ rest', ¬ Contains d x.2 ∧ ∃ y ∈ rest, x.2 <:+: y.2) := by
  induction rest with
  | nil => exact ⟨[], rfl, rfl, by simp, by simp⟩
  | cons y rest ih =>
    obtain ⟨rest', h1, h2, h3, h4⟩ := ih (fun x hx => hr x (List.mem_cons_of_mem _ hx))
    obtain ⟨ps, h5, hc⟩ := split_spec (s := y.2) hd
    obtain ⟨p0, r, rfl, hs, hin⟩ := leftmostCut_woven hc
    have hpc := leftmostCut_pieces hd hc
    have hpi := leftmostCut_infix hc
    refine ⟨(y.1, p0) :: (r ++ rest'), ?_, ?_, ?_, ?_⟩
    · simp [splitMany, h1, h5]
    · simp only [List.map_cons, List.map_append, List.flatten_cons, List.flatten_append, h2]
      conv => rhs; rw [hs]
      simp
    · intro x hx
      simp only [List.mem_cons, List.mem_append] at hx
      rcases hx with rfl | hx | hx
      · exact List.mem_cons_of_mem _ (hr y (by simp))
      · have := hin x hx; simp at this; simp [this]
      · exact h3 x hx
    · intro x hx
      simp only [List.mem_cons, List.mem_append] at hx
      rcases hx with rfl | hx | hx
      · exact ⟨hpc _ (by simp), y, by simp, hpi _ (by simp)⟩
      · have hm : x.2 ∈ p0 :: r.map (·.2) := List.mem_cons_of_mem _ (List.mem_map_of_mem hx)
        exact ⟨hpc _ hm, y, by simp, hpi _ hm⟩
      · obtain ⟨h6, z, hz, h7⟩ := h4 x hx
        exact ⟨h6, z, List.mem_cons_of_mem _ hz, h7⟩

theorem splitMany_woven (ds : List (List α)) (d : List α) (hd : d ≠ []) (s : List α)
    (ps : List (List α)) (hw : Woven ds s ps) :
    ∃ qs, splitMany ps d = some qs ∧ Woven (d :: ds) s qs ∧
      ∀ q ∈ qs, ¬ Contains d q ∧ ∃ p ∈ ps, q <:+: p := by
  obtain ⟨p0, rest, rfl, hs, hr⟩ := hw
  obtain ⟨rest', h1, h2, h3, h4⟩ := splitMany_tail ds d hd rest hr
  obtain ⟨ps, h5, hc⟩ := split_spec (s := p0) hd
  obtain ⟨q0, r, rfl, hs0, hin⟩ := leftmostCut_woven hc
  have hpc := leftmostCut_pieces hd hc
  have hpi := leftmostCut_infix hc
  refine ⟨(q0 :: r.map (·.2)) ++ rest'.map (·.2), by simp [splitMany, h1, h5], ?_, ?_⟩
  · refine ⟨q0, r ++ rest', by simp, ?_, ?_⟩
    · rw [hs, hs0]; simp [h2]
    · intro x hx
      rcases List.mem_append.1 hx with hx | hx
      · have := hin x hx; simp at this; simp [this]
      · exact h3 x hx
  · intro q hq
    rcases List.mem_append.1 hq with hq | hq
    · exact ⟨hpc q hq, p0, by simp, hpi q hq⟩
    · obtain ⟨x, hx, rfl⟩ := List.mem_map.1 hq
      obtain ⟨h6, z, hz, h7⟩ := h4 x hx
      exact ⟨h6, z.2, List.mem_cons_of_mem _ (List.mem_map_of_mem hz), h7⟩

theorem splitSet_fold (delims done : List (List α)) (hne : ∀ d ∈ delims, d ≠ []) (s : List α)
    (ps : List (List α)) (hw : Woven done s ps) (hf : ∀ d ∈ done, ∀ p ∈ ps, ¬ Contains d p) :
    ∃ qs, delims.foldl (fun acc d => acc.bind (splitMany · d)) (some ps) = some qs ∧
      (∀ d ∈ delims ++ done, ∀ q ∈ qs, ¬ Contains d q) ∧ Woven (delims ++ done) s qs := by
  induction delims generalizing done ps with
  | nil => exact ⟨ps, rfl, by simpa using hf, by simpa using hw⟩
  | cons d delims ih =>
    obtain ⟨qs, h1, h2, h3⟩ := splitMany_woven done d (hne d (by simp)) s ps hw
    obtain ⟨rs, h4, h5, h6⟩ := ih (d :: done) (fun e he => hne e (List.mem_cons_of_mem _ he)) qs h2
      (by
        intro e he q hq
        rcases List.mem_cons.1 he with rfl | he
        · exact (h3 q hq).1
        · obtain ⟨-, p, hp, hqp⟩ := h3 q hq
          intro hc
          exact hf e he p hp (contains_iff_infix.2 ((contains_iff_infix.1 hc).trans hqp)))
    refine ⟨rs, by simpa [h1] using h4, ?_, ?_⟩
    · intro e he q hq; exact h5 e (by simp at he ⊢; grind) q hq
    · obtain ⟨p0, rest, a, b, c⟩ := h6
      exact ⟨p0, rest, a, b, fun x hx => by have := c x hx; simp at this ⊢; grind⟩

/-- C06: splitting by a set of non-empty delimiters returns pieces free of every
delimiter, and the source is the pieces with delimiters put back between them. -/
theorem C06_splitSet (s : List α) (delims : List (List α)) (hne : ∀ d ∈ delims, d ≠ []) :
    ∃ ps, splitSet s delims = some ps ∧ (∀ d ∈ delims, ∀ p ∈ ps, ¬ Contains d p) ∧
      Woven delims s ps := by
  obtain ⟨qs, h1, h2, h3⟩ := splitSet_fold delims [] hne s [s] ⟨s, [], rfl, by simp, by simp⟩
    (by simp)
  exact ⟨qs, h1, by simpa using h2, by simpa using h3⟩

example : splitSet c!"a,b;c" [c!",", c!";"] = some [c!"a", c!"b", c!"c"] := by decide

/-! ## C07 -/

/-- C07 is false: with the empty delimiter `split_string` never returns. -/
theorem C07_negation (s : List α) : ∀ ps, ¬ SplitReturns s ([] : List α) ps := by
  rintro ps ⟨fuel, h⟩
  have H : ∀ fuel start acc, start ≤ s.length → splitFuel s ([] : List α) fuel start acc = none := by
    intro fuel
    induction fuel with
    | zero => intros; rfl
    | succ fuel ih =>
      intro start acc hs
      unfold splitFuel findFrom
      have : find ([] : List α) (s.drop start) = some 0 := by
        cases s.drop start <;> simp [find]
      simp only [hs, if_true, this, Option.map_some]
      exact ih _ _ (by simpa using hs)
  rw [H fuel 0 [] (Nat.zero_le _)] at h
  cases h

/-- C07, what holds: it returns for every source and every non-empty delimiter
(missing: the empty delimiter, which hangs). -/
theorem C07_partial (s d : List α) (hd : d ≠ []) : ∃ ps, SplitReturns s d ps := by
  obtain ⟨ps, h, _⟩ := C05_split s d hd
  exact ⟨ps, h⟩

example : ∃ ps, SplitReturns c!"x::y" c!"::" ps := C07_partial _ _ (by decide)

/-! ## C08 -/

/-- C08: `replace_first` replaces the leftmost occurrence, or reports that there is none. -/
theorem C08_replaceFirst (st a b : List α) :
    (¬ Contains a st → replaceFirst st a b = (false, st)) ∧
    (∀ p q, LeftmostAt a st p q → replaceFirst st a b = (true, p ++ b ++ q)) ∧
    ((replaceFirst st a b).1 = true ↔ Contains a st) := by
  refine ⟨replaceFirst_of_not, fun p q => replaceFirst_of_leftmost, ?_⟩
  by_cases h : Contains a st
  · obtain ⟨p, q, hl⟩ := exists_leftmost h
    simp [replaceFirst_of_leftmost hl, h]
  · simp [replaceFirst_of_not h, h]

example : replaceFirst c!"a::b::c" c!"::" c!"/" = (true, c!"a/b::c") := by decide

/-! ## C09 -/

/-- C09 is false (termination): if the pattern occurs and the replacement contains
the pattern, `replace_all` never returns. -/
theorem C09_negation (st a b : List α) (hs : Contains a st) (hb : Contains a b) :
    ReplaceAllDiverges st a b := by
  refine replaceAll_diverges_of_invariant (Contains a) (fun _ h => h) ?_ hs
  intro s p q _ _
  rw [contains_iff_infix] at hb ⊢
  exact hb.trans ⟨p, q, rfl⟩

example : ReplaceAllDiverges c!"x/y" c!"/" c!"//" :=
  C09_negation _ _ _ ⟨1, c!"x", c!"y", by decide, rfl⟩ ⟨0, [], c!"/", by decide, rfl⟩

/-- C09 is false (termination): the empty pattern never returns. -/
theorem C09_negation_empty (st b : List α) : ReplaceAllDiverges st [] b :=
  C09_negation st [] b (contains_nil _) (contains_nil _)

/-- C09 (safety part, unconditional): whenever `replace_all` returns, the pattern is
gone and the returned number is the number of substitutions made, each of the then
leftmost occurrence.  The code keeps that number modulo 2^32. -/
theorem C09_result (st a b : List α) (n : Nat) (st' : List α) :
    ReplaceAllReturns st a b n st' ↔ Replacements a b n st st' ∧ ¬ Contains a st' :=
  replaceAllReturns_iff

/-- C09, termination for shrinking replacements. (Missing from the full claim: the
diverging inputs of `C09_negation`.) -/
theorem C09_terminates_shrinking_partial (st a b : List α) (h : b.length < a.length) :
    ∃ n st', ReplaceAllReturns st a b n st' := by
  refine replaceAll_terminates_of_measure List.length ?_ st
  intro s p q hl
  rw [hl.1]; simp; omega

/-- C09, ordinary behaviour: if the replacement shares no character with the pattern
(and is non-empty, or the pattern is a single character), `replace_all` returns the
simultaneous left-to-right replacement and the number of occurrences cut.
(Missing from the full claim: other overlapping patterns, see the next theorem.) -/
theorem C09_simultaneous_partial (st a b : List α) (ha : a ≠ []) (hd : ∀ c ∈ b, c ∉ a)
    (hb : b ≠ [] ∨ a.length = 1) :
    ∃ ps, LeftmostCut a st ps ∧
      ReplaceAllReturns st a b (ps.length - 1) (List.intercalate b ps) ∧
      SimultaneousReplace a b st (List.intercalate b ps) := by
  obtain ⟨ps, h⟩ := exists_leftmostCut ha st
  exact ⟨ps, h, replaceAll_simul (noNew_of_disjoint ha hd hb) h, ps, h, rfl⟩

example : ReplaceAllReturns c!"a::b:::c" c!"::" c!"/" 2 c!"a/b/:c" := ⟨10, by decide⟩

/-- C09 is also false in its second half: the code re-scans, so "aab" with "ab" -> "b"
gives "b" in two steps, not the simultaneous replacement "ab". -/
theorem C09_negation_rescan : ∃ st a b st' : Str, ReplaceAllReturns st a b 2 st' ∧
    ¬ SimultaneousReplace a b st st' := by
  refine ⟨c!"aab", c!"ab", c!"b", c!"b", ⟨5, by decide⟩, ?_⟩
  rintro ⟨ps, hc, h⟩
  have := C05_unique c!"aab" c!"ab" (by decide) [c!"a", c!""] ps ⟨10, by decide⟩ hc
  subst this
  exact absurd h (by decide)

example : ∃ n st', ReplaceAllReturns c!"aaabbb" c!"ab" c!"" n st' :=
  C09_terminates_shrinking_partial _ _ _ (by decide)
example : ReplaceAllReturns c!"aaabbb" c!"ab" c!"" 3 c!"" := ⟨10, by decide⟩

/-! ## C10 -/

theorem stripReturns_chars (cs : List α) (s : List α) :
    ∃ n, StripReturns ([] : List α) (cs.map fun c => [c]) s n (s.filter fun x => ¬ x ∈ cs) ∧
      n + (s.filter fun x => ¬ x ∈ cs).length = s.length := by
  induction cs generalizing s with
  | nil =>
    have e : s.filter (fun x => ¬ x ∈ ([] : List α)) = s := List.filter_eq_self.2 (by simp)
    rw [e]
    exact ⟨0, .nil s, by simp⟩
  | cons c cs ih =>
    obtain ⟨m, h1, h2⟩ := ih (s.filter (· ≠ c))
    have e : s.filter (fun x => ¬ x ∈ c :: cs) = (s.filter (· ≠ c)).filter (fun x => ¬ x ∈ cs) := by
      rw [List.filter_filter]; congr 1; funext x; simp [Bool.and_comm]
    refine ⟨s.count c + m, ?_, ?_⟩
    · rw [e]; exact .cons (replaceAll_char_filter c s) h1
    · rw [e]
      have : s.count c + (s.filter (· ≠ c)).length = s.length := by
        have := List.length_eq_countP_add_countP (l := s) (p := (· == c))
        rw [this, List.count, ← List.countP_eq_length_filter]
        simp
      omega

theorem stripReturns_det {b : List α} {us st n st' m st''} (h : StripReturns b us st n st')
    (h' : StripReturns b us st m st'') : n = m ∧ st' = st'' := by
  induction h generalizing m st'' with
  | nil => cases h'; exact ⟨rfl, rfl⟩
  | cons h1 h2 ih =>
    cases h' with
    | cons h1' h2' =>
      obtain ⟨rfl, rfl⟩ := replaceAllReturns_det h1 h1'
      obtain ⟨rfl, rfl⟩ := ih h2'
      exact ⟨rfl, rfl⟩

/-- C10: `strip_str` with its defaults returns; what is left is exactly the string
without line feeds and carriage returns, in order, and the returned number is the
number of characters removed (no other result is possible). -/
theorem C10_strip (s : Str) :
    (∃ n st', StripReturns [] defaultUndesired s n st') ∧
    ∀ n st', StripReturns [] defaultUndesired s n st' →
      st' = s.filter (fun c => c ≠ '\n' ∧ c ≠ '\r') ∧ n + st'.length = s.length := by
  obtain ⟨n, h1, h2⟩ := stripReturns_chars ['\n', '\r'] s
  have e : s.filter (fun x => ¬ x ∈ ['\n', '\r']) = s.filter (fun c => c ≠ '\n' ∧ c ≠ '\r') := by
    congr 1; funext x; simp
  rw [e] at h1 h2
  refine ⟨⟨n, _, h1⟩, ?_⟩
  intro m st' h
  obtain ⟨rfl, rfl⟩ := stripReturns_det h h1
  exact ⟨rfl, h2⟩

end Verif.Strings
