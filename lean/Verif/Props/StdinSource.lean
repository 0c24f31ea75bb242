import Verif.Model.StdinSource
/-!
C170: what the arguments `read_lines` and `source` of a `StdinEventHandler` do.
-/
namespace Verif.Editor

/-- A character without a meaning of its own. -/
def Plain (c : Char) : Prop := c ≠ esc ∧ c ≠ '\n' ∧ c ≠ '\r' ∧ c ≠ bs ∧ c ≠ del ∧ c ≠ ctrlC

theorem step_plain (w : Nat) (ign : Bool) (line : Str) (hist : History.Hist) (c : Char) (rest : Str) (out : List Str)
    (n : Nat) (hc : Plain c) :
    step w ign ⟨line, line.length, hist, c :: rest, out, n + 1⟩ =
      .ok ⟨line ++ [c], (line ++ [c]).length, hist, rest, out, n + 1⟩ := by
  obtain ⟨h1, h2, h3, h4, h5, h6⟩ := hc
  simp [step, getc, h1, h2, h3, h4, h5, h6]

theorem steps_plain (w : Nat) (l : Str) (hl : ∀ c ∈ l, Plain c) (flags : List Bool) (line : Str) (hist : History.Hist)
    (rest : Str) (out : List Str) (n : Nat) :
    steps w (List.replicate l.length false ++ flags) ⟨line, line.length, hist, l ++ rest, out, n + 1⟩ =
      steps w flags ⟨line ++ l, (line ++ l).length, hist, rest, out, n + 1⟩ := by
  induction l generalizing line with
  | nil => simp
  | cons c l ih =>
    simp only [List.length_cons, List.replicate_succ, List.cons_append, steps]
    rw [step_plain w false line hist c (l ++ rest) out n (hl c (by simp))]
    simp only []
    rw [ih (fun c hc => hl c (by simp [hc]))]
    simp

theorem steps_lines (w : Nat) (ls : List Str) (hl : ∀ l ∈ ls, ∀ c ∈ l, Plain c) (hist : History.Hist) (out : List Str)
    (n : Nat) (hn : ls.length ≤ n) :
    ∃ s', steps w (List.replicate (ls.map fun l => l ++ ['\n']).flatten.length false)
        ⟨[], 0, hist, (ls.map fun l => l ++ ['\n']).flatten, out, n⟩ = .ok s' ∧ s'.out = out ++ ls ∧
      s'.active = n - ls.length := by
  induction ls generalizing hist out n with
  | nil => exact ⟨_, rfl, by simp⟩
  | cons l ls ih =>
    cases n with
    | zero => simp at hn
    | succ n =>
      have hn' : ls.length ≤ n := by simpa using hn
      have h1 := steps_plain w l (hl l (by simp))
        (List.replicate (['\n'] ++ (ls.map fun l => l ++ ['\n']).flatten).length false) [] hist
        (['\n'] ++ (ls.map fun l => l ++ ['\n']).flatten) out n
      have hlen : List.replicate ((l :: ls).map fun l => l ++ ['\n']).flatten.length false =
          List.replicate l.length false ++
            List.replicate (['\n'] ++ (ls.map fun l => l ++ ['\n']).flatten).length false := by
        rw [List.replicate_append_replicate]
        congr 1
        simp
      have hin : ((l :: ls).map fun l => l ++ ['\n']).flatten =
          l ++ (['\n'] ++ (ls.map fun l => l ++ ['\n']).flatten) := by simp
      rw [hlen, hin]
      change ∃ s', steps w _ ⟨[], ([] : Str).length, hist, _, out, n + 1⟩ = .ok s' ∧ _
      rw [h1]
      simp only [List.cons_append, List.nil_append, List.length_cons, List.replicate_succ, steps]
      have hs : step w false ⟨l, l.length, hist, '\n' :: (ls.map fun l => l ++ ['\n']).flatten, out, n + 1⟩ =
          .ok ⟨[], 0, if l ≠ [] then History.add hist l else hist, (ls.map fun l => l ++ ['\n']).flatten, out ++ [l],
            n⟩ := by
        simp [step, getc, esc]
      rw [hs]
      simp only []
      obtain ⟨s', h2, h3, h4⟩ := ih (fun l h => hl l (by simp [h])) (if l ≠ [] then History.add hist l else hist)
        (out ++ [l]) n hn'
      exact ⟨s', h2, by rw [h3]; simp, by rw [h4]; simp⟩

/-- C170, the part that holds: if `source` is the standard input and `read_lines` is `true` (the defaults), the callback
gets the lines of the source, up to as many as are asked for, each without its line feed.  Missing: any other source
(`C170_negation_source`) and `read_lines = false` (`C170_negation_words`). -/
theorem C170_lines_partial (w : Nat) (a : Args) (stdin : Str) (hs : a.source = stdin) (_hr : a.readLines = true)
    (ls : List Str) (hl : ∀ l ∈ ls, ∀ c ∈ l, Plain c) (ht : a.source = (ls.map fun l => l ++ ['\n']).flatten)
    (hn : ls.length ≤ a.lines) :
    ∃ s', steps w (List.replicate stdin.length false) (construct a stdin) = .ok s' ∧ s'.out = ls ∧
      s'.active = a.lines - ls.length := by
  obtain ⟨s', h1, h2, h3⟩ := steps_lines w ls hl History.init [] a.lines hn
  refine ⟨s', ?_, by simpa using h2, h3⟩
  rw [← hs, ht]
  exact h1

/-- C170, negation: another source is ignored: with the lines of `source` it should give one callback, and however long it
runs it gives none if nothing comes from the standard input, and what comes from there otherwise. -/
theorem C170_negation_source :
    (∀ (a : Args) (flags : List Bool), a.lines ≠ 0 →
      ∃ s', steps 80 flags (construct a []) = .ok s' ∧ s'.out = []) ∧
    ∃ s', steps 80 [false, false] (construct ⟨true, 1, c!"ls\n"⟩ c!"x\n") = .ok s' ∧ s'.out = [c!"x"] := by
  refine ⟨fun a flags hn => ?_, ?_⟩
  · have key : ∀ (flags : List Bool) (s : St), s.input = [] → s.active ≠ 0 → s.cur ≤ s.line.length → s.out = [] →
        ∃ s', steps 80 flags s = .ok s' ∧ s'.out = [] := by
      intro flags
      induction flags with
      | nil => intro s _ _ _ h; exact ⟨s, rfl, h⟩
      | cons f fs ih =>
        intro s h1 h2 h3 h4
        obtain ⟨line, cur, hist, input, out, active⟩ := s
        simp only at h1 h2 h3 h4
        subst h1 h4
        have hs : step 80 f ⟨line, cur, hist, [], [], active⟩ =
            .ok ⟨line.take cur ++ eofChar :: line.drop cur, cur + 1, hist, [], [], active⟩ := by
          have e1 : eofChar ≠ esc := by decide
          have e2 : eofChar ≠ '\n' := by decide
          have e3 : eofChar ≠ '\r' := by decide
          have e4 : eofChar ≠ bs := by decide
          have e5 : eofChar ≠ del := by decide
          have e6 : eofChar ≠ ctrlC := by decide
          simp [step, getc, h2, e1, e2, e3, e4, e5, e6, h3]
        simp only [steps, hs]
        refine ih _ rfl h2 ?_ rfl
        simp only [List.length_append, List.length_take, List.length_cons, List.length_drop]
        omega
    exact key flags (construct a []) rfl hn (Nat.le_refl _) rfl
  · exact ⟨_, rfl, by with_unfolding_all decide⟩

/-- C170, negation: with `read_lines = false` the words of a line are not given one by one. -/
theorem C170_negation_words :
    ∃ s', steps 80 [false, false, false, false] (construct ⟨false, 2, c!"a b\n"⟩ c!"a b\n") = .ok s' ∧
      s'.out = [c!"a b"] := ⟨_, rfl, by with_unfolding_all decide⟩

/-- Non-trivial case. -/
example : (∀ l ∈ [c!"ls -l", c!"quit"], ∀ c ∈ l, Plain c) ∧
    c!"ls -l\nquit\n" = ([c!"ls -l", c!"quit"].map fun l => l ++ ['\n']).flatten := by
  refine ⟨?_, by decide⟩
  unfold Plain
  decide

end Verif.Editor
