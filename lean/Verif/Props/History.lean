import Verif.Model.History
/-!
C41, C42: the command history behaves like a cursor in the list of commands.
-/
namespace Verif.History

/-- An ideal history: commands before the cursor (oldest first) and from the cursor on. -/
structure Zip where
  past : List Str
  future : List Str
deriving DecidableEq

/-- Add a non-empty command at the end and put the cursor after it. -/
def Zip.add (z : Zip) (c : Str) : Zip := if c = [] then z else ⟨z.past ++ z.future ++ [c], []⟩

/-- Step back and show the command there; blank at the oldest one. -/
def Zip.prev (z : Zip) : Zip × Str :=
  match z.past.getLast? with
  | some c => (⟨z.past.dropLast, c :: z.future⟩, c)
  | none => (z, [])

/-- Step forward and show the command there; blank after the newest one. -/
def Zip.next (z : Zip) : Zip × Str :=
  match z.future with
  | [] => (z, [])
  | c :: rest => (⟨z.past ++ [c], rest⟩, rest.headD [])

def Zip.step (z : Zip) : Op → Zip × Str
  | .add c => (z.add c, [])
  | .prev => z.prev
  | .next => z.next

def Zip.run (z : Zip) : List Op → Zip × List Str
  | [] => (z, [])
  | o :: os => let r := z.step o; let q := r.1.run os; (q.1, r.2 :: q.2)

/-- The stored history stands for the ideal one. -/
def Stands (h : Hist) (z : Zip) : Prop :=
  h.cmds = z.past ++ z.future ∧ h.idx = z.past.length

theorem step_stands (h : Hist) (z : Zip) (o : Op) (hz : Stands h z) (hne : h.cmds ≠ [])
    (hb : h.cmds.length < sizeMod) :
    ∃ h', step h o = .ok (h', (z.step o).2) ∧ Stands h' (z.step o).1 ∧ h'.cmds ≠ [] ∧
      h'.cmds.length ≤ h.cmds.length + 1 := by
  obtain ⟨cmds, idx⟩ := h
  obtain ⟨past, future⟩ := z
  obtain ⟨e1, e2⟩ := hz
  simp only at e1 e2 hne hb
  subst e1 e2
  cases o with
  | add c =>
    by_cases hc : c = []
    · subst hc
      exact ⟨_, rfl, ⟨rfl, rfl⟩, by simpa [add] using hne, by simp [add]⟩
    · refine ⟨_, rfl, ?_, ?_, ?_⟩
      · simp [Stands, add, hc, Zip.step, Zip.add]; omega
      · simp [add, hc]
      · simp [add, hc]; omega
  | prev =>
    cases hp : past.getLast? with
    | none =>
      have : past = [] := by simpa using hp
      subst this
      exact ⟨⟨future, 0⟩, by simp [step, prev, Zip.step, Zip.prev], by
        simp [Stands, Zip.step, Zip.prev], by simpa using hne, by simp⟩
    | some c =>
      have hpast : past = past.dropLast ++ [c] := by
        have hne' : past ≠ [] := by intro e; subst e; cases hp
        rw [List.getLast?_eq_some_getLast hne'] at hp
        have := List.dropLast_concat_getLast hne'
        rw [Option.some.inj hp] at this
        exact this.symm
      generalize past.dropLast = init at hpast
      subst hpast
      refine ⟨⟨(init ++ [c]) ++ future, init.length⟩, ?_, ?_, ?_, ?_⟩
      · simp [step, prev, access, Zip.step, Zip.prev]
      · simp [Stands, Zip.step, Zip.prev]
      · simp
      · simp
  | next =>
    have hlast : ((past ++ future).length + (sizeMod - 1)) % sizeMod = (past ++ future).length - 1 := by
      have : 0 < (past ++ future).length := List.length_pos_iff.2 hne
      simp only [sizeMod] at hb ⊢
      omega
    cases future with
    | nil =>
      have hpos : 0 < past.length := by
        have := List.length_pos_iff.2 hne
        simpa using this
      refine ⟨⟨past ++ [], past.length⟩, ?_, ?_, hne, by simp⟩
      · simp only [step, next]
        rw [hlast]
        rw [if_neg (by simp only [List.append_nil]; omega),
          if_neg (by simp only [List.append_nil]; omega)]
        rfl
      · simp [Stands, Zip.step, Zip.next]
    | cons c rest =>
      refine ⟨⟨past ++ c :: rest, past.length + 1⟩, ?_, ?_, hne, by simp⟩
      · simp only [step, next]
        rw [hlast]
        cases rest with
        | nil =>
          rw [if_neg (by simp), if_pos (by simp)]
          have : (past.length + 1) % sizeMod = past.length + 1 ∨ past.length + 1 = sizeMod := by
            simp only [List.length_append, List.length_cons, List.length_nil, sizeMod] at hb ⊢
            omega
          rcases this with e | e
          · rw [e]; rfl
          · exfalso
            simp only [List.length_append, List.length_cons, List.length_nil] at hb
            omega
        | cons d rest =>
          rw [if_pos (by simp)]
          have : (past ++ c :: d :: rest)[past.length + 1]? = some d := by
            rw [List.getElem?_append_right (by omega)]
            have : past.length + 1 - past.length = 1 := by omega
            rw [this]; rfl
          simp [access, this, Zip.step, Zip.next]
      · simp [Stands, Zip.step, Zip.next]

/-- C42: with at least one command stored, every sequence of calls answers like the ideal cursor. -/
theorem C42_cursor (h : Hist) (z : Zip) (hz : Stands h z) (hne : h.cmds ≠ []) (os : List Op)
    (hb : h.cmds.length + os.length < sizeMod) :
    ∃ h', run h os = .ok (h', (z.run os).2) ∧ Stands h' (z.run os).1 ∧ h'.cmds ≠ [] := by
  induction os generalizing h z with
  | nil => exact ⟨h, rfl, hz, hne⟩
  | cons o os ih =>
    simp only [List.length_cons] at hb
    obtain ⟨h1, s1, s2, s3, s4⟩ := step_stands h z o hz hne (by omega)
    obtain ⟨h2, r1, r2, r3⟩ := ih h1 (z.step o).1 s2 s3 (by omega)
    refine ⟨h2, ?_, r2, r3⟩
    simp [run, s1, r1, Zip.run]

/-- C42: adding a first command to a new history reaches such a state, with the cursor after it. -/
theorem C42_start (c : Str) (hc : c ≠ []) :
    Stands (add init c) ⟨[c], []⟩ ∧ (add init c).cmds ≠ [] := by
  simp [add, init, hc, Stands]

/-- C42: previous directly after an add gives the command just added. -/
theorem C42_prev_after_add (h : Hist) (c : Str) (hc : c ≠ []) :
    ∃ h', prev (add h c) = .ok (h', c) := by
  refine ⟨⟨h.cmds ++ [c], h.cmds.length⟩, ?_⟩
  simp [prev, add, hc, access]

/-- Moving does not change the stored commands. -/
theorem move_cmds (h h' : Hist) (o : Op) (ho : o = .prev ∨ o = .next) (r : Str)
    (hs : step h o = .ok (h', r)) : h'.cmds = h.cmds := by
  rcases ho with rfl | rfl
  · simp only [step, prev] at hs
    split at hs
    · unfold access at hs
      split at hs
      · cases hs; rfl
      · cases hs
    · cases hs; rfl
  · simp only [step, next] at hs
    split at hs
    · unfold access at hs
      split at hs
      · cases hs; rfl
      · cases hs
    · split at hs <;> (cases hs; rfl)

/-- C42: next undoes previous, and previous undoes next, while the cursor stays inside. -/
theorem C42_undo (h : Hist) (z : Zip) (hz : Stands h z) (hne : h.cmds ≠ [])
    (hb : h.cmds.length < sizeMod) :
    (z.past ≠ [] → ∃ h1 h2 a b, prev h = .ok (h1, a) ∧ next h1 = .ok (h2, b) ∧ h2 = h) ∧
    (z.future ≠ [] → ∃ h1 h2 a b, next h = .ok (h1, a) ∧ prev h1 = .ok (h2, b) ∧ h2 = h) := by
  have eqOf : ∀ h h' : Hist, ∀ z, Stands h z → Stands h' z → h' = h := by
    rintro ⟨a, b⟩ ⟨c, d⟩ z ⟨h1, h2⟩ ⟨h3, h4⟩
    simp only at h1 h2 h3 h4
    rw [h1, h2, h3, h4]
  constructor
  · intro hp
    obtain ⟨h1, a1, a2, a3, -⟩ := step_stands h z .prev hz hne hb
    have hl := move_cmds h h1 .prev (Or.inl rfl) _ a1
    obtain ⟨h2, b1, b2, -, -⟩ := step_stands h1 _ .next a2 a3 (by rw [hl]; exact hb)
    refine ⟨h1, h2, _, _, a1, b1, eqOf h h2 z hz ?_⟩
    have : ((z.step .prev).1.step .next).1 = z := by
      obtain ⟨past, future⟩ := z
      simp only at hp
      have := List.dropLast_concat_getLast hp
      simp [Zip.step, Zip.prev, Zip.next, List.getLast?_eq_some_getLast hp, this]
    rwa [this] at b2
  · intro hf
    obtain ⟨h1, a1, a2, a3, -⟩ := step_stands h z .next hz hne hb
    have hl := move_cmds h h1 .next (Or.inr rfl) _ a1
    obtain ⟨h2, b1, b2, -, -⟩ := step_stands h1 _ .prev a2 a3 (by rw [hl]; exact hb)
    refine ⟨h1, h2, _, _, a1, b1, eqOf h h2 z hz ?_⟩
    have : ((z.step .next).1.step .prev).1 = z := by
      obtain ⟨past, future⟩ := z
      cases future with
      | nil => exact absurd rfl hf
      | cons c rest => simp [Zip.step, Zip.prev, Zip.next]
    rwa [this] at b2

/-- C41: the code does leave the history: two `get_next_command` on a new object. -/
theorem C41_negation : run init [.next, .next] = .ub := by decide

/-- What the ideal history shows is a stored command or blank. -/
theorem Zip.run_results (z : Zip) (os : List Op) :
    ∀ r ∈ (z.run os).2, r = [] ∨ r ∈ z.past ++ z.future ∨ Op.add r ∈ os := by
  induction os generalizing z with
  | nil => intro r hr; cases hr
  | cons o os ih =>
    intro r hr
    simp only [Zip.run, List.mem_cons] at hr
    have first : (z.step o).2 = [] ∨ (z.step o).2 ∈ z.past ++ z.future := by
      cases o with
      | add c => exact Or.inl rfl
      | prev =>
        simp only [Zip.step, Zip.prev]
        cases hp : z.past.getLast? with
        | none => exact Or.inl rfl
        | some c => exact Or.inr (List.mem_append_left _ (List.mem_of_getLast? hp))
      | next =>
        simp only [Zip.step, Zip.next]
        cases hf : z.future with
        | nil => exact Or.inl rfl
        | cons c rest =>
          cases rest with
          | nil => exact Or.inl rfl
          | cons d rest => right; simp
    have content : ∀ x, x ∈ (z.step o).1.past ++ (z.step o).1.future →
        x ∈ z.past ++ z.future ∨ o = .add x := by
      intro x hx
      cases o with
      | add c =>
        simp only [Zip.step, Zip.add] at hx
        split at hx
        · exact Or.inl hx
        · simp only [List.append_nil, List.mem_append, List.mem_singleton] at hx
          rcases hx with hx | rfl
          · exact Or.inl (List.mem_append.2 hx)
          · exact Or.inr rfl
      | prev =>
        left
        simp only [Zip.step, Zip.prev] at hx
        cases hp : z.past.getLast? with
        | none => rw [hp] at hx; exact hx
        | some c =>
          rw [hp] at hx
          simp only [List.mem_append, List.mem_cons] at hx ⊢
          rcases hx with hx | rfl | hx
          · exact Or.inl (List.dropLast_subset _ hx)
          · exact Or.inl (List.mem_of_getLast? hp)
          · exact Or.inr hx
      | next =>
        left
        simp only [Zip.step, Zip.next] at hx
        cases hf : z.future with
        | nil => rw [hf] at hx; simpa [hf] using hx
        | cons c rest => rw [hf] at hx; simpa using hx
    rcases hr with rfl | hr
    · rcases first with h | h
      · exact Or.inl h
      · exact Or.inr (Or.inl h)
    · rcases ih _ r hr with h | h | h
      · exact Or.inl h
      · rcases content r h with h | h
        · exact Or.inr (Or.inl h)
        · exact Or.inr (Or.inr (by simp [h]))
      · exact Or.inr (Or.inr (by simp [h]))

/-- Calls before the first non-empty command. -/
def idle (o : Op) : Prop := o = .prev ∨ o = .next ∨ o = .add []

/-- C41 (the code is safe only if `get_next_command` is called at most once before the first non-empty
command; `C41_negation` shows the other case): then every sequence of calls returns only added commands
and blanks.  Missing for the full property: the second `get_next_command` on an empty history. -/
theorem C41_safe_partial (pre post : List Op) (c : Str) (hc : c ≠ [])
    (hpre : ∀ o ∈ pre, idle o) (hn : pre.count .next ≤ 1) (hb : post.length + 1 < sizeMod) :
    ∃ h rs, run init (pre ++ .add c :: post) = .ok (h, rs) ∧
      ∀ r ∈ rs, r = [] ∨ Op.add r ∈ pre ++ .add c :: post := by
  have before : ∀ (pre : List Op) (i : Nat), (∀ o ∈ pre, idle o) →
      (i = sizeMod - 1 ∧ pre.count .next ≤ 1 ∨ i = 0 ∧ pre.count .next = 0) →
      ∀ os, ∃ i', run ⟨[], i⟩ (pre ++ os) =
        match run ⟨[], i'⟩ os with
        | .ok (h, rs) => .ok (h, pre.map (fun _ => []) ++ rs)
        | .throw e => .throw e
        | .abort => .abort
        | .ub => .ub := by
    intro pre
    induction pre with
    | nil =>
      intro i _ _ os
      refine ⟨i, ?_⟩
      simp only [List.nil_append, List.map_nil]
      split <;> simp_all
    | cons o pre ih =>
      intro i hid hi os
      have hrest : ∀ o ∈ pre, idle o := fun x hx => hid x (by simp [hx])
      have key : ∃ j, step ⟨[], i⟩ o = .ok (⟨[], j⟩, []) ∧
          (j = sizeMod - 1 ∧ pre.count .next ≤ 1 ∨ j = 0 ∧ pre.count .next = 0) := by
        rcases hid o (by simp) with rfl | rfl | rfl
        · exact ⟨i, by simp [step, prev], by simpa [List.count_cons] using hi⟩
        · rcases hi with ⟨rfl, h⟩ | ⟨_, h⟩
          · refine ⟨0, by decide, Or.inr ⟨rfl, ?_⟩⟩
            simp only [List.count_cons_self] at h
            omega
          · simp at h
        · exact ⟨i, by simp [step, add], by simpa [List.count_cons] using hi⟩
      obtain ⟨j, hj, hj'⟩ := key
      obtain ⟨i', hi'⟩ := ih j hrest hj' os
      refine ⟨i', ?_⟩
      simp only [List.cons_append, run, hj, hi', List.map_cons]
      cases hr : run ⟨[], i'⟩ os <;> rfl
  obtain ⟨i', hi'⟩ := before pre (sizeMod - 1) hpre (Or.inl ⟨rfl, hn⟩) (.add c :: post)
  have hs : Stands (add ⟨[], i'⟩ c) ⟨[c], []⟩ := by simp [add, hc, Stands]
  obtain ⟨h', r1, -, -⟩ := C42_cursor (add ⟨[], i'⟩ c) ⟨[c], []⟩ hs (by simp [add, hc]) post
    (by simp [add, hc]; omega)
  have e : run ⟨[], i'⟩ (.add c :: post) = .ok (h', [] :: (Zip.run ⟨[c], []⟩ post).2) := by
    simp [run, step, r1]
  refine ⟨h', pre.map (fun _ => []) ++ [] :: (Zip.run ⟨[c], []⟩ post).2, ?_, ?_⟩
  · show run ⟨[], sizeMod - 1⟩ _ = _
    rw [hi', e]
  · intro r hr
    simp only [List.mem_append, List.mem_cons, List.mem_map] at hr
    rcases hr with ⟨_, _, rfl⟩ | rfl | hr
    · exact Or.inl rfl
    · exact Or.inl rfl
    · rcases Zip.run_results _ _ r hr with h | h | h
      · exact Or.inl h
      · right
        simp only [List.append_nil, List.mem_singleton] at h
        simp [h]
      · exact Or.inr (by simp [h])

/-- Non-trivial case: a run that goes back twice, too far, and forward again. -/
example :
    (∀ o ∈ [Op.prev, .next], idle o) ∧
    ∃ h, run init [.prev, .next, .add c!"a", .add c!"b", .prev, .prev, .prev, .next, .next] =
      .ok (h, [[], [], [], [], c!"b", c!"a", [], c!"b", []]) := by
  refine ⟨by simp [idle], ⟨⟨[c!"a", c!"b"], 2⟩, by decide⟩⟩

/-- Non-trivial case for `C42_cursor` and `C42_undo`: the cursor stands between two commands. -/
example : Stands ⟨[c!"a", c!"b", c!"c"], 1⟩ ⟨[c!"a"], [c!"b", c!"c"]⟩ ∧
    run ⟨[c!"a", c!"b", c!"c"], 1⟩ [.next, .prev, .prev, .next] =
      .ok (⟨[c!"a", c!"b", c!"c"], 1⟩, [c!"c", c!"b", c!"a", c!"b"]) :=
  ⟨⟨rfl, rfl⟩, by decide⟩

end Verif.History
