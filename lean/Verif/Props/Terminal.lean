import Verif.Model.Terminal
/-!
C168: the mode of the terminal after `StdinEventHandler`s.
-/
namespace Verif.Terminal

/-- One handler at a time: threads start and end one after the other, and the mode is set by others only in between. -/
inductive Alone : List Ev → Prop
  | nil : Alone []
  | other (m : Mode) {evs : List Ev} : Alone evs → Alone (.other m :: evs)
  | session (h : Nat) {evs : List Ev} : Alone evs → Alone (.start h :: .finish h :: evs)

/-- C168, the part that holds: while there is one handler at a time, the terminal is as its user left it whenever no
handler reads.  Missing: two handlers that read at the same time (`C168_negation`). -/
theorem C168_restored_partial {evs : List Ev} (h : Alone evs) (m : Mode) (old : Mode) :
    (run ⟨m, old⟩ evs).mode =
      ((evs.filterMap fun | .other m => some m | _ => none).getLast?).getD m := by
  induction h generalizing m old with
  | nil => rfl
  | other m' _ ih =>
    show (run ⟨m', old⟩ _).mode = _
    rw [ih]
    simp only [List.filterMap_cons]
    rw [List.getLast?_cons]
    simp
  | session h _ ih =>
    show (run ⟨m, m⟩ _).mode = _
    rw [ih]
    simp only [List.filterMap_cons]

/-- The handlers that read after some events: a thread starts if it is not running, and ends if it is. -/
inductive Reading : List Ev → List Nat → Prop
  | nil : Reading [] []
  | start (h : Nat) {evs : List Ev} {hs : List Nat} : Reading evs hs → h ∉ hs → Reading (evs ++ [.start h]) (h :: hs)
  | finish (h : Nat) {evs : List Ev} {hs : List Nat} :
    Reading evs hs → h ∈ hs → Reading (evs ++ [.finish h]) (hs.erase h)

/-- Two handlers read at the same time at some moment. -/
def Overlap (evs : List Ev) : Prop := ∃ pre hs, pre <+: evs ∧ Reading pre hs ∧ 2 ≤ hs.length

theorem run_snoc (s : St) (evs : List Ev) (ev : Ev) : run s (evs ++ [ev]) = step (run s evs) ev := by
  simp [run]

theorem Overlap.snoc {evs : List Ev} (ev : Ev) (h : Overlap evs) : Overlap (evs ++ [ev]) := by
  obtain ⟨pre, hs, h1, h2⟩ := h
  exact ⟨pre, hs, h1.trans (List.prefix_append _ _), h2⟩

theorem raw_raw (m : Mode) : raw (raw m) = raw m := rfl

/-- Either nobody has overlapped, and the terminal is as one handler or nobody leaves it, or both modes are raw. -/
theorem reading_modes {evs : List Ev} {hs : List Nat} (h : Reading evs hs) (m : Mode) :
    (hs = [] ∧ (run (init m) evs).mode = m) ∨
    (hs.length = 1 ∧ run (init m) evs = ⟨raw m, m⟩) ∨
    (Overlap evs ∧ run (init m) evs = ⟨raw m, raw m⟩) := by
  induction h with
  | nil => exact .inl ⟨rfl, rfl⟩
  | @start h evs hs hr hn ih =>
    rw [run_snoc]
    rcases ih with ⟨h1, h2⟩ | ⟨h1, h2⟩ | ⟨h1, h2⟩
    · refine .inr (.inl ⟨by simp [h1], ?_⟩)
      simp [step, setMode, h2]
    · refine .inr (.inr ⟨⟨_, h :: hs, List.prefix_rfl, .start h hr hn, by simp [h1]⟩, ?_⟩)
      simp [step, setMode, h2, raw_raw]
    · refine .inr (.inr ⟨h1.snoc _, ?_⟩)
      simp [step, setMode, h2, raw_raw]
  | @finish h evs hs hr hm ih =>
    rw [run_snoc]
    rcases ih with ⟨h1, h2⟩ | ⟨h1, h2⟩ | ⟨h1, h2⟩
    · simp [h1] at hm
    · refine .inl ⟨?_, by simp [step, setMode, h2]⟩
      apply List.eq_nil_of_length_eq_zero
      rw [List.length_erase_of_mem hm, h1]
    · refine .inr (.inr ⟨h1.snoc _, ?_⟩)
      simp [step, setMode, h2]

/-- C168: while at least one handler reads, the terminal gives single characters, without echo and signals, and is
otherwise as it was. -/
theorem C168_raw {evs : List Ev} {hs : List Nat} (h : Reading evs hs) (hne : hs ≠ []) (m : Mode) :
    (run (init m) evs).mode = ⟨false, false, false, m.rest⟩ := by
  rcases reading_modes h m with ⟨h1, _⟩ | ⟨_, h2⟩ | ⟨_, h2⟩
  · exact absurd h1 hne
  · rw [h2]; rfl
  · rw [h2]; rfl

/-- C168, the part that holds, for handlers that start and end in any order: when nobody reads any more, the terminal is as
before if no two of them have ever been reading at the same time.  Missing: `C168_negation`. -/
theorem C168_apart_partial {evs : List Ev} (h : Reading evs []) (hno : ¬ Overlap evs) (m : Mode) :
    (run (init m) evs).mode = m := by
  rcases reading_modes h m with ⟨_, h2⟩ | ⟨h1, _⟩ | ⟨h1, _⟩
  · exact h2
  · simp at h1
  · exact absurd h1 hno

theorem overlap_raw {s : St} {m : Mode} (h : s = ⟨raw m, raw m⟩) (ev : Ev) (hev : ∀ m', ev ≠ .other m') :
    step s ev = ⟨raw m, raw m⟩ := by
  subst h
  cases ev with
  | other m' => exact absurd rfl (hev m')
  | _ => rfl

theorem Reading.no_other {evs : List Ev} {hs : List Nat} (h : Reading evs hs) (m : Mode) : .other m ∉ evs := by
  induction h with
  | nil => simp
  | start h _ _ ih => simp [ih]
  | finish h _ _ ih => simp [ih]

theorem Reading.unique {evs : List Ev} {hs : List Nat} (h : Reading evs hs) :
    ∀ {hs' : List Nat}, Reading evs hs' → hs' = hs := by
  induction h with
  | nil =>
    intro hs' h'
    generalize he : ([] : List Ev) = e at h'
    cases h' with
    | nil => rfl
    | start => simp at he
    | finish => simp at he
  | @start h evs hs _ _ ih =>
    intro hs' h'
    generalize he : evs ++ [Ev.start h] = e at h'
    cases h' with
    | nil => simp at he
    | @start h2 evs2 hs2 hr2 _ =>
      have h3 := List.append_inj' he rfl
      obtain ⟨rfl, h4⟩ := h3
      simp at h4
      rw [ih hr2, h4]
    | finish => have h3 := (List.append_inj' he rfl).2; simp at h3
  | @finish h evs hs _ _ ih =>
    intro hs' h'
    generalize he : evs ++ [Ev.finish h] = e at h'
    cases h' with
    | nil => simp at he
    | @finish h2 evs2 hs2 hr2 _ =>
      have h3 := List.append_inj' he rfl
      obtain ⟨rfl, h4⟩ := h3
      simp at h4
      rw [ih hr2, h4]
    | start => have h3 := (List.append_inj' he rfl).2; simp at h3

/-- C168, negation: once two handlers have been reading at the same time, the terminal is left without line editing, echo
and signals when they have ended, in whatever order, whatever it was before, and handlers that read later do not repair
it. -/
theorem C168_negation {evs : List Ev} (h : Reading evs []) (ho : Overlap evs) (m : Mode) :
    (run (init m) evs).mode = ⟨false, false, false, m.rest⟩ := by
  obtain ⟨pre, hs, ⟨post, rfl⟩, hr, hl⟩ := ho
  have hpre : run (init m) pre = ⟨raw m, raw m⟩ := by
    rcases reading_modes hr m with ⟨h1, _⟩ | ⟨h1, _⟩ | ⟨_, h2⟩
    · simp [h1] at hl
    · omega
    · exact h2
  have hpost : ∀ (l : List Ev) (s : St), s = ⟨raw m, raw m⟩ → (∀ m', .other m' ∉ l) → run s l = ⟨raw m, raw m⟩ := by
    intro l
    induction l with
    | nil => intro s hs _; exact hs
    | cons ev l ih =>
      intro s hs hn
      refine ih _ (overlap_raw hs ev fun m' he => hn m' (by simp [he])) fun m' hm => hn m' (by simp [hm])
  have hrun : run (init m) (pre ++ post) = run (run (init m) pre) post := by simp [run]
  rw [hrun, hpost post _ hpre fun m' hm => h.no_other m' (by simp [hm])]
  rfl

/-- Both orders, for two handlers. -/
theorem overlap_two : (Reading [.start 1, .start 2, .finish 2, .finish 1] [] ∧
      Overlap [.start 1, .start 2, .finish 2, .finish 1]) ∧
    (Reading [.start 1, .start 2, .finish 1, .finish 2] [] ∧ Overlap [.start 1, .start 2, .finish 1, .finish 2]) := by
  have h0 : Reading [.start 1, .start 2] [2, 1] := .start 2 (.start 1 .nil (by decide)) (by decide)
  refine ⟨⟨?_, _, _, ⟨[.finish 2, .finish 1], rfl⟩, h0, by decide⟩, ?_, _, _, ⟨[.finish 1, .finish 2], rfl⟩, h0, by decide⟩
  · exact .finish 1 (.finish 2 h0 (by decide)) (by decide)
  · exact .finish 2 (.finish 1 h0 (by decide)) (by decide)

/-- Non-trivial cases. -/
example : Alone [.start 1, .finish 1, .other ⟨true, false, true, 7⟩, .start 2, .finish 2] :=
  .session 1 (.other _ (.session 2 .nil))

example : (run (init ⟨true, true, true, 5⟩)
    [.start 1, .finish 1, .other ⟨true, false, true, 7⟩, .start 2, .finish 2]).mode = ⟨true, false, true, 7⟩ := by decide

example : Reading [.start 1, .finish 1, .start 2, .finish 2] [] ∧ ¬ Overlap [.start 1, .finish 1, .start 2, .finish 2] := by
  have h : Reading [.start 1, .finish 1, .start 2, .finish 2] [] :=
    .finish 2 (.start 2 (.finish 1 (.start 1 .nil (by decide)) (by decide)) (by decide)) (by decide)
  refine ⟨h, fun ho => ?_⟩
  have h1 := C168_negation h ho ⟨true, true, true, 5⟩
  exact absurd h1 (by decide)

end Verif.Terminal
