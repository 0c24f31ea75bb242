import Verif.Model.PyLog
/-!
C116, C117: what the Python logger writes.
-/
namespace Verif.PyLog

/-- Specification: the level last set, or the one given to the constructor. -/
def levelAfter (l0 : Int) : List Op → Int
  | [] => l0
  | .setLevel l :: ops => levelAfter l ops
  | .activateDebug :: ops => levelAfter 10 ops
  | _ :: ops => levelAfter l0 ops

/-- Specification: the level last given to `logging.disable`. -/
def disableAfter (d0 : Int) : List Op → Int
  | [] => d0
  | .disable l :: ops => disableAfter l ops
  | _ :: ops => disableAfter d0 ops

/-- The lines a message of level `l` would give after these calls. -/
def lines (valid : Str → Bool) (l0 : Int) (ops : List Op) (l : Int) (m : Str) : List Line :=
  (step valid (run valid (create l0) ops) (.log l m)).1

/-- No message of level `l` is logged in these calls. -/
def Unused (l : Int) (ops : List Op) : Prop := ∀ m, Op.log l m ∉ ops

/-- What is remembered about other levels does not matter. -/
theorem lookup_cons_ne {l k : Int} {b : Bool} (c : List (Int × Bool)) (h : k ≠ l) :
    List.lookup l ((k, b) :: c) = List.lookup l c := by
  have : (l == k) = false := by simpa using fun e => h e.symm
  simp [List.lookup, this]

theorem run_level (valid : Str → Bool) (g : Logger) (ops : List Op) :
    (run valid g ops).level = levelAfter g.level ops ∧ (run valid g ops).disable = disableAfter g.disable ops := by
  induction ops generalizing g with
  | nil => exact ⟨rfl, rfl⟩
  | cons o ops ih =>
    have := ih (step valid g o).2
    cases o with
    | setFormat f =>
      simp only [run, List.foldl_cons, step, setFormat, levelAfter, disableAfter] at this ⊢
      split at this <;> rename_i h <;> simp only [h] <;> exact this
    | setLevel l => exact this
    | activateDebug => exact this
    | disable l => exact this
    | log l m =>
      have e1 : (step valid g (.log l m)).2.level = g.level := by
        simp only [step, log, isEnabledFor]; split <;> rfl
      have e2 : (step valid g (.log l m)).2.disable = g.disable := by
        simp only [step, log, isEnabledFor]; split <;> rfl
      rw [e1, e2] at this
      exact this

theorem run_unused (valid : Str → Bool) (g : Logger) (l : Int) (ops : List Op) (h : Unused l ops)
    (hg : g.cache.lookup l = none) : (run valid g ops).cache.lookup l = none := by
  induction ops generalizing g with
  | nil => exact hg
  | cons o ops ih =>
    refine ih (step valid g o).2 (fun m hm => h m (List.mem_cons_of_mem _ hm)) ?_
    cases o with
    | setFormat f => simp only [step, setFormat]; split <;> exact hg
    | setLevel l => exact hg
    | activateDebug => exact hg
    | disable l => exact hg
    | log k m =>
      have hk : k ≠ l := fun e => h m (by rw [e]; exact List.mem_cons_self)
      simp only [step, log, isEnabledFor]
      split
      · exact hg
      · exact (lookup_cons_ne _ hk).trans hg

theorem run_kept (valid : Str → Bool) (g : Logger) (l : Int) (b : Bool) (ops : List Op)
    (hg : g.cache.lookup l = some b) : (run valid g ops).cache.lookup l = some b := by
  induction ops generalizing g with
  | nil => exact hg
  | cons o ops ih =>
    refine ih (step valid g o).2 ?_
    cases o with
    | setFormat f => simp only [step, setFormat]; split <;> exact hg
    | setLevel l => exact hg
    | activateDebug => exact hg
    | disable l => exact hg
    | log k m =>
      simp only [step, log, isEnabledFor]
      split
      · exact hg
      · rename_i hn
        have hk : k ≠ l := by
          rintro rfl
          rw [hg] at hn
          cases hn
        exact (lookup_cons_ne _ hk).trans hg

theorem run_formats (valid : Str → Bool) (g : Logger) (ops : List Op) :
    (run valid g ops).formats =
      g.formats ++ ops.filterMap fun | .setFormat f => if valid f then some f else none | _ => none := by
  induction ops generalizing g with
  | nil => simp [run]
  | cons o ops ih =>
    have := ih (step valid g o).2
    cases o with
    | setFormat f =>
      simp only [run, List.foldl_cons, step, setFormat, List.filterMap_cons] at this ⊢
      by_cases hf : valid f = true
      · simp only [hf, if_true] at this ⊢
        rw [this]; simp
      · simp only [hf] at this ⊢
        rw [this]; simp
    | setLevel l => exact this
    | activateDebug => exact this
    | disable l => exact this
    | log l m =>
      have e1 : (step valid g (.log l m)).2.formats = g.formats := by
        simp only [step, log, isEnabledFor]; split <;> rfl
      rw [e1] at this
      exact this

theorem lines_eq (valid : Str → Bool) (l0 : Int) (ops : List Op) (l : Int) (m : Str) :
    lines valid l0 ops l m =
      if (isEnabledFor (run valid (create l0) ops) l).1 then
        (run valid (create l0) ops).formats.map (⟨·, l, m⟩) else [] := rfl

theorem formats_ne (valid : Str → Bool) (l0 : Int) (ops : List Op) : (run valid (create l0) ops).formats ≠ [] := by
  rw [run_formats]
  simp [create, setLevel]

theorem lines_ne (valid : Str → Bool) (l0 : Int) (ops : List Op) (l : Int) (m : Str) :
    lines valid l0 ops l m ≠ [] ↔ (isEnabledFor (run valid (create l0) ops) l).1 = true := by
  rw [lines_eq]
  split
  · rename_i h
    simp only [h, iff_true]
    intro e
    exact formats_ne valid l0 ops (List.map_eq_nil_iff.1 e)
  · rename_i h
    simp [h]

theorem enabled_fresh (g : Logger) (l : Int) (h : g.cache.lookup l = none) :
    (isEnabledFor g l).1 = true ↔ g.disable < l ∧ g.level ≤ l := by
  simp only [isEnabledFor, h]
  split <;> simp <;> omega

theorem enabled_cached (g : Logger) (l : Int) (b : Bool) (h : g.cache.lookup l = some b) : (isEnabledFor g l).1 = b := by
  simp only [isEnabledFor, h]

theorem run_append (valid : Str → Bool) (g : Logger) (a b : List Op) :
    run valid g (a ++ b) = run valid (run valid g a) b := by simp [run, List.foldl_append]

/-- C116, part: a message of a level that was not used before is written if and only if its level is at least the one last set
(and above the one last disabled). -/
theorem C116_unused_partial (valid : Str → Bool) (l0 : Int) (ops : List Op) (l : Int) (m : Str) (h : Unused l ops) :
    lines valid l0 ops l m ≠ [] ↔ disableAfter 0 ops < l ∧ levelAfter l0 ops ≤ l := by
  rw [lines_ne, enabled_fresh _ _ (run_unused valid _ l ops h rfl)]
  obtain ⟨h1, h2⟩ := run_level valid (create l0) ops
  rw [h1, h2]
  exact Iff.rfl

/-- C116: the global logger, before any call, writes exactly the messages of level `INFO` (20) or more, and after
`activate_debug`, if nothing of that level was logged before, those of level `DEBUG` (10) or more. -/
theorem C116_global (valid : Str → Bool) (ops : List Op) (l : Int) (m : Str) :
    ((step valid global (.log l m)).1 ≠ [] ↔ 20 ≤ l) ∧
    (Unused l ops → (∀ d, Op.disable d ∉ ops) →
      ((step valid (run valid global (ops ++ [.activateDebug])) (.log l m)).1 ≠ [] ↔ 10 ≤ l)) := by
  have hdis : ∀ (o : List Op) (d0 : Int), (∀ d, Op.disable d ∉ o) → disableAfter d0 o = d0 := by
    intro o
    induction o with
    | nil => intro d0 _; rfl
    | cons x xs ih =>
      intro d0 h
      cases x with
      | disable d => exact absurd (List.mem_cons_self) (h d)
      | _ => exact ih d0 (fun d hd => h d (List.mem_cons_of_mem _ hd))
  have hlev : ∀ (o : List Op) (l0 : Int), levelAfter l0 (o ++ [.activateDebug]) = 10 := by
    intro o
    induction o with
    | nil => intro _; rfl
    | cons x xs ih => intro l0; cases x <;> exact ih _
  constructor
  · have h := C116_unused_partial valid 20 [] l m (fun _ h => by cases h)
    change lines valid 20 [] l m ≠ [] ↔ _
    rw [h]
    simp only [disableAfter, levelAfter]
    omega
  · intro hu hd
    have h := C116_unused_partial valid 20 (ops ++ [.activateDebug]) l m (fun m' hm => by
      rcases List.mem_append.1 hm with hm | hm
      · exact hu m' hm
      · simp at hm)
    change lines valid 20 (ops ++ [.activateDebug]) l m ≠ [] ↔ _
    rw [h, hlev, hdis _ _ (fun d h => by
      rcases List.mem_append.1 h with h | h
      · exact hd d h
      · simp at h)]
    omega

/-- What `set_log_level` really does: a message is written if and only if one of its level would have been when that level
was used for the first time; levels set after that have no effect on it. -/
theorem C116_first_decides (valid : Str → Bool) (l0 : Int) (before after : List Op) (l : Int) (m m' : Str)
    (h : Unused l before) :
    lines valid l0 (before ++ .log l m :: after) l m' ≠ [] ↔ disableAfter 0 before < l ∧ levelAfter l0 before ≤ l := by
  rw [← C116_unused_partial valid l0 before l m h, lines_ne, lines_ne, run_append]
  have hn : (run valid (create l0) before).cache.lookup l = none := run_unused valid _ l before h rfl
  generalize run valid (create l0) before = g at hn
  have hc : (isEnabledFor g l).2.cache.lookup l = some (isEnabledFor g l).1 := by
    simp [isEnabledFor, hn, List.lookup]
  have hk := run_kept valid (isEnabledFor g l).2 l _ after hc
  rw [show run valid g (.log l m :: after) = run valid (isEnabledFor g l).2 after from rfl, enabled_cached _ _ _ hk]

/-- No call changes the level. -/
def NoChange (ops : List Op) : Prop :=
  ∀ o ∈ ops, (∃ f, o = .setFormat f) ∨ ∃ l m, o = Op.log l m

theorem levelAfter_append (l0 : Int) (a b : List Op) : levelAfter l0 (a ++ b) = levelAfter (levelAfter l0 a) b := by
  induction a generalizing l0 with
  | nil => rfl
  | cons o a ih => cases o <;> exact ih _

theorem disableAfter_append (l0 : Int) (a b : List Op) :
    disableAfter l0 (a ++ b) = disableAfter (disableAfter l0 a) b := by
  induction a generalizing l0 with
  | nil => rfl
  | cons o a ih => cases o <;> exact ih _

theorem noChange_after (l d : Int) (ops : List Op) (h : NoChange ops) : levelAfter l ops = l ∧ disableAfter d ops = d := by
  induction ops with
  | nil => exact ⟨rfl, rfl⟩
  | cons o ops ih =>
    have ih := ih fun o ho => h o (List.mem_cons_of_mem _ ho)
    rcases h o List.mem_cons_self with ⟨f, rfl⟩ | ⟨k, m, rfl⟩ <;> exact ih

theorem first_use (l : Int) (ops : List Op) :
    Unused l ops ∨ ∃ a m b, ops = a ++ .log l m :: b ∧ Unused l a := by
  induction ops with
  | nil => exact Or.inl fun m h => by cases h
  | cons o ops ih =>
    by_cases ho : ∃ m, o = .log l m
    · obtain ⟨m, rfl⟩ := ho
      exact Or.inr ⟨[], m, ops, rfl, fun m h => by cases h⟩
    · rcases ih with h | ⟨a, m, b, rfl, h⟩
      · refine Or.inl fun m hm => ?_
        rcases List.mem_cons.1 hm with e | e
        · exact ho ⟨m, e.symm⟩
        · exact h m e
      · refine Or.inr ⟨o :: a, m, b, rfl, fun m hm => ?_⟩
        rcases List.mem_cons.1 hm with e | e
        · exact ho ⟨m, e.symm⟩
        · exact h m e

/-- C116, part: after `set_log_level(L)`, until the next change, a message is written if and only if its level is at least `L`
(nothing being disabled), provided its level was not used before that call. -/
theorem C116_set_partial (valid : Str → Bool) (l0 : Int) (before after : List Op) (L l : Int) (m : Str)
    (h : Unused l before) (ha : NoChange after) (hd : disableAfter 0 before < l) :
    lines valid l0 (before ++ .setLevel L :: after) l m ≠ [] ↔ L ≤ l := by
  have hu : Unused l (before ++ [.setLevel L]) := by
    intro m hm
    rcases List.mem_append.1 hm with e | e
    · exact h m e
    · rcases List.mem_cons.1 e with e | e
      · cases e
      · cases e
  have key : ∀ a, NoChange a → (disableAfter 0 ((before ++ [.setLevel L]) ++ a) < l ∧
      levelAfter l0 ((before ++ [.setLevel L]) ++ a) ≤ l ↔ L ≤ l) := by
    intro a hna
    rw [disableAfter_append, levelAfter_append, (noChange_after _ 0 a hna).1, (noChange_after L _ a hna).2,
      disableAfter_append, levelAfter_append]
    exact and_iff_right hd
  rw [show before ++ .setLevel L :: after = (before ++ [.setLevel L]) ++ after by simp]
  rcases first_use l after with hu' | ⟨a, m', b, rfl, hu'⟩
  · rw [C116_unused_partial valid l0 _ l m ?_]
    · exact key after ha
    · intro m hm
      rcases List.mem_append.1 hm with e | e
      · exact hu m e
      · exact hu' m e
  · rw [← List.append_assoc, C116_first_decides valid l0 _ b l m' m ?_]
    · exact key a fun o ho => ha o (List.mem_append_left _ ho)
    · intro m hm
      rcases List.mem_append.1 hm with e | e
      · exact hu m e
      · exact hu' m e

example : lines (fun _ => true) 20 [.log 30 c!"w", .activateDebug, .log 10 c!"d"] 10 c!"e" ≠ [] :=
  (C116_set_partial (fun _ => true) 20 [.log 30 c!"w"] [.log 10 c!"d"] 10 10 c!"e"
    (by intro m h; simp at h) (by intro o h; rcases List.mem_singleton.1 h with rfl; exact Or.inr ⟨_, _, rfl⟩)
    (by decide)).2 (by decide)

/-- C116 does not hold: debug messages stay silent after `activate_debug()` if one was logged before, because the object is not
among those whose cache `setLevel` empties. -/
theorem C116_negation_silent : ∃ ops, levelAfter 20 ops = 10 ∧ disableAfter 0 ops = 0 ∧
    ∀ (valid : Str → Bool) (m : Str), lines valid 20 ops 10 m = [] := by
  refine ⟨[.log 10 c!"a", .activateDebug], rfl, rfl, fun valid m => ?_⟩
  rfl

/-- C116 does not hold: messages are still written after a higher level was set. -/
theorem C116_negation_noisy : ∃ ops, levelAfter 20 ops = 40 ∧ disableAfter 0 ops = 0 ∧
    ∀ (valid : Str → Bool) (m : Str), lines valid 20 ops 20 m ≠ [] := by
  refine ⟨[.log 20 c!"a", .setLevel 40], rfl, rfl, fun valid m => ?_⟩
  exact (C116_first_decides valid 20 [] [.setLevel 40] 20 c!"a" m (fun m h => by cases h)).2 ⟨by decide, by decide⟩

/-- C117, part: without `set_format` a message that is written is written once, in the default format, and unchanged. -/
theorem C117_once_partial (valid : Str → Bool) (l0 : Int) (ops : List Op) (l : Int) (m : Str)
    (h : ∀ f, Op.setFormat f ∉ ops) :
    lines valid l0 ops l m = [] ∨
      lines valid l0 ops l m = [⟨c!"[%(asctime)s][%(name)s][%(levelname)s] %(message)s", l, m⟩] := by
  rw [lines_eq]
  split
  · refine Or.inr ?_
    rw [run_formats]
    have : ops.filterMap (fun | .setFormat f => if valid f then some f else none | _ => none) = ([] : List Str) := by
      rw [List.filterMap_eq_nil_iff]
      intro o ho
      cases o with
      | setFormat f => exact absurd ho (h f)
      | _ => rfl
    rw [this]
    rfl
  · exact Or.inl rfl

example : lines (fun _ => true) 20 [.log 20 c!"a", .setLevel 30] 30 c!"b" =
    [⟨c!"[%(asctime)s][%(name)s][%(levelname)s] %(message)s", 30, c!"b"⟩] := by decide

/-- What `set_format` really does: a message that is written is written in the default format and then once more in every format set
so far, in the order in which they were set. -/
theorem C117_formats (valid : Str → Bool) (l0 : Int) (ops : List Op) (l : Int) (m : Str) :
    lines valid l0 ops l m = [] ∨
      (lines valid l0 ops l m).map Line.format =
        c!"[%(asctime)s][%(name)s][%(levelname)s] %(message)s" ::
          ops.filterMap (fun | .setFormat f => if valid f then some f else none | _ => none) := by
  rw [lines_eq]
  split
  · refine Or.inr ?_
    rw [run_formats, List.map_map]
    simp only [create, setLevel, defaultFormat, List.singleton_append]
    exact List.map_id _
  · exact Or.inl rfl

/-- C117 does not hold: after `set_format` a message is written twice, first in the old format. -/
theorem C117_negation (f : Str) (l : Int) (m : Str) (hl : 20 ≤ l) : ∃ ops, (∀ o ∈ ops, o = .setFormat f) ∧
    lines (fun _ => true) 20 ops l m =
      [⟨c!"[%(asctime)s][%(name)s][%(levelname)s] %(message)s", l, m⟩, ⟨f, l, m⟩] := by
  refine ⟨[.setFormat f], by simp, ?_⟩
  have h1 : ¬ (0 : Int) ≥ l := by omega
  simp [lines, step, log, isEnabledFor, run, create, setLevel, setFormat, defaultFormat, h1, hl]

/-- Non-trivial case for `C116_unused_partial`: two messages of other levels, everything up to 10 disabled. -/
example : Unused 30 [.log 20 c!"a", .setLevel 25, .disable 10, .log 40 c!"b"] ∧
    disableAfter 0 [.log 20 c!"a", .setLevel 25, .disable 10, .log 40 c!"b"] = 10 ∧
    levelAfter 20 [.log 20 c!"a", .setLevel 25, .disable 10, .log 40 c!"b"] = 25 ∧
    lines (fun _ => true) 20 [.log 20 c!"a", .setLevel 25, .disable 10, .log 40 c!"b"] 30 c!"c" ≠ [] := by
  refine ⟨fun m => ?_, by decide, by decide, by decide⟩
  simp

/-- Non-trivial case for `C116_set_partial` and `C116_first_decides`: the level is raised above that of a
message before anything of its level is logged, and the format is changed afterwards. -/
example : Unused 30 [.log 20 c!"a"] ∧ NoChange [.setFormat c!"%(message)s", .log 50 c!"b"] ∧
    lines (fun _ => true) 20 ([.log 20 c!"a"] ++ .setLevel 40 :: [.setFormat c!"%(message)s", .log 50 c!"b"])
      30 c!"c" = [] := by
  refine ⟨fun m => by simp, ?_, by decide⟩
  intro o ho
  simp only [List.mem_cons, List.not_mem_nil, or_false] at ho
  rcases ho with rfl | rfl
  · exact .inl ⟨_, rfl⟩
  · exact .inr ⟨_, _, rfl⟩

end Verif.PyLog
