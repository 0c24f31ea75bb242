import Verif.Model.CMakeSource
/-!
C201: builds in the source directory are refused, and no others.
-/
namespace Verif.CMakeSource

variable {D : Type} [DecidableEq D]

/-- C201, partial: a project that is configured, in whichever way `cmake` was called and whatever was done before, has the
build directory of no module in its source directory, if no two texts lead to one directory and modules are added by
their names.  Missing: symbolic links (`C201_negation_link`), modules with a build directory given
(`C201_negation_module`). -/
theorem C201_apart_partial (real : Str → D) (hreal : ∀ a b, real a = real b → a = b) (names : List Str) (w : World D)
    (c : Call) (h : (run real (added names) w c).2 = .configured) :
    ∀ x ∈ writes (added names) (dirs real w c).1 (dirs real w c).2, real x.1 ≠ real x.2 := by
  have hne : (dirs real w c).1 ≠ (dirs real w c).2 := by
    intro e
    simp only [run] at h
    split at h
    · simp at h
    · rw [show inSource (dirs real w c).1 (dirs real w c).2 = true by simp [inSource, e]] at h
      simp at h
  intro x hx hr
  have e := hreal _ _ hr
  simp only [writes, added, List.mem_cons, List.mem_map] at hx
  rcases hx with rfl | ⟨n, -, rfl⟩
  · exact hne e
  · exact hne (List.append_cancel_right e)

/-- C201, partial: with `-S` and `-B`, a project is configured and its build system generated in the build directory exactly
when that is not the source directory, whatever was tried before, if the build directory has not been used for another
source and no two texts lead to one directory. -/
theorem C201_explicit_partial (real : Str → D) (hreal : ∀ a b, real a = real b → a = b)
    (mods : Str → Str → List (Str × Str)) (w : World D) (s b : Str) (hc : ∀ home, w.cache (real b) = some home → home = s) :
    ((run real mods w (.explicit s b)).2 = .configured ↔ real s ≠ real b) ∧
    ((run real mods w (.explicit s b)).2 = .refused ↔ real s = real b) ∧
    (real s ≠ real b → (run real mods w (.explicit s b)).1.generated (real b) = true) := by
  have h0 : other real w s b = false := by
    cases hb : w.cache (real b) with
    | none => simp [other, hb]
    | some home => simp [other, hb, hc home hb]
  have hr : real s = real b ↔ s = b := ⟨hreal _ _, fun e => by rw [e]⟩
  simp only [run, dirs, h0, hr]
  by_cases e : s = b
  · simp [inSource, e]
  · simp [inSource, e, writes, hr]

/-- C201: a build that is refused has generated nothing. -/
theorem C201_refused_generates_nothing (real : Str → D) (mods : Str → Str → List (Str × Str)) (w : World D) (c : Call)
    (h : (run real mods w c).2 = .refused) : (run real mods w c).1.generated = w.generated := by
  simp only [run] at h ⊢
  split at h
  · simp at h
  · rename_i h1
    split at h
    · rename_i h2
      simp [h1, h2]
    · simp at h

/-- A call that would be refused: `cmake` with the path of a directory whose cache names that directory as its source. -/
theorem run_trapped {real : Str → D} {mods : Str → Str → List (Str × Str)} {w : World D} {src : Str}
    (h : w.cache (real src) = some src) (cwd : Str) :
    (run real mods w (.path cwd src)).2 = .refused ∧ (run real mods w (.path cwd src)).1.cache (real src) = some src := by
  simp [run, dirs, h, inSource, other]

/-- C201 is not so: once a build in the source directory has been refused, every later `cmake <source>`, from whichever
directory, is refused as well, for ever: the refused call leaves a `CMakeCache.txt` in the source directory, and `cmake`
takes a directory that has one for a build directory. -/
theorem C201_negation_again (real : Str → D) (mods : Str → Str → List (Str × Str)) (w : World D) (src : Str)
    (h : w.cache (real src) = none) (cwds : List Str) :
    (runs real mods w (.path src src :: cwds.map fun d => .path d src)).2 =
      List.replicate (cwds.length + 1) .refused := by
  have h1 : (run real mods w (.path src src)).2 = .refused ∧
      (run real mods w (.path src src)).1.cache (real src) = some src := by
    simp [run, dirs, h, inSource, other]
  have key : ∀ (l : List Str) (w : World D), w.cache (real src) = some src →
      (runs real mods w (l.map fun d => .path d src)).2 = List.replicate l.length .refused := by
    intro l
    induction l with
    | nil => intro w _; rfl
    | cons d l ih =>
      intro w hw
      have ht := run_trapped (mods := mods) hw d
      simp only [List.map_cons, runs, List.length_cons, List.replicate_succ, ht.1, ih _ ht.2]
  simp only [runs, h1.1, key cwds _ h1.2, List.replicate_succ]

/-- C201 is not so: of two texts of one directory, one given as source and one as build directory, the build is not refused
and a build system is generated in the source directory. -/
theorem C201_negation_link (real : Str → D) (mods : Str → Str → List (Str × Str)) (w : World D) (s b : Str) (hne : s ≠ b)
    (hr : real s = real b) (hc : w.cache (real b) = none) :
    (run real mods w (.explicit s b)).2 = .configured ∧
    (run real mods w (.explicit s b)).1.generated (real s) = true := by
  simp [run, dirs, hc, inSource, hne, writes, hr, other]

/-- C201 is not so: a module that is added with its source directory as build directory is not refused, and its files are
generated there. -/
theorem C201_negation_module (real : Str → D) (mods : Str → Str → List (Str × Str)) (w : World D) (s b m : Str)
    (hne : s ≠ b) (hm : (m, m) ∈ mods s b) (hc : w.cache (real b) = none) :
    (run real mods w (.explicit s b)).2 = .configured ∧
    (run real mods w (.explicit s b)).1.generated (real m) = true := by
  simp only [run, dirs, hc, inSource, hne, writes, other]
  refine ⟨by simp, ?_⟩
  simp only [Bool.false_eq_true, if_false, decide_false, List.any_cons, Bool.or_eq_true]
  exact .inr (.inr (List.any_eq_true.2 ⟨_, hm, by simp⟩))

/-! ## Cases -/

/-- Nothing has been done; texts are the directories. -/
def fresh : World Str := ⟨fun _ => none, fun _ => false⟩

/-- `cmake /s` in `/s/build`, for a project with a module. -/
example : (run id (added [c!"m"]) fresh (.path c!"/s/build" c!"/s")).2 = .configured ∧
    (run id (added [c!"m"]) fresh (.path c!"/s/build" c!"/s")).1.generated c!"/s/build/m" = true := by decide

/-- After a refused build, one with `-S` and `-B` is configured. -/
example : (runs id (added [c!"m"]) fresh
    [.path c!"/s" c!"/s", .path c!"/s/build" c!"/s", .explicit c!"/s" c!"/s/build"]).2 =
    [.refused, .refused, .configured] := by decide

/-- A link `/l` to `/s`. -/
example : (run (fun p => if p = c!"/l" then c!"/s" else p) (added []) fresh (.explicit c!"/s" c!"/l")).2 = .configured :=
  (C201_negation_link _ _ fresh c!"/s" c!"/l" (by decide) rfl rfl).1

/-- A module whose build directory is given. -/
example : (run id (fun _ _ => [(c!"/s/m", c!"/s/m")]) fresh (.explicit c!"/s" c!"/b")).1.generated c!"/s/m" = true :=
  (C201_negation_module _ _ fresh c!"/s" c!"/b" c!"/s/m" (by decide) (by simp) rfl).2

end Verif.CMakeSource
