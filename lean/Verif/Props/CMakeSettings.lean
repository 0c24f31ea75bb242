import Verif.Lemmas.CMake
import Verif.Props.CMakeOptions

/-!
C131: `load_project_settings`.
-/
namespace Verif.CMake

/-- The variables that get a default. -/
def settingNames : List Str :=
  [c!"MODULE_TARGET_NAME", c!"MODULE_NAME_LARGE", c!"MODULE_SUMMARY", c!"MODULE_DESCRIPTION",
    c!"MODULE_MACRO", c!"MODULE_THIRDPARTY_PATH", c!"MODULE_FIND_PACKAGES", c!"MODULE_DEPENDENCIES",
    c!"MODULE_VERSION_FILE_PATH", c!"MODULE_LICENSE_FILE_PATH", c!"MODULE_HEADERS_PATH",
    c!"MODULE_HEADERS_INSTALL_PATH", c!"MODULE_PUBLIC_EXTRA_HEADERS",
    c!"MODULE_PRIVATE_EXTRA_HEADERS"]

/-- A value that CMake takes for "no" or "not found". -/
def Denies (v : Str) : Prop := v = [] ∨ No v ∨ v = c!"NOTFOUND" ∨ c!"-NOTFOUND" <:+ v

/-- A setting that counts: a value that does not say no. -/
def Given (e : Env) (x v : Str) : Prop := e.get x = some v ∧ ¬ Denies v

/-- No such setting. -/
def Missing (e : Env) (x : Str) : Prop := ∀ v, e.get x = some v → Denies v

/-- A value written as a list of non-empty words, at least one. -/
def Listed (v : Str) : Prop :=
  ∃ l : List Str, l ≠ [] ∧ (∀ w ∈ l, w ≠ [] ∧ ';' ∉ w) ∧ v = [';'].intercalate l

theorem isOff_iff (v : Str) : isOff v = true ↔ Denies v := by
  unfold isOff Denies No upper
  simp only [Bool.or_eq_true, decide_eq_true_eq, List.isSuffixOf_iff_suffix, List.mem_cons,
    List.not_mem_nil, or_false]
  constructor
  · rintro ((((((((h | h) | h) | h) | h) | h) | h) | h) | h) <;> simp [h]
  · rintro (h | (h | h | h | h | h | h) | h | h) <;> simp [h]

theorem joined_intercalate : ∀ l : List Str, joined l = [';'].intercalate l
  | [] => rfl
  | [v] => by simp [joined]
  | v :: w :: l => by
    rw [show joined (v :: w :: l) = v ++ ';' :: joined (w :: l) from rfl, joined_intercalate (w :: l)]
    simp [List.intercalate, List.intersperse]

theorem listed_joined {v : Str} (h : Listed v) : joined (elements v) = v ∧ elements v ≠ [] := by
  obtain ⟨l, h0, hw, rfl⟩ := h
  rw [← joined_intercalate, elements_joined hw]
  exact ⟨rfl, h0⟩

theorem listed_oneWord {v : Str} (h : OneWord v) : Listed v :=
  ⟨[v], by simp, by simpa [OneWord] using h, by simp⟩

theorem names_ok : ∀ x ∈ settingNames, IsName x := by decide

theorem truth_given {e : Env} {x v : Str} (hx : IsName x) (h : Given e x v) : truth e x = true := by
  rw [truth_name e hx, h.1]
  have : isOff v = false := by
    rw [← Bool.not_eq_true, isOff_iff]
    exact h.2
  simp [this]

theorem truth_missing {e : Env} {x : Str} (hx : IsName x) (h : Missing e x) : truth e x = false := by
  rw [truth_name e hx]
  cases hv : e.get x with
  | none => rfl
  | some v =>
    have := (isOff_iff v).2 (h v hv)
    simp [this]

theorem given_or_missing (e : Env) (x : Str) : (∃ v, Given e x v) ∨ Missing e x := by
  cases hv : e.get x with
  | none => exact Or.inr (fun v h => absurd (hv.symm.trans h) (by simp))
  | some v =>
    by_cases hd : Denies v
    · exact Or.inr (fun w h => by
        have : v = w := by rw [hv] at h; exact Option.some.inj h
        rwa [← this])
    · exact Or.inl ⟨v, hv, hd⟩

/-! ### The steps, one by one -/

theorem runAll_ne {l : List Step} {e : Env} {x : Str} (h : ∀ s ∈ l, x ≠ s.name) :
    (runAll l e).vars x = e.vars x := by
  induction l generalizing e with
  | nil => rfl
  | cons s l ih =>
    show (runAll l (s.run e)).vars x = _
    rw [ih (fun t ht => h t (by simp [ht]))]
    exact vars_fallback_ne e _ (h s (by simp))

theorem runAll_cache (l : List Step) (e : Env) : (runAll l e).cache = e.cache := by
  induction l generalizing e with
  | nil => rfl
  | cons s l ih =>
    show (runAll l (s.run e)).cache = _
    rw [ih]
    exact fallback_cache e _ _

theorem get_congr {e e' : Env} {x : Str} (hv : e.vars x = e'.vars x) (hc : e.cache = e'.cache) :
    e.get x = e'.get x := by
  simp [Env.get, hv, hc]

theorem runAll_get_ne {l : List Step} {e : Env} {x : Str} (h : ∀ s ∈ l, x ≠ s.name) :
    (runAll l e).get x = e.get x :=
  get_congr (runAll_ne h) (runAll_cache l e)

/-- A step whose variable no other step sets, and whose default later steps do not
touch, leaves its variable with its own value or with the default of the end. -/
theorem runAll_step {l1 l2 : List Step} {s : Step} {e : Env}
    (h1 : ∀ t ∈ l1, s.name ≠ t.name) (h2 : ∀ t ∈ l2, s.name ≠ t.name)
    (hd : s.default (runAll l1 e) = s.default (runAll (l1 ++ s :: l2) e)) :
    (runAll (l1 ++ s :: l2) e).vars s.name =
      (e.fallback s.name (s.default (runAll (l1 ++ s :: l2) e))).vars s.name := by
  have hsplit : runAll (l1 ++ s :: l2) e = runAll l2 (s.run (runAll l1 e)) := by
    simp [runAll, List.foldl_append]
  conv => lhs; rw [hsplit, runAll_ne h2]
  show ((runAll l1 e).fallback s.name (s.default (runAll l1 e))).vars s.name = _
  rw [hd]
  have hv : (runAll l1 e).vars s.name = e.vars s.name := runAll_ne h1
  have ht : truth (runAll l1 e) s.name = truth e s.name :=
    truth_congr (get_congr hv (runAll_cache l1 e))
  unfold Env.fallback
  rw [ht]
  split
  · exact hv
  · rw [vars_set_self, vars_set_self]

theorem runAll_fix {l : List Step} {e : Env} (h : ∀ s ∈ l, s.run e = e) : runAll l e = e := by
  induction l with
  | nil => rfl
  | cons s l ih =>
    show runAll l (s.run e) = e
    rw [h s (by simp)]
    exact ih (fun t ht => h t (by simp [ht]))

/-! ### The whole macro -/

/-- `MODULE_MACRO` as a step, for a module name that is one word. -/
def macroStep : Step :=
  ⟨c!"MODULE_MACRO", fun e => (elements (e.text c!"MODULE_NAME")).map upper⟩

def allSteps : List Step := describeSteps ++ macroStep :: placeSteps

theorem runAll_append (l1 l2 : List Step) (e : Env) :
    runAll (l1 ++ l2) e = runAll l2 (runAll l1 e) := by
  simp [runAll, List.foldl_append]

theorem text_congr {e e' : Env} {x : Str} (h : e.get x = e'.get x) : e.text x = e'.text x := by
  simp [Env.text, h]

theorem load_all {e : Env} {n : Str} (hn : e.get c!"MODULE_NAME" = some n) (hw : OneWord n) :
    loadSettings e = some (runAll allSteps e) := by
  have hn1 : (runAll describeSteps e).text c!"MODULE_NAME" = n := by
    rw [text_congr (runAll_get_ne (by decide))]
    simp [Env.text, hn]
  have hm : macroName (runAll describeSteps e) = some (macroStep.run (runAll describeSteps e)) := by
    unfold macroName Step.run Env.fallback macroStep
    simp only [hn1, elements_single hw.1 hw.2]
    split
    · rfl
    · rfl
  unfold loadSettings
  rw [hn, hm, if_pos (by rfl)]
  show some (runAll placeSteps (macroStep.run (runAll describeSteps e))) = _
  rw [show allSteps = describeSteps ++ macroStep :: placeSteps from rfl, runAll_append]
  rfl

/-- The default of a step looks at one variable only. -/
def LooksAt (s : Step) (y : Str) : Prop :=
  ∀ e e' : Env, e.text y = e'.text y → s.default e = s.default e'

theorem step_at (k : Nat) (s : Step) (y : Str) (hs : allSteps[k]? = some s) (hl : LooksAt s y)
    (hy : ∀ t ∈ allSteps.drop k, y ≠ t.name) (h1 : ∀ t ∈ allSteps.take k, s.name ≠ t.name)
    (h2 : ∀ t ∈ allSteps.drop (k + 1), s.name ≠ t.name) (e : Env) :
    (runAll allSteps e).vars s.name =
      (e.fallback s.name (s.default (runAll allSteps e))).vars s.name := by
  obtain ⟨hk, hs'⟩ := List.getElem?_eq_some_iff.1 hs
  have hd : allSteps.drop k = s :: allSteps.drop (k + 1) := by
    rw [List.drop_eq_getElem_cons hk, hs']
  have hsplit : allSteps = allSteps.take k ++ s :: allSteps.drop (k + 1) := by
    rw [← hd, List.take_append_drop]
  have hres : runAll allSteps e = runAll (allSteps.take k ++ s :: allSteps.drop (k + 1)) e :=
    congrArg (fun l => runAll l e) hsplit
  rw [hres]
  refine runAll_step h1 h2 (hl _ _ (text_congr ?_))
  rw [runAll_append]
  exact (runAll_get_ne (by rw [← hd]; exact hy)).symm

theorem final_step (e : Env) : ∀ s ∈ allSteps,
    (runAll allSteps e).vars s.name =
      (e.fallback s.name (s.default (runAll allSteps e))).vars s.name := by
  have look : ∀ (x y z : Str), LooksAt ⟨x, fun e => elements (e.text y)⟩ y := by
    intro x y z e e' h
    simp only [h]
  have look2 : ∀ (x y z : Str), LooksAt ⟨x, fun e => [e.text y ++ z]⟩ y := by
    intro x y z e e' h
    simp only [h]
  have look3 : ∀ (x y : Str), LooksAt ⟨x, fun _ => [[]]⟩ y := fun _ _ _ _ _ => rfl
  have look4 : LooksAt macroStep c!"MODULE_NAME" := by
    intro e e' h
    simp only [macroStep, h]
  intro s hs
  simp only [allSteps, describeSteps, placeSteps, List.cons_append, List.nil_append, List.mem_cons,
    List.not_mem_nil, or_false] at hs
  rcases hs with h | h | h | h | h | h | h | h | h | h | h | h | h | h <;> rw [h]
  · exact step_at 0 _ c!"MODULE_NAME" rfl (look _ _ []) (by decide) (by decide) (by decide) e
  · exact step_at 1 _ c!"MODULE_NAME" rfl (look _ _ []) (by decide) (by decide) (by decide) e
  · exact step_at 2 _ c!"MODULE_NAME" rfl (look _ _ []) (by decide) (by decide) (by decide) e
  · exact step_at 3 _ c!"MODULE_SUMMARY" rfl (look _ _ []) (by decide) (by decide) (by decide) e
  · exact step_at 4 _ c!"MODULE_NAME" rfl look4 (by decide) (by decide) (by decide) e
  · exact step_at 5 _ c!"CMAKE_CURRENT_SOURCE_DIR" rfl (look2 _ _ _) (by decide) (by decide)
      (by decide) e
  · exact step_at 6 _ c!"MODULE_NAME" rfl (look3 _ _) (by decide) (by decide) (by decide) e
  · exact step_at 7 _ c!"MODULE_FIND_PACKAGES" rfl (look _ _ []) (by decide) (by decide)
      (by decide) e
  · exact step_at 8 _ c!"CMAKE_CURRENT_SOURCE_DIR" rfl (look2 _ _ _) (by decide) (by decide)
      (by decide) e
  · exact step_at 9 _ c!"CMAKE_CURRENT_SOURCE_DIR" rfl (look2 _ _ _) (by decide) (by decide)
      (by decide) e
  · exact step_at 10 _ c!"MODULE_NAME" rfl (look _ _ []) (by decide) (by decide) (by decide) e
  · exact step_at 11 _ c!"MODULE_HEADERS_PATH" rfl (look _ _ []) (by decide) (by decide)
      (by decide) e
  · exact step_at 12 _ c!"MODULE_NAME" rfl (look3 _ _) (by decide) (by decide) (by decide) e
  · exact step_at 13 _ c!"MODULE_NAME" rfl (look3 _ _) (by decide) (by decide) (by decide) e

theorem allSteps_names : allSteps.map Step.name = settingNames := by rfl

theorem final_given {e : Env} {x v : Str} (hx : x ∈ settingNames) (h : Given e x v) :
    (runAll allSteps e).get x = some v := by
  rw [← allSteps_names] at hx
  obtain ⟨s, hs, rfl⟩ := List.mem_map.1 hx
  have ht := truth_given (names_ok s.name (by rw [← allSteps_names]; exact hx)) h
  have := final_step e s hs
  rw [fallback_true _ _ ht] at this
  rw [get_congr this (runAll_cache _ _), h.1]

theorem final_missing {e : Env} {s : Step} (hs : s ∈ allSteps) (h : Missing e s.name)
    (hd : s.default (runAll allSteps e) ≠ []) :
    (runAll allSteps e).get s.name = some (joined (s.default (runAll allSteps e))) := by
  have hx : s.name ∈ settingNames := by
    rw [← allSteps_names]
    exact List.mem_map.2 ⟨s, hs, rfl⟩
  have ht := truth_missing (names_ok s.name hx) h
  have := final_step e s hs
  rw [fallback_false _ _ ht, vars_set_self, if_neg hd] at this
  simp [Env.get, this]

theorem final_ne {e : Env} {x : Str} (hx : x ∉ settingNames) :
    (runAll allSteps e).get x = e.get x := by
  apply runAll_get_ne
  intro s hs h
  apply hx
  rw [← allSteps_names, h]
  exact List.mem_map.2 ⟨s, hs, rfl⟩

/-- C131.  For a module with a name, `load_project_settings` keeps every setting
that does not say no, gives the documented default to each variable without one,
and touches no other variable.  Missing: the default of `MODULE_SUMMARY`, which the
README says is `MODULE_NAME_LARGE`, see `C131_negation`. -/
theorem C131_settings_partial (e : Env) (n : Str) (hn : e.get c!"MODULE_NAME" = some n)
    (hw : OneWord n) :
    ∃ e', loadSettings e = some e' ∧
      (∀ x ∈ settingNames, ∀ v, Given e x v → e'.get x = some v) ∧
      (∀ x ∈ [c!"MODULE_TARGET_NAME", c!"MODULE_NAME_LARGE", c!"MODULE_SUMMARY",
          c!"MODULE_HEADERS_PATH"], Missing e x → e'.get x = some n) ∧
      (Missing e c!"MODULE_MACRO" → e'.get c!"MODULE_MACRO" = some (n.map Char.toUpper)) ∧
      (∀ x y, (x, y) ∈ [(c!"MODULE_DESCRIPTION", c!"MODULE_SUMMARY"),
          (c!"MODULE_HEADERS_INSTALL_PATH", c!"MODULE_HEADERS_PATH"),
          (c!"MODULE_DEPENDENCIES", c!"MODULE_FIND_PACKAGES")] → Missing e x →
        ∀ v, e'.get y = some v → Listed v → e'.get x = some v) ∧
      (∀ x y, (x, y) ∈ [(c!"MODULE_THIRDPARTY_PATH", c!"/../thirdparty"),
          (c!"MODULE_VERSION_FILE_PATH", c!"/../VERSION"),
          (c!"MODULE_LICENSE_FILE_PATH", c!"/../LICENSE")] → Missing e x →
        ∀ d, e.get c!"CMAKE_CURRENT_SOURCE_DIR" = some d → e'.get x = some (d ++ y)) ∧
      (∀ x ∈ [c!"MODULE_FIND_PACKAGES", c!"MODULE_PUBLIC_EXTRA_HEADERS",
          c!"MODULE_PRIVATE_EXTRA_HEADERS"], Missing e x → e'.get x = some []) ∧
      (∀ x, x ∉ settingNames → e'.get x = e.get x) := by
  refine ⟨_, load_all hn hw, fun x hx v => final_given hx, ?_, ?_, ?_, ?_, ?_, fun x => final_ne⟩
  all_goals obtain ⟨e', he'⟩ : ∃ e', runAll allSteps e = e' := ⟨_, rfl⟩
  · intro x hx hm
    have hname : elements (e'.text c!"MODULE_NAME") = [n] := by
      rw [← he', text_congr (final_ne (by decide))]
      simp [Env.text, hn, elements_single hw.1 hw.2]
    have hin : (⟨x, fun e => elements (e.text c!"MODULE_NAME")⟩ : Step) ∈ allSteps := by
      simp only [List.mem_cons, List.not_mem_nil, or_false] at hx
      rcases hx with h | h | h | h <;> subst h <;> simp [allSteps, describeSteps, placeSteps]
    have := final_missing hin hm (by rw [he']; simp [hname])
    rw [he'] at this
    simp only [hname] at this
    rw [he', this]
    rfl
  · intro hm
    have hname : elements (e'.text c!"MODULE_NAME") = [n] := by
      rw [← he', text_congr (final_ne (by decide))]
      simp [Env.text, hn, elements_single hw.1 hw.2]
    have := final_missing (e := e) (s := macroStep) (by simp [allSteps]) hm
      (by rw [he']; simp [macroStep, hname])
    rw [he'] at this
    rw [he']
    refine this.trans ?_
    simp [macroStep, hname, joined, upper]
  · intro x y hx hm v hv hl
    rw [he'] at hv ⊢
    have hel : elements (e'.text y) = elements v := by simp [Env.text, hv]
    have hin : (⟨x, fun e => elements (e.text y)⟩ : Step) ∈ allSteps := by
      simp only [List.mem_cons, List.not_mem_nil, or_false, Prod.mk.injEq] at hx
      rcases hx with ⟨h, h'⟩ | ⟨h, h'⟩ | ⟨h, h'⟩ <;> subst h <;> subst h' <;>
        simp [allSteps, describeSteps, placeSteps]
    have := final_missing hin hm (by rw [he']; simp only [hel]; exact (listed_joined hl).2)
    rw [he'] at this
    simp only [hel, (listed_joined hl).1] at this
    exact this
  · intro x y hx hm d hd
    have hdir : e'.text c!"CMAKE_CURRENT_SOURCE_DIR" = d := by
      rw [← he', text_congr (final_ne (by decide))]
      simp [Env.text, hd]
    have hin : (⟨x, fun e => [e.text c!"CMAKE_CURRENT_SOURCE_DIR" ++ y]⟩ : Step) ∈ allSteps := by
      simp only [List.mem_cons, List.not_mem_nil, or_false, Prod.mk.injEq] at hx
      rcases hx with ⟨h, h'⟩ | ⟨h, h'⟩ | ⟨h, h'⟩ <;> subst h <;> subst h' <;>
        simp [allSteps, describeSteps, placeSteps]
    have := final_missing hin hm (by simp)
    rw [he'] at this
    simp only [hdir] at this
    rw [he', this]
    rfl
  · intro x hx hm
    have hin : (⟨x, fun _ => [[]]⟩ : Step) ∈ allSteps := by
      simp only [List.mem_cons, List.not_mem_nil, or_false] at hx
      rcases hx with h | h | h <;> subst h <;> simp [allSteps, describeSteps, placeSteps]
    have := final_missing hin hm (by simp)
    rw [this]
    rfl

/-- The settings of `/repo/cpp_utils/project_settings.cmake`, without the
generator expression. -/
def cppUtils : Env :=
  (((noEnv.put c!"MODULE_NAME" (some c!"cpp_utils")).put c!"MODULE_FIND_PACKAGES"
    (some c!"fastcdr;fastdds")).put c!"CMAKE_CURRENT_SOURCE_DIR" (some c!"/src/cpp_utils"))

example : ((loadSettings cppUtils).map fun e => (e.get c!"MODULE_MACRO", e.get c!"MODULE_DEPENDENCIES",
    e.get c!"MODULE_LICENSE_FILE_PATH")) =
    some (some c!"CPP_UTILS", some c!"fastcdr;fastdds", some c!"/src/cpp_utils/../LICENSE") := by
  decide

example : OneWord c!"cpp_utils" ∧ Given cppUtils c!"MODULE_FIND_PACKAGES" c!"fastcdr;fastdds" ∧
    Missing cppUtils c!"MODULE_SUMMARY" := by
  refine ⟨by decide, ⟨by decide, ?_⟩, ?_⟩
  · rw [← isOff_iff]; decide
  · intro v hv
    have : cppUtils.get c!"MODULE_SUMMARY" = none := by decide
    rw [this] at hv
    exact absurd hv (by simp)

example : Listed c!"fastcdr;fastdds" :=
  ⟨[c!"fastcdr", c!"fastdds"], by decide, by decide, by decide⟩

/-- C131.  Loading the settings again changes nothing. -/
theorem C131_twice (e e' : Env) (n : Str) (hn : e.get c!"MODULE_NAME" = some n) (hw : OneWord n)
    (h : loadSettings e = some e') : loadSettings e' = some e' := by
  rw [load_all hn hw] at h
  have he : runAll allSteps e = e' := Option.some.inj h
  have hn' : e'.get c!"MODULE_NAME" = some n := by
    rw [← he, final_ne (by decide), hn]
  rw [load_all hn' hw, runAll_fix]
  intro s hs
  have hf := final_step e s hs
  rw [he] at hf
  have hc : e'.cache = e.cache := by
    rw [← he]
    exact runAll_cache _ _
  exact fallback_fix e s.name (s.default e') e' hf hc

example : (loadSettings cppUtils).isSome = true := by decide

/-- C131.  A project without a name is refused. -/
theorem C131_required (e : Env) (h : e.get c!"MODULE_NAME" = none) : loadSettings e = none := by
  simp [loadSettings, h]

example : noEnv.get c!"MODULE_NAME" = none := rfl

/-- C131 fails for the summary: the README says its default is the large name, it is
the plain name.  A large name that reads as "no" is replaced. -/
theorem C131_negation :
    ((loadSettings (cppUtils.put c!"MODULE_NAME_LARGE" (some c!"Utils for C++"))).map fun e =>
        (e.get c!"MODULE_NAME_LARGE", e.get c!"MODULE_SUMMARY")) =
      some (some c!"Utils for C++", some c!"cpp_utils") ∧
    ((loadSettings (cppUtils.put c!"MODULE_NAME_LARGE" (some c!"Ignore"))).map fun e =>
        e.get c!"MODULE_NAME_LARGE") = some (some c!"cpp_utils") := by
  decide

end Verif.CMake
