import Verif.Lemmas.CMake
import Verif.Props.CMakeVersion

/-!
C130: `configure_cmake_options`.
-/
namespace Verif.CMake

/-- The options with a default of their own, besides `LOG_INFO`. -/
def optionNames : List Str :=
  [c!"BUILD_TESTS", c!"BUILD_DOCS_TESTS", c!"BUILD_TOOL_TESTS", c!"BUILD_LIBRARY_TESTS",
    c!"BUILD_ALL", c!"BUILD_DOCS", c!"BUILD_TOOL", c!"BUILD_LIBRARY", c!"CODE_COVERAGE",
    c!"TSAN_BUILD", c!"ASAN_BUILD", c!"CMAKE_BUILD_TYPE"]

/-- A value made of one word. -/
def OneWord (v : Str) : Prop := v ≠ [] ∧ ';' ∉ v

/-- A word that says yes, in any case of letters. -/
def Yes (v : Str) : Prop := v.map Char.toUpper ∈ [c!"1", c!"ON", c!"Y", c!"YES", c!"TRUE"]

/-- A word that says no, in any case of letters. -/
def No (v : Str) : Prop :=
  v.map Char.toUpper ∈ [c!"0", c!"OFF", c!"N", c!"NO", c!"FALSE", c!"IGNORE"]

instance (v : Str) : Decidable (OneWord v) := by unfold OneWord; infer_instance
instance (v : Str) : Decidable (Yes v) := by unfold Yes; infer_instance
instance (v : Str) : Decidable (No v) := by unfold No; infer_instance

theorem truth_yes (e : Env) {v : Str} (h : Yes v) : truth e v = true := by
  have : isOn v = true := by
    unfold Yes at h
    simp only [List.mem_cons, List.not_mem_nil, or_false] at h
    simp only [isOn, upper, Bool.or_eq_true, decide_eq_true_eq]
    rcases h with h | h | h | h | h <;> simp [h]
  simp [truth, this]

theorem truth_no (e : Env) {v : Str} (h : No v) : truth e v = false := by
  have h1 : isOn v = false := by
    unfold No at h
    simp only [List.mem_cons, List.not_mem_nil, or_false] at h
    simp only [isOn, upper]
    rcases h with h | h | h | h | h | h <;> simp [h]
  have h2 : isOff v = true := by
    unfold No at h
    simp only [List.mem_cons, List.not_mem_nil, or_false] at h
    simp only [isOff, upper, Bool.or_eq_true, decide_eq_true_eq]
    rcases h with h | h | h | h | h | h <;> simp [h]
  simp [truth, h1, h2]

/-! ### One option after the other -/

/-- Values already there stay. -/
def Keeps (e e' : Env) : Prop := ∀ x v, e.get x = some v → e'.get x = some v

theorem Keeps.trans {a b c : Env} (h : Keeps a b) (h' : Keeps b c) : Keeps a c :=
  fun x v hv => h' x v (h x v hv)

theorem keeps_orSet (e : Env) (x : Str) (l : List Str) : Keeps e (e.orSet x l) :=
  fun _ _ h => get_orSet_keeps e l h

theorem testOptions_keeps (e : Env) : Keeps e (testOptions e) := by
  intro x v h
  exact get_orSet_keeps _ _ (get_orSet_keeps _ _ (get_orSet_keeps _ _ (get_orSet_keeps _ _ (get_orSet_keeps _ _ h))))

theorem plainOptions_keeps (e : Env) : Keeps e (plainOptions e) := by
  intro x v h
  exact get_orSet_keeps _ _ (get_orSet_keeps _ _ (get_orSet_keeps _ _ (get_orSet_keeps _ _ (get_orSet_keeps _ _ (get_orSet_keeps _ _ h)))))

theorem docsOption_eq {e e' : Env} (h : docsOption e = some e') :
    (∃ v, e.get c!"BUILD_DOCS" = some v) ∧ e' = e ∨
    e.get c!"BUILD_DOCS" = none ∧
      ∃ b, ifOr e (elements (e.text c!"BUILD_ALL")) (elements (e.text c!"BUILD_DOCS_TESTS")) = some b ∧
        e' = e.set c!"BUILD_DOCS" [if b then c!"ON" else c!"OFF"] := by
  unfold docsOption at h
  cases hd : e.get c!"BUILD_DOCS" with
  | some v =>
    rw [hd] at h
    left
    exact ⟨⟨v, rfl⟩, by simpa using h.symm⟩
  | none =>
    rw [hd] at h
    right
    refine ⟨rfl, ?_⟩
    simp only [Option.isSome_none, Bool.false_eq_true, if_false] at h
    split at h
    · rename_i hb; exact ⟨true, hb, by simpa using h.symm⟩
    · rename_i hb; exact ⟨false, hb, by simpa using h.symm⟩
    · exact absurd h (by simp)

theorem docsOption_keeps {e e' : Env} (h : docsOption e = some e') : Keeps e e' := by
  rcases docsOption_eq h with ⟨_, h⟩ | ⟨hn, b, _, h⟩
  · subst h; exact fun _ _ h => h
  · subst h
    intro x v hv
    have : x ≠ c!"BUILD_DOCS" := by
      intro hx
      rw [hx, hn] at hv
      exact absurd hv (by simp)
    rw [get_set_ne _ _ this, hv]

theorem logOption_ne (e : Env) {x : Str} (h : x ≠ c!"LOG_INFO") :
    (logOption e).get x = e.get x := by
  unfold logOption
  split
  · exact get_set_ne _ _ h
  · unfold Env.setCache
    split
    · rfl
    · simp [Env.get, h]
    · simp [Env.get, h]

theorem testOptions_ne (e : Env) {x : Str}
    (h : x ∉ [c!"BUILD_TESTS", c!"BUILD_DOCS_TESTS", c!"BUILD_TOOL_TESTS", c!"BUILD_LIBRARY_TESTS",
      c!"BUILD_ALL"]) : (testOptions e).get x = e.get x := by
  simp only [List.mem_cons, List.not_mem_nil, or_false, not_or] at h
  obtain ⟨h1, h2, h3, h4, h5⟩ := h
  unfold testOptions
  rw [get_orSet_ne _ _ h5, get_orSet_ne _ _ h4, get_orSet_ne _ _ h3, get_orSet_ne _ _ h2,
    get_orSet_ne _ _ h1]

theorem plainOptions_ne (e : Env) {x : Str}
    (h : x ∉ [c!"BUILD_TOOL", c!"BUILD_LIBRARY", c!"CODE_COVERAGE", c!"TSAN_BUILD", c!"ASAN_BUILD",
      c!"CMAKE_BUILD_TYPE"]) : (plainOptions e).get x = e.get x := by
  simp only [List.mem_cons, List.not_mem_nil, or_false, not_or] at h
  obtain ⟨h1, h2, h3, h4, h5, h6⟩ := h
  unfold plainOptions
  rw [get_orSet_ne _ _ h6, get_orSet_ne _ _ h5, get_orSet_ne _ _ h4, get_orSet_ne _ _ h3,
    get_orSet_ne _ _ h2, get_orSet_ne _ _ h1]

theorem docsOption_ne {e e' : Env} (h : docsOption e = some e') {x : Str}
    (hx : x ≠ c!"BUILD_DOCS") : e'.get x = e.get x := by
  rcases docsOption_eq h with ⟨_, h⟩ | ⟨hn, b, _, h⟩
  · rw [h]
  · rw [h, get_set_ne _ _ hx]

/-- The value of the first five options. -/
theorem testOptions_get (e : Env) {t : Str}
    (ht : (e.get c!"BUILD_TESTS" = some t ∧ OneWord t) ∨ e.get c!"BUILD_TESTS" = none ∧ t = c!"OFF")
    {x : Str} (hx : x ∈ [c!"BUILD_TESTS", c!"BUILD_DOCS_TESTS", c!"BUILD_TOOL_TESTS",
      c!"BUILD_LIBRARY_TESTS", c!"BUILD_ALL"]) (hn : e.get x = none) :
    (testOptions e).get x = some t := by
  obtain ⟨e1, h1⟩ : ∃ e1, e.orSet c!"BUILD_TESTS" [c!"OFF"] = e1 := ⟨_, rfl⟩
  have hone : OneWord t := by
    rcases ht with h | h
    · exact h.2
    · rw [h.2]; decide
  have ht1 : e1.get c!"BUILD_TESTS" = some t := by
    rw [← h1]
    rcases ht with h | h
    · exact get_orSet_keeps _ _ h.1
    · rw [get_orSet_none _ h.1 (by simp), h.2]
      rfl
  have hel : ∀ e' : Env, e'.get c!"BUILD_TESTS" = some t → elements (e'.text c!"BUILD_TESTS") = [t] := by
    intro e' h
    rw [Env.text, h]
    exact elements_single hone.1 hone.2
  unfold testOptions
  rw [h1]
  dsimp only
  rw [hel e1 ht1]
  have k1 := get_orSet_keeps e1 (x := c!"BUILD_DOCS_TESTS") [t] ht1
  rw [hel _ k1]
  have k2 := get_orSet_keeps _ (x := c!"BUILD_TOOL_TESTS") [t] k1
  rw [hel _ k2]
  have k3 := get_orSet_keeps _ (x := c!"BUILD_LIBRARY_TESTS") [t] k2
  rw [hel _ k3]
  have k4 := get_orSet_keeps _ (x := c!"BUILD_ALL") [t] k3
  have hx1 : ∀ y, y ≠ c!"BUILD_TESTS" → e.get y = none → e1.get y = none := by
    intro y hy h
    rw [← h1, get_orSet_ne _ _ hy, h]
  simp only [List.mem_cons, List.not_mem_nil, or_false] at hx
  rcases hx with hx | hx | hx | hx | hx <;> subst hx
  · exact k4
  · rw [get_orSet_ne _ _ (by decide), get_orSet_ne _ _ (by decide), get_orSet_ne _ _ (by decide),
      get_orSet_none _ (hx1 _ (by decide) hn) (by simp)]
    rfl
  · rw [get_orSet_ne _ _ (by decide), get_orSet_ne _ _ (by decide),
      get_orSet_none _ (by rw [get_orSet_ne _ _ (by decide)]; exact hx1 _ (by decide) hn) (by simp)]
    rfl
  · rw [get_orSet_ne _ _ (by decide),
      get_orSet_none _ (by
        rw [get_orSet_ne _ _ (by decide), get_orSet_ne _ _ (by decide)]
        exact hx1 _ (by decide) hn) (by simp)]
    rfl
  · rw [get_orSet_none _ (by
        rw [get_orSet_ne _ _ (by decide), get_orSet_ne _ _ (by decide), get_orSet_ne _ _ (by decide)]
        exact hx1 _ (by decide) hn) (by simp)]
    rfl

/-- The value of the last six options. -/
theorem plainOptions_get (e : Env) {x d : Str}
    (hx : (x, d) ∈ [(c!"BUILD_TOOL", c!"ON"), (c!"BUILD_LIBRARY", c!"ON"),
      (c!"CODE_COVERAGE", c!"OFF"), (c!"TSAN_BUILD", c!"OFF"), (c!"ASAN_BUILD", c!"OFF"),
      (c!"CMAKE_BUILD_TYPE", c!"Release")]) (hn : e.get x = none) :
    (plainOptions e).get x = some d := by
  simp only [List.mem_cons, List.not_mem_nil, or_false, Prod.mk.injEq] at hx
  unfold plainOptions
  rcases hx with ⟨h, h'⟩ | ⟨h, h'⟩ | ⟨h, h'⟩ | ⟨h, h'⟩ | ⟨h, h'⟩ | ⟨h, h'⟩ <;> subst h <;> subst h'
  all_goals
    repeat
      first
        | rw [get_orSet_ne _ _ (by decide)]
        | rw [get_orSet_none _ (by
            repeat rw [get_orSet_ne _ _ (by decide)]
            exact hn) (by simp)]
    rfl

/-- C130, all options but `LOG_INFO`: a value the user gives stays; without one
the option gets the default of the table in the README, where the four options
that follow `BUILD_TESTS` take its value; and no other variable changes.
Missing: `LOG_INFO` (see `C130_log_partial` and `C130_negation`), and the default
of `BUILD_DOCS`, which is on as well when `BUILD_ALL` is. -/
theorem C130_options_partial (e e' : Env) (h : configureOptions e = some e') :
    (∀ x ∈ optionNames, ∀ v, e.get x = some v → e'.get x = some v) ∧
    (e.get c!"BUILD_TESTS" = none → e'.get c!"BUILD_TESTS" = some c!"OFF") ∧
    ((∀ v, e.get c!"BUILD_TESTS" = some v → OneWord v) →
      ∀ x ∈ [c!"BUILD_DOCS_TESTS", c!"BUILD_TOOL_TESTS", c!"BUILD_LIBRARY_TESTS", c!"BUILD_ALL"],
        e.get x = none → e'.get x = e'.get c!"BUILD_TESTS") ∧
    (∀ a d, e.get c!"BUILD_DOCS" = none → e'.get c!"BUILD_ALL" = some a →
      e'.get c!"BUILD_DOCS_TESTS" = some d → (Yes a ∨ No a) → (Yes d ∨ No d) →
      e'.get c!"BUILD_DOCS" = some (if Yes a ∨ Yes d then c!"ON" else c!"OFF")) ∧
    (∀ x d, (x, d) ∈ [(c!"BUILD_TOOL", c!"ON"), (c!"BUILD_LIBRARY", c!"ON"),
        (c!"CODE_COVERAGE", c!"OFF"), (c!"TSAN_BUILD", c!"OFF"), (c!"ASAN_BUILD", c!"OFF"),
        (c!"CMAKE_BUILD_TYPE", c!"Release")] → e.get x = none → e'.get x = some d) ∧
    (∀ x, x ∉ optionNames → x ≠ c!"LOG_INFO" → e'.get x = e.get x) := by
  unfold configureOptions at h
  obtain ⟨e2, h2, h3⟩ := Option.map_eq_some_iff.1 h
  obtain ⟨e1, h1⟩ : ∃ e1, testOptions e = e1 := ⟨_, rfl⟩
  rw [h1] at h2
  have hlog : ∀ x, x ≠ c!"LOG_INFO" → e'.get x = (plainOptions e2).get x := by
    intro x hx
    rw [← h3, logOption_ne _ hx]
  have h12 : ∀ x v, e1.get x = some v → x ≠ c!"LOG_INFO" → e'.get x = some v := by
    intro x v hv hx
    rw [hlog x hx]
    exact plainOptions_keeps _ _ _ (docsOption_keeps h2 _ _ hv)
  have five : ∀ x ∈ [c!"BUILD_TESTS", c!"BUILD_DOCS_TESTS", c!"BUILD_TOOL_TESTS",
      c!"BUILD_LIBRARY_TESTS", c!"BUILD_ALL"], x ≠ c!"LOG_INFO" ∧ x ∉ [c!"BUILD_TOOL",
      c!"BUILD_LIBRARY", c!"CODE_COVERAGE", c!"TSAN_BUILD", c!"ASAN_BUILD", c!"CMAKE_BUILD_TYPE"] ∧
      x ≠ c!"BUILD_DOCS" := by
    decide
  refine ⟨?_, ?_, ?_, ?_, ?_, ?_⟩
  · intro x hx v hv
    have hx' : x ≠ c!"LOG_INFO" := by
      intro h
      rw [h] at hx
      exact absurd hx (by decide)
    refine h12 x v ?_ hx'
    rw [← h1]
    exact testOptions_keeps e x v hv
  · intro hn
    refine h12 _ _ ?_ (by decide)
    rw [← h1]
    exact testOptions_get e (Or.inr ⟨hn, rfl⟩) (by simp) hn
  · intro hw x hx hn
    have hx5 : x ∈ [c!"BUILD_TESTS", c!"BUILD_DOCS_TESTS", c!"BUILD_TOOL_TESTS",
      c!"BUILD_LIBRARY_TESTS", c!"BUILD_ALL"] := List.mem_cons_of_mem _ hx
    have ht : ∃ t, (e.get c!"BUILD_TESTS" = some t ∧ OneWord t) ∨
        e.get c!"BUILD_TESTS" = none ∧ t = c!"OFF" := by
      cases hb : e.get c!"BUILD_TESTS" with
      | some t => exact ⟨t, Or.inl ⟨rfl, hw t hb⟩⟩
      | none => exact ⟨_, Or.inr ⟨rfl, rfl⟩⟩
    obtain ⟨t, ht⟩ := ht
    rw [h12 x t (by rw [← h1]; exact testOptions_get e ht hx5 hn) (five x hx5).1]
    symm
    refine h12 _ _ ?_ (by decide)
    rw [← h1]
    rcases ht with ht | ht
    · exact testOptions_keeps _ _ _ ht.1
    · exact testOptions_get e (Or.inr ht) (by simp) ht.1
  · intro a d hn ha hd hya hyd
    have hb1 : e1.get c!"BUILD_DOCS" = none := by
      rw [← h1, testOptions_ne e (by decide), hn]
    have back : ∀ x ∈ [c!"BUILD_TESTS", c!"BUILD_DOCS_TESTS", c!"BUILD_TOOL_TESTS",
        c!"BUILD_LIBRARY_TESTS", c!"BUILD_ALL"], e'.get x = e1.get x := by
      intro x hx
      rw [hlog x (five x hx).1, plainOptions_ne _ (five x hx).2.1,
        docsOption_ne h2 (five x hx).2.2]
    rw [back _ (by simp)] at ha hd
    have word : ∀ v, Yes v ∨ No v → elements v = [v] := by
      intro v hv
      apply elements_single
      · rintro rfl
        exact absurd hv (by decide)
      · intro hm
        have hm' : ';' ∈ v.map Char.toUpper := List.mem_map.2 ⟨';', hm, by decide⟩
        unfold Yes No at hv
        simp only [List.mem_cons, List.not_mem_nil, or_false] at hv
        rcases hv with (hv | hv | hv | hv | hv) | (hv | hv | hv | hv | hv | hv) <;> rw [hv] at hm' <;>
          exact absurd hm' (by decide)
    have tr : ∀ v, Yes v ∨ No v → truth e1 v = decide (Yes v) := by
      intro v hv
      by_cases hy : Yes v
      · rw [truth_yes e1 hy, decide_eq_true hy]
      · rw [truth_no e1 (hv.resolve_left hy), decide_eq_false hy]
    rcases docsOption_eq h2 with ⟨⟨v, hv⟩, _⟩ | ⟨_, b, hb, he2⟩
    · rw [hb1] at hv
      exact absurd hv (by simp)
    · rw [hlog _ (by decide), plainOptions_ne _ (by decide), he2, get_set_self _ _ _ (by simp)]
      simp only [Env.text, ha, hd, Option.getD_some, word a hya, word d hyd, ifOr,
        tr a hya, tr d hyd, Option.some.injEq] at hb
      rw [← hb]
      by_cases h1 : Yes a <;> by_cases h2 : Yes d <;> simp [h1, h2, joined]
  · intro x d hx hn
    have hx3 : x ≠ c!"LOG_INFO" ∧ x ≠ c!"BUILD_DOCS" ∧ x ∉ [c!"BUILD_TESTS", c!"BUILD_DOCS_TESTS",
        c!"BUILD_TOOL_TESTS", c!"BUILD_LIBRARY_TESTS", c!"BUILD_ALL"] := by
      simp only [List.mem_cons, List.not_mem_nil, or_false, Prod.mk.injEq] at hx
      rcases hx with ⟨h, -⟩ | ⟨h, -⟩ | ⟨h, -⟩ | ⟨h, -⟩ | ⟨h, -⟩ | ⟨h, -⟩ <;> subst h <;> decide
    rw [hlog _ hx3.1]
    refine plainOptions_get e2 hx ?_
    rw [docsOption_ne h2 hx3.2.1, ← h1, testOptions_ne e hx3.2.2, hn]
  · intro x hx hl
    simp only [optionNames, List.mem_cons, List.not_mem_nil, or_false, not_or] at hx
    obtain ⟨a1, a2, a3, a4, a5, a6, a7, a8, a9, a10, a11, a12⟩ := hx
    rw [hlog x hl, plainOptions_ne _ (by
      simp only [List.mem_cons, List.not_mem_nil, or_false, not_or]
      exact ⟨a7, a8, a9, a10, a11, a12⟩), docsOption_ne h2 a6, ← h1, testOptions_ne e (by
      simp only [List.mem_cons, List.not_mem_nil, or_false, not_or]
      exact ⟨a1, a2, a3, a4, a5⟩)]

example : ∃ e', configureOptions (noEnv.put c!"BUILD_TESTS" (some c!"ON")) = some e' ∧
    e'.get c!"BUILD_DOCS" = some c!"ON" ∧ e'.get c!"BUILD_LIBRARY_TESTS" = some c!"ON" :=
  ⟨_, rfl, by decide⟩

/-- C130.  The macro succeeds, so every option has a value, whenever the values
given for `BUILD_TESTS`, `BUILD_ALL` and `BUILD_DOCS_TESTS` are single words. -/
theorem C130_succeeds (e : Env)
    (h : ∀ x ∈ [c!"BUILD_TESTS", c!"BUILD_ALL", c!"BUILD_DOCS_TESTS"],
      ∀ v, e.get x = some v → OneWord v) :
    ∃ e', configureOptions e = some e' ∧ ∀ x ∈ optionNames, ∃ v, e'.get x = some v := by
  have ht : ∃ t, (e.get c!"BUILD_TESTS" = some t ∧ OneWord t) ∨
      e.get c!"BUILD_TESTS" = none ∧ t = c!"OFF" := by
    cases hb : e.get c!"BUILD_TESTS" with
    | some t => exact ⟨t, Or.inl ⟨rfl, h _ (by simp) t hb⟩⟩
    | none => exact ⟨_, Or.inr ⟨rfl, rfl⟩⟩
  obtain ⟨t, ht⟩ := ht
  have hone : OneWord t := by
    rcases ht with h | h
    · exact h.2
    · rw [h.2]; decide
  obtain ⟨e1, h1⟩ : ∃ e1, testOptions e = e1 := ⟨_, rfl⟩
  have five : ∀ x ∈ [c!"BUILD_TESTS", c!"BUILD_DOCS_TESTS", c!"BUILD_TOOL_TESTS",
      c!"BUILD_LIBRARY_TESTS", c!"BUILD_ALL"], ∃ v, e1.get x = some v := by
    intro x hx
    rw [← h1]
    cases hv : e.get x with
    | some v => exact ⟨v, testOptions_keeps _ _ _ hv⟩
    | none => exact ⟨t, testOptions_get e ht hx hv⟩
  have two : ∀ x ∈ [c!"BUILD_ALL", c!"BUILD_DOCS_TESTS"], ∃ v, elements (e1.text x) = [v] := by
    intro x hx
    have hx5 : x ∈ [c!"BUILD_TESTS", c!"BUILD_DOCS_TESTS", c!"BUILD_TOOL_TESTS",
      c!"BUILD_LIBRARY_TESTS", c!"BUILD_ALL"] := by
      simp only [List.mem_cons, List.not_mem_nil, or_false] at hx
      rcases hx with hx | hx <;> subst hx <;> decide
    cases hv : e.get x with
    | some v =>
      have := testOptions_keeps _ _ _ hv
      rw [h1] at this
      have hw := h x (List.mem_cons_of_mem _ hx) v hv
      exact ⟨v, by rw [Env.text, this]; exact elements_single hw.1 hw.2⟩
    | none =>
      have := testOptions_get e ht hx5 hv
      rw [h1] at this
      exact ⟨t, by rw [Env.text, this]; exact elements_single hone.1 hone.2⟩
  obtain ⟨a, ha⟩ := two c!"BUILD_ALL" (by simp)
  obtain ⟨d, hd⟩ := two c!"BUILD_DOCS_TESTS" (by simp)
  have hdoc : ∃ e2, docsOption e1 = some e2 := by
    unfold docsOption
    cases hb : e1.get c!"BUILD_DOCS" with
    | some v => exact ⟨e1, by simp⟩
    | none =>
      rw [ha, hd]
      simp only [Option.isSome_none, Bool.false_eq_true, if_false, ifOr]
      cases truth e1 a || truth e1 d
      · exact ⟨_, rfl⟩
      · exact ⟨_, rfl⟩
  obtain ⟨e2, h2⟩ := hdoc
  refine ⟨logOption (plainOptions e2), by simp [configureOptions, h1, h2], ?_⟩
  intro x hx
  simp only [optionNames, List.mem_cons, List.not_mem_nil, or_false] at hx
  have old : ∀ y v, e1.get y = some v → y ≠ c!"LOG_INFO" →
      ∃ v, (logOption (plainOptions e2)).get y = some v := by
    intro y v hv hy
    exact ⟨v, by rw [logOption_ne _ hy]; exact plainOptions_keeps _ _ _ (docsOption_keeps h2 _ _ hv)⟩
  have new : ∀ y d, (y, d) ∈ [(c!"BUILD_TOOL", c!"ON"), (c!"BUILD_LIBRARY", c!"ON"),
      (c!"CODE_COVERAGE", c!"OFF"), (c!"TSAN_BUILD", c!"OFF"), (c!"ASAN_BUILD", c!"OFF"),
      (c!"CMAKE_BUILD_TYPE", c!"Release")] → y ≠ c!"LOG_INFO" →
      ∃ v, (logOption (plainOptions e2)).get y = some v := by
    intro y d hy hl
    rw [logOption_ne _ hl]
    cases hv : e2.get y with
    | some v => exact ⟨v, plainOptions_keeps _ _ _ hv⟩
    | none => exact ⟨d, plainOptions_get _ hy hv⟩
  rcases hx with h | h | h | h | h | h | h | h | h | h | h | h <;> subst h
  · obtain ⟨v, hv⟩ := five c!"BUILD_TESTS" (by simp)
    exact old _ v hv (by decide)
  · obtain ⟨v, hv⟩ := five c!"BUILD_DOCS_TESTS" (by simp)
    exact old _ v hv (by decide)
  · obtain ⟨v, hv⟩ := five c!"BUILD_TOOL_TESTS" (by simp)
    exact old _ v hv (by decide)
  · obtain ⟨v, hv⟩ := five c!"BUILD_LIBRARY_TESTS" (by simp)
    exact old _ v hv (by decide)
  · obtain ⟨v, hv⟩ := five c!"BUILD_ALL" (by simp)
    exact old _ v hv (by decide)
  · rw [logOption_ne _ (by decide), plainOptions_ne _ (by decide)]
    rcases docsOption_eq h2 with ⟨⟨v, hv⟩, he⟩ | ⟨_, b, _, he⟩
    · exact ⟨v, by rw [he, hv]⟩
    · exact ⟨_, by rw [he, get_set_self _ _ _ (by simp)]⟩
  · exact new _ c!"ON" (by simp) (by decide)
  · exact new _ c!"ON" (by simp) (by decide)
  · exact new _ c!"OFF" (by simp) (by decide)
  · exact new _ c!"OFF" (by simp) (by decide)
  · exact new _ c!"OFF" (by simp) (by decide)
  · exact new _ c!"Release" (by simp) (by decide)

example : ∀ x ∈ [c!"BUILD_TESTS", c!"BUILD_ALL", c!"BUILD_DOCS_TESTS"], ∀ v,
    (noEnv.put c!"BUILD_ALL" (some c!"OFF")).get x = some v → OneWord v := by
  intro x hx v hv
  rw [get_put] at hv
  split at hv
  · cases hv; decide
  · exact absurd hv (by simp [noEnv, Env.get])

/-- The value `LOG_INFO` has for `if(LOG_INFO)`: a defined variable that is not a
word that says no. -/
def LogInfo (e : Env) : Prop :=
  ∃ v, e.get c!"LOG_INFO" = some v ∧ v ≠ [] ∧ ¬ No v ∧ v ≠ c!"NOTFOUND" ∧
    ¬ c!"-NOTFOUND" <:+ v

/-- C130, `LOG_INFO`: without a value of its own it is on in a `Debug` build and
off in any other; a value in the cache stays when no normal variable hides it.
Missing: values given as a normal variable, and later calls, see
`C130_negation`. -/
theorem C130_log_partial (e e' : Env) (h : configureOptions e = some e') :
    (e.get c!"LOG_INFO" = none → (LogInfo e' ↔ e'.get c!"CMAKE_BUILD_TYPE" = some c!"Debug")) ∧
    (∀ v, e.vars c!"LOG_INFO" = none → e.get c!"LOG_INFO" = some v →
      e'.get c!"LOG_INFO" = some v) := by
  unfold configureOptions at h
  obtain ⟨e2, h2, h3⟩ := Option.map_eq_some_iff.1 h
  obtain ⟨e3, he3⟩ : ∃ e3, plainOptions e2 = e3 := ⟨_, rfl⟩
  rw [he3] at h3
  have hcache : e3.cache = e.cache := by
    rw [← he3]
    simp only [plainOptions, orSet_cache]
    rcases docsOption_eq h2 with ⟨_, hh⟩ | ⟨_, b, _, hh⟩
    · rw [hh]
      simp only [testOptions, orSet_cache]
    · rw [hh, set_cache]
      simp only [testOptions, orSet_cache]
  have hget : e3.get c!"LOG_INFO" = e.get c!"LOG_INFO" := by
    rw [← he3, plainOptions_ne _ (by decide), docsOption_ne h2 (by decide),
      testOptions_ne _ (by decide)]
  have hbt : e'.get c!"CMAKE_BUILD_TYPE" = e3.get c!"CMAKE_BUILD_TYPE" := by
    rw [← h3, logOption_ne _ (by decide)]
  have hsome : ∃ v, e3.get c!"CMAKE_BUILD_TYPE" = some v := by
    rw [← he3]
    cases hv : e2.get c!"CMAKE_BUILD_TYPE" with
    | some v => exact ⟨v, plainOptions_keeps _ _ _ hv⟩
    | none => exact ⟨_, plainOptions_get e2 (d := c!"Release") (by simp) hv⟩
  constructor
  · intro hn
    rw [hn] at hget
    obtain ⟨b, hb⟩ := hsome
    rw [hbt, hb]
    unfold logOption at h3
    by_cases hd : b = c!"Debug"
    · rw [hget, if_pos (by simp [Env.text, hb, hd])] at h3
      rw [← h3]
      simp only [hd, iff_true]
      exact ⟨c!"ON", by rw [get_set_self _ _ _ (by simp)]; rfl, by decide, by decide, by decide,
        by decide⟩
    · rw [hget, if_neg (by simp [Env.text, hb, hd])] at h3
      rw [← h3]
      have hc := cache_none_of_get e3 _ hget
      simp only [Option.some.injEq, hd, iff_false]
      rintro ⟨v, hv, hv0, -⟩
      simp [Env.setCache, hc, Env.get] at hv
      exact hv0 hv
  · intro v hv hg
    rw [hg] at hget
    unfold logOption at h3
    rw [hget, if_neg (by simp)] at h3
    have hc : ∃ en, e3.cache c!"LOG_INFO" = some en ∧ en.value = v := by
      rw [hcache]
      unfold Env.get at hg
      rw [hv] at hg
      obtain ⟨en, hen, hval⟩ := Option.map_eq_some_iff.1 hg
      exact ⟨en, hen, hval⟩
    obtain ⟨⟨w, ty⟩, hc, hw⟩ := hc
    simp only at hw
    subst hw
    rw [← h3]
    unfold Env.setCache
    rw [hc]
    cases ty with
    | true => exact hget
    | false => simp [Env.get]

/-- Whether the macros see `LOG_INFO` as on, for a given result. -/
def logSeen (r : Option Env) : Option Bool := r.map fun e => truth e c!"LOG_INFO"

/-- A `Debug` build without further settings. -/
def debugEnv : Env := noEnv.put c!"CMAKE_BUILD_TYPE" (some c!"Debug")

/-- C130 fails for `LOG_INFO`: `set(LOG_INFO ON)` in the settings of a project is
lost; a second call, as for a project inside another, turns it off in a `Debug`
build; and a build directory that was configured for `Release` first never turns
it on for `Debug`. -/
theorem C130_negation :
    logSeen (configureOptions (noEnv.put c!"LOG_INFO" (some c!"ON"))) = some false ∧
    logSeen (configureOptions debugEnv) = some true ∧
    logSeen ((configureOptions debugEnv).bind configureOptions) = some false ∧
    (logSeen ((configureOptions noEnv).bind fun e =>
      configureOptions { debugEnv with cache := e.cache })) = some false := by
  decide

/-- C130 fails for `BUILD_DOCS`, which the README says follows `BUILD_DOCS_TESTS`:
with `BUILD_ALL` it is on though the tests of the documentation are not. -/
theorem C130_negation_docs :
    ((configureOptions (noEnv.put c!"BUILD_ALL" (some c!"ON"))).map fun e =>
      (e.get c!"BUILD_DOCS_TESTS", e.get c!"BUILD_DOCS")) = some (some c!"OFF", some c!"ON") := by
  decide

end Verif.CMake
