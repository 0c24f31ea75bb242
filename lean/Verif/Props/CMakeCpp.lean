import Verif.Model.CMakeCpp
import Verif.Props.CMakeFind
import Verif.Props.CMakeVersion

/-!
C137, C138 and C139: flags, version of C++ and defaults of `configure_project_cpp`.
-/
namespace Verif.CMake

/-- A compiler whose flags are known to the macros. -/
inductive Family
  | clang
  | gnu
deriving DecidableEq, Repr

/-- The family by the name CMake gives the compiler. -/
def family (id : Str) : Option Family :=
  if c!"clang" <:+: id ∨ c!"Clang" <:+: id then some .clang
  else if id = c!"GNU" then some .gnu
  else none

/-- The flags that the options stand for, with each compiler. -/
def wanted : Family → Bool → Bool → Bool → List Str
  | .clang, coverage, threads, addresses =>
    (if coverage then [c!"-fprofile-instr-generate", c!"-fcoverage-mapping"] else []) ++
    (if threads then [c!"-fsanitize=thread"] else []) ++
    (if addresses then [c!"-fsanitize=address"] else [])
  | .gnu, coverage, threads, addresses =>
    (if coverage then [c!"--coverage", c!"-fprofile-arcs", c!"-ftest-coverage"] else []) ++
    (if threads then [c!"-fsanitize=thread", c!"-fno-omit-frame-pointer"] else []) ++
    (if addresses then [c!"-fsanitize=address", c!"-fno-omit-frame-pointer"] else [])

/-- Flags one after the other, each with a blank before it. -/
def blanks (l : List Str) : Str := (l.map fun w => ' ' :: w).flatten

theorem blanks_append (a b : List Str) : blanks (a ++ b) = blanks a ++ blanks b := by
  simp [blanks]

/-! ### Steps -/

theorem mentions_iff {w v : Str} (hw : w ≠ []) : mentions w v = true ↔ w <:+: v := by
  unfold mentions
  constructor
  · intro h
    by_cases hi : w <:+: v
    · exact hi
    · rw [after_none w hw v hi] at h
      simp at h
  · intro h
    induction v with
    | nil => exact absurd (List.infix_nil.1 h) hw
    | cons c s ih =>
      unfold after
      split
      · rfl
      · rename_i hp
        rcases List.infix_cons_iff.1 h with h' | h'
        · exact absurd (List.isPrefixOf_iff_prefix.2 h') hp
        · exact ih h'

theorem matchesClang_iff (v : Str) : matchesClang v = true ↔ family v = some .clang := by
  unfold matchesClang family
  rw [Bool.or_eq_true, mentions_iff (by decide), mentions_iff (by decide)]
  split
  · simp [*]
  · rename_i h
    split
    · simp only [h, false_iff]
      decide
    · simp [h]

theorem get_force_ne (e : Env) {x y : Str} (v : Str) (h : y ≠ x) :
    (e.force x v).get y = e.get y := by
  simp [Env.force, Env.get, h]

theorem get_force_self (e : Env) (x v : Str) : (e.force x v).get x = some v := by
  simp [Env.force, Env.get]

theorem get_more_ne (e : Env) {x y : Str} (v : Str) (h : y ≠ x) :
    (e.more x v).get y = e.get y := get_set_ne _ _ h

theorem text_more_self (e : Env) (x v : Str) : (e.more x v).text x = e.text x ++ v := by
  unfold Env.more
  rw [Env.text, get_set_self _ _ _ (by simp)]
  rfl

theorem text_more_ne (e : Env) {x y : Str} (v : Str) (h : y ≠ x) :
    (e.more x v).text y = e.text y := by
  unfold Env.text
  rw [get_more_ne _ _ h]

/-- Every variable but the two with flags. -/
def SameBut (e e' : Env) : Prop :=
  ∀ y, y ≠ c!"CMAKE_C_FLAGS" → y ≠ c!"CMAKE_CXX_FLAGS" → e'.get y = e.get y

theorem activate_some {clang gnu : Str} {e e' : Env} (h : activate clang gnu e = some e') :
    SameBut e e' ∧ ∃ m, (m = (if family (e.text c!"CMAKE_C_COMPILER_ID") = some .clang ∨
        family (e.text c!"CMAKE_CXX_COMPILER_ID") = some .clang then clang else gnu)) ∧
      e'.text c!"CMAKE_C_FLAGS" = e.text c!"CMAKE_C_FLAGS" ++ m ∧
      e'.text c!"CMAKE_CXX_FLAGS" = e.text c!"CMAKE_CXX_FLAGS" ++ m := by
  unfold activate at h
  simp only [matchesClang_iff] at h
  have key : ∀ m, e' = (e.more c!"CMAKE_C_FLAGS" m).more c!"CMAKE_CXX_FLAGS" m →
      SameBut e e' ∧ e'.text c!"CMAKE_C_FLAGS" = e.text c!"CMAKE_C_FLAGS" ++ m ∧
      e'.text c!"CMAKE_CXX_FLAGS" = e.text c!"CMAKE_CXX_FLAGS" ++ m := by
    rintro m rfl
    refine ⟨fun y h1 h2 => ?_, ?_, ?_⟩
    · rw [get_more_ne _ _ h2, get_more_ne _ _ h1]
    · rw [text_more_ne _ _ (by decide), text_more_self]
    · rw [text_more_self, text_more_ne _ _ (by decide)]
  split at h
  · rename_i hc
    obtain ⟨h1, h2⟩ := key clang (Option.some.inj h).symm
    exact ⟨h1, clang, by rw [if_pos hc], h2⟩
  · rename_i hc
    split at h
    · obtain ⟨h1, h2⟩ := key gnu (Option.some.inj h).symm
      exact ⟨h1, gnu, by rw [if_neg hc], h2⟩
    · cases h

theorem activate_none {clang gnu : Str} {e : Env} : activate clang gnu e = none ↔
    ¬ (family (e.text c!"CMAKE_C_COMPILER_ID") = some .clang ∨
        family (e.text c!"CMAKE_CXX_COMPILER_ID") = some .clang) ∧
      truth e c!"CMAKE_COMPILER_IS_GNUCXX" = false := by
  unfold activate
  simp only [matchesClang_iff]
  split
  · simp [*]
  · split <;> simp [*]

/-- The family whose flags the macros choose. -/
def chosen (e : Env) : Family :=
  if family (e.text c!"CMAKE_C_COMPILER_ID") = some .clang ∨
    family (e.text c!"CMAKE_CXX_COMPILER_ID") = some .clang then .clang else .gnu

theorem chosen_congr {e e' : Env} (h : SameBut e e') : chosen e' = chosen e := by
  unfold chosen
  rw [text_congr (h c!"CMAKE_C_COMPILER_ID" (by decide) (by decide)),
    text_congr (h c!"CMAKE_CXX_COMPILER_ID" (by decide) (by decide))]

/-- Both texts of flags grow by the same flags, and nothing else changes. -/
def Grown (e e' : Env) (l : List Str) : Prop :=
  SameBut e e' ∧ e'.text c!"CMAKE_C_FLAGS" = e.text c!"CMAKE_C_FLAGS" ++ blanks l ∧
    e'.text c!"CMAKE_CXX_FLAGS" = e.text c!"CMAKE_CXX_FLAGS" ++ blanks l

theorem grown_refl (e : Env) : Grown e e [] :=
  ⟨fun _ _ _ => rfl, by simp [blanks], by simp [blanks]⟩

theorem grown_trans {a b c : Env} {l m : List Str} (h : Grown a b l) (h' : Grown b c m) :
    Grown a c (l ++ m) := by
  refine ⟨fun y h1 h2 => (h'.1 y h1 h2).trans (h.1 y h1 h2), ?_, ?_⟩
  · rw [h'.2.1, h.2.1, blanks_append, List.append_assoc]
  · rw [h'.2.2, h.2.2, blanks_append, List.append_assoc]

theorem activate_grown {c g : List Str} {e e' : Env}
    (h : activate (blanks c) (blanks g) e = some e') :
    Grown e e' (match chosen e with | .clang => c | .gnu => g) := by
  obtain ⟨h1, m, hm, h2, h3⟩ := activate_some h
  have : m = blanks (match chosen e with | .clang => c | .gnu => g) := by
    rw [hm]
    unfold chosen
    split <;> rfl
  rw [this] at h2 h3
  exact ⟨h1, h2, h3⟩

/-- Whether the macros know the compilers. -/
def Known (e : Env) : Prop :=
  (family (e.text c!"CMAKE_C_COMPILER_ID") = some .clang ∨
    family (e.text c!"CMAKE_CXX_COMPILER_ID") = some .clang) ∨
  truth e c!"CMAKE_COMPILER_IS_GNUCXX" = true

theorem known_congr {e e' : Env} (h : SameBut e e') : Known e' ↔ Known e := by
  unfold Known
  rw [text_congr (h c!"CMAKE_C_COMPILER_ID" (by decide) (by decide)),
    text_congr (h c!"CMAKE_CXX_COMPILER_ID" (by decide) (by decide)),
    truth_congr (h c!"CMAKE_COMPILER_IS_GNUCXX" (by decide) (by decide))]

theorem activate_cases (c g : List Str) (e : Env) :
    (¬ Known e ∧ activate (blanks c) (blanks g) e = none) ∨
    (Known e ∧ ∃ e', activate (blanks c) (blanks g) e = some e' ∧
      Grown e e' (match chosen e with | .clang => c | .gnu => g)) := by
  cases h : activate (blanks c) (blanks g) e with
  | none =>
    left
    have := activate_none.1 h
    refine ⟨?_, rfl⟩
    unfold Known
    rw [this.2]
    simpa using this.1
  | some e' =>
    right
    refine ⟨?_, e', rfl, activate_grown h⟩
    apply Classical.byContradiction
    intro hk
    have : activate (blanks c) (blanks g) e = none := by
      rw [activate_none]
      unfold Known at hk
      refine ⟨fun hh => hk (Or.inl hh), ?_⟩
      rw [← Bool.not_eq_true]
      exact fun hh => hk (Or.inr hh)
    rw [this] at h
    cases h

/-- What the options for instrumentation do. -/
theorem instrument_cases (e : Env) :
    (instrument e = none ∧
      (((truth e c!"CODE_COVERAGE" = true ∨ truth e c!"TSAN_BUILD" = true ∨
        truth e c!"ASAN_BUILD" = true) ∧ ¬ Known e) ∨
      (truth e c!"TSAN_BUILD" = true ∧ truth e c!"ASAN_BUILD" = true))) ∨
    (∃ e', instrument e = some e' ∧
      ¬ ((truth e c!"CODE_COVERAGE" = true ∨ truth e c!"TSAN_BUILD" = true ∨
        truth e c!"ASAN_BUILD" = true) ∧ ¬ Known e) ∧
      ¬ (truth e c!"TSAN_BUILD" = true ∧ truth e c!"ASAN_BUILD" = true) ∧
      Grown e e' (wanted (chosen e) (truth e c!"CODE_COVERAGE") (truth e c!"TSAN_BUILD")
        (truth e c!"ASAN_BUILD"))) := by
  obtain ⟨kc, hkc⟩ : ∃ b, truth e c!"CODE_COVERAGE" = b := ⟨_, rfl⟩
  obtain ⟨kt, hkt⟩ : ∃ b, truth e c!"TSAN_BUILD" = b := ⟨_, rfl⟩
  obtain ⟨ka, hka⟩ : ∃ b, truth e c!"ASAN_BUILD" = b := ⟨_, rfl⟩
  rw [hkc, hkt, hka]
  have fc : ∀ e', SameBut e e' → truth e' c!"TSAN_BUILD" = kt ∧ truth e' c!"ASAN_BUILD" = ka ∧
      (Known e' ↔ Known e) ∧ chosen e' = chosen e := by
    intro e' h
    exact ⟨(truth_congr (h _ (by decide) (by decide))).trans hkt,
      (truth_congr (h _ (by decide) (by decide))).trans hka, known_congr h, chosen_congr h⟩
  -- the three steps one by one
  have step1 : (kc = true ∧ ¬ Known e ∧ instrument e = none) ∨
      ∃ e1, (¬ (kc = true ∧ ¬ Known e)) ∧
        Grown e e1 (wanted (chosen e) kc false false) ∧
        instrument e = (do
          let e ← if truth e1 c!"TSAN_BUILD" then activateThread e1 else some e1
          if truth e c!"ASAN_BUILD" then
            if truth e c!"TSAN_BUILD" then none else activateAddress e
          else some e) := by
    unfold instrument
    rw [hkc]
    cases kc with
    | false =>
      right
      refine ⟨e, by simp, ?_, rfl⟩
      cases chosen e <;> exact grown_refl e
    | true =>
      rcases activate_cases [c!"-fprofile-instr-generate", c!"-fcoverage-mapping"]
        [c!"--coverage", c!"-fprofile-arcs", c!"-ftest-coverage"] e with ⟨h1, h2⟩ | ⟨h1, e1, h2, h3⟩
      · left
        refine ⟨rfl, h1, ?_⟩
        rw [if_pos rfl, show activateCoverage e = none from h2]
        rfl
      · right
        refine ⟨e1, by simp [h1], ?_, ?_⟩
        · cases hf : chosen e <;> rw [hf] at h3 <;> exact h3
        · rw [if_pos rfl, show activateCoverage e = some e1 from h2]
          rfl
  have step2 : ∀ e1, Grown e e1 (wanted (chosen e) kc false false) →
      (kt = true ∧ ¬ Known e ∧ (do
          let e ← if truth e1 c!"TSAN_BUILD" then activateThread e1 else some e1
          if truth e c!"ASAN_BUILD" then
            if truth e c!"TSAN_BUILD" then none else activateAddress e
          else some e) = none) ∨
      ∃ e2, (¬ (kt = true ∧ ¬ Known e)) ∧
        Grown e e2 (wanted (chosen e) kc kt false) ∧
        (do
          let e ← if truth e1 c!"TSAN_BUILD" then activateThread e1 else some e1
          if truth e c!"ASAN_BUILD" then
            if truth e c!"TSAN_BUILD" then none else activateAddress e
          else some e) =
          (if truth e2 c!"ASAN_BUILD" then
            if truth e2 c!"TSAN_BUILD" then none else activateAddress e2
          else some e2) := by
    intro e1 hg
    obtain ⟨ht, _, hk, hch⟩ := fc e1 hg.1
    rw [ht]
    cases kt with
    | false =>
      right
      exact ⟨e1, by simp, hg, rfl⟩
    | true =>
      rcases activate_cases [c!"-fsanitize=thread"]
        [c!"-fsanitize=thread", c!"-fno-omit-frame-pointer"] e1 with ⟨h1, h2⟩ | ⟨h1, e2, h2, h3⟩
      · left
        refine ⟨rfl, fun h => h1 (hk.2 h), ?_⟩
        rw [if_pos rfl, show activateThread e1 = none from h2]
        rfl
      · right
        refine ⟨e2, by simp [hk.1 h1], ?_, ?_⟩
        · have := grown_trans hg h3
          rw [hch] at this
          cases hf : chosen e <;> rw [hf] at this <;> cases kc <;> exact this
        · rw [if_pos rfl, show activateThread e1 = some e2 from h2]
          rfl
  have step3 : ∀ e2, Grown e e2 (wanted (chosen e) kc kt false) →
      ((ka = true ∧ (kt = true ∨ ¬ Known e)) ∧ (if truth e2 c!"ASAN_BUILD" then
            if truth e2 c!"TSAN_BUILD" then none else activateAddress e2
          else some e2) = none) ∨
      ∃ e3, ¬ (ka = true ∧ (kt = true ∨ ¬ Known e)) ∧
        Grown e e3 (wanted (chosen e) kc kt ka) ∧
        (if truth e2 c!"ASAN_BUILD" then
            if truth e2 c!"TSAN_BUILD" then none else activateAddress e2
          else some e2) = some e3 := by
    intro e2 hg
    obtain ⟨ht, ha, hk, hch⟩ := fc e2 hg.1
    rw [ht, ha]
    cases ka with
    | false =>
      right
      exact ⟨e2, by simp, hg, rfl⟩
    | true =>
      cases kt with
      | true => left; exact ⟨⟨rfl, Or.inl rfl⟩, rfl⟩
      | false =>
        rcases activate_cases [c!"-fsanitize=address"]
          [c!"-fsanitize=address", c!"-fno-omit-frame-pointer"] e2 with ⟨h1, h2⟩ | ⟨h1, e3, h2, h3⟩
        · left
          exact ⟨⟨rfl, Or.inr fun h => h1 (hk.2 h)⟩, h2⟩
        · right
          refine ⟨e3, by simp [hk.1 h1], ?_, h2⟩
          have := grown_trans hg h3
          rw [hch] at this
          cases hf : chosen e <;> rw [hf] at this <;> cases kc <;> exact this
  rcases step1 with ⟨h1, h2, h3⟩ | ⟨e1, h1, g1, q1⟩
  · exact Or.inl ⟨h3, Or.inl ⟨Or.inl h1, h2⟩⟩
  · rcases step2 e1 g1 with ⟨h2, h3, h4⟩ | ⟨e2, h2, g2, q2⟩
    · exact Or.inl ⟨q1.trans h4, Or.inl ⟨Or.inr (Or.inl h2), h3⟩⟩
    · rcases step3 e2 g2 with ⟨⟨h3, h4⟩, h5⟩ | ⟨e3, h3, g3, q3⟩
      · refine Or.inl ⟨q1.trans (q2.trans h5), ?_⟩
        rcases h4 with h4 | h4
        · exact Or.inr ⟨h4, h3⟩
        · exact Or.inl ⟨Or.inr (Or.inr h3), h4⟩
      · refine Or.inr ⟨e3, q1.trans (q2.trans q3), ?_, ?_, g3⟩
        · grind
        · grind

/-! ### The steps before -/

/-- The names that the steps before the options for instrumentation concern. -/
def EarlyName (y : Str) : Prop :=
  y = c!"CMAKE_BUILD_TYPE" ∨ y = c!"BUILD_SHARED_LIBS" ∨ y = c!"CMAKE_CXX_STANDARD" ∨
    c!"SUPPORTS_CXX" <+: y

instance (y : Str) : Decidable (EarlyName y) := by unfold EarlyName; infer_instance

theorem buildType_ne (e : Env) {y : Str} (h : y ≠ c!"CMAKE_BUILD_TYPE") :
    (setBuildType e).get y = e.get y := by
  unfold setBuildType
  split
  · exact get_force_ne _ _ h
  · rfl

theorem forceStandard_ne {supports : Str → Bool} {n : Str} {e e' : Env}
    (h : forceStandard supports n e = some e') {y : Str} (h1 : y ≠ c!"CMAKE_CXX_STANDARD")
    (h2 : y ≠ c!"SUPPORTS_CXX" ++ n) : e'.get y = e.get y := by
  unfold forceStandard at h
  dsimp only at h
  split at h
  · obtain ⟨e1, he1⟩ : ∃ e1, (if (e.get (c!"SUPPORTS_CXX" ++ n)).isSome = true then e
      else e.force (c!"SUPPORTS_CXX" ++ n) (if supports (c!"-std=c++" ++ n) = true then c!"1" else [])) =
        e1 := ⟨_, rfl⟩
    rw [he1] at h
    split at h
    · rw [← Option.some.inj h, get_set_ne _ _ h1, ← he1]
      split
      · rfl
      · rw [get_force_ne _ _ h2]
    · cases h
  · rw [← Option.some.inj h, get_set_ne _ _ h1]

theorem cppVersion_ne {supports : Str → Bool} {e e' : Env} (h : cppVersion supports e = some e')
    {y : Str} (h1 : y ≠ c!"CMAKE_CXX_STANDARD") (h2 : ¬ c!"SUPPORTS_CXX" <+: y) :
    e'.get y = e.get y := by
  unfold cppVersion at h
  have hf : ∀ n, y ≠ c!"SUPPORTS_CXX" ++ n := fun n hn => h2 ⟨n, hn.symm⟩
  split at h
  · rw [← Option.some.inj h]
  · unfold forceCpp at h
    split at h
    · cases h
    · split at h
      · rw [← Option.some.inj h]
      · split at h
        · exact forceStandard_ne h h1 (hf _)
        · split at h
          · exact forceStandard_ne h h1 (hf _)
          · split at h
            · exact forceStandard_ne h h1 (hf _)
            · split at h
              · exact forceStandard_ne h h1 (hf _)
              · cases h

/-- `configure_project_cpp` in two parts. -/
theorem configure_cases (supports : Str → Bool) (e : Env) :
    (configureCpp supports e = none ∧ cppVersion supports (setBuildType e) = none) ∨
    ∃ e1 e2, cppVersion supports (setBuildType e) = some e1 ∧
      e2 = e1.setCache c!"BUILD_SHARED_LIBS" c!"ON" ∧
      (∀ y, ¬ EarlyName y → e2.get y = e.get y) ∧
      configureCpp supports e = (instrument e2).map customFlags := by
  unfold configureCpp
  cases hv : cppVersion supports (setBuildType e) with
  | none =>
    left
    dsimp only
    rw [hv]
    exact ⟨rfl, rfl⟩
  | some e1 =>
    right
    dsimp only
    rw [hv]
    refine ⟨e1, _, rfl, rfl, ?_, ?_⟩
    · intro y hy
      unfold EarlyName at hy
      simp only [not_or] at hy
      rw [get_setCache_ne _ _ hy.2.1, cppVersion_ne hv hy.2.2.1 hy.2.2.2, buildType_ne _ hy.1]
    · show (instrument _ >>= fun e => some (customFlags e)) = _
      cases instrument (e1.setCache c!"BUILD_SHARED_LIBS" c!"ON") <;> rfl

/-- The standard asked for, by its documented spellings. -/
def standardOf (v : Str) : Option Str :=
  [c!"11", c!"14", c!"17", c!"20"].find? fun n => v == n || v == c!"C++" ++ n

/-- The compiler is asked by the macros whether it supports the standard. -/
def Asked (e : Env) : Prop :=
  truth e c!"CMAKE_COMPILER_IS_GNUCXX" = true ∨ truth e c!"CMAKE_COMPILER_IS_CLANG" = true ∨
    ∃ i, e.get c!"CMAKE_CXX_COMPILER_ID" = some i ∧ c!"Clang" <:+: i

/-- The answer of the compiler, now or at an earlier configuration. -/
def Answers (supports : Str → Bool) (e : Env) (n : Str) : Prop :=
  match e.get (c!"SUPPORTS_CXX" ++ n) with
  | some v => isOff v = false
  | none => supports (c!"-std=c++" ++ n) = true

/-- The version of C++ that is asked for cannot be had: it is not one of the known
spellings, or the compiler says that it does not support it. -/
def VersionRefused (supports : Str → Bool) (e : Env) : Prop :=
  ∃ v, e.get c!"MODULE_CPP_VERSION" = some v ∧
    (standardOf v = none ∨ ∃ n, standardOf v = some n ∧ Asked e ∧ ¬ Answers supports e n)

theorem forceStandard_cases (supports : Str → Bool) (n : Str) (hn : n ∈ [c!"11", c!"14", c!"17", c!"20"])
    (e : Env) :
    (forceStandard supports n e = none ∧ Asked e ∧ ¬ Answers supports e n) ∨
    ((∃ e', forceStandard supports n e = some e' ∧ e'.get c!"CMAKE_CXX_STANDARD" = some n) ∧
      ¬ (Asked e ∧ ¬ Answers supports e n)) := by
  have hname : IsName (c!"SUPPORTS_CXX" ++ n) := by
    have : ∀ n ∈ [c!"11", c!"14", c!"17", c!"20"], IsName (c!"SUPPORTS_CXX" ++ n) := by decide
    exact this n hn
  have hask : (truth e c!"CMAKE_COMPILER_IS_GNUCXX" ∨ truth e c!"CMAKE_COMPILER_IS_CLANG" ∨
      mentions c!"Clang" ((e.get c!"CMAKE_CXX_COMPILER_ID").getD c!"CMAKE_CXX_COMPILER_ID")) ↔
      Asked e := by
    unfold Asked
    rw [mentions_iff (by decide)]
    cases e.get c!"CMAKE_CXX_COMPILER_ID" with
    | none =>
      have : ¬ c!"Clang" <:+: c!"CMAKE_CXX_COMPILER_ID" := by decide
      simp [this]
    | some i => simp
  unfold forceStandard
  dsimp only
  by_cases ha : Asked e
  · rw [if_pos (hask.2 ha)]
    obtain ⟨e1, he1⟩ : ∃ e1, (if (e.get (c!"SUPPORTS_CXX" ++ n)).isSome = true then e
      else e.force (c!"SUPPORTS_CXX" ++ n) (if supports (c!"-std=c++" ++ n) = true then c!"1" else [])) =
        e1 := ⟨_, rfl⟩
    rw [he1]
    have ht : truth e1 (c!"SUPPORTS_CXX" ++ n) = true ↔ Answers supports e n := by
      rw [truth_name _ hname, ← he1]
      unfold Answers
      cases hg : e.get (c!"SUPPORTS_CXX" ++ n) with
      | some v =>
        simp only [Option.isSome_some, if_true]
        rw [hg]
        simp
      | none =>
        simp only [Option.isSome_none, Bool.false_eq_true, if_false]
        rw [get_force_self]
        cases supports (c!"-std=c++" ++ n)
        · simp only [Bool.false_eq_true, if_false, iff_false]
          decide
        · simp only [if_true, iff_true]
          decide
    by_cases hans : Answers supports e n
    · right
      rw [if_pos (ht.2 hans)]
      refine ⟨⟨_, rfl, ?_⟩, by simp [hans]⟩
      rw [get_set_self _ _ _ (by simp)]
      rfl
    · left
      rw [if_neg (fun h => hans (ht.1 h))]
      exact ⟨rfl, ha, hans⟩
  · right
    rw [if_neg (fun h => ha (hask.1 h))]
    refine ⟨⟨_, rfl, ?_⟩, by simp [ha]⟩
    rw [get_set_self _ _ _ (by simp)]
    rfl

theorem standardOf_iff (v : Str) : standardOf v =
    if v = c!"11" ∨ v = c!"C++11" then some c!"11"
    else if v = c!"14" ∨ v = c!"C++14" then some c!"14"
    else if v = c!"17" ∨ v = c!"C++17" then some c!"17"
    else if v = c!"20" ∨ v = c!"C++20" then some c!"20" else none := by
  unfold standardOf
  simp only [List.find?_cons, List.find?_nil, Bool.or_eq_true, beq_iff_eq, List.cons_append,
    List.nil_append]
  repeat' split
  all_goals simp_all

theorem cppVersion_cases (supports : Str → Bool) (e : Env)
    (hl : ∀ v, e.get c!"MODULE_CPP_VERSION" = some v → ';' ∉ v) :
    (cppVersion supports e = none ∧ VersionRefused supports e) ∨
    (∃ e', cppVersion supports e = some e' ∧ ¬ VersionRefused supports e ∧
      (∀ v n, e.get c!"MODULE_CPP_VERSION" = some v → standardOf v = some n →
        e'.get c!"CMAKE_CXX_STANDARD" = some n) ∧
      (e.get c!"MODULE_CPP_VERSION" = none → e' = e)) := by
  unfold cppVersion VersionRefused
  cases hv : e.get c!"MODULE_CPP_VERSION" with
  | none =>
    right
    exact ⟨e, rfl, by simp, by simp, fun _ => rfl⟩
  | some v =>
    dsimp only
    have key : ∀ n ∈ [c!"11", c!"14", c!"17", c!"20"], standardOf v = some n →
        forceCpp supports (elements v) e = forceStandard supports n e →
        (forceCpp supports (elements v) e = none ∧ ∃ w, some v = some w ∧
          (standardOf w = none ∨ ∃ n, standardOf w = some n ∧ Asked e ∧ ¬ Answers supports e n)) ∨
        (∃ e', forceCpp supports (elements v) e = some e' ∧ (¬ ∃ w, some v = some w ∧
          (standardOf w = none ∨ ∃ n, standardOf w = some n ∧ Asked e ∧ ¬ Answers supports e n)) ∧
          (∀ w n, some v = some w → standardOf w = some n →
            e'.get c!"CMAKE_CXX_STANDARD" = some n) ∧ (some v = none → e' = e)) := by
      intro n hn hs hq
      rw [hq]
      rcases forceStandard_cases supports n hn e with ⟨h1, h2⟩ | ⟨⟨e', h1, h2⟩, h3⟩
      · exact Or.inl ⟨h1, v, rfl, Or.inr ⟨n, hs, h2⟩⟩
      · refine Or.inr ⟨e', h1, ?_, ?_, by simp⟩
        · rintro ⟨w, hw, hh⟩
          rw [← Option.some.inj hw, hs] at hh
          rcases hh with hh | ⟨m, hm, hh⟩
          · cases hh
          · rw [← Option.some.inj hm] at hh
            exact h3 hh
        · intro w m hw hm
          rw [← Option.some.inj hw, hs] at hm
          rw [← Option.some.inj hm]
          exact h2
    by_cases h0 : v = []
    · subst h0
      left
      exact ⟨rfl, [], rfl, Or.inl (by decide)⟩
    · have hel : elements v = [v] := elements_single h0 (hl v hv)
      have hf : forceCpp supports (elements v) e =
          if v = c!"11" ∨ v = c!"C++11" then forceStandard supports c!"11" e
          else if v = c!"14" ∨ v = c!"C++14" then forceStandard supports c!"14" e
          else if v = c!"17" ∨ v = c!"C++17" then forceStandard supports c!"17" e
          else if v = c!"20" ∨ v = c!"C++20" then forceStandard supports c!"20" e
          else none := by
        rw [hel]
        unfold forceCpp
        dsimp only
        rw [if_neg h0]
      by_cases h11 : v = c!"11" ∨ v = c!"C++11"
      · exact key c!"11" (by decide) (by rw [standardOf_iff, if_pos h11]) (by rw [hf, if_pos h11])
      by_cases h14 : v = c!"14" ∨ v = c!"C++14"
      · exact key c!"14" (by decide) (by rw [standardOf_iff, if_neg h11, if_pos h14])
          (by rw [hf, if_neg h11, if_pos h14])
      by_cases h17 : v = c!"17" ∨ v = c!"C++17"
      · exact key c!"17" (by decide) (by rw [standardOf_iff, if_neg h11, if_neg h14, if_pos h17])
          (by rw [hf, if_neg h11, if_neg h14, if_pos h17])
      by_cases h20 : v = c!"20" ∨ v = c!"C++20"
      · exact key c!"20" (by decide)
          (by rw [standardOf_iff, if_neg h11, if_neg h14, if_neg h17, if_pos h20])
          (by rw [hf, if_neg h11, if_neg h14, if_neg h17, if_pos h20])
      · left
        refine ⟨by rw [hf, if_neg h11, if_neg h14, if_neg h17, if_neg h20], v, rfl, Or.inl ?_⟩
        rw [standardOf_iff, if_neg h11, if_neg h14, if_neg h17, if_neg h20]

theorem refused_congr {supports : Str → Bool} {e e' : Env}
    (h : ∀ y, y ≠ c!"CMAKE_BUILD_TYPE" → e'.get y = e.get y) :
    VersionRefused supports e' ↔ VersionRefused supports e := by
  have hs : ∀ n, c!"SUPPORTS_CXX" ++ n ≠ c!"CMAKE_BUILD_TYPE" := by
    intro n hn
    exact absurd (List.cons.inj hn).1 (by decide)
  have ha : Asked e' ↔ Asked e := by
    unfold Asked
    rw [truth_congr (h c!"CMAKE_COMPILER_IS_GNUCXX" (by decide)),
      truth_congr (h c!"CMAKE_COMPILER_IS_CLANG" (by decide)),
      h c!"CMAKE_CXX_COMPILER_ID" (by decide)]
  have hb : ∀ n, Answers supports e' n ↔ Answers supports e n := by
    intro n
    unfold Answers
    rw [h _ (hs n)]
  unfold VersionRefused
  rw [h c!"MODULE_CPP_VERSION" (by decide)]
  simp only [ha, hb]

/-! ### C137 -/

theorem custom_c (e : Env) : (customFlags e).text c!"CMAKE_C_FLAGS" = e.text c!"CMAKE_C_FLAGS" := by
  unfold customFlags
  split
  · exact text_more_ne _ _ (by decide)
  · rfl

theorem custom_ne (e : Env) {y : Str} (h : y ≠ c!"CMAKE_CXX_FLAGS") :
    (customFlags e).get y = e.get y := by
  unfold customFlags
  split
  · exact get_more_ne _ _ h
  · rfl

theorem custom_cxx (e : Env) : (customFlags e).text c!"CMAKE_CXX_FLAGS" =
    e.text c!"CMAKE_CXX_FLAGS" ++ (if truth e c!"MSVC" = true ∨ truth e c!"MSVC_IDE" = true then
      c!" /Zc:preprocessor" else []) := by
  unfold customFlags
  split
  · rw [text_more_self]
  · simp

/-- What the flags are after a successful run. -/
theorem configure_flags {supports : Str → Bool} {e e' : Env}
    (h : configureCpp supports e = some e') :
    e'.text c!"CMAKE_C_FLAGS" = e.text c!"CMAKE_C_FLAGS" ++
      blanks (wanted (chosen e) (truth e c!"CODE_COVERAGE") (truth e c!"TSAN_BUILD")
        (truth e c!"ASAN_BUILD")) ∧
    e'.text c!"CMAKE_CXX_FLAGS" = e.text c!"CMAKE_CXX_FLAGS" ++
      blanks (wanted (chosen e) (truth e c!"CODE_COVERAGE") (truth e c!"TSAN_BUILD")
        (truth e c!"ASAN_BUILD")) ++
      (if truth e c!"MSVC" = true ∨ truth e c!"MSVC_IDE" = true then
        c!" /Zc:preprocessor" else []) := by
  rcases configure_cases supports e with ⟨h1, _⟩ | ⟨e1, e2, _, _, hs, hq⟩
  · rw [h1] at h; cases h
  · rw [hq] at h
    rcases instrument_cases e2 with ⟨h1, _⟩ | ⟨e3, h1, _, _, hg⟩
    · rw [h1] at h; cases h
    · rw [h1] at h
      have h : customFlags e3 = e' := Option.some.inj h
      have hch : chosen e2 = chosen e := by
        unfold chosen
        rw [text_congr (hs c!"CMAKE_C_COMPILER_ID" (by decide)),
          text_congr (hs c!"CMAKE_CXX_COMPILER_ID" (by decide))]
      rw [hch, truth_congr (hs c!"CODE_COVERAGE" (by decide)),
        truth_congr (hs c!"TSAN_BUILD" (by decide)),
        truth_congr (hs c!"ASAN_BUILD" (by decide))] at hg
      rw [← h, custom_c, custom_cxx, hg.2.1, hg.2.2, text_congr (hs c!"CMAKE_C_FLAGS" (by decide)),
        text_congr (hs c!"CMAKE_CXX_FLAGS" (by decide)),
        truth_congr (hg.1 c!"MSVC" (by decide) (by decide)),
        truth_congr (hg.1 c!"MSVC_IDE" (by decide) (by decide)),
        truth_congr (hs c!"MSVC" (by decide)), truth_congr (hs c!"MSVC_IDE" (by decide))]
      exact ⟨rfl, rfl⟩

/-- C137.  After `configure_project_cpp` the flags of both compilers are those given,
followed by exactly the flags that the options which are on stand for with that compiler
(and, for MSVC, the flag for the preprocessor); with no option on nothing is added,
whatever the compilers.  Missing: a C compiler of one family with a C++ compiler of the
other, see `C137_negation`. -/
theorem C137_flags_partial (supports : Str → Bool) (e e' : Env) (f : Family)
    (h : configureCpp supports e = some e')
    (hx : family (e.text c!"CMAKE_CXX_COMPILER_ID") = some f) :
    (family (e.text c!"CMAKE_C_COMPILER_ID") = some f →
      e'.text c!"CMAKE_C_FLAGS" = e.text c!"CMAKE_C_FLAGS" ++
        blanks (wanted f (truth e c!"CODE_COVERAGE") (truth e c!"TSAN_BUILD")
          (truth e c!"ASAN_BUILD"))) ∧
    (f = .clang ∨ family (e.text c!"CMAKE_C_COMPILER_ID") ≠ some .clang →
      e'.text c!"CMAKE_CXX_FLAGS" = e.text c!"CMAKE_CXX_FLAGS" ++
        blanks (wanted f (truth e c!"CODE_COVERAGE") (truth e c!"TSAN_BUILD")
          (truth e c!"ASAN_BUILD")) ++
        (if truth e c!"MSVC" = true ∨ truth e c!"MSVC_IDE" = true then
          c!" /Zc:preprocessor" else [])) := by
  obtain ⟨h1, h2⟩ := configure_flags h
  constructor
  · intro hc
    have : chosen e = f := by
      unfold chosen
      rw [hc, hx]
      cases f <;> simp
    rw [h1, this]
  · intro hc
    have : chosen e = f := by
      unfold chosen
      rw [hx]
      cases f with
      | clang => simp
      | gnu =>
        rcases hc with hc | hc
        · cases hc
        · simp [hc]
    rw [h2, this]

/-- C137.  Without options nothing is added for any compilers. -/
theorem C137_quiet (supports : Str → Bool) (e e' : Env) (h : configureCpp supports e = some e')
    (h1 : truth e c!"CODE_COVERAGE" = false) (h2 : truth e c!"TSAN_BUILD" = false)
    (h3 : truth e c!"ASAN_BUILD" = false) (h4 : truth e c!"MSVC" = false)
    (h5 : truth e c!"MSVC_IDE" = false) :
    e'.text c!"CMAKE_C_FLAGS" = e.text c!"CMAKE_C_FLAGS" ∧
    e'.text c!"CMAKE_CXX_FLAGS" = e.text c!"CMAKE_CXX_FLAGS" := by
  obtain ⟨g1, g2⟩ := configure_flags h
  have hw : blanks (wanted (chosen e) false false false) = [] := by cases chosen e <;> rfl
  rw [g1, g2, h1, h2, h3, h4, h5, hw]
  simp

/-- C137.  `configure_project_cpp` fails exactly when the version of C++ cannot be had,
when an option is on and neither compiler is Clang nor the C++ compiler GCC, or when both
sanitizers are on: they are never on together. -/
theorem C137_refused (supports : Str → Bool) (e : Env)
    (hl : ∀ v, e.get c!"MODULE_CPP_VERSION" = some v → ';' ∉ v)
    (hg : truth e c!"CMAKE_COMPILER_IS_GNUCXX" = true ↔
      family (e.text c!"CMAKE_CXX_COMPILER_ID") = some .gnu) :
    configureCpp supports e = none ↔
      VersionRefused supports e ∨
      ((truth e c!"CODE_COVERAGE" = true ∨ truth e c!"TSAN_BUILD" = true ∨
        truth e c!"ASAN_BUILD" = true) ∧
        family (e.text c!"CMAKE_C_COMPILER_ID") ≠ some .clang ∧
        family (e.text c!"CMAKE_CXX_COMPILER_ID") = none) ∨
      (truth e c!"TSAN_BUILD" = true ∧ truth e c!"ASAN_BUILD" = true) := by
  have hb : ∀ y, y ≠ c!"CMAKE_BUILD_TYPE" → (setBuildType e).get y = e.get y :=
    fun y => buildType_ne e
  have hr := refused_congr (supports := supports) hb
  have hv := cppVersion_cases supports (setBuildType e)
    (fun v hv => hl v ((hb _ (by decide)).symm.trans hv))
  have hk : Known e ↔ ¬ (family (e.text c!"CMAKE_C_COMPILER_ID") ≠ some .clang ∧
      family (e.text c!"CMAKE_CXX_COMPILER_ID") = none) := by
    unfold Known
    rw [hg]
    cases family (e.text c!"CMAKE_CXX_COMPILER_ID") with
    | none => simp
    | some f => cases f <;> simp
  rcases configure_cases supports e with ⟨h1, h2⟩ | ⟨e1, e2, h1, h2, hs, hq⟩
  · rcases hv with ⟨_, h3⟩ | ⟨e', h3, _⟩
    · exact ⟨fun _ => Or.inl (hr.1 h3), fun _ => h1⟩
    · rw [h3] at h2; cases h2
  · have hnr : ¬ VersionRefused supports e := by
      rcases hv with ⟨h3, _⟩ | ⟨e', _, h3, _⟩
      · rw [h3] at h1; cases h1
      · exact fun h => h3 (hr.2 h)
    have hkn : Known e2 ↔ Known e := by
      unfold Known
      rw [text_congr (hs c!"CMAKE_C_COMPILER_ID" (by decide)),
        text_congr (hs c!"CMAKE_CXX_COMPILER_ID" (by decide)),
        truth_congr (hs c!"CMAKE_COMPILER_IS_GNUCXX" (by decide))]
    have hc := instrument_cases e2
    rw [truth_congr (hs c!"CODE_COVERAGE" (by decide)),
      truth_congr (hs c!"TSAN_BUILD" (by decide)),
      truth_congr (hs c!"ASAN_BUILD" (by decide)), hkn, hk] at hc
    rw [hq]
    rcases hc with ⟨h3, h4⟩ | ⟨e3, h3, h4, h5, _⟩
    · rw [h3]
      constructor
      · intro _
        right
        rcases h4 with ⟨a, b⟩ | h4
        · exact Or.inl ⟨a, Classical.not_not.1 b⟩
        · exact Or.inr h4
      · intro _; rfl
    · rw [h3]
      constructor
      · intro h; cases h
      · rintro (h | ⟨a, b⟩ | h)
        · exact absurd h hnr
        · exact absurd ⟨a, Classical.not_not.2 b⟩ h4
        · exact absurd h h5

/-- Variables with the given values. -/
def env (l : List (Str × Str)) : Env := ⟨fun x => (l.find? fun p => p.1 = x).map Prod.snd, fun _ => none⟩

/-- GCC with coverage and the sanitizer for threads. -/
def gccEnv : Env := env [(c!"CMAKE_C_COMPILER_ID", c!"GNU"), (c!"CMAKE_CXX_COMPILER_ID", c!"GNU"),
  (c!"CMAKE_COMPILER_IS_GNUCXX", c!"1"), (c!"CMAKE_CXX_FLAGS", c!"-Wall"),
  (c!"CODE_COVERAGE", c!"ON"), (c!"TSAN_BUILD", c!"ON"), (c!"MODULE_CPP_VERSION", c!"C++17")]

example : ((configureCpp (fun _ => true) gccEnv).map fun e => (e.text c!"CMAKE_CXX_FLAGS",
      e.get c!"CMAKE_CXX_STANDARD")) =
    some (c!"-Wall --coverage -fprofile-arcs -ftest-coverage -fsanitize=thread -fno-omit-frame-pointer",
      some c!"17") ∧
    family (gccEnv.text c!"CMAKE_CXX_COMPILER_ID") = some .gnu ∧
    family (gccEnv.text c!"CMAKE_C_COMPILER_ID") = some .gnu ∧
    truth gccEnv c!"CMAKE_COMPILER_IS_GNUCXX" = true := by decide

/-- MSVC without options. -/
def msvcEnv : Env := env [(c!"CMAKE_C_COMPILER_ID", c!"MSVC"), (c!"CMAKE_CXX_COMPILER_ID", c!"MSVC"),
  (c!"MSVC", c!"1"), (c!"CMAKE_CXX_FLAGS", c!"/W3")]

example : ((configureCpp (fun _ => true) msvcEnv).map fun e => (e.text c!"CMAKE_CXX_FLAGS",
    e.text c!"CMAKE_C_FLAGS")) = some (c!"/W3 /Zc:preprocessor", c!"") := by decide

example : configureCpp (fun _ => true) (msvcEnv.put c!"ASAN_BUILD" (some c!"ON")) = none := by
  rw [C137_refused _ _ (by decide) (by decide)]
  exact Or.inr (Or.inl ⟨by decide, by decide, by decide⟩)

/-- C137 fails for a C compiler of the one family and a C++ compiler of the other:
GCC gets the flags of Clang, which it does not know. -/
theorem C137_negation (supports : Str → Bool) (e e' : Env) (h : configureCpp supports e = some e')
    (h1 : truth e c!"CODE_COVERAGE" = true) (h2 : truth e c!"TSAN_BUILD" = false)
    (h3 : truth e c!"ASAN_BUILD" = false) (h4 : truth e c!"MSVC" = false)
    (h5 : truth e c!"MSVC_IDE" = false) :
    (family (e.text c!"CMAKE_CXX_COMPILER_ID") = some .gnu →
      family (e.text c!"CMAKE_C_COMPILER_ID") = some .clang →
      e'.text c!"CMAKE_CXX_FLAGS" =
        e.text c!"CMAKE_CXX_FLAGS" ++ c!" -fprofile-instr-generate -fcoverage-mapping") ∧
    (family (e.text c!"CMAKE_CXX_COMPILER_ID") = some .clang →
      family (e.text c!"CMAKE_C_COMPILER_ID") = some .gnu →
      e'.text c!"CMAKE_C_FLAGS" =
        e.text c!"CMAKE_C_FLAGS" ++ c!" -fprofile-instr-generate -fcoverage-mapping") := by
  obtain ⟨g1, g2⟩ := configure_flags h
  rw [h1, h2, h3] at g1 g2
  rw [h4, h5] at g2
  have hc : family (e.text c!"CMAKE_C_COMPILER_ID") = some .clang ∨
      family (e.text c!"CMAKE_CXX_COMPILER_ID") = some .clang → chosen e = .clang := fun h => if_pos h
  constructor
  · intro _ hh
    rw [g2, hc (Or.inl hh)]
    simp [blanks, wanted]
  · intro hh _
    rw [g1, hc (Or.inr hh)]
    simp [blanks, wanted]

/-- `CC=clang CXX=g++`. -/
def mixedEnv : Env := env [(c!"CMAKE_C_COMPILER_ID", c!"Clang"), (c!"CMAKE_CXX_COMPILER_ID", c!"GNU"),
  (c!"CMAKE_COMPILER_IS_GNUCXX", c!"1"), (c!"CODE_COVERAGE", c!"ON")]

example : (configureCpp (fun _ => true) mixedEnv).isSome = true ∧
    truth mixedEnv c!"CODE_COVERAGE" = true ∧ truth mixedEnv c!"TSAN_BUILD" = false ∧
    truth mixedEnv c!"ASAN_BUILD" = false ∧ truth mixedEnv c!"MSVC" = false ∧
    truth mixedEnv c!"MSVC_IDE" = false ∧
    family (mixedEnv.text c!"CMAKE_CXX_COMPILER_ID") = some .gnu ∧
    family (mixedEnv.text c!"CMAKE_C_COMPILER_ID") = some .clang := by decide

/-! ### C138 -/

theorem standard_kept {e1 e2 e3 e' : Env} (h2 : e2 = e1.setCache c!"BUILD_SHARED_LIBS" c!"ON")
    (h3 : SameBut e2 e3) (h : customFlags e3 = e') {y : Str} (hy : y ≠ c!"BUILD_SHARED_LIBS")
    (h4 : y ≠ c!"CMAKE_C_FLAGS") (h5 : y ≠ c!"CMAKE_CXX_FLAGS") : e'.get y = e1.get y := by
  rw [← h, custom_ne _ h5, h3 _ h4 h5, h2, get_setCache_ne _ _ hy]

/-- C138.  When `configure_project_cpp` succeeds, `CMAKE_CXX_STANDARD` is the version
asked for by `MODULE_CPP_VERSION`, given as a number or with `C++` before it, and the
compiler supports it if it was asked; nothing is forced without `MODULE_CPP_VERSION`.
Missing: a compiler other than GCC and Clang is not asked; and the value `''` that the
README gives as default, see `C138_negation`. -/
theorem C138_version_partial (supports : Str → Bool) (e e' : Env)
    (hl : ∀ v, e.get c!"MODULE_CPP_VERSION" = some v → ';' ∉ v)
    (h : configureCpp supports e = some e') :
    (∀ v, e.get c!"MODULE_CPP_VERSION" = some v →
      ∃ n ∈ [c!"11", c!"14", c!"17", c!"20"], (v = n ∨ v = c!"C++" ++ n) ∧
        e'.get c!"CMAKE_CXX_STANDARD" = some n ∧ (Asked e → Answers supports e n)) ∧
    (e.get c!"MODULE_CPP_VERSION" = none →
      e'.get c!"CMAKE_CXX_STANDARD" = e.get c!"CMAKE_CXX_STANDARD") := by
  have hb : ∀ y, y ≠ c!"CMAKE_BUILD_TYPE" → (setBuildType e).get y = e.get y :=
    fun y => buildType_ne e
  have hv := cppVersion_cases supports (setBuildType e)
    (fun v hv => hl v ((hb _ (by decide)).symm.trans hv))
  rcases configure_cases supports e with ⟨h1, _⟩ | ⟨e1, e2, h1, h2, hs, hq⟩
  · rw [h1] at h; cases h
  · rw [hq] at h
    rcases instrument_cases e2 with ⟨h3, _⟩ | ⟨e3, h3, _, _, hg⟩
    · rw [h3] at h; cases h
    · rw [h3] at h
      have hk := standard_kept h2 hg.1 (Option.some.inj h) (y := c!"CMAKE_CXX_STANDARD") (by decide)
        (by decide) (by decide)
      rcases hv with ⟨h4, _⟩ | ⟨e1', h4, h5, h6, h7⟩
      · rw [h4] at h1; cases h1
      · rw [h1] at h4
        obtain rfl := Option.some.inj h4
        rw [hb _ (by decide)] at h6 h7
        rw [refused_congr hb] at h5
        constructor
        · intro v hv
          cases hst : standardOf v with
          | none => exact absurd ⟨v, hv, Or.inl hst⟩ h5
          | some n =>
            have hm := List.mem_of_find?_eq_some hst
            have hp := List.find?_some hst
            simp only [Bool.or_eq_true, beq_iff_eq] at hp
            refine ⟨n, hm, hp, hk.trans (h6 v n hv hst), fun ha => ?_⟩
            apply Classical.byContradiction
            intro hna
            exact h5 ⟨v, hv, Or.inr ⟨n, hst, ha, hna⟩⟩
        · intro hv
          rw [hk, h7 hv, hb _ (by decide)]

example : gccEnv.get c!"MODULE_CPP_VERSION" = some c!"C++17" ∧ Asked gccEnv ∧
    Answers (fun _ => true) gccEnv c!"17" ∧
    configureCpp (fun _ => false) gccEnv = none := by
  refine ⟨by decide, Or.inl (by decide), show true = true from rfl, ?_⟩
  rw [C137_refused _ _ (by decide) (by decide)]
  refine Or.inl ⟨c!"C++17", by decide, Or.inr ⟨c!"17", by decide, Or.inl (by decide), ?_⟩⟩
  exact show ¬ false = true by decide

/-- C138 fails for the value that the README gives as default: a `MODULE_CPP_VERSION`
that is set and empty stops every configuration, since `force_cpp` is then called without
an argument. -/
theorem C138_negation (supports : Str → Bool) (e : Env)
    (h : e.get c!"MODULE_CPP_VERSION" = some []) : configureCpp supports e = none := by
  rcases configure_cases supports e with ⟨h1, _⟩ | ⟨e1, e2, h1, _⟩
  · exact h1
  · unfold cppVersion at h1
    rw [buildType_ne _ (by decide), h] at h1
    simp [elements_nil, forceCpp] at h1

example : (env [(c!"MODULE_CPP_VERSION", [])]).get c!"MODULE_CPP_VERSION" = some [] := by decide

/-! ### C139 -/

/-- A variable and its entry in the cache are untouched. -/
def Same (y : Str) (e e' : Env) : Prop := e'.vars y = e.vars y ∧ e'.cache y = e.cache y

theorem same_force (e : Env) {x y : Str} (v : Str) (h : y ≠ x) : Same y e (e.force x v) := by
  simp [Same, Env.force, h]

theorem same_set (e : Env) {x y : Str} (l : List Str) (h : y ≠ x) : Same y e (e.set x l) :=
  ⟨vars_set_ne _ _ h, by rw [set_cache]⟩

theorem same_trans {y : Str} {a b c : Env} (h : Same y a b) (h' : Same y b c) : Same y a c :=
  ⟨h'.1.trans h.1, h'.2.trans h.2⟩

theorem buildType_same (e : Env) {y : Str} (h : y ≠ c!"CMAKE_BUILD_TYPE") :
    Same y e (setBuildType e) := by
  unfold setBuildType
  split
  · exact same_force _ _ h
  · exact ⟨rfl, rfl⟩

theorem forceStandard_same {supports : Str → Bool} {n : Str} {e e' : Env}
    (h : forceStandard supports n e = some e') {y : Str} (h1 : y ≠ c!"CMAKE_CXX_STANDARD")
    (h2 : y ≠ c!"SUPPORTS_CXX" ++ n) : Same y e e' := by
  unfold forceStandard at h
  dsimp only at h
  split at h
  · obtain ⟨e1, he1⟩ : ∃ e1, (if (e.get (c!"SUPPORTS_CXX" ++ n)).isSome = true then e
      else e.force (c!"SUPPORTS_CXX" ++ n) (if supports (c!"-std=c++" ++ n) = true then c!"1" else [])) =
        e1 := ⟨_, rfl⟩
    rw [he1] at h
    split at h
    · rw [← Option.some.inj h]
      refine same_trans ?_ (same_set _ _ h1)
      rw [← he1]
      split
      · exact ⟨rfl, rfl⟩
      · exact same_force _ _ h2
    · cases h
  · rw [← Option.some.inj h]
    exact same_set _ _ h1

theorem cppVersion_same {supports : Str → Bool} {e e' : Env} (h : cppVersion supports e = some e')
    {y : Str} (h1 : y ≠ c!"CMAKE_CXX_STANDARD") (h2 : ¬ c!"SUPPORTS_CXX" <+: y) : Same y e e' := by
  unfold cppVersion at h
  have hf : ∀ n, y ≠ c!"SUPPORTS_CXX" ++ n := fun n hn => h2 ⟨n, hn.symm⟩
  split at h
  · rw [← Option.some.inj h]
    exact ⟨rfl, rfl⟩
  · unfold forceCpp at h
    split at h
    · cases h
    · split at h
      · rw [← Option.some.inj h]
        exact ⟨rfl, rfl⟩
      · split at h
        · exact forceStandard_same h h1 (hf _)
        · split at h
          · exact forceStandard_same h h1 (hf _)
          · split at h
            · exact forceStandard_same h h1 (hf _)
            · split at h
              · exact forceStandard_same h h1 (hf _)
              · cases h

/-- `BUILD_SHARED_LIBS` after a successful run. -/
theorem shared_after {supports : Str → Bool} {e e' : Env} (h : configureCpp supports e = some e') :
    ∃ e1, Same c!"BUILD_SHARED_LIBS" e e1 ∧
      e'.get c!"BUILD_SHARED_LIBS" = (e1.setCache c!"BUILD_SHARED_LIBS" c!"ON").get c!"BUILD_SHARED_LIBS" ∧
      e'.get c!"CMAKE_BUILD_TYPE" = (setBuildType e).get c!"CMAKE_BUILD_TYPE" := by
  rcases configure_cases supports e with ⟨h1, _⟩ | ⟨e1, e2, h1, h2, hs, hq⟩
  · rw [h1] at h; cases h
  · rw [hq] at h
    rcases instrument_cases e2 with ⟨h3, _⟩ | ⟨e3, h3, _, _, hg⟩
    · rw [h3] at h; cases h
    · rw [h3] at h
      have h : customFlags e3 = e' := Option.some.inj h
      refine ⟨e1, same_trans (buildType_same e (by decide)) (cppVersion_same h1 (by decide) (by decide)),
        ?_, ?_⟩
      · rw [← h, custom_ne _ (by decide), hg.1 _ (by decide) (by decide), h2]
      · rw [standard_kept h2 hg.1 h (by decide) (by decide) (by decide),
          cppVersion_ne h1 (by decide) (by decide)]

/-- C139.  A build type that is given is kept, otherwise it is `Release` (unless the
generator has several configurations); libraries are shared unless `BUILD_SHARED_LIBS` is
given in the cache, by `-D` for example.  Missing: `BUILD_SHARED_LIBS` given as a variable
by the project, see `C139_negation`. -/
theorem C139_defaults_partial (supports : Str → Bool) (e e' : Env)
    (h : configureCpp supports e = some e') :
    (∀ v, e.get c!"CMAKE_BUILD_TYPE" = some v → isOff v = false →
      e'.get c!"CMAKE_BUILD_TYPE" = some v) ∧
    ((∀ v, e.get c!"CMAKE_BUILD_TYPE" = some v → isOff v = true) →
      e.get c!"CMAKE_CONFIGURATION_TYPES" = none →
      e'.get c!"CMAKE_BUILD_TYPE" = some c!"Release") ∧
    (∀ v t, e.cache c!"BUILD_SHARED_LIBS" = some ⟨v, t⟩ → e.vars c!"BUILD_SHARED_LIBS" = none →
      e'.get c!"BUILD_SHARED_LIBS" = some v) ∧
    (e.get c!"BUILD_SHARED_LIBS" = none → e'.get c!"BUILD_SHARED_LIBS" = some c!"ON") := by
  obtain ⟨e1, ⟨hv, hc⟩, h1, h2⟩ := shared_after h
  have hb : truth e c!"CMAKE_BUILD_TYPE" = (match e.get c!"CMAKE_BUILD_TYPE" with
      | some v => !isOff v | none => false) := truth_name e (by decide)
  have ht : truth e c!"CMAKE_CONFIGURATION_TYPES" = (match e.get c!"CMAKE_CONFIGURATION_TYPES" with
      | some v => !isOff v | none => false) := truth_name e (by decide)
  refine ⟨?_, ?_, ?_, ?_⟩
  · intro v hg ho
    rw [h2, setBuildType, if_neg (by rw [hb, hg]; simp [ho]), hg]
  · intro hg hn
    rw [h2, setBuildType, if_pos, get_force_self]
    refine ⟨?_, by rw [ht, hn]⟩
    rw [hb]
    cases he : e.get c!"CMAKE_BUILD_TYPE" with
    | none => rfl
    | some v => simp [hg v he]
  · intro v t hg hn
    rw [h1]
    cases t <;> simp [Env.setCache, hc, hg, Env.get, hv, hn]
  · intro hn
    have hcn := cache_none_of_get _ _ hn
    rw [h1]
    simp [Env.setCache, hc, hcn, Env.get]

example : ((configureCpp (fun _ => true) gccEnv).map fun e => (e.get c!"CMAKE_BUILD_TYPE",
      e.get c!"BUILD_SHARED_LIBS")) = some (some c!"Release", some c!"ON") ∧
    gccEnv.get c!"CMAKE_CONFIGURATION_TYPES" = none ∧
    ((configureCpp (fun _ => true) ⟨(gccEnv.put c!"CMAKE_BUILD_TYPE" (some c!"Debug")).vars,
        fun x => if x = c!"BUILD_SHARED_LIBS" then some ⟨c!"OFF", false⟩ else none⟩).map fun e =>
      (e.get c!"CMAKE_BUILD_TYPE", e.get c!"BUILD_SHARED_LIBS")) =
      some (some c!"Debug", some c!"OFF") := by decide

/-- C139 fails for a project that sets `BUILD_SHARED_LIBS` as a variable: `option()`
removes the variable, so the first configuration builds shared libraries.  The second
configuration of the same project finds the entry in the cache, leaves the variable
alone, and does what the project says: the two differ. -/
theorem C139_negation (supports : Str → Bool) (e e' e'' : Env) (v : Str)
    (h : configureCpp supports e = some e') (hv : e.vars c!"BUILD_SHARED_LIBS" = some v)
    (hc : e.cache c!"BUILD_SHARED_LIBS" = none)
    (h2 : configureCpp supports ⟨e.vars, fun x =>
      if x = c!"BUILD_SHARED_LIBS" then some ⟨c!"ON", true⟩ else e.cache x⟩ = some e'') :
    e'.get c!"BUILD_SHARED_LIBS" = some c!"ON" ∧ e''.get c!"BUILD_SHARED_LIBS" = some v := by
  obtain ⟨e1, ⟨hv1, hc1⟩, h1, _⟩ := shared_after h
  obtain ⟨e2, ⟨hv2, hc2⟩, h3, _⟩ := shared_after h2
  constructor
  · rw [h1]
    simp [Env.setCache, hc1, hc, Env.get]
  · rw [h3]
    have hc2 : e2.cache c!"BUILD_SHARED_LIBS" = some ⟨c!"ON", true⟩ := by rw [hc2]; simp
    have hv2 : e2.vars c!"BUILD_SHARED_LIBS" = some v := hv2.trans hv
    simp [Env.setCache, hc2, Env.get, hv2]

/-- A project that asks for static libraries. -/
example : ((configureCpp (fun _ => true) (gccEnv.put c!"BUILD_SHARED_LIBS" (some c!"OFF"))).map fun e =>
      (e.get c!"BUILD_SHARED_LIBS", e.cache c!"BUILD_SHARED_LIBS")) =
    some (some c!"ON", some ⟨c!"ON", true⟩) := by decide

end Verif.CMake
