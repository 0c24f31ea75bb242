import Verif.Model.CMakeBuild
import Verif.Props.CMakeOptions
import Mathlib.Data.List.Nodup

/-!
C197: what is built of a module, by the options.
-/
namespace Verif.CMake

/-- The user has said yes to an option. -/
def Said (e : Env) (x : Str) : Prop := ∃ v, e.get x = some v ∧ Yes v

/-- An option is wanted by itself, or by `BUILD_TESTS` if the user has not given it. -/
def SaidOrTests (e : Env) (x : Str) : Prop := Said e x ∨ e.get x = none ∧ Said e c!"BUILD_TESTS"

/-- What the user asks for, by the table of the README (`cmake_utils/README.md:117-126`); `BUILD_ALL` asks for the documentation. -/
def Wanted (e : Env) : Part → Prop
  | .library => e.get c!"BUILD_LIBRARY" = none ∨ Said e c!"BUILD_LIBRARY"
  | .tool => e.get c!"BUILD_TOOL" = none ∨ Said e c!"BUILD_TOOL"
  | .libraryTests => SaidOrTests e c!"BUILD_LIBRARY_TESTS"
  | .toolTests => SaidOrTests e c!"BUILD_TOOL_TESTS"
  | .docsTests => SaidOrTests e c!"BUILD_DOCS_TESTS"
  | .docs => Said e c!"BUILD_DOCS" ∨
      e.get c!"BUILD_DOCS" = none ∧ (SaidOrTests e c!"BUILD_DOCS_TESTS" ∨ SaidOrTests e c!"BUILD_ALL")

/-- The options of the table that say what to build. -/
def buildOptions : List Str :=
  [c!"BUILD_TESTS", c!"BUILD_DOCS_TESTS", c!"BUILD_TOOL_TESTS", c!"BUILD_LIBRARY_TESTS",
    c!"BUILD_ALL", c!"BUILD_DOCS", c!"BUILD_TOOL", c!"BUILD_LIBRARY"]

/-- The user says yes or no, where they say something. -/
def YesNo (e : Env) : Prop := ∀ x ∈ buildOptions, ∀ v, e.get x = some v → Yes v ∨ No v

theorem isOff_yes {v : Str} (h : Yes v) : isOff v = false := by
  cases hc : isOff v with
  | false => rfl
  | true =>
  exfalso
  unfold Yes at h
  simp only [List.mem_cons, List.not_mem_nil, or_false] at h
  simp only [isOff, upper, Bool.or_eq_true, decide_eq_true_eq] at hc
  have hlen : v.length ≤ 4 := by
    rw [← List.length_map (f := Char.toUpper)]
    rcases h with h | h | h | h | h <;> rw [h] <;> decide
  rcases hc with (((((((hc | hc) | hc) | hc) | hc) | hc) | hc) | hc) | hc
  · subst hc; rcases h with h | h | h | h | h <;> exact absurd h (by decide)
  · rw [of_decide_eq_true hc] at h; exact absurd h (by decide)
  · rw [of_decide_eq_true hc] at h; exact absurd h (by decide)
  · rw [of_decide_eq_true hc] at h; exact absurd h (by decide)
  · rw [of_decide_eq_true hc] at h; exact absurd h (by decide)
  · rw [of_decide_eq_true hc] at h; exact absurd h (by decide)
  · rw [of_decide_eq_true hc] at h; exact absurd h (by decide)
  · subst hc; exact absurd hlen (by decide)
  · have := (List.isSuffixOf_iff_suffix.1 hc).length_le
    have h9 : (c!"-NOTFOUND").length = 9 := by decide
    omega

theorem isOff_no {v : Str} (h : No v) : isOff v = true := by
  unfold No at h
  simp only [List.mem_cons, List.not_mem_nil, or_false] at h
  simp only [isOff, upper, Bool.or_eq_true, decide_eq_true_eq]
  rcases h with h | h | h | h | h | h <;> simp [h]

theorem yes_oneWord {v : Str} (h : Yes v ∨ No v) : OneWord v := by
  have key : ∀ w : Str, v.map Char.toUpper = w → w ≠ [] → ';' ∉ w → OneWord v := by
    intro w hw h0 h1
    refine ⟨fun hv => h0 (by rw [← hw, hv]; rfl), fun hs => h1 ?_⟩
    rw [← hw]
    exact List.mem_map.2 ⟨';', hs, by decide⟩
  rcases h with h | h
  · unfold Yes at h
    simp only [List.mem_cons, List.not_mem_nil, or_false] at h
    rcases h with h | h | h | h | h <;> exact key _ h (by decide) (by decide)
  · unfold No at h
    simp only [List.mem_cons, List.not_mem_nil, or_false] at h
    rcases h with h | h | h | h | h | h <;> exact key _ h (by decide) (by decide)

theorem yes_not_no {v : Str} (h : Yes v) : ¬ No v := fun hn => by
  have h1 := isOff_yes h
  rw [isOff_no hn] at h1
  exact absurd h1 (by decide)

/-- The names of the options are names of variables for `if`. -/
theorem truth_option (e : Env) (p : Part) :
    truth e p.option = match e.get p.option with | some v => !isOff v | none => false := by
  have h1 : isOn p.option = false := by cases p <;> decide
  have h2 : isOff p.option = false := by cases p <;> decide
  have h3 : number p.option = none := by cases p <;> decide
  unfold truth
  rw [h1, h2, h3]
  simp only [Bool.false_eq_true, if_false]
  cases e.get p.option <;> rfl

theorem truth_said {e : Env} {p : Part} {v : Str} (h : e.get p.option = some v) (hv : Yes v ∨ No v) :
    truth e p.option = true ↔ Yes v := by
  rw [truth_option, h]
  rcases hv with hv | hv
  · simp [isOff_yes hv, hv]
  · simp only [isOff_no hv, Bool.not_true, Bool.false_eq_true, false_iff]
    exact fun hy => yes_not_no hy hv

theorem yes_on : Yes c!"ON" := by decide

theorem no_off : No c!"OFF" := by decide

/-- C197, partial: of the parts that a module has, exactly those are built that the user asks for, by the defaults of the README.
Missing: values that are neither a yes nor a no (`C197_negation_word`). -/
theorem C197_parts_partial (e : Env) (hyn : YesNo e) (above : Bool) (m : Module) :
    ∃ d, makeModule e above m = some d ∧ d.module = m ∧ ∀ p, p ∈ d.parts ↔ p ∈ m.calls ∧ Wanted e p := by
  obtain ⟨e', he', -⟩ := C130_succeeds e (by
    intro x hx v hv
    refine yes_oneWord (hyn x ?_ v hv)
    simp only [List.mem_cons, List.not_mem_nil, or_false] at hx
    rcases hx with rfl | rfl | rfl <;> simp [buildOptions])
  obtain ⟨hkeep, htests, hsame, hdocs, hplain, -⟩ := C130_options_partial e e' he'
  have hsame := hsame fun v hv => yes_oneWord (hyn _ (by simp [buildOptions]) v hv)
  -- what the options that follow `BUILD_TESTS` become
  have hT : ∃ v, e'.get c!"BUILD_TESTS" = some v ∧ (Yes v ∨ No v) ∧ (Yes v ↔ Said e c!"BUILD_TESTS") := by
    cases hb : e.get c!"BUILD_TESTS" with
    | none =>
      refine ⟨_, htests hb, Or.inr no_off, ?_⟩
      constructor
      · intro h; exact absurd no_off (yes_not_no h)
      · rintro ⟨v, hv, -⟩; rw [hb] at hv; cases hv
    | some v =>
      refine ⟨v, hkeep _ (by simp [optionNames]) v hb, hyn _ (by simp [buildOptions]) v hb, ?_⟩
      constructor
      · exact fun h => ⟨v, hb, h⟩
      · rintro ⟨w, hw, hy⟩; rw [hb] at hw; cases hw; exact hy
  have hF : ∀ x ∈ [c!"BUILD_DOCS_TESTS", c!"BUILD_TOOL_TESTS", c!"BUILD_LIBRARY_TESTS", c!"BUILD_ALL"],
      ∃ v, e'.get x = some v ∧ (Yes v ∨ No v) ∧ (Yes v ↔ SaidOrTests e x) := by
    intro x hx
    have hb : x ∈ buildOptions ∧ x ∈ optionNames := by
      simp only [List.mem_cons, List.not_mem_nil, or_false] at hx
      rcases hx with rfl | rfl | rfl | rfl <;> simp [buildOptions, optionNames]
    cases hg : e.get x with
    | none =>
      obtain ⟨v, hv, h1, h2⟩ := hT
      refine ⟨v, by rw [hsame x hx hg, hv], h1, h2.trans ⟨fun h => Or.inr ⟨hg, h⟩, ?_⟩⟩
      rintro (⟨w, hw, -⟩ | ⟨-, h⟩)
      · rw [hg] at hw; cases hw
      · exact h
    | some v =>
      refine ⟨v, hkeep x hb.2 v hg, hyn x hb.1 v hg, fun h => Or.inl ⟨v, hg, h⟩, ?_⟩
      rintro (⟨w, hw, h⟩ | ⟨h, -⟩)
      · rw [hg] at hw; cases hw; exact h
      · rw [hg] at h; cases h
  have hOn : ∀ x, (x, c!"ON") ∈ [(c!"BUILD_TOOL", c!"ON"), (c!"BUILD_LIBRARY", c!"ON")] →
      ∃ v, e'.get x = some v ∧ (Yes v ∨ No v) ∧ (Yes v ↔ e.get x = none ∨ Said e x) := by
    intro x hx
    have hb : x ∈ buildOptions ∧ x ∈ optionNames := by
      simp only [List.mem_cons, List.not_mem_nil, or_false, Prod.mk.injEq] at hx
      rcases hx with ⟨rfl, -⟩ | ⟨rfl, -⟩ <;> simp [buildOptions, optionNames]
    cases hg : e.get x with
    | none =>
      refine ⟨_, hplain x c!"ON" ?_ hg, Or.inl yes_on, fun _ => Or.inl rfl, fun _ => yes_on⟩
      simp only [List.mem_cons, List.not_mem_nil, or_false] at hx ⊢
      rcases hx with h | h <;> simp [h]
    | some v =>
      refine ⟨v, hkeep x hb.2 v hg, hyn x hb.1 v hg, fun h => Or.inr ⟨v, hg, h⟩, ?_⟩
      rintro (h | ⟨w, hw, h⟩)
      · cases h
      · rw [hg] at hw; cases hw; exact h
  have hD : ∃ v, e'.get c!"BUILD_DOCS" = some v ∧ (Yes v ∨ No v) ∧ (Yes v ↔ Wanted e .docs) := by
    cases hg : e.get c!"BUILD_DOCS" with
    | none =>
      obtain ⟨a, ha, ha1, ha2⟩ := hF c!"BUILD_ALL" (by simp)
      obtain ⟨d, hd, hd1, hd2⟩ := hF c!"BUILD_DOCS_TESTS" (by simp)
      have h := hdocs a d hg ha hd ha1 hd1
      refine ⟨_, h, ?_, ?_⟩
      · split
        · exact Or.inl yes_on
        · exact Or.inr no_off
      · have hw : Wanted e .docs ↔ Yes a ∨ Yes d := by
          rw [ha2, hd2]
          constructor
          · rintro (⟨w, hw, -⟩ | ⟨-, h | h⟩)
            · rw [hg] at hw; cases hw
            · exact Or.inr h
            · exact Or.inl h
          · rintro (h | h)
            · exact Or.inr ⟨hg, Or.inr h⟩
            · exact Or.inr ⟨hg, Or.inl h⟩
        rw [hw]
        split
        · rename_i hy; exact ⟨fun _ => hy, fun _ => yes_on⟩
        · rename_i hy; exact ⟨fun h => absurd no_off (yes_not_no h), fun h => absurd h hy⟩
    | some v =>
      refine ⟨v, hkeep _ (by simp [optionNames]) v hg, hyn _ (by simp [buildOptions]) v hg,
        fun h => Or.inl ⟨v, hg, h⟩, ?_⟩
      rintro (⟨w, hw, h⟩ | ⟨h, -⟩)
      · rw [hg] at hw; cases hw; exact h
      · rw [hg] at h; cases h
  have all : ∀ p : Part, truth e' p.option = true ↔ Wanted e p := by
    intro p
    have key : (∃ v, e'.get p.option = some v ∧ (Yes v ∨ No v) ∧ (Yes v ↔ Wanted e p)) →
        (truth e' p.option = true ↔ Wanted e p) := by
      rintro ⟨v, hv, h1, h2⟩
      exact (truth_said hv h1).trans h2
    apply key
    cases p with
    | library => exact hOn c!"BUILD_LIBRARY" (by simp)
    | tool => exact hOn c!"BUILD_TOOL" (by simp)
    | docs => exact hD
    | libraryTests => exact hF _ (by simp [Part.option])
    | toolTests => exact hF _ (by simp [Part.option])
    | docsTests => exact hF _ (by simp [Part.option])
  refine ⟨_, by unfold makeModule; rw [he']; rfl, rfl, fun p => ?_⟩
  show p ∈ m.calls.filter _ ↔ _
  rw [List.mem_filter, all p]

/-- An example of what a user says. -/
def withTests : Env := ⟨fun x => if x = c!"BUILD_TESTS" then some c!"on" else if x = c!"BUILD_TOOL" then some c!"No" else none,
  fun _ => none⟩

example : YesNo withTests ∧ Wanted withTests .library ∧ ¬ Wanted withTests .tool ∧ Wanted withTests .toolTests ∧
    Wanted withTests .docs := by
  refine ⟨?_, Or.inl (by decide), ?_, Or.inr ⟨by decide, c!"on", by decide, by decide⟩,
    Or.inr ⟨by decide, Or.inl (Or.inr ⟨by decide, c!"on", by decide, by decide⟩)⟩⟩
  · intro x hx v hv
    simp only [buildOptions, List.mem_cons, List.not_mem_nil, or_false] at hx
    rcases hx with rfl | rfl | rfl | rfl | rfl | rfl | rfl | rfl
    all_goals first
      | cases (show none = some v from hv)
      | (have h : some c!"on" = some v := hv
         cases h; exact Or.inl (by decide))
      | (have h : some c!"No" = some v := hv
         cases h; exact Or.inr (by decide))
  · rintro (h | ⟨v, hv, h⟩)
    · exact absurd h (by decide)
    · have h' : some c!"No" = some v := hv
      cases h'; exact absurd h (by decide)

/-- C197 is not so: for a word that is no constant of CMake and no variable, `-DBUILD_TESTS=<word>` builds the tests of the documentation
and not the documentation they are for. -/
theorem C197_negation_word (e : Env) (v : Str) (hv : OneWord v) (hon : isOn v = false) (hoff : isOff v = false)
    (hnum : number v = none) (hvar : e.get v = none) (hopt : v ∉ optionNames) (ht : e.get c!"BUILD_TESTS" = some v)
    (ha : e.get c!"BUILD_ALL" = none) (hd : e.get c!"BUILD_DOCS_TESTS" = none) (hb : e.get c!"BUILD_DOCS" = none)
    (above : Bool) (m : Module) (hm : ∀ p, p ∈ m.calls) :
    ∃ d, makeModule e above m = some d ∧ Part.docsTests ∈ d.parts ∧ Part.docs ∉ d.parts := by
  obtain ⟨e', he', -⟩ := C130_succeeds e (by
    intro x hx w hw
    simp only [List.mem_cons, List.not_mem_nil, or_false] at hx
    rcases hx with rfl | rfl | rfl
    · rw [ht] at hw; cases hw; exact hv
    · rw [ha] at hw; cases hw
    · rw [hd] at hw; cases hw)
  obtain ⟨e2, h2, h3⟩ := Option.map_eq_some_iff.1 he'
  obtain ⟨e1, h1⟩ : ∃ e1, testOptions e = e1 := ⟨_, rfl⟩
  rw [h1] at h2
  have g : ∀ x ∈ [c!"BUILD_ALL", c!"BUILD_DOCS_TESTS"], e1.get x = some v := by
    intro x hx
    rw [← h1]
    simp only [List.mem_cons, List.not_mem_nil, or_false] at hx
    rcases hx with rfl | rfl
    · exact testOptions_get e (Or.inl ⟨ht, hv⟩) (by simp) ha
    · exact testOptions_get e (Or.inl ⟨ht, hv⟩) (by simp) hd
  have hfalse : truth e1 v = false := by
    have : e1.get v = none := by
      rw [← h1, testOptions_ne e (fun h => hopt ?_), hvar]
      simp only [List.mem_cons, List.not_mem_nil, or_false] at h
      rcases h with rfl | rfl | rfl | rfl | rfl <;> simp [optionNames]
    simp [truth, hon, hoff, hnum, this]
  have hel : ∀ x ∈ [c!"BUILD_ALL", c!"BUILD_DOCS_TESTS"], elements (e1.text x) = [v] := by
    intro x hx
    rw [Env.text, g x hx]
    exact elements_single hv.1 hv.2
  have hb1 : e1.get c!"BUILD_DOCS" = none := by rw [← h1, testOptions_ne e (by decide), hb]
  have hget : e'.get c!"BUILD_DOCS" = some c!"OFF" ∧ e'.get c!"BUILD_DOCS_TESTS" = some v := by
    rw [← h3, logOption_ne _ (by decide), logOption_ne _ (by decide), plainOptions_ne _ (by decide),
      plainOptions_ne _ (by decide)]
    rcases docsOption_eq h2 with ⟨⟨w, hw⟩, -⟩ | ⟨-, b, hbb, he⟩
    · rw [hb1] at hw; cases hw
    · rw [hel _ (by simp), hel _ (by simp), ifOr, hfalse] at hbb
      cases hbb
      rw [he, get_set_self _ _ _ (by simp), get_set_ne _ _ (by decide), g _ (by simp)]
      exact ⟨rfl, rfl⟩
  refine ⟨_, by unfold makeModule; rw [he']; rfl, ?_, ?_⟩
  · refine List.mem_filter.2 ⟨hm _, ?_⟩
    rw [truth_option]
    show (match e'.get c!"BUILD_DOCS_TESTS" with | some v => !isOff v | none => false) = true
    rw [hget.2]
    simp [hoff]
  · intro h
    have h := (List.mem_filter.1 h).2
    rw [truth_option] at h
    replace h : (match e'.get c!"BUILD_DOCS" with | some v => !isOff v | none => false) = true := h
    rw [hget.1] at h
    exact absurd h (by decide)

example : ∃ (e : Env) (v : Str), OneWord v ∧ isOn v = false ∧ isOff v = false ∧ number v = none ∧ e.get v = none ∧
    v ∉ optionNames ∧ e.get c!"BUILD_TESTS" = some v ∧ e.get c!"BUILD_ALL" = none ∧ e.get c!"BUILD_DOCS_TESTS" = none ∧
    e.get c!"BUILD_DOCS" = none :=
  ⟨noEnv.put c!"BUILD_TESTS" (some c!"enabled"), c!"enabled", by decide⟩

/-- C197: in the build directory of a module `ctest` runs every test that is built, and no other. -/
theorem C197_tests (e : Env) (above : Bool) (m : Module) (d : Made) (h : makeModule e above m = some d) (n : Str) (p : Part) :
    (n, p) ∈ d.tests ↔ n = m.name ∧ p ∈ d.parts ∧ p ∈ [Part.libraryTests, .toolTests, .docsTests] := by
  obtain ⟨e', -, rfl⟩ := Option.map_eq_some_iff.1 h
  have ht : ∀ p : Part, p.isTest = true ↔ p ∈ [Part.libraryTests, .toolTests, .docsTests] := by
    intro p; cases p <;> simp [Part.isTest]
  simp only [Made.tests]
  split
  · simp only [List.mem_map, List.mem_filter, Prod.mk.injEq]
    rw [← ht]
    constructor
    · rintro ⟨q, ⟨h1, h2⟩, rfl, rfl⟩
      exact ⟨rfl, h1, h2⟩
    · rintro ⟨rfl, h1, h2⟩
      exact ⟨p, ⟨h1, h2⟩, rfl, rfl⟩
  · rename_i hn
    simp only [List.not_mem_nil, false_iff]
    rintro ⟨-, h1, h2⟩
    apply hn
    rw [Bool.or_eq_true]
    exact Or.inr (List.any_eq_true.2 ⟨p, h1, (ht p).2 h2⟩)

theorem allSome_forall {α β : Type} {f : α → Option β} {l : List α} {bs : List β} (h : allSome f l = some bs) :
    List.Forall₂ (fun a b => f a = some b) l bs := by
  induction l generalizing bs with
  | nil => cases h; exact .nil
  | cons a l ih =>
    unfold allSome at h
    split at h
    · rename_i b bs' h1 h2
      cases h
      exact .cons h1 (ih h2)
    · cases h

theorem allSome_of {α β : Type} {f : α → Option β} (hf : ∀ a, ∃ b, f a = some b) (l : List α) : ∃ bs, allSome f l = some bs := by
  induction l with
  | nil => exact ⟨_, rfl⟩
  | cons a l ih =>
    obtain ⟨bs, hbs⟩ := ih
    obtain ⟨b, hb⟩ := hf a
    exact ⟨b :: bs, by unfold allSome; rw [hb, hbs]⟩

theorem forall_append {α β : Type} {R : α → β → Prop} {l1 l2 : List α} {bs : List β} (h : List.Forall₂ R (l1 ++ l2) bs) :
    ∃ b1 b2, bs = b1 ++ b2 ∧ List.Forall₂ R l1 b1 ∧ List.Forall₂ R l2 b2 := by
  induction l1 generalizing bs with
  | nil => exact ⟨[], bs, rfl, .nil, h⟩
  | cons a l1 ih =>
    cases h with
    | cons h1 h2 =>
      obtain ⟨b1, b2, rfl, h3, h4⟩ := ih h2
      exact ⟨_ :: b1, b2, rfl, .cons h1 h3, h4⟩

theorem forall_mem {α β : Type} {R : α → β → Prop} {l : List α} {bs : List β} (h : List.Forall₂ R l bs) {a : α} (ha : a ∈ l) :
    ∃ b ∈ bs, R a b := by
  induction h with
  | nil => cases ha
  | cons h1 _ ih =>
    rcases List.mem_cons.1 ha with rfl | ha
    · exact ⟨_, by simp, h1⟩
    · obtain ⟨b, hb, hr⟩ := ih ha
      exact ⟨b, by simp [hb], hr⟩

theorem forall_mem' {α β : Type} {R : α → β → Prop} {l : List α} {bs : List β} (h : List.Forall₂ R l bs) {b : β} (hb : b ∈ bs) :
    ∃ a ∈ l, R a b := by
  induction h with
  | nil => cases hb
  | cons h1 _ ih =>
    rcases List.mem_cons.1 hb with rfl | hb
    · exact ⟨_, by simp, h1⟩
    · obtain ⟨a, ha, hr⟩ := ih hb
      exact ⟨a, by simp [ha], hr⟩

/-- What is made of a module, by what the user asks for. -/
theorem made_iff {e : Env} (hyn : YesNo e) {above : Bool} {m : Module} {d : Made} (h : makeModule e above m = some d) :
    d.module = m ∧ ∀ p, p ∈ d.parts ↔ p ∈ m.calls ∧ Wanted e p := by
  obtain ⟨d', h1, h2⟩ := C197_parts_partial e hyn above m
  rw [h] at h1
  cases h1
  exact h2

/-- C197, partial: in a project with several modules, with different names, each has what it has alone, if the documentation of at most
one of them is built.  Missing: the documentation of two (`C197_negation_docs`). -/
theorem C197_modules_partial (e : Env) (hyn : YesNo e) (testing : Bool) (ms : List Module)
    (hname : ms.Pairwise fun a b => a.name ≠ b.name ∧
      (Wanted e .docs → ¬ (Part.docs ∈ a.calls ∧ Part.docs ∈ b.calls)))
    (hone : ∀ m ∈ ms, m.calls.Nodup ∧ ¬ (Part.library ∈ m.calls ∧ Part.tool ∈ m.calls) ∧ m.name ∉ [c!"doc-dirs", c!"Sphinx"]) :
    ∃ ds, makeProject e testing ms = some ds ∧
      List.Forall₂ (fun m d => d.module = m ∧ ∀ p, p ∈ d.parts ↔ p ∈ m.calls ∧ Wanted e p) ms ds := by
  obtain ⟨ds, hds⟩ := allSome_of (f := makeModule e testing)
    (fun m => (C197_parts_partial e hyn testing m).imp fun _ h => h.1) ms
  have hall := allSome_forall hds
  have hmade : List.Forall₂ (fun m d => d.module = m ∧ ∀ p, p ∈ d.parts ↔ p ∈ m.calls ∧ Wanted e p) ms ds :=
    hall.imp fun m d h => made_iff hyn h
  have hparts : ∀ m d, makeModule e testing m = some d → d.parts.Sublist m.calls := by
    intro m d h
    obtain ⟨e', -, rfl⟩ := Option.map_eq_some_iff.1 h
    exact List.filter_sublist
  refine ⟨ds, ?_, hmade⟩
  unfold makeProject
  rw [hds]
  refine if_pos ?_
  have mem : ∀ {d : Made} {t : Str}, t ∈ d.targets →
      (t = d.module.name ∧ (Part.library ∈ d.parts ∨ Part.tool ∈ d.parts)) ∨
      (t ∈ [c!"doc-dirs", c!"Sphinx"] ∧ Part.docs ∈ d.parts) := by
    intro d t ht
    obtain ⟨p, hp, htp⟩ := List.mem_flatMap.1 ht
    cases p with
    | library => exact Or.inl ⟨by simpa [Part.targets] using htp, Or.inl hp⟩
    | tool => exact Or.inl ⟨by simpa [Part.targets] using htp, Or.inr hp⟩
    | docs => exact Or.inr ⟨htp, hp⟩
    | libraryTests => cases htp
    | toolTests => cases htp
    | docsTests => cases htp
  -- one module
  have one : ∀ m d, makeModule e testing m = some d → m ∈ ms → d.targets.Nodup := by
    intro m d h hm
    obtain ⟨hn, hlt, hname'⟩ := hone m hm
    obtain ⟨hdm, hp⟩ := made_iff hyn h
    have hnd : d.parts.Nodup := (hparts m d h).nodup hn
    unfold Made.targets
    rw [List.nodup_flatMap]
    refine ⟨fun p _ => by cases p <;> simp [Part.targets], ?_⟩
    refine hnd.imp_of_mem fun {p q} hp1 hq1 hne => ?_
    rw [Function.onFun, List.disjoint_left]
    have hp2 := ((hp p).1 hp1).1
    have hq2 := ((hp q).1 hq1).1
    intro t ht ht'
    rw [hdm] at ht ht'
    cases p <;> cases q <;> first
      | exact hne rfl
      | (simp only [Part.targets, List.not_mem_nil] at ht ht'; done)
      | exact hlt ⟨hp2, hq2⟩
      | exact hlt ⟨hq2, hp2⟩
      | (simp only [Part.targets, List.mem_singleton] at ht; rw [ht] at ht'; exact hname' ht')
      | (simp only [Part.targets, List.mem_singleton] at ht'; rw [ht'] at ht; exact hname' ht)
  -- two modules
  have two : ∀ m d m' d', makeModule e testing m = some d → makeModule e testing m' = some d' → m ∈ ms → m' ∈ ms →
      m.name ≠ m'.name → (Wanted e .docs → ¬ (Part.docs ∈ m.calls ∧ Part.docs ∈ m'.calls)) →
      List.Disjoint d.targets d'.targets := by
    intro m d m' d' h h' hm hm' hnn hdd
    obtain ⟨hdm, hp⟩ := made_iff hyn h
    obtain ⟨hdm', hp'⟩ := made_iff hyn h'
    rw [List.disjoint_left]
    intro t ht ht'
    rcases mem ht with ⟨h1, -⟩ | ⟨h1, h2⟩ <;> rcases mem ht' with ⟨h3, -⟩ | ⟨h3, h4⟩
    · rw [h1, hdm, hdm'] at h3; exact hnn h3
    · rw [h1, hdm] at h3; exact (hone m hm).2.2 h3
    · rw [h3, hdm'] at h1; exact (hone m' hm').2.2 h1
    · have a := (hp _).1 h2
      exact hdd a.2 ⟨a.1, ((hp' _).1 h4).1⟩
  have key : ∀ (l : List Module) (l' : List Made), (∀ m ∈ l, m ∈ ms) →
      List.Forall₂ (fun m d => makeModule e testing m = some d) l l' →
      (l.Pairwise fun a b => a.name ≠ b.name ∧ (Wanted e .docs → ¬ (Part.docs ∈ a.calls ∧ Part.docs ∈ b.calls))) →
      (l'.flatMap Made.targets).Nodup := by
    intro l l' hl hf
    induction hf with
    | nil => intro _; simp
    | cons hmd hrest ih =>
      rename_i m d l l'
      intro hpw
      rw [List.pairwise_cons] at hpw
      rw [List.flatMap_cons, List.nodup_append']
      refine ⟨one m d hmd (hl m (by simp)), ih (fun x hx => hl x (by simp [hx])) hpw.2, ?_⟩
      rw [List.disjoint_left]
      intro t ht ht'
      obtain ⟨d', hd', htd'⟩ := List.mem_flatMap.1 ht'
      obtain ⟨m', hm', hmd'⟩ := forall_mem' hrest hd'
      obtain ⟨hnn, hdd⟩ := hpw.1 m' hm'
      exact List.disjoint_left.1
        (two m d m' d' hmd hmd' (hl m (by simp)) (hl m' (by simp [hm'])) hnn hdd) ht htd'
  exact key ms ds (fun _ h => h) hall hname

example : ∃ ms : List Module, ms.length = 2 ∧
    (ms.Pairwise fun a b => a.name ≠ b.name ∧
      (Wanted withTests .docs → ¬ (Part.docs ∈ a.calls ∧ Part.docs ∈ b.calls))) ∧
    ∀ m ∈ ms, m.calls.Nodup ∧ ¬ (Part.library ∈ m.calls ∧ Part.tool ∈ m.calls) ∧ m.name ∉ [c!"doc-dirs", c!"Sphinx"] :=
  ⟨[⟨c!"core", [.library, .libraryTests]⟩, ⟨c!"docs", [.docs, .docsTests]⟩], rfl, by simp, by decide⟩

/-- C197 is not so: a project in which the documentation of two modules is asked for is not accepted. -/
theorem C197_negation_docs (e : Env) (hyn : YesNo e) (hw : Wanted e .docs) (testing : Bool) (as bs cs : List Module)
    (a b : Module) (ha : Part.docs ∈ a.calls) (hb : Part.docs ∈ b.calls) :
    makeProject e testing (as ++ a :: bs ++ b :: cs) = none := by
  unfold makeProject
  split
  · rename_i ds hds
    refine if_neg fun hn => ?_
    obtain ⟨d1, d2, rfl, h1, h2⟩ := forall_append (allSome_forall hds)
    obtain ⟨x, hx, hxm⟩ := forall_mem h1 (a := a) (by simp)
    obtain ⟨y, hy, hym⟩ := forall_mem h2 (a := b) (by simp)
    have key : ∀ {m : Module} {d : Made}, makeModule e testing m = some d → Part.docs ∈ m.calls → c!"Sphinx" ∈ d.targets := by
      intro m d h hm
      exact List.mem_flatMap.2 ⟨.docs, ((made_iff hyn h).2 _).2 ⟨hm, hw⟩, by simp [Part.targets]⟩
    rw [List.flatMap_append, List.nodup_append'] at hn
    exact List.disjoint_left.1 hn.2.2 (List.mem_flatMap.2 ⟨x, hx, key hxm ha⟩) (List.mem_flatMap.2 ⟨y, hy, key hym hb⟩)
  · rfl

/-- C197, partial: in the top build directory `ctest` runs every test of every module, if the top directory enables testing itself. -/
theorem C197_top_partial (e : Env) (ms : List Module) (ds : List Made) (h : makeProject e true ms = some ds) (n : Str)
    (p : Part) :
    (n, p) ∈ topTests true ds ↔
      ∃ d ∈ ds, n = d.module.name ∧ p ∈ d.parts ∧ p ∈ [Part.libraryTests, .toolTests, .docsTests] := by
  unfold makeProject at h
  split at h
  · rename_i ds' hds
    split at h
    · cases h
      have hall := allSome_forall hds
      show (n, p) ∈ ds.flatMap Made.tests ↔ _
      rw [List.mem_flatMap]
      have one : ∀ d ∈ ds, (n, p) ∈ d.tests ↔
          n = d.module.name ∧ p ∈ d.parts ∧ p ∈ [Part.libraryTests, .toolTests, .docsTests] := by
        intro d hd
        obtain ⟨m, -, hm⟩ := forall_mem' hall hd
        have hmd : d.module = m := by
          obtain ⟨e', -, rfl⟩ := Option.map_eq_some_iff.1 hm
          rfl
        rw [hmd]
        exact C197_tests e true m d hm n p
      constructor
      · rintro ⟨d, hd, h⟩; exact ⟨d, hd, (one d hd).1 h⟩
      · rintro ⟨d, hd, h⟩; exact ⟨d, hd, (one d hd).2 h⟩
    · cases h
  · cases h

/-- C197 is not so: if it does not, tests are built and none is run, whatever the user says. -/
theorem C197_negation_top (e : Env) (hyn : YesNo e) (ms : List Module) (ds : List Made)
    (h : makeProject e false ms = some ds) (m : Module) (hm : m ∈ ms) (hc : Part.libraryTests ∈ m.calls)
    (hw : Wanted e .libraryTests) : (∃ d ∈ ds, d.module = m ∧ Part.libraryTests ∈ d.parts) ∧ topTests false ds = [] := by
  unfold makeProject at h
  split at h
  · rename_i ds' hds
    split at h
    · cases h
      have hall := allSome_forall hds
      obtain ⟨d, hd, hdm⟩ := forall_mem hall hm
      obtain ⟨h1, h2⟩ := made_iff hyn hdm
      exact ⟨⟨d, hd, h1, (h2 _).2 ⟨hc, hw⟩⟩, rfl⟩
    · cases h
  · cases h

/-- C197 is not so: no package has the documentation, in whichever order the macros are called. -/
theorem C197_negation_package (ops : List Pack) (all r : List Str)
    (h : (ops.foldl PackState.step ⟨all, none⟩).read = some r) : c!"monitor-sphinx" ∉ r := by
  have key : ∀ (ops : List Pack) (s : PackState), (∀ r, s.read = some r → r = [c!"headers", c!"cmake"]) →
      ∀ r, (ops.foldl PackState.step s).read = some r → r = [c!"headers", c!"cmake"] := by
    intro ops
    induction ops with
    | nil => exact fun s hs => hs
    | cons o ops ih =>
      intro s hs
      refine ih _ ?_
      cases o with
      | documentation => exact hs
      | packaging =>
        intro r hr
        cases hsr : s.read with
        | none => rw [PackState.step, hsr] at hr; cases hr; rfl
        | some q => rw [PackState.step, hsr] at hr; cases hr; exact hs q hsr
  rw [key ops ⟨all, none⟩ (by intro r hr; cases hr) r h]
  decide

end Verif.CMake
