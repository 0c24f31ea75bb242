import Verif.Lemmas.CMake
import Verif.Model.CMakeTest
import Verif.Props.CMakeOptions
import Verif.Props.CMakeSettings

/-!
C135: the entries of `ctest` and the tests they run.
-/
namespace Verif.CMake

/-- Names in C++: letters, digits and `_`. -/
def Ident (s : Str) : Prop := s ≠ [] ∧ ∀ c ∈ s, c.isAlphanum = true ∨ c = '_'

theorem mem_rests (x s : Str) : x ∈ rests s ↔ ∃ t, s = t ++ x := by
  induction s with
  | nil =>
    simp only [rests, List.mem_singleton]
    constructor
    · rintro rfl; exact ⟨[], rfl⟩
    · rintro ⟨t, h⟩
      exact (List.append_eq_nil_iff.1 h.symm).2
  | cons c s ih =>
    rw [rests, List.mem_cons, ih]
    constructor
    · rintro (rfl | ⟨t, rfl⟩)
      · exact ⟨[], rfl⟩
      · exact ⟨c :: t, rfl⟩
    · rintro ⟨t, h⟩
      cases t with
      | nil => exact Or.inl h.symm
      | cons d t => exact Or.inr ⟨t, (List.cons.inj h).2⟩

theorem glob_cons (c : Char) (p n : Str) : glob (c :: p) n =
    if c = '*' then (rests n).any (glob p)
    else match n with
      | [] => false
      | d :: n => (c = '?' || c = d) && glob p n := by
  rw [glob.eq_def]
  rfl

theorem glob_star (p n : Str) : glob ('*' :: p) n = true ↔ ∃ t r, n = t ++ r ∧ glob p r = true := by
  rw [glob_cons, if_pos rfl, List.any_eq_true]
  constructor
  · rintro ⟨r, hr, h⟩
    obtain ⟨t, ht⟩ := (mem_rests _ _).1 hr
    exact ⟨t, r, ht, h⟩
  · rintro ⟨t, r, h, hr⟩
    exact ⟨r, (mem_rests _ _).2 ⟨t, h⟩, hr⟩

theorem glob_nil (n : Str) : glob [] n = true ↔ n = [] := by
  unfold glob
  exact List.isEmpty_iff

/-- A text without wildcards at the front of a pattern. -/
theorem glob_text {s : Str} (hs : ∀ c ∈ s, c ≠ '*' ∧ c ≠ '?') (p n : Str) :
    glob (s ++ p) n = true ↔ ∃ r, n = s ++ r ∧ glob p r = true := by
  induction s generalizing n with
  | nil => simp
  | cons a s ih =>
    have ha := hs a (by simp)
    have ih := fun n => ih (fun c hc => hs c (by simp [hc])) n
    rw [List.cons_append, glob_cons, if_neg ha.1]
    cases n with
    | nil => simp
    | cons d n =>
      simp only [Bool.and_eq_true, Bool.or_eq_true, decide_eq_true_eq, ih, ha.2, false_or,
        List.cons_append, List.cons.injEq]
      constructor
      · rintro ⟨rfl, r, h1, h2⟩
        exact ⟨r, ⟨rfl, h1⟩, h2⟩
      · rintro ⟨r, ⟨rfl, h1⟩, h2⟩
        exact ⟨rfl, r, h1, h2⟩

theorem glob_all (p : Str) (n : Str) (hp : p = c!"*" ∨ p = c!"**") : glob p n = true := by
  have h1 : ∀ n, glob c!"*" n = true := fun n =>
    (glob_star [] n).2 ⟨n, [], by simp, (glob_nil _).2 rfl⟩
  rcases hp with rfl | rfl
  · exact h1 n
  · exact (glob_star c!"*" n).2 ⟨[], n, rfl, h1 n⟩

theorem glob_stars (p n : Str) :
    glob ('*' :: '*' :: p) n = true ↔ ∃ t r, n = t ++ r ∧ glob p r = true := by
  rw [glob_star]
  constructor
  · rintro ⟨t, r, rfl, h⟩
    obtain ⟨t', r', rfl, h'⟩ := (glob_star _ _).1 h
    exact ⟨t ++ t', r', by simp, h'⟩
  · rintro ⟨t, r, rfl, h⟩
    exact ⟨t, r, rfl, (glob_star _ _).2 ⟨[], r, rfl, h⟩⟩

/-- Characters that mean something in a filter. -/
def Plain (s : Str) : Prop := ∀ c ∈ s, c ≠ '*' ∧ c ≠ '?' ∧ c ≠ ':' ∧ c ≠ '-' ∧ c ≠ '.' ∧ c ≠ '/'

theorem ident_plain {s : Str} (h : Ident s) : Plain s := by
  intro c hc
  rcases h.2 c hc with h | h
  · refine ⟨?_, ?_, ?_, ?_, ?_, ?_⟩ <;> rintro rfl <;> exact absurd h (by decide)
  · subst h; decide

theorem glob_first {S C : Str} (hS : Plain S) (hC : Plain C) (n : Str) :
    glob (S ++ c!"**." ++ C) n = true ↔ ∃ x, n = S ++ x ++ '.' :: C := by
  rw [List.append_assoc, glob_text (fun c hc => ⟨(hS c hc).1, (hS c hc).2.1⟩)]
  constructor
  · rintro ⟨r, rfl, h⟩
    obtain ⟨x, r', rfl, h'⟩ := (glob_stars _ _).1 h
    have := (glob_text (s := '.' :: C) (by
      intro c hc
      rcases List.mem_cons.1 hc with rfl | hc
      · decide
      · exact ⟨(hC c hc).1, (hC c hc).2.1⟩) [] r').1 (by simpa using h')
    obtain ⟨r'', rfl, h''⟩ := this
    rw [glob_nil] at h''
    subst h''
    exact ⟨x, by simp⟩
  · rintro ⟨x, rfl⟩
    refine ⟨x ++ '.' :: C, by simp, (glob_stars _ _).2 ⟨x, '.' :: C, rfl, ?_⟩⟩
    have := (glob_text (s := '.' :: C) (by
      intro c hc
      rcases List.mem_cons.1 hc with rfl | hc
      · decide
      · exact ⟨(hC c hc).1, (hC c hc).2.1⟩) [] ('.' :: C)).2 ⟨[], by simp, (glob_nil _).2 rfl⟩
    simpa using this

theorem glob_second {S C : Str} (hS : Plain S) (hC : Plain C) (n : Str) :
    glob (c!"**/" ++ S ++ c!"**." ++ C ++ c!"/**") n = true ↔
      ∃ a x b, n = a ++ '/' :: S ++ x ++ '.' :: C ++ '/' :: b := by
  have hs : ∀ c ∈ '/' :: S, c ≠ '*' ∧ c ≠ '?' := by
    intro c hc
    rcases List.mem_cons.1 hc with rfl | hc
    · decide
    · exact ⟨(hS c hc).1, (hS c hc).2.1⟩
  have hc' : ∀ c ∈ '.' :: C ++ ['/'], c ≠ '*' ∧ c ≠ '?' := by
    intro c hc
    simp only [List.mem_append, List.mem_cons, List.not_mem_nil, or_false] at hc
    rcases hc with (rfl | hc) | rfl
    · decide
    · exact ⟨(hC c hc).1, (hC c hc).2.1⟩
    · decide
  rw [show c!"**/" ++ S ++ c!"**." ++ C ++ c!"/**" =
    '*' :: '*' :: (('/' :: S) ++ ('*' :: '*' :: (('.' :: C ++ ['/']) ++ c!"**"))) by simp, glob_stars]
  constructor
  · rintro ⟨a, r, rfl, h⟩
    obtain ⟨r1, rfl, h1⟩ := (glob_text hs _ _).1 h
    obtain ⟨x, r2, rfl, h2⟩ := (glob_stars _ _).1 h1
    obtain ⟨b, rfl, -⟩ := (glob_text hc' _ _).1 h2
    exact ⟨a, x, b, by simp⟩
  · rintro ⟨a, x, b, rfl⟩
    refine ⟨a, '/' :: S ++ x ++ '.' :: C ++ '/' :: b, by simp, (glob_text hs _ _).2
      ⟨x ++ '.' :: C ++ '/' :: b, by simp, (glob_stars _ _).2 ⟨x, '.' :: C ++ '/' :: b, by simp,
        (glob_text hc' _ _).2 ⟨b, by simp, glob_all _ _ (Or.inr rfl)⟩⟩⟩⟩

theorem takeWhile_all {α : Type} {f : α → Bool} {l : List α} (h : ∀ c ∈ l, f c = true) :
    l.takeWhile f = l ∧ l.dropWhile f = [] := by
  induction l with
  | nil => exact ⟨rfl, rfl⟩
  | cons a l ih =>
    obtain ⟨h1, h2⟩ := ih (fun c hc => h c (by simp [hc]))
    rw [List.takeWhile_cons, List.dropWhile_cons, if_pos (h a (by simp)), if_pos (h a (by simp)), h1, h2]
    exact ⟨rfl, rfl⟩

/-- What an entry for a test case selects. -/
theorem selects_iff {S C : Str} (hS : Plain S) (hC : Plain C) (n : Str) (hn : n ≠ []) :
    gtestSelects (entryFilter S C) n = true ↔
      (∃ x, n = S ++ x ++ '.' :: C) ∨ ∃ a x b, n = a ++ '/' :: S ++ x ++ '.' :: C ++ '/' :: b := by
  obtain ⟨p, hp⟩ : ∃ p, S ++ c!"**." ++ C = p := ⟨_, rfl⟩
  obtain ⟨q, hq⟩ : ∃ q, c!"**/" ++ S ++ c!"**." ++ C ++ c!"/**" = q := ⟨_, rfl⟩
  have hf : entryFilter S C = p ++ ':' :: q := by
    rw [← hp, ← hq]
    unfold entryFilter
    simp
  have h1 : ∀ c ∈ p, c ≠ '-' ∧ c ≠ ':' := by
    intro c hc
    rw [← hp, List.mem_append, List.mem_append] at hc
    rcases hc with (hc | hc) | hc
    · exact ⟨(hS c hc).2.2.2.1, (hS c hc).2.2.1⟩
    · exact (show ∀ c ∈ c!"**.", c ≠ '-' ∧ c ≠ ':' by decide) c hc
    · exact ⟨(hC c hc).2.2.2.1, (hC c hc).2.2.1⟩
  have h2 : ∀ c ∈ q, c ≠ '-' ∧ c ≠ ':' := by
    intro c hc
    rw [← hq, List.mem_append, List.mem_append, List.mem_append, List.mem_append] at hc
    rcases hc with (((hc | hc) | hc) | hc) | hc
    · exact (show ∀ c ∈ c!"**/", c ≠ '-' ∧ c ≠ ':' by decide) c hc
    · exact ⟨(hS c hc).2.2.2.1, (hS c hc).2.2.1⟩
    · exact (show ∀ c ∈ c!"**.", c ≠ '-' ∧ c ≠ ':' by decide) c hc
    · exact ⟨(hC c hc).2.2.2.1, (hC c hc).2.2.1⟩
    · exact (show ∀ c ∈ c!"/**", c ≠ '-' ∧ c ≠ ':' by decide) c hc
  have hall : ∀ c ∈ p ++ ':' :: q, decide (c ≠ '-') = true := by
    intro c hc
    rw [decide_eq_true_eq]
    rcases List.mem_append.1 hc with hc | hc
    · exact (h1 c hc).1
    · rcases List.mem_cons.1 hc with rfl | hc
      · decide
      · exact (h2 c hc).1
  obtain ⟨htake, hdrop⟩ := takeWhile_all hall
  unfold gtestSelects
  rw [hf]
  dsimp only
  rw [htake, hdrop, List.splitOn_append_cons_self_of_not_mem (fun h => (h1 _ h).2 rfl),
    List.splitOn_eq_singleton (fun h => (h2 _ h).2 rfl)]
  have hneg : glob [] n = false := by
    rw [← Bool.not_eq_true, glob_nil]
    exact hn
  have hd : ((List.drop 1 ([] : Str)).splitOn ':').any (glob · n) = false := by
    rw [show (List.drop 1 ([] : Str)).splitOn ':' = [[]] from rfl]
    simp [hneg]
  have he : (p ++ ':' :: q).isEmpty = false := by simp
  simp only [hd, he, Bool.false_or, Bool.not_false, Bool.and_true, List.any_cons, List.any_nil,
    Bool.or_false, Bool.or_eq_true]
  rw [← hp, ← hq, glob_first hS hC, glob_second hS hC]

/-! ### Names of tests -/

theorem first_unique {k : Char} {a b c d : Str} (ha : k ∉ a) (hb : k ∉ b)
    (h : a ++ k :: c = b ++ k :: d) : a = b ∧ c = d := by
  induction a generalizing b with
  | nil =>
    cases b with
    | nil => exact ⟨rfl, (List.cons.inj h).2⟩
    | cons x b => exact absurd (List.cons.inj h).1 (fun hx => hb (List.mem_cons.2 (Or.inl hx)))
  | cons x a ih =>
    cases b with
    | nil => exact absurd (List.cons.inj h).1.symm (fun hx => ha (List.mem_cons.2 (Or.inl hx)))
    | cons y b =>
      obtain ⟨h1, h2⟩ := List.cons.inj h
      obtain ⟨h3, h4⟩ := ih (fun hh => ha (by simp [hh])) (fun hh => hb (by simp [hh])) h2
      exact ⟨by rw [h1, h3], h4⟩

/-- A text with the character once is divided in one way. -/
theorem once_unique {k : Char} {a b c d : Str} (ha : k ∉ a) (hc : k ∉ c)
    (h : a ++ k :: c = b ++ k :: d) : a = b ∧ c = d := by
  refine first_unique ha ?_ h
  intro hb
  have h1 := congrArg (List.count k) h
  rw [List.count_append, List.count_append, List.count_cons_self, List.count_cons_self,
    List.count_eq_zero_of_not_mem ha, List.count_eq_zero_of_not_mem hc] at h1
  have := List.count_pos_iff.2 hb
  omega

theorem prefix_before {k : Char} {S a b : Str} (hS : k ∉ S) :
    S <+: a ++ k :: b ↔ S <+: a := by
  constructor
  · intro h
    rcases List.prefix_or_prefix_of_prefix h (List.prefix_append a (k :: b)) with h' | ⟨t, ht⟩
    · exact h'
    · rw [← ht] at h
      cases t with
      | nil => rw [List.append_nil] at ht; rw [ht]; exact List.prefix_rfl
      | cons x t =>
        obtain ⟨u, hu⟩ := h
        rw [List.append_assoc] at hu
        have := List.append_cancel_left hu
        have hx : x = k := (List.cons.inj this).1
        exact absurd (by rw [← ht, hx]; simp) hS
  · intro h
    exact h.trans (List.prefix_append _ _)

/-- What an entry selects among names with one point. -/
theorem selects_dot {S C pre post : Str} (hS : Plain S) (hC : Plain C) (h1 : '.' ∉ pre)
    (h2 : '.' ∉ post) :
    gtestSelects (entryFilter S C) (pre ++ '.' :: post) = true ↔
      (S <+: pre ∧ post = C) ∨ ∃ a x b, pre = a ++ '/' :: (S ++ x) ∧ post = C ++ '/' :: b := by
  rw [selects_iff hS hC _ (by simp)]
  constructor
  · rintro (⟨x, h⟩ | ⟨a, x, b, h⟩)
    · obtain ⟨h3, h4⟩ := once_unique h1 h2 h
      exact Or.inl ⟨⟨x, h3.symm⟩, h4⟩
    · rw [List.append_assoc (_ ++ x), List.cons_append] at h
      obtain ⟨h3, h4⟩ := once_unique h1 h2 h
      exact Or.inr ⟨a, x, b, by rw [h3]; simp, h4⟩
  · rintro (⟨⟨x, rfl⟩, rfl⟩ | ⟨a, x, b, rfl, rfl⟩)
    · exact Or.inl ⟨x, rfl⟩
    · exact Or.inr ⟨a, x, b, by simp⟩

theorem no_dot {s : Str} (h : Ident s) : '.' ∉ s := fun hh => (ident_plain h _ hh).2.2.2.2.1 rfl

theorem no_slash {s : Str} (h : Ident s) : '/' ∉ s := fun hh => (ident_plain h _ hh).2.2.2.2.2 rfl

/-- C135.  The entry `S.C` runs, among the tests of the executable, exactly those
of the test case `C` of suites whose name begins with `S`: plain tests `S'.C`, tests with
parameters `I/S'.C/p` and tests with types `S'/i.C`.  Missing: suites with a longer name
are run too (`C135_negation_suites`); instances without a name and tests with types as
parameters are not run (`C135_negation_never`); an entry for a test that does not exist
passes (`C135_negation_unknown`). -/
theorem C135_selected_partial (S C S' C' I p : Str) (hS : Ident S) (hC : Ident C) (hS' : Ident S')
    (hC' : Ident C') (hI : Ident I) (hp : Ident p) :
    (gtestSelects (entryFilter S C) (S' ++ '.' :: C') = true ↔ S <+: S' ∧ C' = C) ∧
    (gtestSelects (entryFilter S C) (I ++ '/' :: S' ++ '.' :: (C' ++ '/' :: p)) = true ↔
      S <+: S' ∧ C' = C) ∧
    (gtestSelects (entryFilter S C) (S' ++ '/' :: p ++ '.' :: C') = true ↔ S <+: S' ∧ C' = C) := by
  have pS := ident_plain hS
  have pC := ident_plain hC
  refine ⟨?_, ?_, ?_⟩
  · rw [selects_dot pS pC (no_dot hS') (no_dot hC')]
    constructor
    · rintro (h | ⟨a, x, b, h, -⟩)
      · exact h
      · exact absurd (by rw [h]; simp) (no_slash hS')
    · exact Or.inl
  · rw [selects_dot pS pC (by simp [no_dot hS', no_dot hI]) (by simp [no_dot hC', no_dot hp])]
    constructor
    · rintro (⟨-, h⟩ | ⟨a, x, b, h, h'⟩)
      · exact absurd (by rw [← h]; simp) (no_slash hC)
      · obtain ⟨-, h3⟩ := once_unique (no_slash hI) (no_slash hS') h
        obtain ⟨h4, -⟩ := once_unique (no_slash hC') (no_slash hp) h'
        exact ⟨⟨x, h3.symm⟩, h4⟩
    · rintro ⟨⟨x, rfl⟩, rfl⟩
      exact Or.inr ⟨I, x, p, rfl, rfl⟩
  · rw [selects_dot pS pC (by simp [no_dot hS', no_dot hp]) (no_dot hC'), prefix_before (no_slash hS)]
    constructor
    · rintro (h | ⟨a, x, b, -, h⟩)
      · exact h
      · exact absurd (by rw [h]; simp) (no_slash hC')
    · exact Or.inl

example : Ident c!"fileTest" ∧ Ident c!"read_file_one_line" := by
  unfold Ident
  decide

/-- C135 fails for tests with parameters whose instance has no name, `S.C/p`, and for
tests with types as parameters, `I/S/i.C`: no entry `S.C` runs them (the latter unless the
name of the instance begins with `S`). -/
theorem C135_negation_never (S C S' C' I p : Str) (hS : Ident S) (hC : Ident C) (hS' : Ident S')
    (hC' : Ident C') (hI : Ident I) (hp : Ident p) :
    gtestSelects (entryFilter S C) (S' ++ '.' :: (C' ++ '/' :: p)) = false ∧
    (¬ S <+: I → gtestSelects (entryFilter S C) (I ++ '/' :: S' ++ '/' :: p ++ '.' :: C') = false) := by
  have pS := ident_plain hS
  have pC := ident_plain hC
  refine ⟨?_, ?_⟩
  · rw [← Bool.not_eq_true, selects_dot pS pC (no_dot hS') (by simp [no_dot hC', no_dot hp])]
    rintro (⟨-, h⟩ | ⟨a, x, b, h, -⟩)
    · exact absurd (by rw [← h]; simp) (no_slash hC)
    · exact absurd (by rw [h]; simp) (no_slash hS')
  · intro hI'
    rw [← Bool.not_eq_true, selects_dot pS pC (by simp [no_dot hS', no_dot hI, no_dot hp]) (no_dot hC')]
    rintro (⟨h, -⟩ | ⟨a, x, b, -, h⟩)
    · rw [List.append_assoc, List.cons_append, prefix_before (no_slash hS)] at h
      exact hI' h
    · exact absurd (by rw [h]; simp) (no_slash hC')

example : ¬ c!"mathTest" <+: c!"AllTypes" := by decide

/-- C135 fails for suites of one executable with a common beginning: the entry of the
shorter name runs the tests of the longer one as well. -/
theorem C135_negation_suites (S C x : Str) (hS : Ident S) (hC : Ident C) (hx : Ident x) :
    gtestSelects (entryFilter S C) (S ++ x ++ '.' :: C) = true := by
  refine (C135_selected_partial S C (S ++ x) C C C hS hC ⟨by simp [hS.1], ?_⟩ hC hC hC).1.2
    ⟨List.prefix_append _ _, rfl⟩
  intro c hc
  rcases List.mem_append.1 hc with h | h
  · exact hS.2 c h
  · exact hx.2 c h

/-- C135 fails for a test that is listed but does not exist, by a misspelling for
instance: the entry runs nothing and passes, even when all tests fail. -/
theorem C135_negation_unknown (S C : Str) (hS : Ident S) (hC : Plain C)
    (tests : List (Str × Str)) (hid : ∀ t ∈ tests, Ident t.1 ∧ Ident t.2)
    (hno : ∀ t ∈ tests, t.2 ≠ C) (ok : Str → Bool) :
    (⟨S ++ '.' :: C, some (entryFilter S C)⟩ : TestEntry).runs
        (tests.map fun t => t.1 ++ '.' :: t.2) = [] ∧
    (⟨S ++ '.' :: C, some (entryFilter S C)⟩ : TestEntry).passes
        (tests.map fun t => t.1 ++ '.' :: t.2) ok = true := by
  have hruns : (⟨S ++ '.' :: C, some (entryFilter S C)⟩ : TestEntry).runs
      (tests.map fun t => t.1 ++ '.' :: t.2) = [] := by
    unfold TestEntry.runs
    dsimp only
    rw [List.filter_eq_nil_iff]
    intro n hn
    obtain ⟨t, ht, rfl⟩ := List.mem_map.1 hn
    obtain ⟨h1, h2⟩ := hid t ht
    rw [selects_dot (ident_plain hS) hC (no_dot h1) (no_dot h2)]
    rintro (⟨-, h⟩ | ⟨a, x, b, h, -⟩)
    · exact hno t ht h
    · exact absurd (by rw [h]; simp) (no_slash h1)
  refine ⟨hruns, ?_⟩
  unfold TestEntry.passes
  rw [hruns]
  rfl

/-- The tests of `/repo/cpp_utils/test/unittest/file/fileTest.cpp:53-138` and the list of
`/repo/cpp_utils/test/unittest/file/CMakeLists.txt:26-33`: the test
`read_file_one_line_no_strip_chars` is not listed, and the name
`read_file_one_line_strip_chars` of the list is no test. -/
def fileTests : List Str :=
  [c!"read_file_by_lines", c!"read_file_by_lines_no_strip_chars",
    c!"read_file_by_lines_strip_empty_lines", c!"read_file_one_line",
    c!"read_file_one_line_no_strip_chars", c!"read_incorrect_file"]

example : ∀ t ∈ fileTests.map fun c => (c!"fileTest", c),
    Ident t.1 ∧ Ident t.2 ∧ t.2 ≠ c!"read_file_one_line_strip_chars" := by
  unfold Ident
  decide

/-- The list of `/repo/cpp_utils/test/unittest/qos/CMakeLists.txt:26-29` has a comma after
the first name; the entry `qos_utils_test.qos_policy_id_to_string,` runs nothing. -/
example : Plain c!"qos_policy_id_to_string," ∧
    ∀ t ∈ [(c!"qos_utils_test", c!"qos_policy_id_to_string"),
      (c!"qos_utils_test", c!"qos_policy_mask_to_string")],
      Ident t.1 ∧ Ident t.2 ∧ t.2 ≠ c!"qos_policy_id_to_string," := by
  unfold Ident Plain
  decide

/-- C135.  When every test of the suite is listed, or nothing is, `ctest` is a faithful
report: all entries pass exactly when all tests of the suite pass.  Missing: what
`C135_selected_partial` says. -/
theorem C135_report_partial (S : Str) (hS : Ident S) (listed tests : List Str)
    (hl : ∀ c ∈ listed, Ident c) (ht : ∀ c ∈ tests, Ident c)
    (hall : listed = [] ∨ ∀ c ∈ tests, c ∈ listed) (ok : Str → Bool) :
    (∀ t ∈ testEntries S ([';'].intercalate listed),
        t.passes (tests.map fun c => S ++ '.' :: c) ok = true) ↔
      ∀ c ∈ tests, ok (S ++ '.' :: c) = true := by
  have hj : elements ([';'].intercalate listed) = listed := by
    rw [← joined_intercalate]
    refine elements_joined (fun w hw => ⟨(hl w hw).1, fun h => ?_⟩)
    rcases (hl w hw).2 _ h with h' | h'
    · exact absurd h' (by decide)
    · exact absurd h' (by decide)
  have hwhole : (⟨S, none⟩ : TestEntry).passes (tests.map fun c => S ++ '.' :: c) ok = true ↔
      ∀ c ∈ tests, ok (S ++ '.' :: c) = true := by
    unfold TestEntry.passes TestEntry.runs
    simp
  unfold testEntries
  split
  · rw [← hwhole]
    simp
  · rename_i hoff
    have hne : listed ≠ [] := by
      rintro rfl
      exact hoff (by decide)
    have hall' : ∀ c ∈ tests, c ∈ listed := hall.resolve_left hne
    rw [hj]
    constructor
    · intro h c hc
      have h1 := h _ (List.mem_map.2 ⟨c, hall' c hc, rfl⟩)
      unfold TestEntry.passes TestEntry.runs at h1
      dsimp only at h1
      rw [List.all_eq_true] at h1
      refine h1 _ (List.mem_filter.2 ⟨List.mem_map.2 ⟨c, hc, rfl⟩, ?_⟩)
      exact (C135_selected_partial S c S c c c hS (ht c hc) hS (ht c hc) (ht c hc) (ht c hc)).1.2
        ⟨List.prefix_rfl, rfl⟩
    · intro h t ht'
      obtain ⟨c, -, rfl⟩ := List.mem_map.1 ht'
      unfold TestEntry.passes TestEntry.runs
      dsimp only
      rw [List.all_eq_true]
      intro n hn
      obtain ⟨c', hc', rfl⟩ := List.mem_map.1 (List.mem_filter.1 hn).1
      exact h c' hc'

example : testEntries c!"fileTest" c!"exist;is_file_accessible" =
    [⟨c!"fileTest.exist", some c!"fileTest**.exist:**/fileTest**.exist/**"⟩,
      ⟨c!"fileTest.is_file_accessible",
        some c!"fileTest**.is_file_accessible:**/fileTest**.is_file_accessible/**"⟩] := by decide

end Verif.CMake
