import Verif.Props.CMakeFilter

/-!
C136: the sources that are compiled.
-/
namespace Verif.CMake

/-- The name of a file ends like that of a source. -/
def SourceName (n : Str) : Prop := c!".c" <:+ n ∨ c!".cpp" <:+ n ∨ c!".cxx" <:+ n

/-- The name of a file ends like that of a header. -/
def HeaderName (n : Str) : Prop := c!".h" <:+ n ∨ c!".hpp" <:+ n ∨ c!".hxx" <:+ n

theorem glob_suffix {s : Str} (hs : ∀ c ∈ s, c ≠ '*' ∧ c ≠ '?') (n : Str) :
    glob ('*' :: s) n = true ↔ s <:+ n := by
  rw [glob_star]
  have h1 : ∀ r, glob s r = true ↔ r = s := by
    intro r
    have := glob_text hs [] r
    rw [List.append_nil] at this
    rw [this]
    constructor
    · rintro ⟨r', h, h'⟩
      rw [glob_nil] at h'
      rw [h, h', List.append_nil]
    · rintro rfl
      exact ⟨[], by simp, (glob_nil _).2 rfl⟩
  constructor
  · rintro ⟨t, r, rfl, h⟩
    rw [(h1 r).1 h]
    exact ⟨t, rfl⟩
  · rintro ⟨t, rfl⟩
    exact ⟨t, s, rfl, (h1 s).2 rfl⟩

theorem recurse_one (p : Str) (dirs : List Str) (n : Str) :
    globRecurse [p] (dirs ++ [n]) = glob p n := by
  cases dirs with
  | nil => simp [globRecurse]
  | cons d dirs =>
    show ((d :: (dirs ++ [n])).getLast?).any (glob p) = _
    rw [← List.cons_append, List.getLast?_concat]
    rfl

theorem recurse_two (p : Str) (dirs : List Str) (n : Str) :
    globRecurse [c!"**", p] (dirs ++ [n]) = (decide (dirs ≠ []) && glob p n) := by
  cases dirs with
  | nil => simp [globRecurse]
  | cons d dirs =>
    have := recurse_one p dirs n
    rw [List.cons_append]
    unfold globRecurse
    rw [this, glob_all _ _ (Or.inr rfl)]
    simp

/-- C136.  Without sources of its own `compile_library` compiles exactly the files below
the source path, at any depth, whose names end in `.c`, `.cpp` or `.cxx`, each as often
as it is there (once); with sources given, exactly those. -/
theorem C136_library (given tree : List (List Str)) :
    (given ≠ [] → librarySources given tree = given) ∧
    (given = [] → ∀ (dirs : List Str) (n : Str),
      (dirs ++ [n] ∈ librarySources given tree ↔ dirs ++ [n] ∈ tree ∧ SourceName n)) ∧
    (given = [] → tree.Nodup → (librarySources given tree).Nodup) := by
  unfold librarySources
  refine ⟨fun h => if_neg h, ?_, ?_⟩
  · intro h dirs n
    rw [if_pos h]
    unfold globbed sourcePatterns SourceName
    rw [List.mem_filter]
    simp only [List.any_cons, List.any_nil, recurse_one, recurse_two, Bool.or_false, Bool.or_eq_true,
      Bool.and_eq_true]
    rw [glob_suffix (s := c!".c") (by decide), glob_suffix (s := c!".cpp") (by decide),
      glob_suffix (s := c!".cxx") (by decide)]
    grind
  · intro h hn
    rw [if_pos h]
    exact hn.filter _

example : librarySources [] [[c!"utils.cpp"], [c!"math", c!"random", c!"random.cpp"], [c!"README.md"]] =
    [[c!"utils.cpp"], [c!"math", c!"random", c!"random.cpp"]] := by decide

/-- C136.  The sources of a test get all sources and headers of the library that are
not directly in `src/cpp`, or the files given.  Missing: the files directly in `src/cpp`,
see `C136_negation`. -/
theorem C136_tests_partial (sources given tree : List (List Str)) :
    (given ≠ [] → allLibrarySources sources given tree = sources ++ given) ∧
    (given = [] → ∀ (dirs : List Str) (n : Str), dirs ≠ [] →
      (dirs ++ [n] ∈ allLibrarySources sources given tree ↔
        dirs ++ [n] ∈ sources ∨ (dirs ++ [n] ∈ tree ∧ (SourceName n ∨ HeaderName n)))) := by
  unfold allLibrarySources
  refine ⟨fun h => if_neg h, ?_⟩
  intro h dirs n hd
  rw [if_pos h]
  unfold globbed testSourcePatterns SourceName HeaderName
  rw [List.mem_append, List.mem_filter]
  simp only [List.any_cons, List.any_nil, recurse_two, Bool.or_false, Bool.or_eq_true,
    Bool.and_eq_true]
  rw [glob_suffix (s := c!".c") (by decide), glob_suffix (s := c!".cpp") (by decide),
    glob_suffix (s := c!".cxx") (by decide), glob_suffix (s := c!".h") (by decide),
    glob_suffix (s := c!".hpp") (by decide), glob_suffix (s := c!".hxx") (by decide)]
  simp only [ne_eq, hd, not_false_eq_true, decide_true, true_and]
  grind

example : allLibrarySources [[c!"blackbox.cpp"]] [] [[c!"math", c!"random.cpp"]] =
    [[c!"blackbox.cpp"], [c!"math", c!"random.cpp"]] := by decide

/-- C136 fails for the files directly in `src/cpp`, such as `utils.cpp`: `**` stands for
exactly one directory, so `all_library_sources` finds none of them. -/
theorem C136_negation (sources tree : List (List Str)) (n : Str) (h : [n] ∉ sources) :
    [n] ∉ allLibrarySources sources [] tree := by
  unfold allLibrarySources
  rw [if_pos rfl, List.mem_append]
  rintro (h' | h')
  · exact h h'
  · have := (List.mem_filter.1 h').2
    have h2 := fun p => recurse_two p [] n
    simp only [List.nil_append, ne_eq, not_true_eq_false, decide_false, Bool.false_and] at h2
    simp [testSourcePatterns, h2] at this

example : [c!"utils.cpp"] ∉ [[c!"blackbox.cpp"]] := by decide

/-- C136.  Under MSVC the headers that no argument gives are exactly the files in the
directories below the two paths whose names end in `.h`, `.hpp` or `.ipp`.  Missing: the
files directly in one of the paths, which are not found, and headers that are given, see
`C136_negation_headers`. -/
theorem C136_headers_partial (sources includes tree : List (List Str)) (dirs : List Str) (n : Str) :
    (dirs ++ [n] ∈ libraryHeaders sources [] includes tree ↔
      dirs ≠ [] ∧ (dirs ++ [n] ∈ includes ∨ dirs ++ [n] ∈ tree) ∧
        (c!".h" <:+ n ∨ c!".hpp" <:+ n ∨ c!".ipp" <:+ n)) := by
  unfold libraryHeaders globbed headerPatterns
  rw [if_pos rfl, List.mem_append, List.mem_filter, List.mem_filter]
  simp only [List.any_cons, List.any_nil, recurse_two, Bool.or_false, Bool.or_eq_true,
    Bool.and_eq_true]
  rw [glob_suffix (s := c!".h") (by decide), glob_suffix (s := c!".hpp") (by decide),
    glob_suffix (s := c!".ipp") (by decide)]
  simp only [decide_eq_true_eq]
  grind

example : libraryHeaders [] [] [[c!"cpp_utils", c!"Formatter.hpp"], [c!"all.hpp"]]
    [[c!"wait", c!"impl.ipp"]] = [[c!"cpp_utils", c!"Formatter.hpp"], [c!"wait", c!"impl.ipp"]] := by
  decide

/-- C136 fails for headers given to `compile_library` under MSVC: they are ignored and
the sources take their place, so a header that is not also among the sources is left
out. -/
theorem C136_negation_headers (sources headers includes tree : List (List Str)) (x : List Str)
    (h1 : x ∈ headers) (h2 : x ∉ sources) : x ∉ libraryHeaders sources headers includes tree := by
  unfold libraryHeaders
  rw [if_neg (by rintro rfl; cases h1)]
  exact h2

example : [c!"a.hpp"] ∈ [[c!"a.hpp"], [c!"b.hpp"]] ∧ [c!"a.hpp"] ∉ [[c!"a.cpp"]] := by decide

end Verif.CMake
