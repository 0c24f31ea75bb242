import Verif.Model.CMakeInstall
import Mathlib.Logic.Relation
/-!
C174: the headers of an installed library.  C175: the target of a tool or a
library.  C176: the `PATH` of tests on Windows.  C177: the package of an installed
library.
-/
namespace Verif.CMake

/-! ### C174 -/

/-- A text that ends with `.h`, `.hpp` or `.ipp`. -/
def InstalledName (x : Str) : Prop := ∃ stem : Str, x = stem ++ c!".h" ∨ x = stem ++ c!".hpp" ∨ x = stem ++ c!".ipp"

theorem rests_mem {s r : Str} : r ∈ rests s ↔ ∃ a, a ++ r = s := by
  induction s with
  | nil =>
    simp only [rests, List.mem_singleton, List.append_eq_nil_iff]
    exact ⟨fun h => ⟨[], rfl, h⟩, fun ⟨_, _, h⟩ => h⟩
  | cons c s ih =>
    simp only [rests, List.mem_cons, ih]
    constructor
    · rintro (rfl | ⟨a, rfl⟩)
      · exact ⟨[], rfl⟩
      · exact ⟨c :: a, rfl⟩
    · rintro ⟨a, ha⟩
      cases a with
      | nil => exact .inl ha
      | cons d a =>
        simp only [List.cons_append, List.cons.injEq] at ha
        exact .inr ⟨a, ha.2⟩

/-- A pattern without wildcards stands for itself. -/
theorem glob_plain {p : Str} (h : ∀ c ∈ p, c ≠ '*' ∧ c ≠ '?') (n : Str) : glob p n = true ↔ n = p := by
  induction p generalizing n with
  | nil => cases n <;> simp [glob]
  | cons c p ih =>
    have hc := h c (by simp)
    cases n with
    | nil => simp [glob, hc.1]
    | cons d n =>
      simp only [glob, hc.1, hc.2, if_false, decide_false, Bool.false_or, Bool.and_eq_true, decide_eq_true_eq,
        ih fun c hm => h c (by simp [hm]), List.cons.injEq]
      exact ⟨fun ⟨a, b⟩ => ⟨a.symm, b⟩, fun ⟨a, b⟩ => ⟨a.symm, b⟩⟩

theorem glob_ext {p : Str} (h : ∀ c ∈ p, c ≠ '*' ∧ c ≠ '?') (n : Str) :
    glob ('*' :: p) n = true ↔ ∃ stem, n = stem ++ p := by
  simp only [glob, if_true, List.any_eq_true, rests_mem]
  constructor
  · rintro ⟨r, ⟨a, rfl⟩, hr⟩
    exact ⟨a, by rw [(glob_plain h r).1 hr]⟩
  · rintro ⟨a, rfl⟩
    exact ⟨p, ⟨a, rfl⟩, (glob_plain h p).2 rfl⟩

theorem isHeader_iff (x : Str) : isHeader x = true ↔ InstalledName x := by
  simp only [isHeader, Bool.or_eq_true]
  rw [glob_ext (by decide), glob_ext (by decide), glob_ext (by decide)]
  simp only [InstalledName, exists_or, or_assoc]

theorem splitOn_ne {d : Char} {s : Str} (h : d ∉ s) : s.splitOn d = [s] := by
  have := List.splitOnP_eq_singleton (p := fun c => c == d) (xs := s) (fun x hx => by
    simp only [beq_eq_false_iff_ne, ne_eq]
    exact fun e => h (e ▸ hx))
  simpa [List.splitOn] using this

theorem parts_name {s : Str} (h : '/' ∉ s) (h0 : s ≠ []) : parts s = [s] := by
  simp [parts, splitOn_ne h, h0]

/-- Where a header is after installation, whatever the settings: the file `r` of
the directory `include/d` is below the include directory of the installation, in
a directory with the last name of `d`. -/
theorem C174_place (m : Package) (tree : List (List Str)) (p : List Str) (x : Str) (r : List Str)
    (hp : parts m.headersPath = p ++ [x]) (hl : m.headersPath.getLast? ≠ some '/')
    (hf : p ++ [x] ++ r ∈ tree) (hr : ∃ y ∈ r.getLast?, InstalledName y) :
    parts m.includeDir ++ x :: r ∈ installedTree m tree := by
  refine List.mem_map.2 ⟨p ++ [x] ++ r, List.mem_filter.2 ⟨hf, ?_⟩, ?_⟩
  · obtain ⟨y, hy, hh⟩ := hr
    have hy' : r.getLast? = some y := hy
    rw [hp]
    simp only [Bool.and_eq_true, List.isPrefixOf_iff_prefix]
    refine ⟨List.prefix_append _ _, ?_⟩
    rw [List.drop_left, hy']
    simpa using (isHeader_iff y).2 hh
  · rw [hp, List.drop_left, installedAt, if_neg hl, hp]
    simp

/-- The hypotheses of `C174_place` are met. -/
example : parts c!"eprosima/utils" = [c!"eprosima"] ++ [c!"utils"] ∧ InstalledName c!"math.hpp" := by
  refine ⟨by decide, c!"math", by simp⟩

/-- C174: with the default settings (all headers in a directory with the name of
the module, installed in `include`), the names that can be included once the
library is installed are exactly those of the headers of that directory, as they
are written in the build, and of the headers made from templates.  (Missing: other
settings, and other names; see the negations.) -/
theorem C174_found_partial (m : Package) (tree src : List (List Str)) (hn : '/' ∉ m.name) (h0 : m.name ≠ [])
    (hp : m.headersPath = m.name) (hi : parts m.headersInstallPath = [m.name])
    (hd : parts m.includeDir = [c!"include"]) :
    (∀ n : List Str, foundInstalled m tree n = true ↔
      (n ∈ tree ∧ ∃ r x, n = m.name :: r ∧ x ∈ r.getLast? ∧ InstalledName x) ∨
        ∃ x ∈ configHeaders, n = [m.name, c!"library", x]) ∧
    ∀ n : List Str, foundInstalled m tree n = true → foundInBuild m tree src n = true := by
  have hpp : parts m.headersPath = [m.name] := by rw [hp, parts_name hn h0]
  have hl : m.headersPath.getLast? ≠ some '/' := by
    rw [hp]
    intro h
    exact hn (List.mem_of_getLast? h)
  have key : ∀ n : List Str, foundInstalled m tree n = true ↔
      (n ∈ tree ∧ ∃ r x, n = m.name :: r ∧ x ∈ r.getLast? ∧ InstalledName x) ∨
        ∃ x ∈ configHeaders, n = [m.name, c!"library", x] := by
    intro n
    simp only [foundInstalled, Bool.or_eq_true, List.contains_eq_mem, decide_eq_true_eq]
    refine or_congr ?_ ?_
    · simp only [installedTree, List.mem_map, List.mem_filter, hpp, installedAt, if_neg hl, hd,
        Bool.and_eq_true, List.isPrefixOf_iff_prefix]
      constructor
      · rintro ⟨f, ⟨hf, ⟨r, rfl⟩, hx⟩, e⟩
        simp only [List.singleton_append, List.length_singleton, List.drop_succ_cons, List.drop_zero,
          List.getLast?_singleton, Option.toList_some, List.cons_append, List.cons.injEq, true_and,
          List.nil_append] at e hx hf
        subst e
        refine ⟨hf, r, ?_⟩
        cases hr : r.getLast? with
        | none => simp [hr] at hx
        | some x =>
          simp only [hr, Option.any_some] at hx
          exact ⟨x, rfl, rfl, (isHeader_iff x).1 hx⟩
      · rintro ⟨hf, r, x, rfl, hx, hh⟩
        refine ⟨m.name :: r, ⟨hf, ⟨r, rfl⟩, ?_⟩, by simp⟩
        have hx' : r.getLast? = some x := hx
        simp only [List.length_singleton, List.drop_succ_cons, List.drop_zero, hx', Option.any_some]
        exact (isHeader_iff x).2 hh
    · simp only [installedConfig, List.mem_map, hd, hi, List.singleton_append, List.cons_append, List.nil_append,
        List.cons.injEq, true_and]
      exact ⟨fun ⟨x, hx, e⟩ => ⟨x, hx, e.symm⟩, fun ⟨x, hx, e⟩ => ⟨x, hx, e.symm⟩⟩
  refine ⟨key, fun n h => ?_⟩
  rcases (key n).1 h with ⟨h, -⟩ | ⟨x, hx, rfl⟩
  · simp [foundInBuild, h]
  · simp only [foundInBuild, Bool.or_eq_true, List.any_eq_true]
    exact .inr ⟨x, hx, by simp⟩

/-- The hypotheses of `C174_found_partial` are met, and headers are found. -/
example : let m : Package := ⟨c!"cpp_utils", c!"cpp_utils", c!"cpp_utils", c!"include/"⟩
    parts m.headersInstallPath = [m.name] ∧ parts m.includeDir = [c!"include"] ∧
    foundInstalled m [[c!"cpp_utils", c!"math", c!"x.hpp"]] [c!"cpp_utils", c!"math", c!"x.hpp"] = true ∧
    foundInstalled m [] [c!"cpp_utils", c!"library", c!"config.h"] = true := by decide

/-- C174, negation: `MODULE_HEADERS_PATH` with two names.  In the build the header
is `eprosima/utils/x.hpp`, once installed it is `utils/x.hpp`, though the headers
made from templates are where the setting says. -/
theorem C174_negation_path :
    let m : Package := ⟨c!"utils", c!"eprosima/utils", c!"eprosima/utils", c!"include/"⟩
    let tree := [[c!"eprosima", c!"utils", c!"x.hpp"]]
    foundInBuild m tree [] [c!"eprosima", c!"utils", c!"x.hpp"] = true ∧
    foundInstalled m tree [c!"eprosima", c!"utils", c!"x.hpp"] = false ∧
    foundInstalled m tree [c!"utils", c!"x.hpp"] = true ∧
    foundInstalled m tree [c!"eprosima", c!"utils", c!"library", c!"config.h"] = true := by decide

/-- C174, negation: headers installed in another directory than `include`
(`MODULE_INCLUDE_INSTALL_DIR`) are not found at all: the installed target has the
include directory `include`. -/
theorem C174_negation_directory (m : Package) (tree : List (List Str)) (n : List Str)
    (h : (parts m.includeDir).head? ≠ some c!"include") (h0 : parts m.includeDir ≠ []) :
    foundInstalled m tree n = false := by
  rw [Bool.eq_false_iff]
  simp only [foundInstalled, ne_eq, Bool.or_eq_true, List.contains_eq_mem, decide_eq_true_eq, not_or]
  obtain ⟨d, ds, hd⟩ := List.exists_cons_of_ne_nil h0
  rw [hd] at h
  simp only [List.head?_cons, ne_eq, Option.some.injEq] at h
  constructor
  · intro hm
    obtain ⟨f, -, e⟩ := List.mem_map.1 hm
    simp only [installedAt, hd, List.cons_append, List.cons.injEq] at e
    exact h e.1
  · intro hm
    obtain ⟨f, -, e⟩ := List.mem_map.1 hm
    simp only [hd, List.cons_append, List.cons.injEq] at e
    exact h e.1

example : (parts c!"headers/").head? ≠ some c!"include" ∧ parts c!"headers/" ≠ [] := by decide

/-- C174, negation: further names that the build knows and the installation does
not.  A `MODULE_HEADERS_INSTALL_PATH` of its own moves only the headers made from
templates, away from the name `utils/library/library_dll.h` that the others include
them by; a header is known in the build without the name of the module; a header
`x.hxx` is not installed. -/
theorem C174_negation_names :
    (let m : Package := ⟨c!"utils", c!"utils", c!"eprosima/utils", c!"include/"⟩
      let tree := [[c!"utils", c!"x.hpp"]]
      foundInBuild m tree [] [c!"utils", c!"library", c!"library_dll.h"] = true ∧
      foundInstalled m tree [c!"utils", c!"library", c!"library_dll.h"] = false ∧
      foundInstalled m tree [c!"eprosima", c!"utils", c!"x.hpp"] = false ∧
      foundInstalled m tree [c!"utils", c!"x.hpp"] = true) ∧
    let m : Package := ⟨c!"utils", c!"utils", c!"utils", c!"include/"⟩
    let tree := [[c!"utils", c!"x.hpp"], [c!"utils", c!"y.hxx"]]
    foundInBuild m tree [] [c!"x.hpp"] = true ∧ foundInstalled m tree [c!"x.hpp"] = false ∧
    foundInBuild m tree [] [c!"utils", c!"y.hxx"] = true ∧
    foundInstalled m tree [c!"utils", c!"y.hxx"] = false := by decide

/-! ### C175 -/

theorem put_self (ts : Targets) (n : Str) (t : Target) : ts.put n t n = some t := by simp [Targets.put]

theorem put_ne (ts : Targets) {n m : Str} (t : Target) (h : m ≠ n) : ts.put n t m = ts m := by
  simp [Targets.put, h]

theorem change_put (ts : Targets) (n : Str) (t : Target) (f : Target → Target) :
    (ts.put n t).change n f = some (ts.put n (f t)) := by
  simp only [Targets.change, put_self, Option.some.injEq]
  funext m
  by_cases h : m = n <;> simp [Targets.put, h]

theorem log_put (e : Env) (ts : Targets) (n : Str) (t : Target) :
    logDefinitions e n (ts.put n t) = some (ts.put n { t with
      definitions := t.definitions ++
        if truth e c!"LOG_INFO" then [c!"FASTDDS_ENFORCE_LOG_INFO", c!"HAVE_LOG_NO_INFO=0"] else [] }) := by
  unfold logDefinitions
  by_cases h : truth e c!"LOG_INFO" = true
  · rw [if_pos h, if_pos h, change_put]
  · rw [if_neg h, if_neg h]
    simp

/-- C175: `compile_tool` in a project with the name of the module makes one target,
with that name, and leaves all others alone.  It has the sources given or, when
none are, those found, the include directories given, the dependencies, the
definitions for the verbosity, and the output name and directory asked for.
(Missing: a project with another name, see `C175_negation_project`.) -/
theorem C175_tool_partial (e : Env) (found : List Str) (sources includes : Str) (ts : Targets) (n : Str)
    (hb : truth e c!"BUILD_TOOL" = true) (hn : e.get c!"MODULE_NAME" = some n)
    (hp : e.text c!"PROJECT_NAME" = n) (ht : ts n = none)
    (hs : (if sources = [] then found else elements sources) ≠ []) :
    ∃ ts', compileTool e found sources includes ts = some ts' ∧ (∀ m, m ≠ n → ts' m = ts m) ∧
      ts' n = some {
        executable := true
        sources := if sources = [] then found else elements sources
        includes := elements includes
        outputName := e.text c!"MODULE_TARGET_NAME"
        definitions := if truth e c!"LOG_INFO" then [c!"FASTDDS_ENFORCE_LOG_INFO", c!"HAVE_LOG_NO_INFO=0"] else []
        links := elements (e.text c!"MODULE_DEPENDENCIES")
        installed := elements (e.text c!"BIN_INSTALL_DIR") } := by
  have ha : ts.add n true (if sources = [] then found else elements sources) =
      some (ts.put n ⟨true, if sources = [] then found else elements sources, [], n, [], [], []⟩) := by
    simp only [Targets.add, ht, Option.isSome_none, Bool.false_or, List.isEmpty_iff]
    rw [if_neg hs]
  have hi : toolIncludes e includes
      (ts.put n ⟨true, if sources = [] then found else elements sources, [], n, [], [], []⟩) =
      some (ts.put n ⟨true, if sources = [] then found else elements sources, elements includes, n, [], [], []⟩) := by
    by_cases h : includes = []
    · subst h
      rfl
    · rw [toolIncludes, if_neg h, hp, change_put]
      rfl
  simp only [compileTool, hb, if_true, hn]
  simp only [ha, hi, change_put, log_put, Option.bind_eq_bind, Option.bind_some]
  refine ⟨_, rfl, fun m hm => put_ne _ _ hm, ?_⟩
  rw [put_self]
  simp

/-- C175: nothing is compiled when `BUILD_TOOL` is off, or `BUILD_LIBRARY`. -/
theorem C175_off (e : Env) (found : List Str) (sources includes : Str) (ts : Targets) :
    (truth e c!"BUILD_TOOL" = false → compileTool e found sources includes ts = some ts) ∧
    (truth e c!"BUILD_LIBRARY" = false → compileLibrary e found sources ts = some ts) := by
  constructor
  · intro h
    simp [compileTool, h]
  · intro h
    simp [compileLibrary, h]

/-- C175: `compile_library` makes one target, with the name of the module, and
leaves all others alone.  It has the sources given or those found, the
dependencies, and the definitions.  (Missing: the output name asked for, see
`C175_negation_output`.) -/
theorem C175_library_partial (e : Env) (found : List Str) (sources : Str) (ts : Targets) (n : Str)
    (hb : truth e c!"BUILD_LIBRARY" = true) (hn : e.get c!"MODULE_NAME" = some n) (ht : ts n = none)
    (hs : (if sources = [] then found else elements sources) ≠ []) :
    ∃ ts', compileLibrary e found sources ts = some ts' ∧ (∀ m, m ≠ n → ts' m = ts m) ∧
      ts' n = some {
        executable := false
        sources := if sources = [] then found else elements sources
        includes := []
        outputName := n
        definitions := (e.text c!"MODULE_MACRO" ++ c!"_SOURCE") ::
          if truth e c!"LOG_INFO" then [c!"FASTDDS_ENFORCE_LOG_INFO", c!"HAVE_LOG_NO_INFO=0"] else []
        links := elements (e.text c!"MODULE_DEPENDENCIES")
        installed := elements (e.text c!"LIB_INSTALL_DIR") } := by
  have ha : ts.add n false (if sources = [] then found else elements sources) =
      some (ts.put n ⟨false, if sources = [] then found else elements sources, [], n, [], [], []⟩) := by
    simp only [Targets.add, ht, Option.isSome_none, Bool.false_or, List.isEmpty_iff]
    rw [if_neg hs]
  simp only [compileLibrary, hb, if_true, hn]
  simp only [ha, change_put, log_put, Option.bind_eq_bind, Option.bind_some]
  refine ⟨_, rfl, fun m hm => put_ne _ _ hm, ?_⟩
  rw [put_self]
  simp

/-- A module with some settings. -/
def sampleModule (project : Str) : Env := ⟨fun x =>
  if x = c!"MODULE_NAME" then some c!"router"
  else if x = c!"PROJECT_NAME" then some project
  else if x = c!"MODULE_TARGET_NAME" then some c!"ddsrouter"
  else if x = c!"MODULE_MACRO" then some c!"ROUTER"
  else if x = c!"MODULE_DEPENDENCIES" then some c!"cpp_utils;fastdds"
  else if x = c!"BUILD_TOOL" ∨ x = c!"BUILD_LIBRARY" then some c!"ON"
  else none, fun _ => none⟩

/-- The hypotheses of `C175_tool_partial` and `C175_library_partial` are met. -/
example : truth (sampleModule c!"router") c!"BUILD_TOOL" = true ∧
    truth (sampleModule c!"router") c!"BUILD_LIBRARY" = true ∧
    (sampleModule c!"router").get c!"MODULE_NAME" = some c!"router" ∧
    (sampleModule c!"router").text c!"PROJECT_NAME" = c!"router" ∧
    (if ([] : Str) = [] then [c!"main.cpp"] else elements []) ≠ [] := by decide

/-- C175, negation: the include directories given to `compile_tool` go to the target
with the name of the project.  If that is not the module's, they are an error, or
another target gets them, and the tool does not. -/
theorem C175_negation_project (e : Env) (found : List Str) (sources includes : Str) (ts : Targets) (n : Str)
    (hb : truth e c!"BUILD_TOOL" = true) (hn : e.get c!"MODULE_NAME" = some n)
    (hp : e.text c!"PROJECT_NAME" ≠ n) (hi : includes ≠ []) :
    (ts (e.text c!"PROJECT_NAME") = none → compileTool e found sources includes ts = none) ∧
    ∀ t ts', ts (e.text c!"PROJECT_NAME") = some t → compileTool e found sources includes ts = some ts' →
      ts' (e.text c!"PROJECT_NAME") = some { t with includes := t.includes ++ elements includes } ∧
      ∃ t', ts' n = some t' ∧ t'.includes = [] := by
  have hadd : ts.add n true (if sources = [] then found else elements sources) = none ∨
      ts.add n true (if sources = [] then found else elements sources) =
        some (ts.put n ⟨true, if sources = [] then found else elements sources, [], n, [], [], []⟩) := by
    generalize (if sources = [] then found else elements sources) = l
    unfold Targets.add
    split
    · exact .inl rfl
    · exact .inr rfl
  constructor
  · intro h
    simp only [compileTool, toolIncludes, hb, if_true, hn, hi, if_false]
    rcases hadd with ha | ha
    · simp [ha]
    · simp [ha, Targets.change, put_ne _ _ hp, h]
  · intro t ts' h hc
    simp only [compileTool, toolIncludes, hb, if_true, hn, hi, if_false] at hc
    rcases hadd with ha | ha
    · simp [ha] at hc
    · have hsw : ∀ (T T' : Target), ((ts.put n T).put (e.text c!"PROJECT_NAME") T') =
          (ts.put (e.text c!"PROJECT_NAME") T').put n T := by
        intro T T'
        funext m
        by_cases h1 : m = n
        · subst h1
          simp [Targets.put, Ne.symm hp]
        · simp [Targets.put, h1]
      have hch : (ts.put n ⟨true, if sources = [] then found else elements sources, [], n, [], [], []⟩).change
          (e.text c!"PROJECT_NAME") (fun t => { t with includes := t.includes ++ elements includes }) =
          some ((ts.put (e.text c!"PROJECT_NAME") { t with includes := t.includes ++ elements includes }).put n
            ⟨true, if sources = [] then found else elements sources, [], n, [], [], []⟩) := by
        simp only [Targets.change, put_ne _ _ hp, h, hsw]
      simp only [ha, hch, change_put, log_put, Option.bind_eq_bind, Option.bind_some, Option.some.injEq] at hc
      subst hc
      exact ⟨by rw [put_ne _ _ hp, put_self], _, put_self _ _ _, rfl⟩

/-- The hypotheses of `C175_negation_project` are met, in both ways. -/
example : compileTool (sampleModule c!"tools") [c!"main.cpp"] [] c!"include" (fun _ => none) = none ∧
    (compileTool (sampleModule c!"tools") [c!"main.cpp"] [] c!"include"
      (fun m => if m = c!"tools" then some ⟨false, [c!"a.cpp"], [], c!"tools", [], [], []⟩ else none)).isSome = true := by
  constructor
  · exact (C175_negation_project _ _ _ _ _ c!"router" (by decide) (by decide) (by decide) (by decide)).1 rfl
  · decide

/-- C175, negation: `MODULE_TARGET_NAME`, "Output name of the target" in the README,
has no effect on a library. -/
theorem C175_negation_output : ∃ (e : Env) (ts' : Targets) (t : Target),
    compileLibrary e [c!"a.cpp"] [] (fun _ => none) = some ts' ∧ ts' c!"router" = some t ∧
      t.outputName ≠ e.text c!"MODULE_TARGET_NAME" := by
  obtain ⟨ts', h1, -, h2⟩ := C175_library_partial (sampleModule c!"router") [c!"a.cpp"] [] (fun _ => none) c!"router"
    (by decide) (by decide) rfl (by decide)
  exact ⟨_, ts', _, h1, h2, by decide⟩

/-- C175, negation: a module cannot have a library and a tool, in whatever order:
both are targets with its name. -/
theorem C175_negation_both (e : Env) (found found' : List Str) (sources sources' includes : Str) (ts : Targets)
    (hl : truth e c!"BUILD_LIBRARY" = true) (ht : truth e c!"BUILD_TOOL" = true) :
    (compileLibrary e found sources ts).bind (compileTool e found' sources' includes) = none ∧
    (compileTool e found' sources' includes ts).bind (compileLibrary e found sources) = none := by
  have add_none : ∀ (ts : Targets) (n : Str) (b : Bool) (l : List Str), (ts n).isSome = true → ts.add n b l = none := by
    intro ts n b l h
    simp [Targets.add, h]
  have change_keeps : ∀ (ts ts' : Targets) (n m : Str) (f : Target → Target), ts.change m f = some ts' →
      (ts n).isSome = true → (ts' n).isSome = true := by
    intro ts ts' n m f h hs
    unfold Targets.change at h
    split at h
    · cases h
    · cases h
      by_cases e : n = m
      · subst e; simp [Targets.put]
      · simp [Targets.put, e, hs]
  have log_keeps : ∀ (ts ts' : Targets) (n : Str), logDefinitions e n ts = some ts' →
      (ts n).isSome = true → (ts' n).isSome = true := by
    intro ts ts' n h hs
    unfold logDefinitions at h
    split at h
    · exact change_keeps _ _ _ _ _ h hs
    · cases h; exact hs
  have added : ∀ (ts ts' : Targets) (n : Str) (b : Bool) (l : List Str), ts.add n b l = some ts' →
      (ts' n).isSome = true := by
    intro ts ts' n b l h
    unfold Targets.add at h
    split at h
    · cases h
    · cases h; simp [Targets.put]
  cases hn : e.get c!"MODULE_NAME" with
  | none => simp [compileLibrary, compileTool, hl, ht, hn]
  | some n =>
    constructor
    · cases hc : compileLibrary e found sources ts with
      | none => rfl
      | some ts' =>
        have hs : (ts' n).isSome = true := by
          simp only [compileLibrary, hl, if_true, hn, Option.bind_eq_bind, Option.bind_eq_some_iff] at hc
          obtain ⟨t1, h1, t2, h2, t3, h3, t4, h4, h5⟩ := hc
          exact change_keeps _ _ _ _ _ h5 (change_keeps _ _ _ _ _ h4 (log_keeps _ _ _ h3
            (change_keeps _ _ _ _ _ h2 (added _ _ _ _ _ h1))))
        simp [compileTool, ht, hn, add_none _ _ _ _ hs]
    · cases hc : compileTool e found' sources' includes ts with
      | none => rfl
      | some ts' =>
        have hs : (ts' n).isSome = true := by
          simp only [compileTool, ht, if_true, hn, Option.bind_eq_bind, Option.bind_eq_some_iff] at hc
          obtain ⟨t1, h1, t2, h2, t3, h3, t4, h4, t5, h5, h6⟩ := hc
          have h2' : (t2 n).isSome = true := by
            unfold toolIncludes at h2
            split at h2
            · cases h2; exact added _ _ _ _ _ h1
            · exact change_keeps _ _ _ _ _ h2 (added _ _ _ _ _ h1)
          exact change_keeps _ _ _ _ _ h6 (change_keeps _ _ _ _ _ h5 (log_keeps _ _ _ h4
            (change_keeps _ _ _ _ _ h3 h2')))
        simp [compileLibrary, hl, hn, add_none _ _ _ _ hs]

example : truth (sampleModule c!"router") c!"BUILD_LIBRARY" = true ∧ truth (sampleModule c!"router") c!"BUILD_TOOL" = true := by
  decide

/-! ### C176 -/

/-- `t` is linked to `l`, or passes `l` on to what is linked to `t`. -/
def Uses (g : Graph) (t l : Str) : Prop := ∃ T, g t = some T ∧ (l ∈ T.links.getD [] ∨ l ∈ T.passedOn)

/-- A target with a file, that is, no interface library. -/
def HasFile (g : Graph) (l : Str) : Prop := ∃ L, g l = some L ∧ L.isInterface = false

/-- The links that the function follows. -/
def Followed (g : Graph) (t l : Str) : Prop := (∃ T, g t = some T ∧ l ∈ T.links.getD []) ∧ HasFile g l

theorem foldlM_spec (g : Graph) (inner : Str → Option (List Str)) (R : Str → Str → Prop)
    (hin : ∀ l p, inner l = some p → ∀ d, d ∈ p ↔ ∃ k, d = fileDir k ∧ R l k) :
    ∀ (ls path p : List Str), ls.foldlM (pathStep g inner) path = some p → ∀ d, d ∈ p ↔
      d ∈ path ∨ ∃ l ∈ ls, HasFile g l ∧ (d = fileDir l ∨ ∃ k, d = fileDir k ∧ R l k) := by
  intro ls
  induction ls with
  | nil =>
    intro path p h d
    simp only [List.foldlM_nil, Option.pure_def, Option.some.injEq] at h
    subst h
    simp
  | cons l ls ih =>
    intro path p h d
    rw [List.foldlM_cons] at h
    obtain ⟨q, hq, h⟩ := Option.bind_eq_some_iff.1 h
    rw [ih q p h d]
    have hstep : d ∈ q ↔ d ∈ path ∨ (HasFile g l ∧ (d = fileDir l ∨ ∃ k, d = fileDir k ∧ R l k)) := by
      unfold pathStep at hq
      split at hq
      · rename_i hg
        cases hq
        simp [HasFile, hg]
      · rename_i L hg
        split at hq
        · rename_i hi
          cases hq
          simp [HasFile, hg, hi]
        · rename_i hi
          split at hq
          · cases hq
          · rename_i deps hd
            cases hq
            have := hin l deps hd d
            have hf : HasFile g l := ⟨L, hg, by simpa using hi⟩
            simp only [List.mem_append, List.mem_cons, this, hf, true_and]
            constructor
            · rintro (h | h | h)
              · exact .inr (.inr h)
              · exact .inr (.inl h)
              · exact .inl h
            · rintro (h | h | h)
              · exact .inr (.inr h)
              · exact .inr (.inl h)
              · exact .inl h
    rw [hstep]
    constructor
    · rintro ((h | h) | ⟨m, hm, h⟩)
      · exact .inl h
      · exact .inr ⟨l, by simp, h⟩
      · exact .inr ⟨m, by simp [hm], h⟩
    · rintro (h' | ⟨m, hm, h'⟩)
      · exact .inl (.inl h')
      · rcases List.mem_cons.1 hm with rfl | hm
        · exact .inl (.inr h')
        · exact .inr ⟨m, hm, h'⟩

theorem extraPaths_spec (g : Graph) (n : Nat) (t : Str) (p : List Str) (h : extraPaths g n t = some p) (d : Str) :
    d ∈ p ↔ ∃ l, d = fileDir l ∧ Relation.TransGen (Followed g) t l := by
  induction n generalizing t p d with
  | zero => cases h
  | succ n ih =>
    unfold extraPaths at h
    split at h
    · cases h
    · rename_i T hT
      rw [foldlM_spec g _ (fun l k => Relation.TransGen (Followed g) l k) (fun l q hq d => ih l q hq d) _ _ _ h d]
      simp only [List.not_mem_nil, false_or]
      constructor
      · rintro ⟨l, hl, hf, h | ⟨k, rfl, hk⟩⟩
        · exact ⟨l, h, .single ⟨⟨T, hT, hl⟩, hf⟩⟩
        · exact ⟨k, rfl, .head ⟨⟨T, hT, hl⟩, hf⟩ hk⟩
      · rintro ⟨l, rfl, h⟩
        rcases Relation.TransGen.head'_iff.1 h with ⟨m, ⟨⟨T', hT', hm⟩, hf⟩, hr⟩
        rw [hT] at hT'
        cases hT'
        refine ⟨m, hm, hf, ?_⟩
        rcases Relation.reflTransGen_iff_eq_or_transGen.1 hr with e | h
        · exact .inl (by rw [e])
        · exact .inr ⟨l, rfl, h⟩

theorem foldlM_total (g : Graph) (inner : Str → Option (List Str)) : ∀ (ls path : List Str),
    (∀ l ∈ ls, HasFile g l → (inner l).isSome = true) → (ls.foldlM (pathStep g inner) path).isSome = true := by
  intro ls
  induction ls with
  | nil => intro path _; rfl
  | cons l ls ih =>
    intro path h
    rw [List.foldlM_cons]
    have : ∃ q, pathStep g inner path l = some q := by
      unfold pathStep
      split
      · exact ⟨_, rfl⟩
      · rename_i L hg
        split
        · exact ⟨_, rfl⟩
        · rename_i hi
          have := h l (by simp) ⟨L, hg, by simpa using hi⟩
          obtain ⟨q, hq⟩ := Option.isSome_iff_exists.1 this
          rw [hq]
          exact ⟨_, rfl⟩
    obtain ⟨q, hq⟩ := this
    rw [hq]
    exact ih q fun m hm => h m (by simp [hm])

theorem extraPaths_total (g : Graph) (rank : Str → Nat) (hr : ∀ t l, Followed g t l → rank l < rank t) (n : Nat) (t : Str)
    (hn : rank t < n) (ht : (g t).isSome = true) : (extraPaths g n t).isSome = true := by
  induction n generalizing t with
  | zero => omega
  | succ n ih =>
    unfold extraPaths
    obtain ⟨T, hT⟩ := Option.isSome_iff_exists.1 ht
    rw [hT]
    refine foldlM_total g _ _ _ fun l hl hf => ?_
    have := hr t l ⟨⟨T, hT, hl⟩, hf⟩
    obtain ⟨L, hL, -⟩ := hf
    exact ih l (by omega) (by rw [hL]; rfl)

theorem dedup_mem {d : Str} {xs : List Str} : d ∈ withoutDuplicates xs ↔ d ∈ xs := by
  induction xs with
  | nil => simp [withoutDuplicates]
  | cons x xs ih =>
    simp only [withoutDuplicates, List.mem_cons, List.mem_filter, ih, decide_not, Bool.not_eq_true', decide_eq_false_iff_not]
    by_cases h : d = x <;> simp [h]

theorem dedup_nodup (xs : List Str) : (withoutDuplicates xs).Nodup := by
  induction xs with
  | nil => simp [withoutDuplicates]
  | cons x xs ih =>
    rw [withoutDuplicates, List.nodup_cons]
    exact ⟨by simp, ih.filter _⟩

theorem dedup_append (xs ys : List Str) : ∃ a b, withoutDuplicates (xs ++ ys) = a ++ b ∧ (∀ d, d ∈ a ↔ d ∈ xs) ∧ b.Sublist ys := by
  induction xs with
  | nil =>
    refine ⟨[], withoutDuplicates ys, rfl, by simp, ?_⟩
    induction ys with
    | nil => exact .slnil
    | cons y ys ih => exact ((List.filter_sublist).trans ih).cons_cons y
  | cons x xs ih =>
    obtain ⟨a, b, h1, h2, h3⟩ := ih
    refine ⟨x :: a.filter (fun z => z ≠ x), b.filter (fun z => z ≠ x), ?_, ?_, List.filter_sublist.trans h3⟩
    · simp [withoutDuplicates, h1]
    · intro d
      simp only [List.mem_cons, List.mem_filter, h2, decide_not, Bool.not_eq_true', decide_eq_false_iff_not]
      by_cases h : d = x <;> simp [h]

/-- C176: on Windows, when there is no interface library, no library passes on what
it is not linked to itself, as imported ones do, and no cycle or chain that is too
long, the entries of a listed test have in their `PATH` the directories of all
libraries that the test is linked to, directly or through others, before what was in
the `PATH`, which stays; nothing is there twice.  (Missing: see the negations.) -/
theorem C176_path_partial (g : Graph) (depth : Nat) (env : List Str) (goal suite testList : Str) (rank : Str → Nat)
    (hg : (g goal).isSome = true) (hi : ∀ l L, g l = some L → L.isInterface = false)
    (hp : ∀ l L, g l = some L → ∀ k ∈ L.passedOn, k ∈ L.links.getD [])
    (hr : ∀ t l, Uses g t l → rank l < rank t) (hd : rank goal < depth) (hl : isOff testList = false) :
    ∃ entries, testEntryPaths g depth env goal suite testList = some entries ∧
      entries.map (·.1) = testEntries suite testList ∧
      ∀ x ∈ entries, x.2.Nodup ∧ ∃ libs rest : List Str, x.2 = libs ++ rest ∧ rest.Sublist env ∧
        (∀ d ∈ env, d ∈ x.2) ∧
        (∀ l, HasFile g l → Relation.TransGen (Uses g) goal l → c!"$<TARGET_FILE_DIR:" ++ l ++ c!">" ∈ libs) ∧
        ∀ d ∈ libs, d = [] ∨ ∃ l, d = c!"$<TARGET_FILE_DIR:" ++ l ++ c!">" ∧ Relation.TransGen (Uses g) goal l := by
  have hfu : ∀ t l, Followed g t l → Uses g t l := fun t l ⟨⟨T, hT, h⟩, _⟩ => ⟨T, hT, .inl h⟩
  have huf : ∀ t l, Uses g t l → HasFile g l → Followed g t l := by
    rintro t l ⟨T, hT, h⟩ hf
    exact ⟨⟨T, hT, h.elim id (hp t T hT l)⟩, hf⟩
  obtain ⟨p, hpath⟩ := Option.isSome_iff_exists.1
    (extraPaths_total g rank (fun t l h => hr t l (hfu t l h)) depth goal hd hg)
  have hspec := extraPaths_spec g depth goal p hpath
  refine ⟨_, by rw [testEntryPaths, testPath, hpath]; rfl, ?_, ?_⟩
  · rw [List.map_map]
    exact List.map_id _
  · intro x hx
    obtain ⟨t, ht, rfl⟩ := List.mem_map.1 hx
    have hf : t.filter.isSome = true := by
      simp only [testEntries, hl, Bool.false_eq_true, if_false, List.mem_map] at ht
      obtain ⟨c, -, rfl⟩ := ht
      rfl
    simp only [hf, if_true]
    refine ⟨dedup_nodup _, ?_⟩
    obtain ⟨a, b, h1, h2, h3⟩ := dedup_append (if p = [] then [[]] else p) env
    refine ⟨a, b, h1, h3, fun d hd => dedup_mem.2 (by simp [hd]), ?_, ?_⟩
    · intro l hlf hu
      have : Relation.TransGen (Followed g) goal l := by
        revert hlf
        induction hu with
        | single h => intro hlf; exact .single (huf _ _ h hlf)
        | tail h1 h2 ih =>
          intro hlf
          obtain ⟨T, hT, -⟩ := id h2
          exact .tail (ih ⟨T, hT, hi _ T hT⟩) (huf _ _ h2 hlf)
      have hm := (hspec (fileDir l)).2 ⟨l, rfl, this⟩
      rw [h2, if_neg (by rintro rfl; cases hm)]
      exact hm
    · intro d hd
      rw [h2] at hd
      split at hd
      · exact .inl (by simpa using hd)
      · obtain ⟨l, rfl, h⟩ := (hspec d).1 hd
        exact .inr ⟨l, rfl, Relation.TransGen.lift id hfu _ _ h⟩

/-- A graph from a list. -/
def graphOf (l : List (Str × Linked)) : Graph := fun x => (l.find? (fun y => y.1 = x)).map (·.2)

/-- A test linked to a library that is linked to another one. -/
def sampleGraph : Graph :=
  graphOf [(c!"t", ⟨false, some [c!"a", c!"-lm"], []⟩), (c!"a", ⟨false, some [c!"b"], [c!"b"]⟩), (c!"b", ⟨false, none, []⟩)]

theorem sampleGraph_cases {l : Str} {L : Linked} (h : sampleGraph l = some L) :
    l = c!"t" ∧ L = ⟨false, some [c!"a", c!"-lm"], []⟩ ∨ l = c!"a" ∧ L = ⟨false, some [c!"b"], [c!"b"]⟩ ∨
      l = c!"b" ∧ L = ⟨false, none, []⟩ := by
  simp only [sampleGraph, graphOf, List.find?] at h
  by_cases h1 : l = c!"t"
  · subst h1; simp at h; simp [h]
  by_cases h2 : l = c!"a"
  · subst h2; simp at h; simp [h]
  by_cases h3 : l = c!"b"
  · subst h3; simp at h; simp [h]
  simp [Ne.symm h1, Ne.symm h2, Ne.symm h3] at h

/-- The hypotheses of `C176_path_partial` are met. -/
example : ∃ entries, testEntryPaths sampleGraph 1000 [c!"C:/bin"] c!"t" c!"T" c!"x" = some entries ∧
    entries.map (·.1) = testEntries c!"T" c!"x" := by
  obtain ⟨en, h1, h2, -⟩ := C176_path_partial sampleGraph 1000 [c!"C:/bin"] c!"t" c!"T" c!"x"
    (fun l => if l = c!"t" then 2 else if l = c!"a" then 1 else 0) rfl
    (fun l L h => by rcases sampleGraph_cases h with ⟨-, rfl⟩ | ⟨-, rfl⟩ | ⟨-, rfl⟩ <;> rfl)
    (fun l L h => by rcases sampleGraph_cases h with ⟨-, rfl⟩ | ⟨-, rfl⟩ | ⟨-, rfl⟩ <;> simp)
    (fun t l ⟨T, hT, h⟩ => by
      rcases sampleGraph_cases hT with ⟨rfl, rfl⟩ | ⟨rfl, rfl⟩ | ⟨rfl, rfl⟩
      · simp at h
        rcases h with rfl | rfl <;> decide
      · simp at h
        subst h
        decide
      · simp at h) (by decide) (by decide)
  exact ⟨en, h1, h2⟩

example : testEntryPaths sampleGraph 1000 [c!"C:/bin"] c!"t" c!"T" c!"x" =
    some [(⟨c!"T.x", some (entryFilter c!"T" c!"x")⟩, [fileDir c!"b", fileDir c!"a", c!"C:/bin"])] := by
  rfl

/-- C176, exactly: a directory is in the `PATH` if the links that are followed, those of `LINK_LIBRARIES` between targets with files, lead
to its library, or if it was there before. -/
theorem C176_exact (g : Graph) (depth : Nat) (env : List Str) (goal : Str) (path : List Str)
    (h : testPath g depth env goal = some path) (l : Str) :
    c!"$<TARGET_FILE_DIR:" ++ l ++ c!">" ∈ path ↔
      Relation.TransGen (Followed g) goal l ∨ c!"$<TARGET_FILE_DIR:" ++ l ++ c!">" ∈ env := by
  obtain ⟨p, hp, rfl⟩ := Option.map_eq_some_iff.1 h
  rw [dedup_mem, List.mem_append]
  refine or_congr_left ?_
  have hs := extraPaths_spec g depth goal p hp (fileDir l)
  have hne : fileDir l ≠ [] := by simp [fileDir]
  have hinj : ∀ k, fileDir l = fileDir k → l = k := by
    intro k hk
    simpa [fileDir] using hk
  change fileDir l ∈ (if p = [] then [[]] else p) ↔ _
  constructor
  · intro hm
    split at hm
    · exact absurd (by simpa using hm) hne
    · obtain ⟨k, hk, hkr⟩ := hs.1 hm
      rw [hinj k hk]
      exact hkr
  · intro hr
    have hm := hs.2 ⟨l, rfl, hr⟩
    rw [if_neg (by rintro rfl; cases hm)]
    exact hm

theorem foldlM_inner (g : Graph) (inner : Str → Option (List Str)) : ∀ (ls path p : List Str),
    ls.foldlM (pathStep g inner) path = some p → ∀ l ∈ ls, HasFile g l → ∃ q, inner l = some q := by
  intro ls
  induction ls with
  | nil => intro _ _ _ l hl; cases hl
  | cons x ls ih =>
    intro path p h l hl hf
    rw [List.foldlM_cons] at h
    obtain ⟨q, hq, h⟩ := Option.bind_eq_some_iff.1 h
    rcases List.mem_cons.1 hl with rfl | hl
    · obtain ⟨L, hL, hi⟩ := hf
      unfold pathStep at hq
      rw [hL] at hq
      simp only [hi, Bool.false_eq_true, if_false] at hq
      split at hq
      · cases hq
      · rename_i deps hd; exact ⟨deps, hd⟩
    · exact ih q p h l hl hf

theorem extraPaths_more (g : Graph) {n : Nat} {t : Str} {p : List Str} (h : extraPaths g n t = some p) (m : Nat) (hm : n ≤ m) :
    ∃ q, extraPaths g m t = some q := by
  induction n generalizing t p m with
  | zero => cases h
  | succ n ih =>
    cases m with
    | zero => omega
    | succ m =>
      unfold extraPaths at h ⊢
      split at h
      · cases h
      · rename_i T hT
        refine Option.isSome_iff_exists.1 (foldlM_total g _ _ _ fun l hl hf => ?_)
        obtain ⟨q, hq⟩ := foldlM_inner g _ _ _ _ h l hl hf
        exact Option.isSome_iff_exists.2 (ih hq m (by omega))

/-- C176: for some limit of nested calls the `PATH` of a target is found, exactly if no chain of links that are followed goes on for
ever. -/
theorem C176_ends_iff (g : Graph) (env : List Str) (goal : Str) (hg : (g goal).isSome = true) :
    (∃ depth path, testPath g depth env goal = some path) ↔ Acc (fun l t => Followed g t l) goal := by
  have key : ∀ t, (g t).isSome = true → ((∃ n p, extraPaths g n t = some p) ↔ Acc (fun l t => Followed g t l) t) := by
    intro t ht
    constructor
    · rintro ⟨n, p, h⟩
      clear ht
      induction n generalizing t p with
      | zero => cases h
      | succ n ih =>
        refine Acc.intro t ?_
        rintro l ⟨⟨T, hT, hl⟩, hf⟩
        unfold extraPaths at h
        rw [hT] at h
        obtain ⟨q, hq⟩ := foldlM_inner g _ _ _ _ h l hl hf
        exact ih l q hq
    · intro h
      induction h with
      | intro t _ ih =>
        obtain ⟨T, hT⟩ := Option.isSome_iff_exists.1 ht
        have each : ∀ l ∈ T.links.getD [], HasFile g l → ∃ n q, extraPaths g n l = some q := fun l hl hf =>
          ih l ⟨⟨T, hT, hl⟩, hf⟩ (by obtain ⟨L, hL, -⟩ := hf; rw [hL]; rfl)
        have all : ∀ ls : List Str, (∀ l ∈ ls, l ∈ T.links.getD []) →
            ∃ N, ∀ l ∈ ls, HasFile g l → ∃ q, extraPaths g N l = some q := by
          intro ls
          induction ls with
          | nil => exact fun _ => ⟨0, by simp⟩
          | cons x ls ih' =>
            intro hsub
            obtain ⟨N, hN⟩ := ih' fun l hl => hsub l (by simp [hl])
            by_cases hf : HasFile g x
            · obtain ⟨n, q, hn⟩ := each x (hsub x (by simp)) hf
              refine ⟨max n N, fun l hl hfl => ?_⟩
              rcases List.mem_cons.1 hl with rfl | hl
              · exact extraPaths_more g hn _ (Nat.le_max_left _ _)
              · obtain ⟨q', h'⟩ := hN l hl hfl
                exact extraPaths_more g h' _ (Nat.le_max_right _ _)
            · refine ⟨N, fun l hl hfl => ?_⟩
              rcases List.mem_cons.1 hl with rfl | hl
              · exact absurd hfl hf
              · exact hN l hl hfl
        obtain ⟨N, hN⟩ := all _ fun _ h => h
        obtain ⟨p, hp⟩ := Option.isSome_iff_exists.1
          (foldlM_total g (extraPaths g N) (T.links.getD []) [] fun l hl hf => Option.isSome_iff_exists.2 (hN l hl hf))
        exact ⟨N + 1, p, by unfold extraPaths; rw [hT]; exact hp⟩
  rw [← key goal hg]
  constructor
  · rintro ⟨n, path, h⟩
    obtain ⟨p, hp, -⟩ := Option.map_eq_some_iff.1 h
    exact ⟨n, p, hp⟩
  · rintro ⟨n, p, h⟩
    exact ⟨n, _, by unfold testPath; rw [h]; rfl⟩

/-- C176, negation: what is behind an interface library, or behind a library whose `LINK_LIBRARIES` are not set, as imported ones of
packages, is used and not found, for every target that is linked to nothing else. -/
theorem C176_negation_through (g : Graph) (env : List Str) (t i l : Str) (T I : Linked) (hT : g t = some T)
    (hlinks : T.links = some [i]) (hI : g i = some I) (hthrough : I.isInterface = true ∨ I.links = none) (hpass : l ∈ I.passedOn)
    (hl : HasFile g l) (hli : l ≠ i) (henv : c!"$<TARGET_FILE_DIR:" ++ l ++ c!">" ∉ env) :
    Relation.TransGen (Uses g) t l ∧ (∃ path, testPath g 2 env t = some path) ∧
      ∀ depth path, testPath g depth env t = some path → c!"$<TARGET_FILE_DIR:" ++ l ++ c!">" ∉ path := by
  refine ⟨.tail (.single ⟨T, hT, .inl (by simp [hlinks])⟩) ⟨I, hI, .inr hpass⟩, ?_, ?_⟩
  · cases hii : I.isInterface with
    | true => exact ⟨_, by simp [testPath, extraPaths, hT, hlinks, pathStep, hI, hii]; rfl⟩
    | false =>
      have hn : I.links = none := by rcases hthrough with h | h; · rw [hii] at h; cases h
                                     · exact h
      exact ⟨_, by simp [testPath, extraPaths, hT, hlinks, pathStep, hI, hii, hn]; rfl⟩
  · intro depth path h
    rw [C176_exact g depth env t path h l]
    rintro (h | h)
    · obtain ⟨c, ⟨⟨T', hT', hc⟩, L, hL, hLi⟩, hr⟩ := Relation.TransGen.head'_iff.1 h
      rw [hT] at hT'; cases hT'
      rw [hlinks] at hc
      rcases List.mem_singleton.1 hc with rfl
      rw [hI] at hL; cases hL
      rcases Relation.reflTransGen_iff_eq_or_transGen.1 hr with h | h
      · exact hli h
      · obtain ⟨d, ⟨⟨T', hT', hd⟩, -⟩, -⟩ := Relation.TransGen.head'_iff.1 h
        rw [hI] at hT'; cases hT'
        rcases hthrough with h | h
        · rw [hLi] at h; cases h
        · rw [h] at hd; cases hd
    · exact henv h

example : (let g := graphOf [(c!"t", ⟨false, some [c!"i"], []⟩), (c!"i", ⟨true, none, [c!"b"]⟩), (c!"b", ⟨false, none, []⟩)]
     testPath g 1000 [c!"C:/bin"] c!"t" = some [[], c!"C:/bin"]) ∧
    let g := graphOf [(c!"t", ⟨false, some [c!"fastdds"], []⟩), (c!"fastdds", ⟨false, none, [c!"fastcdr"]⟩),
      (c!"fastcdr", ⟨false, none, []⟩)]
    testPath g 1000 [c!"C:/bin"] c!"t" = some [fileDir c!"fastdds", c!"C:/bin"] := ⟨rfl, rfl⟩

/-- C176, negation: static libraries may use each other, which CMake allows; for every target from which links lead to such a circle
the function calls itself until that is an error, whatever the limit. -/
theorem C176_negation_cycle (g : Graph) (depth : Nat) (env : List Str) (goal a : Str)
    (ha : goal = a ∨ Relation.TransGen (Followed g) goal a) (hc : Relation.TransGen (Followed g) a a) :
    testPath g depth env goal = none := by
  cases h : testPath g depth env goal with
  | none => rfl
  | some path =>
    exfalso
    have hg : (g goal).isSome = true := by
      have : ∃ c, Followed g goal c := by
        rcases ha with rfl | ha
        · obtain ⟨c, h, -⟩ := Relation.TransGen.head'_iff.1 hc; exact ⟨c, h⟩
        · obtain ⟨c, h, -⟩ := Relation.TransGen.head'_iff.1 ha; exact ⟨c, h⟩
      obtain ⟨c, ⟨T, hT, -⟩, -⟩ := this
      rw [hT]; rfl
    have hacc := ((C176_ends_iff g env goal hg).1 ⟨depth, path, h⟩).transGen
    have hacc' : Acc (fun y x => Relation.TransGen (Followed g) x y) goal :=
      Subrelation.accessible (fun {y x} hxy => Relation.transGen_swap.2 hxy) hacc
    have haa : Acc (fun y x => Relation.TransGen (Followed g) x y) a := by
      rcases ha with rfl | ha
      · exact hacc'
      · exact hacc'.inv ha
    clear ha
    induction haa with
    | intro a _ ih => exact ih a hc hc

example : (let g := graphOf [(c!"t", ⟨false, some [c!"a"], []⟩), (c!"a", ⟨false, some [c!"b"], [c!"b"]⟩),
      (c!"b", ⟨false, some [c!"a"], [c!"a"]⟩)]
    Relation.TransGen (Followed g) c!"t" c!"a" ∧ Relation.TransGen (Followed g) c!"a" c!"a") :=
  ⟨.single ⟨⟨_, rfl, by simp⟩, _, rfl, rfl⟩,
    .tail (b := c!"b") (.single ⟨⟨_, rfl, by simp⟩, _, rfl, rfl⟩) ⟨⟨_, rfl, by simp⟩, _, rfl, rfl⟩⟩

/-- C176, negation: the entry of an executable without a list of tests gets no
directory at all. -/
theorem C176_negation_unlisted (g : Graph) (depth : Nat) (env : List Str) (goal suite : Str) (entries : List (TestEntry × List Str))
    (h : testEntryPaths g depth env goal suite [] = some entries) : entries = [(⟨suite, none⟩, env)] := by
  obtain ⟨p, -, h⟩ := Option.map_eq_some_iff.1 h
  rw [← h]
  rfl

example : testEntryPaths (graphOf [(c!"t", ⟨false, some [c!"a"], []⟩), (c!"a", ⟨false, none, []⟩)]) 1000 [c!"C:/bin"] c!"t" c!"T" [] =
    some [(⟨c!"T", none⟩, [c!"C:/bin"])] := by rfl

/-! ### C177 -/

theorem also_mem (f : Finder) (offers : Str → Option (List Str)) (x t : Str) :
    t ∈ (f.also offers x).targets ↔ t ∈ f.targets ∨ x ∉ f.packages ∧ ∃ ts, offers x = some ts ∧ t ∈ ts := by
  unfold Finder.also
  split
  · rename_i h; simp [h]
  · rename_i h
    cases ho : offers x with
    | none => simp
    | some ts => simp [h, or_comm]

theorem also_packages (f : Finder) (offers : Str → Option (List Str)) {x y : Str} (h : y ≠ x) :
    y ∈ (f.also offers x).packages ↔ y ∈ f.packages := by
  unfold Finder.also
  split
  · rfl
  · cases ho : offers x with
    | none => rfl
    | some ts => simp [h]

/-- A package is there, or `find_package` finds it, and the target is one of its. -/
def Offered (offers : Str → Option (List Str)) (f : Finder) (x t : Str) : Prop :=
  x ∉ f.packages ∧ ∃ ts, offers x = some ts ∧ t ∈ ts

/-- C177: a library of a project with the name of the module, with the directories
that `configure_project` sets, is found by `find_package` with that name exactly
when every dependency is a target already, or one of Fast DDS and Fast CDR, wherever
it is installed; then its target is there, and no target is lost.  (Missing: other
dependencies, and a project with another name; see the negations.) -/
theorem C177_found_partial (e : Env) (needed : List Str) (offers : Str → Option (List Str)) (f : Finder)
    (hp : e.text c!"PROJECT_NAME" = e.text c!"MODULE_NAME")
    (hd : e.text c!"LIB_INSTALL_DIR" = e.text c!"MODULE_LIB_INSTALL_DIR")
    (hf : e.text c!"MODULE_NAME" ∉ f.packages) (hn : e.text c!"MODULE_NAME" ≠ c!"fastcdr")
    (hn' : e.text c!"MODULE_NAME" ≠ c!"fastdds") :
    ∃ f', findLibrary e needed offers f = some f' ∧ (∀ t ∈ f.targets, t ∈ f'.targets) ∧
      (e.text c!"MODULE_NAME" ∈ f'.packages ↔ ∀ t ∈ needed, t ∈ f.targets ∨
        Offered offers f c!"fastcdr" t ∨ Offered offers f c!"fastdds" t) ∧
      (e.text c!"MODULE_NAME" ∈ f'.packages → e.text c!"MODULE_NAME" ∈ f'.targets) := by
  have hi : includedFile e = targetsFile e := by
    simp [includedFile, targetsFile, configDir, hp, hd]
  generalize hg : (f.also offers c!"fastcdr").also offers c!"fastdds" = g
  have hm : ∀ t, t ∈ g.targets ↔ t ∈ f.targets ∨ Offered offers f c!"fastcdr" t ∨ Offered offers f c!"fastdds" t := by
    intro t
    rw [← hg, also_mem, also_mem, also_packages _ _ (by decide)]
    simp only [Offered, or_assoc]
  have hq : e.text c!"MODULE_NAME" ∉ g.packages := by
    rw [← hg, also_packages _ _ hn', also_packages _ _ hn]
    exact hf
  simp only [findLibrary, hi, if_true, hg]
  by_cases h : ∀ t ∈ needed, t ∈ g.targets
  · rw [if_pos (by simpa using h)]
    refine ⟨_, rfl, fun t ht => List.mem_cons_of_mem _ ((hm t).2 (.inl ht)), ?_, fun _ => List.mem_cons_self⟩
    exact ⟨fun _ t ht => (hm t).1 (h t ht), fun _ => List.mem_cons_self⟩
  · rw [if_neg (by simpa using h)]
    refine ⟨_, rfl, fun t ht => (hm t).2 (.inl ht), ?_, fun h' => absurd h' hq⟩
    exact ⟨fun h' => absurd h' hq, fun h' => absurd (fun t ht => (hm t).2 (h' t ht)) h⟩

/-- A project that is installed. -/
def sampleInstalled (project : Str) : Env := ⟨fun x =>
  if x = c!"MODULE_NAME" then some c!"ddspipe_core"
  else if x = c!"PROJECT_NAME" then some project
  else if x = c!"LIB_INSTALL_DIR" ∨ x = c!"MODULE_LIB_INSTALL_DIR" then some c!"lib/"
  else none, fun _ => none⟩

/-- The hypotheses of `C177_found_partial` are met; a library that needs Fast DDS
is found with no other package. -/
example : (sampleInstalled c!"ddspipe_core").text c!"PROJECT_NAME" = (sampleInstalled c!"ddspipe_core").text c!"MODULE_NAME" ∧
    (sampleInstalled c!"ddspipe_core").text c!"LIB_INSTALL_DIR" =
      (sampleInstalled c!"ddspipe_core").text c!"MODULE_LIB_INSTALL_DIR" ∧
    findLibrary (sampleInstalled c!"ddspipe_core") [c!"fastdds"]
      (fun x => if x = c!"fastdds" then some [c!"fastdds"] else none) ⟨[], []⟩ =
      some ⟨[c!"ddspipe_core", c!"fastdds"], [c!"ddspipe_core", c!"fastdds"]⟩ := by decide

/-- C177, negation: if the project has another name than the module, the package
cannot be found at all: it includes a file that is not installed. -/
theorem C177_negation_project (e : Env) (needed : List Str) (offers : Str → Option (List Str)) (f : Finder)
    (hp : e.text c!"PROJECT_NAME" ≠ e.text c!"MODULE_NAME") : findLibrary e needed offers f = none := by
  have : includedFile e ≠ targetsFile e := by
    intro h
    have := congrArg List.getLast? h
    simp only [includedFile, targetsFile, List.getLast?_append, List.getLast?_cons_cons, List.getLast?_singleton,
      Option.some_or, Option.some.injEq, List.append_cancel_right_eq] at this
    exact hp this
  simp [findLibrary, this]

example : (sampleInstalled c!"pipe").text c!"PROJECT_NAME" ≠ (sampleInstalled c!"pipe").text c!"MODULE_NAME" := by decide

/-- C177, negation: a dependency, even one given in `MODULE_FIND_PACKAGES` and
installed, is not looked for: `ddspipe_core`, which needs `cpp_utils`, is not found,
unless the user finds `cpp_utils` before. -/
theorem C177_negation_dependency :
    let offers : Str → Option (List Str) := fun x =>
      if x = c!"fastdds" ∨ x = c!"fastcdr" ∨ x = c!"cpp_utils" then some [x] else none
    let e := sampleInstalled c!"ddspipe_core"
    findLibrary e [c!"cpp_utils", c!"fastdds"] offers ⟨[], []⟩ =
      some ⟨[c!"fastdds", c!"fastcdr"], [c!"fastdds", c!"fastcdr"]⟩ ∧
    findLibrary e [c!"cpp_utils", c!"fastdds"] offers ⟨[c!"cpp_utils"], [c!"cpp_utils"]⟩ =
      some ⟨[c!"ddspipe_core", c!"fastdds", c!"fastcdr", c!"cpp_utils"],
        [c!"ddspipe_core", c!"fastdds", c!"fastcdr", c!"cpp_utils"]⟩ := by decide

end Verif.CMake
