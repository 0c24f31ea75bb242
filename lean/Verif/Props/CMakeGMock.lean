import Verif.Model.CMakeGMock
import Verif.Props.CMakeCpp

/-!
C198: tests are linked with the GoogleTest and GoogleMock of their configuration.
-/
namespace Verif.CMake

/-! ### what the macros change -/

/-- A value with which the `find_…` commands look again. -/
def NotFound (v : Str) : Prop := v = c!"NOTFOUND" ∨ (c!"-NOTFOUND").isSuffixOf v = true

theorem finds_ne (e : Env) {x y : Str} (r : Option Str) (h : y ≠ x) : (e.finds x r).get y = e.get y := by
  unfold Env.finds
  split
  · split
    · exact get_force_ne _ _ h
    · rfl
  · exact get_force_ne _ _ h

theorem finds_kept (e : Env) {x v : Str} (r : Option Str) (h : e.get x = some v) (hv : ¬ NotFound v) : e.finds x r = e := by
  unfold Env.finds
  rw [h]
  exact if_neg hv

theorem finds_new (e : Env) {x : Str} (r : Option Str) (h : ∀ v, e.get x = some v → NotFound v) :
    (e.finds x r).get x = some (r.getD (x ++ c!"-NOTFOUND")) := by
  unfold Env.finds
  split
  · rename_i v hv
    split
    · exact get_force_self _ _ _
    · exact absurd (h v hv) (by assumption)
  · exact get_force_self _ _ _

theorem on_found {v : Str} (h : isOff v = false) : ¬ NotFound v := by
  intro hn
  unfold isOff at h
  simp only [Bool.or_eq_false_iff, decide_eq_false_iff_not] at h
  rcases hn with rfl | hn
  · exact absurd rfl h.1.2
  · rw [hn] at h; cases h.2

/-- The variables that `searchGMock` writes. -/
def searched : List Str :=
  [c!"GMOCK_MSVC_SEARCH", c!"GMOCK_INCLUDE_DIR", c!"GMOCK_LIBRARY", c!"GMOCK_LIBRARY_DEBUG", c!"GMOCK_MAIN_LIBRARY",
    c!"GMOCK_MAIN_LIBRARY_DEBUG"]

theorem library_ne (m : Machine) (e : Env) {x y : Str} (md plain : Str) (h : y ≠ x) : (findGMockLibrary m x md plain e).get y = e.get y :=
  finds_ne e _ h

theorem header_ne (m : Machine) (e : Env) {y : Str} (h1 : y ≠ c!"GMOCK_MSVC_SEARCH") (h2 : y ≠ c!"GMOCK_INCLUDE_DIR") :
    (findHeader m e).get y = e.get y := by
  unfold findHeader
  simp only []
  rw [finds_ne _ _ h2, get_orSet_ne _ _ h1]

theorem search_ne (m : Machine) (e : Env) {y : Str} (h : y ∉ searched) : (searchGMock m e).get y = e.get y := by
  simp only [searched, List.mem_cons, List.not_mem_nil, or_false, not_or] at h
  obtain ⟨h1, h2, h3, h4, h5, h6⟩ := h
  unfold searchGMock
  simp only []
  rw [library_ne _ _ _ _ h6, library_ne _ _ _ _ h5, library_ne _ _ _ _ h4, library_ne _ _ _ _ h3, header_ne _ _ h1 h2]

theorem root_ne (m : Machine) (e : Env) {y : Str} (h : y ∉ [c!"EPROSIMA_GMOCK", c!"GMOCK_ROOT_", c!"GMOCK_ROOT"]) :
    (gmockRoot m e).get y = e.get y := by
  simp only [List.mem_cons, List.not_mem_nil, or_false, not_or] at h
  obtain ⟨h1, h2, h3⟩ := h
  have ho : (gmockOption e).get y = e.get y := by
    unfold gmockOption
    simp only []
    split
    · rw [get_set_ne _ _ h1, get_setCache_ne _ _ h1]
    · exact get_setCache_ne _ _ h1
  unfold gmockRoot
  split
  · rw [← ho]
    unfold gmockArch
    simp only []
    split
    · split
      · exact get_set_ne _ _ h3
      · split
        · rw [get_set_ne _ _ h3, get_set_ne _ _ h2]
        · exact get_set_ne _ _ h2
    · rfl
  · rfl

theorem text_eq {e e' : Env} {x : Str} (h : e'.get x = e.get x) : e'.text x = e.text x := by
  unfold Env.text; rw [h]

/-- The three results without which GoogleMock is not found. -/
def Complete (e : Env) : Prop :=
  truth e c!"GMOCK_LIBRARY" = true ∧ truth e c!"GMOCK_INCLUDE_DIR" = true ∧ truth e c!"GMOCK_MAIN_LIBRARY" = true

instance (e : Env) : Decidable (Complete e) := by unfold Complete; infer_instance

/-- The variables that are made of the results. -/
def results : List Str :=
  [c!"GMOCK_FOUND", c!"GMOCK_INCLUDE_DIRS", c!"GMOCK_LIBRARIES", c!"GMOCK_MAIN_LIBRARIES", c!"GMOCK_BOTH_LIBRARIES"]

theorem found_ne (e : Env) {y : Str} (h : y ∉ results.tail) : (foundGMock e).get y = e.get y := by
  simp only [results, List.tail_cons, List.mem_cons, List.not_mem_nil, or_false, not_or] at h
  obtain ⟨h2, h3, h4, h5⟩ := h
  unfold foundGMock
  simp only []
  rw [get_set_ne _ _ h5, get_set_ne _ _ h4, get_set_ne _ _ h3, get_set_ne _ _ h2]

theorem use_eq (e : Env) : useGMock e = if Complete e then foundGMock (e.put c!"GMOCK_FOUND" (some c!"TRUE"))
    else e.put c!"GMOCK_FOUND" (some c!"FALSE") := by
  unfold useGMock
  by_cases hc : Complete e
  · rw [if_pos hc, hc.1, hc.2.1, hc.2.2]; rfl
  · rw [if_neg hc, if_neg]
    rw [Bool.and_eq_true, Bool.and_eq_true]
    rintro ⟨⟨h1, h2⟩, h3⟩
    exact hc ⟨h1, h2, h3⟩

theorem use_ne (e : Env) {y : Str} (h : y ∉ results) : (useGMock e).get y = e.get y := by
  have h' : y ∉ results.tail := fun hm => h (List.mem_of_mem_tail hm)
  have h1 : y ≠ c!"GMOCK_FOUND" := by rintro rfl; exact h (by decide)
  rw [use_eq]
  split
  · rw [found_ne _ h', get_put_ne _ _ h1]
  · exact get_put_ne _ _ h1

theorem use_found (e : Env) : truth (useGMock e) c!"GMOCK_FOUND" = decide (Complete e) := by
  have : (useGMock e).get c!"GMOCK_FOUND" = some (if Complete e then c!"TRUE" else c!"FALSE") := by
    rw [use_eq]
    split
    · rw [found_ne _ (by decide), get_put_self]
    · exact get_put_self _ _ _
  rw [truth_name _ (by decide), this]
  by_cases hc : Complete e
  · simp only [hc, if_true]; decide
  · simp only [hc, if_false]; decide

theorem threads_ne (e : Env) {y : Str} (h1 : y ≠ c!"GMOCK_LIBRARIES") (h2 : y ≠ c!"GMOCK_BOTH_LIBRARIES") :
    (addThreads e).get y = e.get y := by
  unfold addThreads
  simp only []
  rw [get_set_ne _ _ h2, get_set_ne _ _ h1]

/-- The environment after the searches, before anything is made of them. -/
def after1 (m : Machine) (e : Env) : Env := searchGMock m (gmockRoot m e)

theorem check_eq (m : Machine) (e : Env) (h : truth e c!"GMOCK_FOUND" = false) :
    checkGMock m e = if Complete (after1 m e) then addThreads (useGMock (after1 m e)) else useGMock (after1 m e) := by
  unfold checkGMock
  rw [if_neg (by simp [h])]
  simp only []
  change (if truth (useGMock (after1 m e)) c!"GMOCK_FOUND" = true then _ else _) = _
  rw [use_found]
  simp only [decide_eq_true_eq]
  rfl

theorem check_ne (m : Machine) (e : Env) (h : truth e c!"GMOCK_FOUND" = false) {y : Str} (hy : y ∉ results) :
    (checkGMock m e).get y = (after1 m e).get y := by
  have h1 : y ≠ c!"GMOCK_LIBRARIES" := by rintro rfl; exact hy (by decide)
  have h2 : y ≠ c!"GMOCK_BOTH_LIBRARIES" := by rintro rfl; exact hy (by decide)
  rw [check_eq m e h]
  split
  · rw [threads_ne _ h1 h2, use_ne _ hy]
  · exact use_ne _ hy

theorem check_found (m : Machine) (e : Env) (h : truth e c!"GMOCK_FOUND" = false) :
    truth (checkGMock m e) c!"GMOCK_FOUND" = decide (Complete (after1 m e)) := by
  rw [← use_found, check_eq m e h]
  split
  · exact truth_congr (threads_ne _ (by decide) (by decide))
  · rfl

theorem splitOn_parts (v : Str) : ∀ w ∈ v.splitOn ';', ';' ∉ w := by
  induction v with
  | nil => simp
  | cons c v ih =>
    intro w hw
    rw [List.splitOn_cons_eq_if_modifyHead] at hw
    split at hw
    · rcases List.mem_cons.1 hw with rfl | hw
      · simp
      · exact ih w hw
    · rename_i hc
      cases hs : v.splitOn ';' with
      | nil => rw [hs] at hw; cases hw
      | cons a l =>
        rw [hs, List.modifyHead_cons] at hw
        rcases List.mem_cons.1 hw with rfl | hw
        · intro h
          rcases List.mem_cons.1 h with h | h
          · exact hc (by simp [← h])
          · exact ih a (by simp [hs]) h
        · exact ih w (by simp [hs, hw])

theorem elements_no_semi (v : Str) : ∀ w ∈ elements v, w ≠ [] ∧ ';' ∉ w := by
  intro w hw
  refine ⟨elements_words v w hw, ?_⟩
  simp only [elements, List.mem_filter] at hw
  exact splitOn_parts v w hw.1

theorem appendDebugs_words (e : Env) (x : Str) : ∀ w ∈ appendDebugs e x, w ≠ [] ∧ ';' ∉ w := by
  intro w hw
  unfold appendDebugs at hw
  split at hw
  · rw [List.cons_append, List.mem_cons, List.mem_append, List.mem_cons] at hw
    rcases hw with rfl | hw | rfl | hw
    · decide
    · exact elements_no_semi _ w hw
    · decide
    · exact elements_no_semi _ w hw
  · exact elements_no_semi _ w hw

theorem set_elements (e : Env) (x : Str) (l : List Str) (h : ∀ w ∈ l, w ≠ [] ∧ ';' ∉ w) (hl : l ≠ []) :
    elements ((e.set x l).text x) = l := by
  rw [Env.text, get_set_self _ _ _ hl]
  exact elements_joined h

/-! ### words of `target_link_libraries` -/

/-- The words that are no libraries. -/
def Word (w : Str) : Prop := w = c!"debug" ∨ w = c!"optimized" ∨ w = c!"general"

instance (w : Str) : Decidable (Word w) := by unfold Word; infer_instance

theorem onlyWord_none {w : Str} (h : ¬ Word w) : onlyWord w = none := by
  unfold Word at h
  simp only [not_or] at h
  simp [onlyWord, h]

theorem linkFor_append (debug : Bool) (l r : List Str) : ∀ (k : Only) (gs : List Str), linkFor debug k l = some gs → 
    linkFor debug k (l ++ r) = (linkFor debug .always r).map (gs ++ ·) := by
  induction l with
  | nil =>
    intro k gs h
    cases k <;> simp [linkFor] at h
    subst h
    simp
  | cons w l ih =>
    intro k gs h
    rw [List.cons_append]
    cases hw : onlyWord w with
    | some k' =>
      simp only [linkFor, hw] at h ⊢
      exact ih k' gs h
    | none =>
      simp only [linkFor, hw] at h ⊢
      obtain ⟨hs, hh, rfl⟩ := Option.map_eq_some_iff.1 h
      rw [ih _ hs hh, Option.map_map]
      congr 1
      funext t
      simp only [Function.comp]
      split <;> rfl

theorem appendDebugs_congr {e e' : Env} {x : Str} (h : e'.get x = e.get x) (hd : e'.get (x ++ c!"_DEBUG") = e.get (x ++ c!"_DEBUG")) :
    appendDebugs e' x = appendDebugs e x := by
  unfold appendDebugs
  rw [truth_congr h, truth_congr hd, text_eq h, text_eq hd]

theorem libraries_eq (m : Machine) (e : Env) (h : truth e c!"GMOCK_FOUND" = false) (hc : Complete (after1 m e))
    (hl : appendDebugs (after1 m e) c!"GMOCK_LIBRARY" ≠ []) :
    elements ((checkGMock m e).text c!"GMOCK_LIBRARIES") =
      appendDebugs (after1 m e) c!"GMOCK_LIBRARY" ++ elements (e.text c!"CMAKE_THREAD_LIBS_INIT") := by
  have hth : (useGMock (after1 m e)).text c!"CMAKE_THREAD_LIBS_INIT" = e.text c!"CMAKE_THREAD_LIBS_INIT" :=
    text_eq (by rw [use_ne _ (by decide), after1, search_ne _ _ (by decide), root_ne _ _ (by decide)])
  have hlib : elements ((useGMock (after1 m e)).text c!"GMOCK_LIBRARIES") = appendDebugs (after1 m e) c!"GMOCK_LIBRARY" := by
    rw [use_eq, if_pos hc]
    unfold foundGMock
    simp only []
    rw [text_eq (get_set_ne _ _ (by decide)), text_eq (get_set_ne _ _ (by decide))]
    have : appendDebugs ((((after1 m e).put c!"GMOCK_FOUND" (some c!"TRUE"))).set c!"GMOCK_INCLUDE_DIRS"
        (elements (((after1 m e).put c!"GMOCK_FOUND" (some c!"TRUE")).text c!"GMOCK_INCLUDE_DIR"))) c!"GMOCK_LIBRARY" =
        appendDebugs (after1 m e) c!"GMOCK_LIBRARY" :=
      appendDebugs_congr (by rw [get_set_ne _ _ (by decide), get_put_ne _ _ (by decide)])
        (by rw [get_set_ne _ _ (by decide), get_put_ne _ _ (by decide)])
    rw [this]
    exact set_elements _ _ _ (appendDebugs_words _ _) hl
  rw [check_eq m e h, if_pos hc]
  unfold addThreads
  simp only []
  rw [text_eq (get_set_ne _ _ (by decide)), hlib, hth]
  refine set_elements _ _ _ ?_ (by simp [hl])
  intro w hw
  rcases List.mem_append.1 hw with hw | hw
  · exact appendDebugs_words _ _ w hw
  · exact elements_no_semi _ w hw

/-! ### C198 -/

/-- C198, partial: when GoogleMock is found, an executable with tests is linked with its library, in the debug configuration with the one
for debugging if there is one, with those of GoogleTest and of threads and with all that are asked for, in this order.  Missing: several
libraries in `GMOCK_LIBRARY` (`C198_negation_list`), and what is found (see the others). -/
theorem C198_linked_partial (m : Machine) (e : Env) (hno : truth e c!"GMOCK_FOUND" = false)
    (hf : truth (checkGMock m e) c!"GMOCK_FOUND" = true) (release forDebug : Str)
    (hr : (checkGMock m e).get c!"GMOCK_LIBRARY" = some release) (hrs : ';' ∉ release) (hrw : ¬ Word release)
    (hd : truth (checkGMock m e) c!"GMOCK_LIBRARY_DEBUG" = true →
      (checkGMock m e).get c!"GMOCK_LIBRARY_DEBUG" = some forDebug ∧ ';' ∉ forDebug ∧ ¬ Word forDebug)
    (debug : Bool) (extra : Str) (gs ts es : List Str) (hgs : linkFor debug .always (elements (e.text c!"GTEST_LIBRARIES")) = some gs)
    (hts : linkFor debug .always (elements (e.text c!"CMAKE_THREAD_LIBS_INIT")) = some ts)
    (hes : linkFor debug .always (elements extra) = some es) :
    linkFor debug .always (testLibraries (checkGMock m e) extra) =
      some (gs ++ (if debug = true ∧ truth (checkGMock m e) c!"GMOCK_LIBRARY_DEBUG" = true then forDebug else release) :: ts ++ es) := by
  rw [check_found m e hno, decide_eq_true_eq] at hf
  rw [check_ne m e hno (by decide)] at hr
  rw [truth_congr (check_ne m e hno (y := c!"GMOCK_LIBRARY_DEBUG") (by decide)),
    check_ne m e hno (y := c!"GMOCK_LIBRARY_DEBUG") (by decide)] at hd
  rw [truth_congr (check_ne m e hno (y := c!"GMOCK_LIBRARY_DEBUG") (by decide))]
  have hr0 : release ≠ [] := by
    have := hf.1
    rw [truth_name _ (by decide), hr] at this
    rintro rfl
    exact absurd this (by decide)
  have hwords : linkFor debug .always (appendDebugs (after1 m e) c!"GMOCK_LIBRARY") =
      some [if debug = true ∧ truth (after1 m e) c!"GMOCK_LIBRARY_DEBUG" = true then forDebug else release] ∧
      appendDebugs (after1 m e) c!"GMOCK_LIBRARY" ≠ [] := by
    have ht : (after1 m e).text c!"GMOCK_LIBRARY" = release := by unfold Env.text; rw [hr]; rfl
    unfold appendDebugs
    rw [hf.1, ht, elements_single hr0 hrs]
    change linkFor debug .always (if (true && truth (after1 m e) c!"GMOCK_LIBRARY_DEBUG") = true then
        [c!"optimized", release] ++ c!"debug" :: elements ((after1 m e).text c!"GMOCK_LIBRARY_DEBUG") else [release]) = _ ∧
      (if (true && truth (after1 m e) c!"GMOCK_LIBRARY_DEBUG") = true then
        [c!"optimized", release] ++ c!"debug" :: elements ((after1 m e).text c!"GMOCK_LIBRARY_DEBUG") else [release]) ≠ _
    cases htd : truth (after1 m e) c!"GMOCK_LIBRARY_DEBUG" with
    | false =>
      simp [linkFor, onlyWord_none hrw, Only.takes]
    | true =>
      obtain ⟨h1, h2, h3⟩ := hd htd
      have hd0 : forDebug ≠ [] := by
        rw [truth_name _ (by decide), h1] at htd
        rintro rfl
        exact absurd htd (by decide)
      have ht : (after1 m e).text c!"GMOCK_LIBRARY_DEBUG" = forDebug := by unfold Env.text; rw [h1]; rfl
      rw [ht, elements_single hd0 h2]
      have hw1 : onlyWord c!"optimized" = some .optimized := by decide
      have hw2 : onlyWord c!"debug" = some .debug := by decide
      cases debug <;> simp [linkFor, onlyWord_none hrw, onlyWord_none h3, hw1, hw2, Only.takes]
  have hg : (checkGMock m e).text c!"GTEST_LIBRARIES" = e.text c!"GTEST_LIBRARIES" :=
    text_eq (by rw [check_ne m e hno (by decide), after1, search_ne _ _ (by decide), root_ne _ _ (by decide)])
  unfold testLibraries
  rw [libraries_eq m e hno hf hwords.2, hg, List.append_assoc, linkFor_append _ _ _ _ _ hgs, List.append_assoc,
    linkFor_append _ _ _ _ _ hwords.1, linkFor_append _ _ _ _ _ hts, hes]
  simp

/-- The results of the searches for libraries, with the names they have where the compiler is not that of Visual Studio. -/
def libraryResults : List (Str × Str) :=
  [(c!"GMOCK_LIBRARY", c!"gmock"), (c!"GMOCK_LIBRARY_DEBUG", c!"gmockd"), (c!"GMOCK_MAIN_LIBRARY", c!"gmock_main"),
    (c!"GMOCK_MAIN_LIBRARY_DEBUG", c!"gmock_maind")]

/-- C198: GoogleMock is found exactly if its two libraries and its header are known then. -/
theorem C198_found_iff (m : Machine) (e : Env) (hno : truth e c!"GMOCK_FOUND" = false) :
    truth (checkGMock m e) c!"GMOCK_FOUND" = true ↔
      ∀ x ∈ [c!"GMOCK_LIBRARY", c!"GMOCK_INCLUDE_DIR", c!"GMOCK_MAIN_LIBRARY"], truth (checkGMock m e) x = true := by
  rw [check_found m e hno, decide_eq_true_eq]
  simp only [List.forall_mem_cons, List.not_mem_nil, false_implies, implies_true, and_true]
  rw [truth_congr (check_ne m e hno (y := c!"GMOCK_LIBRARY") (by decide)),
    truth_congr (check_ne m e hno (y := c!"GMOCK_INCLUDE_DIR") (by decide)),
    truth_congr (check_ne m e hno (y := c!"GMOCK_MAIN_LIBRARY") (by decide))]
  rfl

theorem search_kept (m : Machine) (e : Env) {x v : Str} (h : e.get x = some v) (hv : ¬ NotFound v) :
    (searchGMock m e).get x = some v := by
  have step : ∀ (e : Env) (y : Str) (r : Option Str), e.get x = some v → (e.finds y r).get x = some v := by
    intro e y r h
    by_cases hy : x = y
    · subst hy; rw [finds_kept e r h hv, h]
    · rw [finds_ne e r hy, h]
  exact step _ _ _ (step _ _ _ (step _ _ _ (step _ _ _ (step _ _ _ (get_orSet_keeps _ _ h)))))

/-- C198: libraries and the directory of headers that are given are used, whatever there is on the computer. -/
theorem C198_given (m : Machine) (e : Env) (hno : truth e c!"GMOCK_FOUND" = false) (x v : Str)
    (hx : x ∈ c!"GMOCK_INCLUDE_DIR" :: libraryResults.map Prod.fst) (h : e.get x = some v)
    (hv : v ≠ c!"NOTFOUND" ∧ ¬ (c!"-NOTFOUND") <:+ v) : (checkGMock m e).get x = some v := by
  have hr : x ∉ results ∧ x ∉ [c!"EPROSIMA_GMOCK", c!"GMOCK_ROOT_", c!"GMOCK_ROOT"] := by
    have : ∀ x ∈ c!"GMOCK_INCLUDE_DIR" :: libraryResults.map Prod.fst,
        x ∉ results ∧ x ∉ [c!"EPROSIMA_GMOCK", c!"GMOCK_ROOT_", c!"GMOCK_ROOT"] := by decide
    exact this x hx
  rw [check_ne m e hno hr.1]
  refine search_kept _ _ (by rw [root_ne _ _ hr.2, h]) ?_
  rintro (h | h)
  · exact hv.1 h
  · exact hv.2 (List.isSuffixOf_iff_suffix.1 h)

/-- The directories in which a library is looked for. -/
def Place (m : Machine) (e : Env) (d : Str) : Prop :=
  d ∈ m.before ∨ d ∈ m.behind ∨
    ∃ root ∈ elements (m.root.getD []) ++ elements (e.text c!"GMOCK_ROOT"), d = root ++ c!"/lib" ∨ d = root

theorem librarySearch_spec (m : Machine) (hm : m.msvc = false) (e : Env) (n : Str) :
    (∀ r, librarySearch m e [n] = some r → ∃ d, Place m e d ∧ m.library d n = some r) ∧
    ((∃ d, Place m e d ∧ (m.library d n).isSome = true) → (librarySearch m e [n]).isSome = true) := by
  have hp : ∀ d, d ∈ m.before ++ ((hints m e []).flatMap fun d => (suffixes m (e.text c!"GMOCK_MSVC_SEARCH")).map (d ++ ·)) ++ m.behind ↔
      Place m e d := by
    intro d
    simp only [hints, suffixes, hm, List.append_nil, Bool.false_eq_true, if_false, Place, List.mem_append, List.mem_flatMap,
      List.mem_map, List.mem_cons, List.not_mem_nil, or_false]
    constructor
    · rintro ((h | ⟨r, hr, w, rfl | rfl, rfl⟩) | h)
      · exact .inl h
      · exact .inr (.inr ⟨r, hr, .inl rfl⟩)
      · exact .inr (.inr ⟨r, hr, .inr (List.append_nil r)⟩)
      · exact .inr (.inl h)
    · rintro (h | h | ⟨r, hr, rfl | rfl⟩)
      · exact .inl (.inl h)
      · exact .inr h
      · exact .inl (.inr ⟨r, hr, _, .inl rfl, rfl⟩)
      · exact .inl (.inr ⟨d, hr, _, .inr rfl, List.append_nil d⟩)
  unfold librarySearch
  simp only [List.findSome?_cons, List.findSome?_nil]
  constructor
  · intro r h
    split at h
    · rename_i b hb
      cases h
      obtain ⟨d, hd, hl⟩ := List.exists_of_findSome?_eq_some hb
      exact ⟨d, (hp d).1 hd, hl⟩
    · cases h
  · rintro ⟨d, hd, hl⟩
    split
    · rfl
    · rename_i hb
      rw [List.findSome?_eq_none_iff.1 hb d ((hp d).2 hd)] at hl
      cases hl

theorem place_congr (m : Machine) {e e' : Env} (h : e'.get c!"GMOCK_ROOT" = e.get c!"GMOCK_ROOT") (d : Str) :
    Place m e' d ↔ Place m e d := by
  unfold Place
  rw [text_eq h]

/-- The variables of the libraries, each with the name in a build for MSVC with `/MD` and the name otherwise. -/
def msvcResults : List (Str × Str × Str) :=
  [(c!"GMOCK_LIBRARY", c!"gmock-md", c!"gmock"), (c!"GMOCK_LIBRARY_DEBUG", c!"gmock-mdd", c!"gmockd"),
    (c!"GMOCK_MAIN_LIBRARY", c!"gmock_main-md", c!"gmock_main"), (c!"GMOCK_MAIN_LIBRARY_DEBUG", c!"gmock_main-mdd", c!"gmock_maind")]

theorem library_new (m : Machine) (e : Env) {x : Str} (md plain : Str)
    (h : ∀ v, e.get x = some v → NotFound v) :
    (findGMockLibrary m x md plain e).get x =
      some ((librarySearch m e (libraryNames m e md plain)).getD (x ++ c!"-NOTFOUND")) := by
  unfold findGMockLibrary
  exact finds_new e _ h

theorem header_search (m : Machine) (e : Env) : (findHeader m e).get c!"GMOCK_MSVC_SEARCH" = some ((e.get c!"GMOCK_MSVC_SEARCH").getD c!"MD") := by
  unfold findHeader
  simp only []
  rw [finds_ne _ _ (by decide)]
  cases h : e.get c!"GMOCK_MSVC_SEARCH" with
  | none => rw [get_orSet_none e h (by decide)]; rfl
  | some v => rw [get_orSet_some e _ h, h]; rfl

theorem search_finds_any (m : Machine) (e : Env) {x md n : Str} (hx : (x, md, n) ∈ msvcResults)
    (h : ∀ v, e.get x = some v → NotFound v) : ∃ e', e'.get c!"GMOCK_ROOT" = e.get c!"GMOCK_ROOT" ∧
      e'.get c!"GMOCK_MSVC_SEARCH" = some ((e.get c!"GMOCK_MSVC_SEARCH").getD c!"MD") ∧
      (searchGMock m e).get x = some ((librarySearch m e' (libraryNames m e' md n)).getD (x ++ c!"-NOTFOUND")) := by
  have h0 : ∀ y, y ≠ c!"GMOCK_MSVC_SEARCH" → y ≠ c!"GMOCK_INCLUDE_DIR" → (findHeader m e).get y = e.get y := fun y => header_ne m e
  have hs := header_search m e
  unfold searchGMock
  simp only []
  generalize findHeader m e = e0 at h0 hs
  have h1 := fun (y : Str) (hy : y ≠ c!"GMOCK_LIBRARY") => library_ne m e0 c!"gmock-md" c!"gmock" hy
  have k1 := library_new m e0 (x := c!"GMOCK_LIBRARY") c!"gmock-md" c!"gmock"
  generalize findGMockLibrary m c!"GMOCK_LIBRARY" c!"gmock-md" c!"gmock" e0 = e1 at h1 k1 ⊢
  have h2 := fun (y : Str) (hy : y ≠ c!"GMOCK_LIBRARY_DEBUG") => library_ne m e1 c!"gmock-mdd" c!"gmockd" hy
  have k2 := library_new m e1 (x := c!"GMOCK_LIBRARY_DEBUG") c!"gmock-mdd" c!"gmockd"
  generalize findGMockLibrary m c!"GMOCK_LIBRARY_DEBUG" c!"gmock-mdd" c!"gmockd" e1 = e2 at h2 k2 ⊢
  have h3 := fun (y : Str) (hy : y ≠ c!"GMOCK_MAIN_LIBRARY") => library_ne m e2 c!"gmock_main-md" c!"gmock_main" hy
  have k3 := library_new m e2 (x := c!"GMOCK_MAIN_LIBRARY") c!"gmock_main-md" c!"gmock_main"
  generalize findGMockLibrary m c!"GMOCK_MAIN_LIBRARY" c!"gmock_main-md" c!"gmock_main" e2 = e3 at h3 k3 ⊢
  have h4 := fun (y : Str) (hy : y ≠ c!"GMOCK_MAIN_LIBRARY_DEBUG") => library_ne m e3 c!"gmock_main-mdd" c!"gmock_maind" hy
  have k4 := library_new m e3 (x := c!"GMOCK_MAIN_LIBRARY_DEBUG") c!"gmock_main-mdd" c!"gmock_maind"
  generalize findGMockLibrary m c!"GMOCK_MAIN_LIBRARY_DEBUG" c!"gmock_main-mdd" c!"gmock_maind" e3 = e4 at h4 k4 ⊢
  simp only [msvcResults, List.mem_cons, Prod.mk.injEq, List.not_mem_nil, or_false] at hx
  rcases hx with ⟨rfl, rfl, rfl⟩ | ⟨rfl, rfl, rfl⟩ | ⟨rfl, rfl, rfl⟩ | ⟨rfl, rfl, rfl⟩
  · refine ⟨e0, h0 _ (by decide) (by decide), hs, ?_⟩
    rw [h4 _ (by decide), h3 _ (by decide), h2 _ (by decide)]
    exact k1 (by rw [h0 _ (by decide) (by decide)]; exact h)
  · refine ⟨e1, by rw [h1 _ (by decide), h0 _ (by decide) (by decide)], by rw [h1 _ (by decide), hs], ?_⟩
    rw [h4 _ (by decide), h3 _ (by decide)]
    exact k2 (by rw [h1 _ (by decide), h0 _ (by decide) (by decide)]; exact h)
  · refine ⟨e2, by rw [h2 _ (by decide), h1 _ (by decide), h0 _ (by decide) (by decide)],
      by rw [h2 _ (by decide), h1 _ (by decide), hs], ?_⟩
    rw [h4 _ (by decide)]
    exact k3 (by rw [h2 _ (by decide), h1 _ (by decide), h0 _ (by decide) (by decide)]; exact h)
  · refine ⟨e3, by rw [h3 _ (by decide), h2 _ (by decide), h1 _ (by decide), h0 _ (by decide) (by decide)],
      by rw [h3 _ (by decide), h2 _ (by decide), h1 _ (by decide), hs], ?_⟩
    exact k4 (by rw [h3 _ (by decide), h2 _ (by decide), h1 _ (by decide), h0 _ (by decide) (by decide)]; exact h)

theorem search_finds (m : Machine) (hm : m.msvc = false) (e : Env) {x n : Str} (hx : (x, n) ∈ libraryResults)
    (h : ∀ v, e.get x = some v → NotFound v) : ∃ e', e'.get c!"GMOCK_ROOT" = e.get c!"GMOCK_ROOT" ∧
      (searchGMock m e).get x = some ((librarySearch m e' [n]).getD (x ++ c!"-NOTFOUND")) := by
  have hx' : ∀ p ∈ libraryResults, ∃ md, (p.1, md, p.2) ∈ msvcResults := by
    intro p hp
    simp only [libraryResults, List.mem_cons, List.not_mem_nil, or_false] at hp
    rcases hp with rfl | rfl | rfl | rfl <;> exact ⟨_, by simp only [msvcResults]; simp; rfl⟩
  obtain ⟨md, hmd⟩ := hx' _ hx
  obtain ⟨e', h1, _, h3⟩ := search_finds_any m e hmd h
  refine ⟨e', h1, ?_⟩
  rw [h3, show libraryNames m e' md n = [n] by simp [libraryNames, hm]]

/-- C198, not on Windows: a library that is not given is found if it is in one of the directories to look into, and is one of those. -/
theorem C198_searched (m : Machine) (hm : m.msvc = false) (hw : m.win = false) (e : Env) (hno : truth e c!"GMOCK_FOUND" = false)
    (x n : Str) (hx : (x, n) ∈ libraryResults) (h : e.get x = none) :
    ((∃ d r, Place m e d ∧ m.library d n = some r) →
      ∃ d r, Place m e d ∧ m.library d n = some r ∧ (checkGMock m e).get x = some r) ∧
    ((∀ d, Place m e d → m.library d n = none) → (checkGMock m e).get x = some (x ++ c!"-NOTFOUND")) := by
  have hr : x ∉ results := by
    have : ∀ p ∈ libraryResults, p.1 ∉ results := by decide
    exact this _ hx
  have hroot : gmockRoot m e = e := by simp [gmockRoot, hw]
  rw [check_ne m e hno hr, after1, hroot]
  obtain ⟨e', he', hs⟩ := search_finds m hm e hx (fun v hv => by rw [h] at hv; cases hv)
  obtain ⟨h1, h2⟩ := librarySearch_spec m hm e' n
  simp only [place_congr m he'] at h1 h2
  rw [hs]
  constructor
  · rintro ⟨d, r, hd, hl⟩
    obtain ⟨q, hq⟩ := Option.isSome_iff_exists.1 (h2 ⟨d, hd, by rw [hl]; rfl⟩)
    obtain ⟨d', hd', hl'⟩ := h1 q hq
    exact ⟨d', q, hd', hl', by rw [hq]; rfl⟩
  · intro hn
    cases hq : librarySearch m e' [n] with
    | none => rfl
    | some q =>
      obtain ⟨d', hd', hl'⟩ := h1 q hq
      rw [hn d' hd'] at hl'; cases hl'

/-- The directories in which a library is looked for with MSVC and `/MD`; `roots` is the value of `GMOCK_ROOT`. -/
def PlaceMD (m : Machine) (roots d : Str) : Prop :=
  d ∈ m.before ∨ d ∈ m.behind ∨ ∃ root ∈ elements (m.root.getD []) ++ elements roots,
    ∃ w ∈ [c!"/lib", c!"/msvc/gmock-md/Debug", c!"/msvc/gmock-md/Release", []], d = root ++ w

theorem places_md (m : Machine) (hm : m.msvc = true) (e : Env) (hs : e.get c!"GMOCK_MSVC_SEARCH" = some c!"MD") (d : Str) :
    d ∈ m.before ++ ((hints m e []).flatMap fun d => (suffixes m (e.text c!"GMOCK_MSVC_SEARCH")).map (d ++ ·)) ++ m.behind ↔
      PlaceMD m (e.text c!"GMOCK_ROOT") d := by
  have ht : e.text c!"GMOCK_MSVC_SEARCH" = c!"MD" := by unfold Env.text; rw [hs]; rfl
  rw [ht]
  simp only [hints, suffixes, hm, List.append_nil, if_true, PlaceMD, List.mem_append, List.mem_flatMap, List.mem_map]
  constructor
  · rintro ((h | ⟨r, hr, w, hw, rfl⟩) | h)
    · exact .inl h
    · exact .inr (.inr ⟨r, hr, w, by simpa [or_assoc] using hw, rfl⟩)
    · exact .inr (.inl h)
  · rintro (h | h | ⟨r, hr, w, hw, rfl⟩)
    · exact .inl (.inl h)
    · exact .inr h
    · exact .inl (.inr ⟨r, hr, w, by simpa [or_assoc] using hw, rfl⟩)

/-- C198, with MSVC and the libraries for `/MD`, which is what is looked for if nothing else is asked for: a library that is not given
is found if it is in one of the directories to look into under its name for `/MD`; otherwise, if it is there under its other name;
`GMOCK_ROOT` is meant as `check_gmock` leaves it. -/
theorem C198_searched_msvc (m : Machine) (hm : m.msvc = true) (e : Env) (hno : truth e c!"GMOCK_FOUND" = false)
    (hk : e.get c!"GMOCK_MSVC_SEARCH" = none ∨ e.get c!"GMOCK_MSVC_SEARCH" = some c!"MD")
    (x md n : Str) (hx : (x, md, n) ∈ msvcResults) (h : e.get x = none) (P : Str → Prop)
    (hP : P = PlaceMD m ((checkGMock m e).text c!"GMOCK_ROOT")) :
    ((∃ d r, P d ∧ m.library d md = some r) → ∃ d r, P d ∧ m.library d md = some r ∧ (checkGMock m e).get x = some r) ∧
    ((∀ d, P d → m.library d md = none) → (∃ d r, P d ∧ m.library d n = some r) →
      ∃ d r, P d ∧ m.library d n = some r ∧ (checkGMock m e).get x = some r) ∧
    ((∀ d, P d → m.library d md = none ∧ m.library d n = none) → (checkGMock m e).get x = some (x ++ c!"-NOTFOUND")) := by
  have hr : x ∉ results ∧ x ∉ [c!"EPROSIMA_GMOCK", c!"GMOCK_ROOT_", c!"GMOCK_ROOT"] := by
    have : ∀ p ∈ msvcResults, p.1 ∉ results ∧ p.1 ∉ [c!"EPROSIMA_GMOCK", c!"GMOCK_ROOT_", c!"GMOCK_ROOT"] := by decide
    exact this _ hx
  have hroot : (checkGMock m e).text c!"GMOCK_ROOT" = (gmockRoot m e).text c!"GMOCK_ROOT" :=
    text_eq (by rw [check_ne m e hno (by decide), after1, search_ne _ _ (by decide)])
  rw [hroot] at hP
  rw [check_ne m e hno hr.1, after1]
  obtain ⟨e', he', hs, hv⟩ := search_finds_any m (gmockRoot m e) hx (fun v hv => by rw [root_ne m e hr.2, h] at hv; cases hv)
  rw [root_ne m e (by decide)] at hs
  have hs' : e'.get c!"GMOCK_MSVC_SEARCH" = some c!"MD" := by
    rcases hk with hk | hk <;> rw [hs, hk] <;> rfl
  have ht : e'.text c!"GMOCK_MSVC_SEARCH" = c!"MD" := by unfold Env.text; rw [hs']; rfl
  have hp := places_md m hm e' hs'
  rw [text_eq he', ← hP] at hp
  rw [hv, show libraryNames m e' md n = [md, n] by simp [libraryNames, hm, ht]]
  unfold librarySearch
  generalize m.before ++ ((hints m e' []).flatMap fun d => (suffixes m (e'.text c!"GMOCK_MSVC_SEARCH")).map (d ++ ·)) ++ m.behind = dirs at hp
  simp only [List.findSome?_cons, List.findSome?_nil]
  have found : ∀ k r, dirs.findSome? (fun d => m.library d k) = some r → ∃ d, P d ∧ m.library d k = some r := by
    intro k r hr
    obtain ⟨d, hd, hl⟩ := List.exists_of_findSome?_eq_some hr
    exact ⟨d, (hp d).1 hd, hl⟩
  have missing : ∀ k, dirs.findSome? (fun d => m.library d k) = none ↔ ∀ d, P d → m.library d k = none := by
    intro k
    rw [List.findSome?_eq_none_iff]
    exact ⟨fun hh d hd => hh d ((hp d).2 hd), fun hh d hd => hh d ((hp d).1 hd)⟩
  refine ⟨?_, ?_, ?_⟩
  · rintro ⟨d, r, hd, hl⟩
    cases hf : dirs.findSome? (fun d => m.library d md) with
    | none => rw [(missing md).1 hf d hd] at hl; cases hl
    | some q =>
      obtain ⟨d', hd', hl'⟩ := found md q hf
      exact ⟨d', q, hd', hl', rfl⟩
  · rintro hn ⟨d, r, hd, hl⟩
    rw [(missing md).2 hn]
    cases hf : dirs.findSome? (fun d => m.library d n) with
    | none => rw [(missing n).1 hf d hd] at hl; cases hl
    | some q =>
      obtain ⟨d', hd', hl'⟩ := found n q hf
      exact ⟨d', q, hd', hl', rfl⟩
  · intro hn
    rw [(missing md).2 fun d hd => (hn d hd).1, (missing n).2 fun d hd => (hn d hd).2]
    rfl

/-- C198 is not so: of two libraries separated by `;` in `GMOCK_LIBRARY`, which CMake takes as a list, the second is linked in the debug
configuration as well if there is one for debugging. -/
theorem C198_negation_list (m : Machine) (e : Env) (hno : truth e c!"GMOCK_FOUND" = false)
    (hf : truth (checkGMock m e) c!"GMOCK_FOUND" = true) (a b forDebug : Str)
    (hr : (checkGMock m e).get c!"GMOCK_LIBRARY" = some (a ++ ';' :: b))
    (ha : a ≠ [] ∧ ';' ∉ a ∧ ¬ Word a) (hb : b ≠ [] ∧ ';' ∉ b ∧ ¬ Word b)
    (hd : truth (checkGMock m e) c!"GMOCK_LIBRARY_DEBUG" = true)
    (hg : (checkGMock m e).get c!"GMOCK_LIBRARY_DEBUG" = some forDebug) (hdw : ';' ∉ forDebug ∧ ¬ Word forDebug)
    (hgs : e.text c!"GTEST_LIBRARIES" = []) (hts : e.text c!"CMAKE_THREAD_LIBS_INIT" = []) :
    linkFor true .always (testLibraries (checkGMock m e) []) = some [b, forDebug] := by
  rw [check_found m e hno, decide_eq_true_eq] at hf
  rw [check_ne m e hno (by decide)] at hr hg
  rw [truth_congr (check_ne m e hno (y := c!"GMOCK_LIBRARY_DEBUG") (by decide))] at hd
  have hd0 : forDebug ≠ [] := by
    rw [truth_name _ (by decide), hg] at hd
    rintro rfl
    exact absurd hd (by decide)
  have happ : appendDebugs (after1 m e) c!"GMOCK_LIBRARY" = [c!"optimized", a, b, c!"debug", forDebug] := by
    have ht : (after1 m e).text c!"GMOCK_LIBRARY" = a ++ ';' :: b := by unfold Env.text; rw [hr]; rfl
    have ht' : (after1 m e).text c!"GMOCK_LIBRARY_DEBUG" = forDebug := by unfold Env.text; rw [hg]; rfl
    unfold appendDebugs
    rw [hf.1, ht, elements_cons ha.1 ha.2.1, elements_single hb.1 hb.2.1]
    change (if (true && truth (after1 m e) c!"GMOCK_LIBRARY_DEBUG") = true then
      [c!"optimized", a, b] ++ c!"debug" :: elements ((after1 m e).text c!"GMOCK_LIBRARY_DEBUG") else [a, b]) = _
    rw [hd, ht', elements_single hd0 hdw.1]
    rfl
  have hgt : (checkGMock m e).text c!"GTEST_LIBRARIES" = e.text c!"GTEST_LIBRARIES" :=
    text_eq (by rw [check_ne m e hno (by decide), after1, search_ne _ _ (by decide), root_ne _ _ (by decide)])
  unfold testLibraries
  rw [libraries_eq m e hno hf (by rw [happ]; simp), happ, hgt, hgs, hts, elements_nil]
  have hw1 : onlyWord c!"optimized" = some .optimized := by decide
  have hw2 : onlyWord c!"debug" = some .debug := by decide
  simp [linkFor, onlyWord_none ha.2.2, onlyWord_none hb.2.2, onlyWord_none hdw.2, hw1, hw2, Only.takes]

/-- C198 is not so: where GoogleMock has only its libraries for debugging, or none, it is not found; that is no error, and executables are
linked without it. -/
theorem C198_negation_missing (m : Machine) (hm : m.msvc = false) (hw : m.win = false) (hl : ∀ d, m.library d c!"gmock" = none) (e : Env)
    (hno : truth e c!"GMOCK_FOUND" = false) (hx : e.get c!"GMOCK_LIBRARY" = none) (extra : Str) :
    truth (checkGMock m e) c!"GMOCK_FOUND" = false ∧ testLibraries (checkGMock m e) extra = testLibraries e extra := by
  have hs := (C198_searched m hm hw e hno _ _ (by decide : (c!"GMOCK_LIBRARY", c!"gmock") ∈ libraryResults) hx).2 fun d _ => hl d
  have hn : truth (checkGMock m e) c!"GMOCK_LIBRARY" = false := by
    rw [truth_name _ (by decide), hs]; decide
  have hnf : truth (checkGMock m e) c!"GMOCK_FOUND" = false := by
    rw [Bool.eq_false_iff]
    intro h
    rw [(C198_found_iff m e hno).1 h _ (by decide)] at hn
    cases hn
  refine ⟨hnf, ?_⟩
  have hnc : ¬ Complete (after1 m e) := by
    rw [check_found m e hno] at hnf
    simpa using hnf
  have hg : ∀ y ∉ searched, y ∉ [c!"EPROSIMA_GMOCK", c!"GMOCK_ROOT_", c!"GMOCK_ROOT"] → y ≠ c!"GMOCK_FOUND" →
      (checkGMock m e).text y = e.text y := by
    intro y h1 h2 h3
    refine text_eq ?_
    rw [check_eq m e hno, if_neg hnc, use_eq, if_neg hnc, get_put_ne _ _ h3, after1, search_ne _ _ h1, root_ne _ _ h2]
  unfold testLibraries
  rw [hg _ (by decide) (by decide) (by decide), hg _ (by decide) (by decide) (by decide)]

/-- C198 is not so: with a directory given by `-DGMOCK_ROOT` and another one in the environment, both with the library, the one of the
environment is used. -/
theorem C198_negation_root (m : Machine) (hm : m.msvc = false) (hw : m.win = false) (hb : m.before = []) (e : Env)
    (hno : truth e c!"GMOCK_FOUND" = false) (hx : e.get c!"GMOCK_LIBRARY" = none) (given other a : Str)
    (_hg : e.get c!"GMOCK_ROOT" = some given) (ho : m.root = some other) (ho' : other ≠ [] ∧ ';' ∉ other)
    (hl : m.library (other ++ c!"/lib") c!"gmock" = some a) :
    (checkGMock m e).get c!"GMOCK_LIBRARY" = some a := by
  have hroot : gmockRoot m e = e := by simp [gmockRoot, hw]
  rw [check_ne m e hno (by decide), after1, hroot]
  obtain ⟨e', -, hs⟩ := search_finds m hm e (by decide : (c!"GMOCK_LIBRARY", c!"gmock") ∈ libraryResults)
    (fun v hv => by rw [hx] at hv; cases hv)
  rw [hs]
  have : librarySearch m e' [c!"gmock"] = some a := by
    unfold librarySearch
    simp only [hb, hints, ho, Option.getD_some, List.append_nil, elements_single ho'.1 ho'.2, suffixes, hm, Bool.false_eq_true, if_false,
      List.nil_append, List.cons_append, List.flatMap_cons, List.map_cons, List.findSome?_cons, hl]
  rw [this]; rfl

/-- C198, on Windows: with `EPROSIMA_BUILD` the directory looked into first is the one of the architecture below that given.  (`partial`:
in the first call; see `C198_negation_arch`.) -/
theorem C198_arch_partial (m : Machine) (hw : m.win = true) (e : Env) (hno : truth e c!"GMOCK_FOUND" = false) (given : Str)
    (hb : truth e c!"EPROSIMA_BUILD" = true) (hg : e.get c!"GMOCK_ROOT" = some given) (ht : isOff given = false) :
    (checkGMock m e).get c!"GMOCK_ROOT" = some (given ++ '/' :: e.text c!"MSVC_ARCH") := by
  rw [check_ne m e hno (by decide), after1, search_ne _ _ (by decide)]
  have ho : gmockOption e = (e.setCache c!"EPROSIMA_GMOCK" c!"OFF").set c!"EPROSIMA_GMOCK" [c!"ON"] := by
    unfold gmockOption
    simp only []
    rw [if_pos]
    rw [truth_congr (get_setCache_ne _ _ (by decide)), hb]
  have hget : ∀ y, y ≠ c!"EPROSIMA_GMOCK" → (gmockOption e).get y = e.get y := by
    intro y hy
    rw [ho, get_set_ne _ _ hy, get_setCache_ne _ _ hy]
  have h1 : truth (gmockOption e) c!"EPROSIMA_GMOCK" = true := by
    rw [truth_name _ (by decide), ho, get_set_self _ _ _ (by simp)]
    decide
  have h2 : truth (gmockOption e) c!"GMOCK_ROOT" = true := by
    rw [truth_name _ (by decide), hget _ (by decide), hg]
    simp [ht]
  unfold gmockRoot gmockArch
  rw [if_pos hw, if_pos h1, if_pos h2, get_set_self _ _ _ (by simp), text_eq (hget c!"MSVC_ARCH" (by decide)),
    Env.text, hget _ (by decide), hg]
  rfl

/-- C198 is not so: when GoogleMock is not found the first time, the next call, as that of the next directory with tests below, looks into
a directory of the architecture below the one of the architecture. -/
theorem C198_negation_arch (m m' : Machine) (hw : m.win = true) (hw' : m'.win = true) (e : Env)
    (hno : truth e c!"GMOCK_FOUND" = false) (given : Str) (hb : truth e c!"EPROSIMA_BUILD" = true)
    (hg : e.get c!"GMOCK_ROOT" = some given) (ht : isOff given = false)
    (ht' : isOff (given ++ '/' :: e.text c!"MSVC_ARCH") = false) (hnf : truth (checkGMock m e) c!"GMOCK_FOUND" = false) :
    (checkGMock m' (checkGMock m e)).get c!"GMOCK_ROOT" =
      some (given ++ '/' :: e.text c!"MSVC_ARCH" ++ '/' :: e.text c!"MSVC_ARCH") := by
  have hsame : ∀ y ∉ searched, y ∉ [c!"EPROSIMA_GMOCK", c!"GMOCK_ROOT_", c!"GMOCK_ROOT"] → y ∉ results →
      (checkGMock m e).get y = e.get y := by
    intro y h1 h2 h3
    rw [check_ne m e hno h3, after1, search_ne _ _ h1, root_ne _ _ h2]
  have h := C198_arch_partial m' hw' (checkGMock m e) hnf (given ++ '/' :: e.text c!"MSVC_ARCH")
    (by rw [truth_congr (hsame _ (by decide) (by decide) (by decide)), hb])
    (C198_arch_partial m hw e hno given hb hg ht) ht'
  rw [h, text_eq (hsame c!"MSVC_ARCH" (by decide) (by decide) (by decide))]

/-- C198: once found, GoogleMock is found, and the same, in every other directory of the project, also in a later run with the same cache
and whatever has changed on the computer by then. -/
theorem C198_directories (m m' : Machine) (e e' : Env) (hno : truth e c!"GMOCK_FOUND" = false)
    (hf : truth (checkGMock m e) c!"GMOCK_FOUND" = true) (hno' : truth e' c!"GMOCK_FOUND" = false)
    (hsame : ∀ x ∈ c!"GMOCK_INCLUDE_DIR" :: libraryResults.map Prod.fst, e'.get x = (checkGMock m e).get x) :
    truth (checkGMock m' e') c!"GMOCK_FOUND" = true ∧
      ∀ x ∈ c!"GMOCK_INCLUDE_DIR" :: libraryResults.map Prod.fst, truth (checkGMock m e) x = true →
        (checkGMock m' e').get x = (checkGMock m e).get x := by
  have hget : ∀ x ∈ c!"GMOCK_INCLUDE_DIR" :: libraryResults.map Prod.fst, truth (checkGMock m e) x = true →
      (checkGMock m' e').get x = (checkGMock m e).get x := by
    intro x hx ht
    have hn : IsName x := by
      have : ∀ x ∈ c!"GMOCK_INCLUDE_DIR" :: libraryResults.map Prod.fst, IsName x := by decide
      exact this x hx
    rw [truth_name _ hn] at ht
    cases hv : (checkGMock m e).get x with
    | none => rw [hv] at ht; cases ht
    | some v =>
      rw [hv] at ht
      have hnf := on_found (v := v) (by simpa using ht)
      refine C198_given m' e' hno' x v hx (by rw [hsame x hx, hv]) ⟨fun h => hnf (.inl h), fun h => hnf (.inr ?_)⟩
      exact List.isSuffixOf_iff_suffix.2 h
  have hall := (C198_found_iff m e hno).1 hf
  refine ⟨?_, hget⟩
  rw [C198_found_iff m' e' hno']
  intro x hx
  have hx' : x ∈ c!"GMOCK_INCLUDE_DIR" :: libraryResults.map Prod.fst := by
    have : ∀ x ∈ [c!"GMOCK_LIBRARY", c!"GMOCK_INCLUDE_DIR", c!"GMOCK_MAIN_LIBRARY"],
        x ∈ c!"GMOCK_INCLUDE_DIR" :: libraryResults.map Prod.fst := by decide
    exact this x hx
  rw [truth_congr (hget x hx' (hall x hx))]
  exact hall x hx

/-! ### examples -/

/-- A computer with GoogleMock in `/usr/lib`, with a library for debugging. -/
def plainMachine : Machine where
  win := false
  msvc := false
  library d n := if d = c!"/usr/lib" ∧ n ∈ [c!"gmock", c!"gmockd", c!"gmock_main"] then some (d ++ c!"/lib" ++ n ++ c!".a") else none
  header d := d = c!"/usr/include"
  before := []
  behind := [c!"/usr/lib", c!"/usr/include"]
  root := none

/-- An environment with GoogleTest and threads. -/
def plainEnv : Env where
  vars y := if y = c!"GTEST_LIBRARIES" then some c!"GTest::gtest"
    else if y = c!"CMAKE_THREAD_LIBS_INIT" then some c!"-lpthread" else none
  cache _ := none

example : truth plainEnv c!"GMOCK_FOUND" = false ∧ truth (checkGMock plainMachine plainEnv) c!"GMOCK_FOUND" = true ∧
    linkFor true .always (testLibraries (checkGMock plainMachine plainEnv) c!"cpp_utils;fastdds") =
      some [c!"GTest::gtest", c!"/usr/lib/libgmockd.a", c!"-lpthread", c!"cpp_utils", c!"fastdds"] ∧
    linkFor false .always (testLibraries (checkGMock plainMachine plainEnv) c!"cpp_utils;fastdds") =
      some [c!"GTest::gtest", c!"/usr/lib/libgmock.a", c!"-lpthread", c!"cpp_utils", c!"fastdds"] := by
  decide

/-- The same computer without the header. -/
example : truth (checkGMock { plainMachine with header := fun _ => false } plainEnv) c!"GMOCK_FOUND" = false := by decide

/-- A list in `GMOCK_LIBRARY`. -/
example : linkFor true .always (testLibraries (checkGMock plainMachine
      ((Env.mk (fun _ => none) (fun _ => none)).set c!"GMOCK_LIBRARY" [c!"a.a", c!"b.a"])) []) =
    some [c!"b.a", c!"/usr/lib/libgmockd.a"] := by decide

/-- A directory in the environment and another one given. -/
example : (checkGMock { plainMachine with
      library := fun d n => some (d ++ '/' :: n), root := some c!"/opt/old", behind := [] }
    (plainEnv.set c!"GMOCK_ROOT" [c!"/opt/new"])).get c!"GMOCK_LIBRARY" = some c!"/opt/old/lib/gmock" := by decide

/-- Windows, where nothing is found. -/
example : let m : Machine := { plainMachine with win := true, msvc := true, library := fun _ _ => none }
    let e := ((plainEnv.set c!"GMOCK_ROOT" [c!"C:/gmock"]).set c!"MSVC_ARCH" [c!"x64"]).set c!"EPROSIMA_BUILD" [c!"ON"]
    (checkGMock m e).get c!"GMOCK_ROOT" = some c!"C:/gmock/x64" ∧
      (checkGMock m (checkGMock m e)).get c!"GMOCK_ROOT" = some c!"C:/gmock/x64/x64" := by decide

/-- Windows, where the build for `/MD` of GoogleMock stands below the given directory. -/
example : let m : Machine := { plainMachine with
      win := true, msvc := true, behind := []
      library := fun d n => if d = c!"C:/gmock/msvc/gmock-md/Release" ∧ n = c!"gmock-md" then some c!"gmock-md.lib" else none }
    let e := plainEnv.set c!"GMOCK_ROOT" [c!"C:/gmock"]
    e.get c!"GMOCK_LIBRARY" = none ∧ e.get c!"GMOCK_MSVC_SEARCH" = none ∧ truth e c!"GMOCK_FOUND" = false ∧
    (checkGMock m e).get c!"GMOCK_LIBRARY" = some c!"gmock-md.lib" := by decide

end Verif.CMake
