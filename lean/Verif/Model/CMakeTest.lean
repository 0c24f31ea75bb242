import Verif.Model.CMakeProject

/-!
The macros for tests and sources of `/repo/cmake_utils/cmake/test` and
`/repo/cmake_utils/cmake/compilation/compile_library.cmake`.  What `ctest`, the
filters of GoogleTest and `file(GLOB_RECURSE)` do is not in `/repo`; it follows
their manuals.
-/
namespace Verif.CMake

/-- A number as `list(LENGTH)` and `math(EXPR)` write it
(`/repo/cmake_utils/cmake/test/test_labels.cmake:35`). -/
def decimal (n : Nat) : Str := Nat.toDigits 10 n

/-- `list(LENGTH X)`: empty elements count, an empty value has no element
(`/repo/cmake_utils/cmake/test/test_labels.cmake:35`). -/
def listLength (v : Str) : Nat := if v = [] then 0 else (v.splitOn ';').length

/-- `list(APPEND X "w")`
(`/repo/cmake_utils/cmake/test/test_labels.cmake:40`). -/
def appended (v w : Str) : Str := if v = [] then w else v ++ ';' :: w

/-- The variables of a scope and of its parent. -/
structure Scopes where
  inner : Env
  outer : Env

/-- The variable with the labels of a project
(`/repo/cmake_utils/cmake/test/test_labels.cmake:41`). -/
def labelsVar (P : Str) : Str := P ++ c!"_TEST_LABELS"

/-- The variable with the tests of a label
(`/repo/cmake_utils/cmake/test/test_labels.cmake:46`). -/
def testsVar (P : Str) (n : Str) : Str := P ++ c!"_LABEL_TEST_" ++ n

/-- `set_test_label_file`; `files` gives the lines of the files that exist.
`none`: the file does not exist, and `return()` inside of a macro leaves the
caller.  `file(STRINGS)` escapes the `;` of lines, which is left out.
`/repo/cmake_utils/cmake/test/test_labels.cmake:22-49`. -/
def labelFile (P : Str) (files : Str → Option (List Str)) (file label : Str) (s : Scopes) :
    Option Scopes :=
  match files file with
  | none => none
  | some lines =>
    let n := decimal (listLength (s.inner.text c!"INTERNAL_TEST_LABELS"))
    let all := appended (s.inner.text c!"INTERNAL_TEST_LABELS") label
    let inner := s.inner.put c!"TEST_LIST" (some (joined lines))
    let inner := inner.put c!"LABELS_SIZE" (some n)
    let inner := inner.put c!"INTERNAL_TEST_LABELS" (some all)
    let inner := inner.put (labelsVar P) (some all)
    let inner := inner.put (testsVar P n) (some (joined lines))
    some ⟨inner, (s.outer.put (labelsVar P) (some all)).put (testsVar P n) (some (joined lines))⟩

/-- A file that calls `set_test_label_file` several times, with the names of
files and labels (`/repo/cmake_utils/cmake/test/test_labels.cmake:22-49`). -/
def labelFiles (P : Str) (files : Str → Option (List Str)) : List (Str × Str) → Scopes → Scopes
  | [], s => s
  | c :: cs, s =>
    match labelFile P files c.1 c.2 s with
    | none => s
    | some s => labelFiles P files cs s

/-- `if(t IN_LIST "x")`: `t` may be the name of a variable, `x` always is
(`/repo/cmake_utils/cmake/test/test_labels.cmake:53`). -/
def inList (e : Env) (t x : Str) : Bool :=
  match e.get x with
  | none => false
  | some w => (w.splitOn ';').contains ((e.get t).getD t)

/-- The loop of `set_test_labels` from the index `k` on; `cur` are the labels the
test has already
(`/repo/cmake_utils/cmake/test/test_labels.cmake:51-78`). -/
def addLabels (P : Str) (e : Env) (t : Str) : Nat → List Str → List Str → List Str
  | _, [], cur => cur
  | k, l :: ls, cur =>
    addLabels P e t (k + 1) ls (if inList e t (testsVar P (decimal k)) then cur ++ [l] else cur)

/-- `set_test_labels` for a new test
(`/repo/cmake_utils/cmake/test/test_labels.cmake:63-78`). -/
def testLabels (P : Str) (e : Env) (t : Str) : List Str :=
  addLabels P e t 0 (elements (e.text (labelsVar P))) []

/-- The rests of a text, itself and the empty one among them. -/
def rests : Str → List Str
  | [] => [[]]
  | c :: s => (c :: s) :: rests s

/-- A pattern of GoogleTest or `file(GLOB)` without brackets: `*` stands for any
text, `?` for any character
(`/repo/cmake_utils/cmake/test/test_target.cmake:67`,
`/repo/cmake_utils/cmake/compilation/compile_library.cmake:45-50`). -/
def glob : Str → Str → Bool
  | [], n => n.isEmpty
  | c :: p, n =>
    if c = '*' then (rests n).any (glob p)
    else match n with
      | [] => false
      | d :: n => (c = '?' || c = d) && glob p n

/-- `--gtest_filter`: patterns between `:`; those after the first `-` exclude;
without a pattern before it everything is included
(`/repo/cmake_utils/cmake/test/test_target.cmake:67`). -/
def gtestSelects (filter name : Str) : Bool :=
  let pos := filter.takeWhile (· ≠ '-')
  let neg := (filter.dropWhile (· ≠ '-')).drop 1
  (pos.isEmpty || (pos.splitOn ':').any (glob · name)) && !(neg.splitOn ':').any (glob · name)

/-- An entry of `ctest`: its name and the filter, if any. -/
structure TestEntry where
  name : Str
  filter : Option Str
deriving DecidableEq, Repr

/-- The filter for one test of a list
(`/repo/cmake_utils/cmake/test/test_target.cmake:67`). -/
def entryFilter (suite case : Str) : Str :=
  suite ++ c!"**." ++ case ++ c!":**/" ++ suite ++ c!"**." ++ case ++ c!"/**"

/-- The entries `add_test_executable` makes
(`/repo/cmake_utils/cmake/test/test_target.cmake:62-87`).  `TEST_LIST` is the
value of the argument. -/
def testEntries (suite : Str) (testList : Str) : List TestEntry :=
  if isOff testList then [⟨suite, none⟩]
  else (elements testList).map fun case =>
    ⟨suite ++ '.' :: case, some (entryFilter suite case)⟩

/-- The tests of the executable, by their full names, that an entry runs
(`/repo/cmake_utils/cmake/test/test_target.cmake:65-67`). -/
def TestEntry.runs (t : TestEntry) (tests : List Str) : List Str :=
  match t.filter with
  | none => tests
  | some f => tests.filter (gtestSelects f)

/-- Whether `ctest` reports the entry as passed: the executable returns 0 when no
test that was run has failed, also when none was run
(`/repo/cmake_utils/cmake/test/test_target.cmake:65-67`). -/
def TestEntry.passes (t : TestEntry) (tests : List Str) (ok : Str → Bool) : Bool :=
  (t.runs tests).all ok

/-- Whether a file, given by the names of its directories below the first
wildcard and its own name, is found by `file(GLOB_RECURSE)` with the parts of the
pattern: the last part may be at any depth, each of the others stands for one
directory (`**` is nothing special).  Symbolic links are left out.
`/repo/cmake_utils/cmake/compilation/compile_library.cmake:43-51`,
`/repo/cmake_utils/cmake/test/test_utils.cmake:22-31`. -/
def globRecurse : List Str → List Str → Bool
  | [], _ => false
  | _, [] => false
  | [p], f => (f.getLast?).any (glob p)
  | p :: ps, d :: f => glob p d && globRecurse ps f

/-- The files `file(GLOB_RECURSE)` gives for several patterns, each once.  Their
order is left out. -/
def globbed (patterns : List (List Str)) (tree : List (List Str)) : List (List Str) :=
  tree.filter fun f => patterns.any (globRecurse · f)

/-- The patterns for sources of `compile_library`
(`/repo/cmake_utils/cmake/compilation/compile_library.cmake:45-50`). -/
def sourcePatterns : List (List Str) :=
  [[c!"*.c"], [c!"*.cpp"], [c!"*.cxx"], [c!"**", c!"*.c"], [c!"**", c!"*.cpp"], [c!"**", c!"*.cxx"]]

/-- The sources `compile_library` compiles: those of the third argument or, if
that is empty, those found below the source path
(`/repo/cmake_utils/cmake/compilation/compile_library.cmake:42-54`). -/
def librarySources (given : List (List Str)) (tree : List (List Str)) : List (List Str) :=
  if given = [] then globbed sourcePatterns tree else given

/-- The patterns for headers of `compile_library`
(`/repo/cmake_utils/cmake/compilation/compile_library.cmake:61-66`). -/
def headerPatterns : List (List Str) :=
  [[c!"**", c!"*.h"], [c!"**", c!"*.hpp"], [c!"**", c!"*.ipp"]]

/-- The headers `compile_library` adds with MSVC; `sources` and `headers` are the
third and fourth argument
(`/repo/cmake_utils/cmake/compilation/compile_library.cmake:57-71`). -/
def libraryHeaders (sources headers : List (List Str)) (includes tree : List (List Str)) :
    List (List Str) :=
  if headers = [] then globbed headerPatterns includes ++ globbed headerPatterns tree else sources

/-- The patterns for the sources of the library of `all_library_sources`
(`/repo/cmake_utils/cmake/test/test_utils.cmake:23-28`). -/
def testSourcePatterns : List (List Str) :=
  [[c!"**", c!"*.c"], [c!"**", c!"*.cpp"], [c!"**", c!"*.cxx"], [c!"**", c!"*.h"],
    [c!"**", c!"*.hpp"], [c!"**", c!"*.hxx"]]

/-- The files of `src/cpp` that `all_library_sources` adds to the sources of a
test; those of `test/TestUtils` are left out
(`/repo/cmake_utils/cmake/test/test_utils.cmake:19-38`). -/
def allLibrarySources (sources given tree : List (List Str)) : List (List Str) :=
  if given = [] then sources ++ globbed testSourcePatterns tree else sources ++ given

end Verif.CMake
