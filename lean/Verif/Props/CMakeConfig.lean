import Verif.Model.CMakeConfig
import Verif.Props.CMakeVersion
/-!
C190: `config.h` tells the version and the commit of the module.
-/
namespace Verif.CMake

/-- `t` is the numeral `s` without the zeros in front. -/
def Shortest (s t : Str) : Prop :=
  (∃ n, s = List.replicate n '0' ++ t) ∧ Numeral t ∧ (t.head? = some '0' → t = c!"0")

private theorem stripZeros_shortest : ∀ s : Str, Numeral s → Shortest s (stripZeros s)
  | [], h => absurd rfl h.1
  | [c], h => ⟨⟨0, rfl⟩, h, by simp [stripZeros]⟩
  | c :: d :: s, h => by
    unfold stripZeros
    by_cases hc : c = '0'
    · rw [if_pos hc]
      obtain ⟨⟨n, hn⟩, h2, h3⟩ := stripZeros_shortest (d :: s) ⟨by simp, fun x hx => h.2 x (List.mem_cons_of_mem _ hx)⟩
      refine ⟨⟨n + 1, ?_⟩, h2, h3⟩
      rw [List.replicate_succ, List.cons_append, ← hn, hc]
    · rw [if_neg hc]
      exact ⟨⟨0, rfl⟩, h, fun h' => absurd (by simpa using h') hc⟩

private theorem dots_append : ∀ (a s : Str), '.' ∉ a → dots (a ++ '.' :: s) = a :: dots s
  | [], s, _ => by simp [dots]
  | c :: a, s, h => by
    have hc : c ≠ '.' := fun e => h (by simp [e])
    rw [List.cons_append, dots, if_neg hc, dots_append a s (fun hm => h (List.mem_cons_of_mem _ hm))]

private theorem dots_plain : ∀ a : Str, '.' ∉ a → dots a = [a]
  | [], _ => rfl
  | c :: a, h => by
    have hc : c ≠ '.' := fun e => h (by simp [e])
    rw [dots, if_neg hc, dots_plain a (fun hm => h (List.mem_cons_of_mem _ hm))]

private theorem numeral_dot {a : Str} (h : Numeral a) : '.' ∉ a := fun hm => absurd (h.2 _ hm) (by decide)

private theorem numeral_digits {a : Str} (h : Numeral a) : a.all isDigit = true :=
  List.all_eq_true.2 fun c hc => (isDigit_iff c).2 (h.2 c hc)

private theorem project_numbers (e : Env) (a b c : Str) (ha : Numeral a) (hb : Numeral b) (hc : Numeral c)
    (h : e.get c!"MODULE_VERSION" = some (a ++ '.' :: b ++ '.' :: c)) :
    project e = some (((e.put c!"PROJECT_VERSION_MAJOR" (some (stripZeros a))).put
      c!"PROJECT_VERSION_MINOR" (some (stripZeros b))).put c!"PROJECT_VERSION_PATCH" (some (stripZeros c))) := by
  have hd : dots (a ++ '.' :: b ++ '.' :: c) = [a, b, c] := by
    rw [List.append_assoc, List.cons_append, dots_append a _ (numeral_dot ha), dots_append b _ (numeral_dot hb),
      dots_plain c (numeral_dot hc)]
  unfold project
  rw [show e.text c!"MODULE_VERSION" = a ++ '.' :: b ++ '.' :: c by rw [Env.text, h]; rfl]
  simp only [hd]
  rw [if_pos]
  · rfl
  · simp [numeral_digits ha, numeral_digits hb, numeral_digits hc, ha.1, hb.1, hc.1]

private theorem get_configureHash (e : Env) (top : Str) (head : Str → Str) (x : Str) (hx : x ≠ c!"MODULE_COMMIT_HASH") :
    (configureHash e top head).get x = e.get x := by
  unfold configureHash
  split
  · rfl
  · exact get_put_ne e _ hx

/-- The variables of a version whose numbers are `a`, `b` and `c`. -/
private def numbered (e : Env) (a b c : Str) : Env :=
  ((e.put c!"PROJECT_VERSION_MAJOR" (some (stripZeros a))).put c!"PROJECT_VERSION_MINOR" (some (stripZeros b))).put
    c!"PROJECT_VERSION_PATCH" (some (stripZeros c))

private theorem configured_numbers (e e1 : Env) (content a b c top : Str) (head : Str → Str) (ha : Numeral a)
    (hb : Numeral b) (hc : Numeral c) (h : configureVersion e content = some e1)
    (hv : e1.get c!"MODULE_VERSION" = some (a ++ '.' :: b ++ '.' :: c)) :
    configured e content top head = some (numbered (configureHash e1 top head) a b c) := by
  unfold configured
  rw [h]
  exact project_numbers _ a b c ha hb hc ((get_configureHash _ _ _ _ (by decide)).trans hv)

private theorem get_numbered (e : Env) (a b c x : Str) (hx : x ∉ [c!"PROJECT_VERSION_MAJOR", c!"PROJECT_VERSION_MINOR",
    c!"PROJECT_VERSION_PATCH"]) : (numbered e a b c).get x = e.get x := by
  simp only [List.mem_cons, List.not_mem_nil, or_false, not_or] at hx
  unfold numbered
  rw [get_put_ne _ _ hx.2.2, get_put_ne _ _ hx.2.1, get_put_ne _ _ hx.1]

private theorem header_numbered (e : Env) (a b c : Str) : configHeader (numbered e a b c) =
    [(e.text c!"MODULE_MACRO" ++ c!"_VERSION_MAJOR", stripZeros a), (e.text c!"MODULE_MACRO" ++ c!"_VERSION_MINOR", stripZeros b),
      (e.text c!"MODULE_MACRO" ++ c!"_VERSION_MICRO", stripZeros c),
      (e.text c!"MODULE_MACRO" ++ c!"_VERSION_STRING", '"' :: e.text c!"MODULE_VERSION_STRING" ++ c!"\""),
      (e.text c!"MODULE_MACRO" ++ c!"_COMMIT_HASH", '"' :: e.text c!"MODULE_COMMIT_HASH" ++ c!"\"")] := by
  have h1 : (numbered e a b c).get c!"PROJECT_VERSION_MAJOR" = some (stripZeros a) := by
    unfold numbered
    rw [get_put_ne _ _ (by decide), get_put_ne _ _ (by decide), get_put_self]
  have h2 : (numbered e a b c).get c!"PROJECT_VERSION_MINOR" = some (stripZeros b) := by
    unfold numbered
    rw [get_put_ne _ _ (by decide), get_put_self]
  have h3 : (numbered e a b c).get c!"PROJECT_VERSION_PATCH" = some (stripZeros c) := get_put_self _ _ _
  simp only [configHeader, Env.text, h1, h2, h3, get_numbered e a b c c!"MODULE_MACRO" (by decide),
    get_numbered e a b c c!"MODULE_VERSION_STRING" (by decide), get_numbered e a b c c!"MODULE_COMMIT_HASH" (by decide),
    Option.getD_some]

/-- C190, in part: with a `VERSION` file that gives three numbers and nothing set before, `config.h` gives the three numbers
(without zeros in front), the version as a text with a `v`, and the commit that git reports in the directory CMake was
started with.  Missing: a module in the directory of another, see `C190_negation_nested`, and versions the project sets, see
`C190_negation_string` and `C129_negation`. -/
theorem C190_config_partial (e : Env) (content a b c top : Str) (head : Str → Str) (hs : ';' ∉ content)
    (ha : Numeral a) (hb : Numeral b) (hc : Numeral c)
    (ga : Gives content c!"VERSION_MAJOR" a) (gb : Gives content c!"VERSION_MINOR" b)
    (gc : Gives content c!"VERSION_PATCH" c)
    (h0 : ∀ x ∈ versionNames, e.get x = none) (hh : e.get c!"MODULE_COMMIT_HASH" = none) :
    ∃ e' a' b' c' m, configured e content top head = some e' ∧ m = e.text c!"MODULE_MACRO" ∧
      Shortest a a' ∧ Shortest b b' ∧ Shortest c c' ∧
      configHeader e' = [(m ++ c!"_VERSION_MAJOR", a'), (m ++ c!"_VERSION_MINOR", b'), (m ++ c!"_VERSION_MICRO", c'),
        (m ++ c!"_VERSION_STRING", c!"\"v" ++ a ++ c!"." ++ b ++ c!"." ++ c ++ c!"\""),
        (m ++ c!"_COMMIT_HASH", c!"\"" ++ head top ++ c!"\"")] := by
  obtain ⟨e1, h1, -, -, -, hv, -, hvs, -, hk⟩ := C129_read e content a b c hs ha hb hc ga gb gc
  have hv := hv (h0 _ (by decide))
  obtain ⟨v, hv', hvs⟩ := hvs (h0 _ (by decide))
  rw [hv] at hv'
  cases hv'
  have hcv : configureVersion e content = some e1 := by
    unfold configureVersion
    rw [if_neg, h1]
    rw [h0 c!"MODULE_VERSION_MAJOR" (by decide)]
    simp
  have hhash : (configureHash e1 top head).get c!"MODULE_COMMIT_HASH" = some (head top) := by
    have : e1.get c!"MODULE_COMMIT_HASH" = none := (hk _ (by decide)).trans hh
    unfold configureHash
    rw [if_neg (by simp [this])]
    exact get_put_self _ _ _
  refine ⟨_, stripZeros a, stripZeros b, stripZeros c, _, configured_numbers e e1 content a b c top head ha hb hc hcv hv, rfl,
    stripZeros_shortest a ha, stripZeros_shortest b hb, stripZeros_shortest c hc, ?_⟩
  have hm : (configureHash e1 top head).text c!"MODULE_MACRO" = e.text c!"MODULE_MACRO" := by
    rw [Env.text, get_configureHash _ _ _ _ (by decide), hk _ (by decide), Env.text]
  have hst : (configureHash e1 top head).text c!"MODULE_VERSION_STRING" = 'v' :: (a ++ '.' :: b ++ '.' :: c) := by
    rw [Env.text, get_configureHash _ _ _ _ (by decide), hvs]; rfl
  have hha : (configureHash e1 top head).text c!"MODULE_COMMIT_HASH" = head top := by rw [Env.text, hhash]; rfl
  rw [header_numbered, hm, hst, hha]
  simp

example : ∃ e' a' b' c' m, configured noEnv versionFile c!"/src" (fun _ => c!"2e9f039") = some e' ∧
    m = [] ∧ Shortest c!"1" a' ∧ Shortest c!"5" b' ∧ Shortest c!"1" c' ∧
    configHeader e' = [(m ++ c!"_VERSION_MAJOR", a'), (m ++ c!"_VERSION_MINOR", b'), (m ++ c!"_VERSION_MICRO", c'),
      (m ++ c!"_VERSION_STRING", c!"\"v1.5.1\""), (m ++ c!"_COMMIT_HASH", c!"\"2e9f039\"")] :=
  C190_config_partial noEnv versionFile c!"1" c!"5" c!"1" c!"/src" _ (by decide) ⟨by decide, by decide⟩ ⟨by decide, by decide⟩
    ⟨by decide, by decide⟩ (gives_of_after (y := c!"\nVERSION_MINOR 5\nVERSION_PATCH 1\n") (by decide) (by decide) (by decide))
    (gives_of_after (y := c!"\nVERSION_PATCH 1\n") (by decide) (by decide) (by decide))
    (gives_of_after (y := c!"\n") (by decide) (by decide) (by decide)) (by decide) (by decide)

/-- C190: a `VERSION` file without the third number is reported when `project` is called. -/
theorem C190_missing (e : Env) (content a b top : Str) (head : Str → Str) (hs : ';' ∉ content)
    (ha : Numeral a) (hb : Numeral b)
    (ga : Gives content c!"VERSION_MAJOR" a) (gb : Gives content c!"VERSION_MINOR" b)
    (gc : ¬ c!"VERSION_PATCH " <:+: content) (h0 : ∀ x ∈ versionNames, e.get x = none) :
    configured e content top head = none := by
  obtain ⟨e1, h1, -, hv, -⟩ := C129_negation_missing e content a b hs ha hb ga gb gc h0
  unfold configured
  rw [h1]
  show project (configureHash e1 top head) = none
  have hd : dots (a ++ '.' :: b ++ c!".") = [a, b, []] := by
    rw [List.append_assoc, List.cons_append, dots_append a _ (numeral_dot ha), dots_append b _ (numeral_dot hb)]
    rfl
  unfold project
  rw [show (configureHash e1 top head).text c!"MODULE_VERSION" = a ++ '.' :: b ++ c!"." by
    rw [Env.text, get_configureHash _ _ _ _ (by decide), hv]; rfl]
  simp only [hd]
  rw [if_neg]
  simp

example : configured noEnv c!"VERSION_MAJOR 1\nVERSION_MINOR 5\n" c!"/src" (fun _ => []) = none :=
  C190_missing noEnv _ c!"1" c!"5" _ _ (by decide) ⟨by decide, by decide⟩ ⟨by decide, by decide⟩
    (gives_of_after (y := c!"\nVERSION_MINOR 5\n") (by decide) (by decide) (by decide))
    (gives_of_after (y := c!"\n") (by decide) (by decide) (by decide))
    (by decide) (by decide)

/-- C190 fails for a module that is built in the directory of another (`add_subdirectory`), which inherits the variables: its
`config.h` gives the numbers, the version and the commit of the outer module, whatever its own `VERSION` file, its settings and
its repository. -/
theorem C190_negation_nested (outer e : Env) (content a b c : Str) (ha : Numeral a) (hb : Numeral b) (hc : Numeral c)
    (content' dir dir' : Str) (head : Str → Str) (hs : ';' ∉ content)
    (ga : Gives content c!"VERSION_MAJOR" a) (gb : Gives content c!"VERSION_MINOR" b)
    (gc : Gives content c!"VERSION_PATCH" c)
    (h0 : ∀ x ∈ versionNames, outer.get x = none) (hh : outer.get c!"MODULE_COMMIT_HASH" = none)
    (o : Env) (ho : configured outer content dir head = some o)
    (he : ∀ x ∈ c!"MODULE_COMMIT_HASH" :: versionNames, e.get x = o.get x) :
    ∃ e', configured e content' dir' head = some e' ∧
      (configHeader e').map Prod.snd = (configHeader o).map Prod.snd := by
  obtain ⟨e1, h1, hA, hB, hC, hv, -, hvs, -, hk⟩ := C129_read outer content a b c hs ha hb hc ga gb gc
  have hv := hv (h0 _ (by decide))
  obtain ⟨v, -, hvs⟩ := hvs (h0 _ (by decide))
  have hcv : configureVersion outer content = some e1 := by
    unfold configureVersion
    rw [if_neg, h1]
    rw [h0 c!"MODULE_VERSION_MAJOR" (by decide)]
    simp
  rw [configured_numbers outer e1 content a b c dir head ha hb hc hcv hv] at ho
  cases ho
  have hget : ∀ x ∈ c!"MODULE_COMMIT_HASH" :: versionNames, e.get x = (configureHash e1 dir head).get x := by
    intro x hx
    rw [he x hx]
    exact get_numbered _ _ _ _ _ (by revert x; decide)
  have hgv : ∀ x ∈ versionNames, e.get x = e1.get x := by
    intro x hx
    rw [hget x (List.mem_cons_of_mem _ hx)]
    exact get_configureHash _ _ _ _ (by revert x; decide)
  have hhash : (configureHash e1 dir head).get c!"MODULE_COMMIT_HASH" = some (head dir) := by
    have : e1.get c!"MODULE_COMMIT_HASH" = none := (hk _ (by decide)).trans hh
    unfold configureHash
    rw [if_neg (by simp [this])]
    exact get_put_self _ _ _
  have heh := (hget c!"MODULE_COMMIT_HASH" (by simp)).trans hhash
  have hce : configureVersion e content' = some e := by
    simp only [configureVersion, hgv c!"MODULE_VERSION_MAJOR" (by decide), hgv c!"MODULE_VERSION_MINOR" (by decide),
      hgv c!"MODULE_VERSION_PATCH" (by decide), hgv c!"MODULE_VERSION" (by decide), hA, hB, hC, hv]
    simp
  have hhe : configureHash e dir' head = e := by simp [configureHash, heh]
  refine ⟨_, configured_numbers e e content' a b c dir' head ha hb hc hce ((hgv _ (by decide)).trans hv), ?_⟩
  rw [header_numbered, header_numbered, hhe]
  have t1 : e.text c!"MODULE_VERSION_STRING" = (configureHash e1 dir head).text c!"MODULE_VERSION_STRING" := by
    rw [Env.text, hget _ (by decide), Env.text]
  have t2 : e.text c!"MODULE_COMMIT_HASH" = (configureHash e1 dir head).text c!"MODULE_COMMIT_HASH" := by
    rw [Env.text, hget _ (by decide), Env.text]
  simp only [List.map_cons, List.map_nil, t1, t2]

example : ∃ o e', configured noEnv versionFile c!"/src" (fun d => d) = some o ∧
    configured (o.put c!"MODULE_MACRO" (some c!"INNER")) c!"VERSION_MAJOR 7\nVERSION_MINOR 0\nVERSION_PATCH 2\n" c!"/src/inner"
      (fun d => d) = some e' ∧ (configHeader e').map Prod.snd = (configHeader o).map Prod.snd := by
  have hA : Gives versionFile c!"VERSION_MAJOR" c!"1" :=
    gives_of_after (y := c!"\nVERSION_MINOR 5\nVERSION_PATCH 1\n") (by decide) (by decide) (by decide)
  have hB : Gives versionFile c!"VERSION_MINOR" c!"5" :=
    gives_of_after (y := c!"\nVERSION_PATCH 1\n") (by decide) (by decide) (by decide)
  have hC : Gives versionFile c!"VERSION_PATCH" c!"1" := gives_of_after (y := c!"\n") (by decide) (by decide) (by decide)
  obtain ⟨o, -, -, -, -, ho, -⟩ := C190_config_partial noEnv versionFile c!"1" c!"5" c!"1" c!"/src" (fun d => d) (by decide)
    ⟨by decide, by decide⟩ ⟨by decide, by decide⟩ ⟨by decide, by decide⟩ hA hB hC (by decide) (by decide)
  obtain ⟨e', he', hh⟩ := C190_negation_nested noEnv (o.put c!"MODULE_MACRO" (some c!"INNER")) versionFile c!"1" c!"5" c!"1"
    ⟨by decide, by decide⟩ ⟨by decide, by decide⟩ ⟨by decide, by decide⟩
    c!"VERSION_MAJOR 7\nVERSION_MINOR 0\nVERSION_PATCH 2\n" c!"/src" c!"/src/inner" (fun d => d) (by decide) hA hB hC
    (by decide) (by decide) o ho (fun x hx => get_put_ne o _ (by revert x; decide))
  exact ⟨o, e', ho, he', hh⟩

/-- C190 fails for a project that sets its version itself, with the four variables of the README: the text of the version in
`config.h` is empty. -/
theorem C190_negation_string (e : Env) (content a b c top : Str) (head : Str → Str) (ha : Numeral a) (hb : Numeral b)
    (hc : Numeral c) (h1 : e.get c!"MODULE_VERSION_MAJOR" = some a) (h2 : e.get c!"MODULE_VERSION_MINOR" = some b)
    (h3 : e.get c!"MODULE_VERSION_PATCH" = some c) (h4 : e.get c!"MODULE_VERSION" = some (a ++ '.' :: b ++ '.' :: c))
    (h5 : e.get c!"MODULE_VERSION_STRING" = none) :
    ∃ e', configured e content top head = some e' ∧
      (e.text c!"MODULE_MACRO" ++ c!"_VERSION_STRING", c!"\"\"") ∈ configHeader e' := by
  have hcv : configureVersion e content = some e := by simp [configureVersion, h1, h2, h3, h4]
  refine ⟨_, configured_numbers e e content a b c top head ha hb hc hcv h4, ?_⟩
  have hm : (configureHash e top head).text c!"MODULE_MACRO" = e.text c!"MODULE_MACRO" := by
    rw [Env.text, get_configureHash _ _ _ _ (by decide), Env.text]
  have hst : (configureHash e top head).text c!"MODULE_VERSION_STRING" = [] := by
    rw [Env.text, get_configureHash _ _ _ _ (by decide), h5]; rfl
  rw [header_numbered, hm, hst]
  simp

example : ∃ e', configured (threeNumbers.put c!"MODULE_VERSION" (some c!"2.0.0")) versionFile c!"/src" (fun _ => []) = some e' ∧
    (c!"_VERSION_STRING", c!"\"\"") ∈ configHeader e' :=
  C190_negation_string _ _ c!"2" c!"0" c!"0" _ _ ⟨by decide, by decide⟩ ⟨by decide, by decide⟩ ⟨by decide, by decide⟩ (by decide)
    (by decide) (by decide) (by decide) (by decide)

/-- C190: where a number of the version has zeros in front, the macro in `config.h`, with which the header asks for the library,
is another text than `MODULE_VERSION_MINOR`, with which `compile_library` names it. -/
theorem C190_negation_zeros (e : Env) (content a b c top : Str) (head : Str → Str) (hs : ';' ∉ content)
    (ha : Numeral a) (hb : Numeral ('0' :: b)) (hb' : b ≠ []) (hc : Numeral c)
    (ga : Gives content c!"VERSION_MAJOR" a) (gb : Gives content c!"VERSION_MINOR" ('0' :: b))
    (gc : Gives content c!"VERSION_PATCH" c)
    (h0 : ∀ x ∈ versionNames, e.get x = none) :
    ∃ e' t, configured e content top head = some e' ∧ e'.get c!"MODULE_VERSION_MINOR" = some ('0' :: b) ∧
      (e.text c!"MODULE_MACRO" ++ c!"_VERSION_MINOR", t) ∈ configHeader e' ∧ t ≠ '0' :: b := by
  obtain ⟨e1, h1, -, hmin, -, hv, -, -, -, hk⟩ := C129_read e content a _ c hs ha hb hc ga gb gc
  have hv := hv (h0 _ (by decide))
  have hcv : configureVersion e content = some e1 := by
    unfold configureVersion
    rw [if_neg, h1]
    rw [h0 c!"MODULE_VERSION_MAJOR" (by decide)]
    simp
  refine ⟨_, stripZeros ('0' :: b), configured_numbers e e1 content a _ c top head ha hb hc hcv hv, ?_, ?_, ?_⟩
  · rw [get_numbered _ _ _ _ _ (by decide), get_configureHash _ _ _ _ (by decide), hmin]
  · have hm : (configureHash e1 top head).text c!"MODULE_MACRO" = e.text c!"MODULE_MACRO" := by
      rw [Env.text, get_configureHash _ _ _ _ (by decide), hk _ (by decide), Env.text]
    rw [header_numbered, hm]
    simp
  · intro h
    have := (stripZeros_shortest _ hb).2.2
    rw [h] at this
    exact hb' (by simpa using this rfl)

example : ∃ e' t, configured noEnv c!"VERSION_MAJOR 1\nVERSION_MINOR 07\nVERSION_PATCH 1\n" c!"/src" (fun _ => []) = some e' ∧
    e'.get c!"MODULE_VERSION_MINOR" = some c!"07" ∧ (c!"_VERSION_MINOR", t) ∈ configHeader e' ∧ t ≠ c!"07" :=
  C190_negation_zeros noEnv _ c!"1" c!"7" c!"1" _ _ (by decide) ⟨by decide, by decide⟩ ⟨by decide, by decide⟩ (by decide)
    ⟨by decide, by decide⟩
    (gives_of_after (y := c!"\nVERSION_MINOR 07\nVERSION_PATCH 1\n") (by decide) (by decide) (by decide))
    (gives_of_after (y := c!"\nVERSION_PATCH 1\n") (by decide) (by decide) (by decide))
    (gives_of_after (y := c!"\n") (by decide) (by decide) (by decide)) (by decide)

end Verif.CMake
