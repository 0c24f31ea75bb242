import Verif.Lemmas.CMake
import Verif.Model.CMakeTest
import Verif.Props.CMakeOptions

/-!
C134: labels of tests.
-/
namespace Verif.CMake

theorem digitChar_inj {a b : Nat} (ha : a < 10) (hb : b < 10) (h : a.digitChar = b.digitChar) :
    a = b := by
  have : ∀ a < 10, ∀ b < 10, Nat.digitChar a = Nat.digitChar b → a = b := by decide
  exact this a ha b hb h

theorem decimal_inj : ∀ {a b : Nat}, decimal a = decimal b → a = b := by
  intro a
  induction a using Nat.strongRecOn with
  | _ a ih =>
    intro b h
    unfold decimal at h ih
    rw [Nat.toDigits_eq_if (by decide), Nat.toDigits_eq_if (n := b) (by decide)] at h
    have hne : ∀ n, Nat.toDigits 10 n ≠ [] := by
      intro n hn
      rw [Nat.toDigits_eq_if (by decide)] at hn
      split at hn <;> simp at hn
    split at h <;> split at h
    · rename_i h1 h2
      exact digitChar_inj h1 h2 (List.cons.inj h).1
    · have := congrArg List.length h
      simp at this
    · have := congrArg List.length h
      simp at this
    · rename_i h1 h2
      have := List.append_inj' h rfl
      have h3 := ih (a / 10) (by omega) this.1
      have h4 := digitChar_inj (Nat.mod_lt _ (by decide)) (Nat.mod_lt _ (by decide))
        (List.cons.inj this.2).1
      omega

theorem decimal_last (n : Nat) : ∃ p d, d < 10 ∧ decimal n = p ++ [Nat.digitChar d] := by
  unfold decimal
  rw [Nat.toDigits_eq_if (by decide)]
  split
  · exact ⟨[], n, by assumption, rfl⟩
  · exact ⟨_, n % 10, Nat.mod_lt _ (by decide), rfl⟩

theorem testsVar_last (P : Str) (n : Nat) :
    ∃ d < 10, (testsVar P (decimal n)).getLast? = some (Nat.digitChar d) := by
  obtain ⟨p, d, hd, hp⟩ := decimal_last n
  refine ⟨d, hd, ?_⟩
  unfold testsVar
  rw [hp, ← List.append_assoc, List.getLast?_concat]

theorem testsVar_ne_labelsVar (P Q : Str) (n : Nat) : testsVar P (decimal n) ≠ labelsVar Q := by
  intro h
  obtain ⟨d, hd, h1⟩ := testsVar_last P n
  rw [h, labelsVar, show c!"_TEST_LABELS" = c!"_TEST_LABEL" ++ ['S'] from rfl, ← List.append_assoc,
    List.getLast?_concat] at h1
  have : ∀ d < 10, Nat.digitChar d ≠ 'S' := by decide
  exact this d hd (Option.some.inj h1).symm

theorem testsVar_inj {P : Str} {m n : Nat} (h : testsVar P (decimal m) = testsVar P (decimal n)) :
    m = n := by
  unfold testsVar at h
  exact decimal_inj (List.append_cancel_left h)

/-- The name of the macro's own list. -/
theorem testsVar_ne_internal (P : Str) (n : Nat) :
    testsVar P (decimal n) ≠ c!"INTERNAL_TEST_LABELS" := testsVar_ne_labelsVar P c!"INTERNAL" n

theorem joined_ne_nil {l : List Str} (hl : l ≠ []) (h : ∀ w ∈ l, w ≠ []) : joined l ≠ [] := by
  cases l with
  | nil => exact absurd rfl hl
  | cons a l =>
    cases l with
    | nil => exact h a (by simp)
    | cons b l => simp [joined]

theorem joined_append : ∀ {l : List Str} (w : Str), l ≠ [] → joined (l ++ [w]) = joined l ++ ';' :: w
  | [], _, h => absurd rfl h
  | [a], w, _ => rfl
  | a :: b :: l, w, _ => by
    have ih := joined_append (l := b :: l) w (by simp)
    rw [show joined (a :: b :: l) = a ++ ';' :: joined (b :: l) from rfl]
    rw [show joined (a :: b :: l ++ [w]) = a ++ ';' :: joined (b :: l ++ [w]) from rfl, ih]
    simp

theorem splitOn_joined : ∀ {l : List Str}, l ≠ [] → (∀ w ∈ l, ';' ∉ w) →
    (joined l).splitOn ';' = l
  | [], h, _ => absurd rfl h
  | [a], _, h => List.splitOn_eq_singleton (h a (by simp))
  | a :: b :: l, _, h => by
    rw [show joined (a :: b :: l) = a ++ ';' :: joined (b :: l) from rfl,
      List.splitOn_append_cons_self_of_not_mem (h a (by simp)),
      splitOn_joined (by simp) (fun w hw => h w (by simp [hw]))]

/-- What the calls so far have left in a scope. -/
def Holds (P : Str) (e : Env) (done : List (Str × List Str)) : Prop :=
  e.get (labelsVar P) = some (joined (done.map Prod.fst)) ∧
  ∀ (i : Nat) (d : Str × List Str), done[i]? = some d →
    e.get (testsVar P (decimal i)) = some (joined d.2)

theorem holds_put {P : Str} {e : Env} {done : List (Str × List Str)} (l : Str) (lines : List Str)
    (h : ∀ (i : Nat) (d : Str × List Str), done[i]? = some d →
      e.get (testsVar P (decimal i)) = some (joined d.2)) :
    Holds P ((e.put (labelsVar P) (some (joined ((done ++ [(l, lines)]).map Prod.fst)))).put
      (testsVar P (decimal done.length)) (some (joined lines))) (done ++ [(l, lines)]) := by
  constructor
  · rw [get_put_ne _ _ (Ne.symm (testsVar_ne_labelsVar P P _)), get_put_self]
  · intro i d hd
    by_cases hi : i = done.length
    · subst hi
      rw [get_put_self]
      simp at hd
      rw [← hd]
    · have hlt : i < done.length := by
        have := (List.getElem?_eq_some_iff.1 hd).1
        simp at this
        omega
      rw [List.getElem?_append_left hlt] at hd
      rw [get_put_ne _ _ (fun hh => hi (testsVar_inj hh)),
        get_put_ne _ _ (testsVar_ne_labelsVar P P _), h i d hd]

/-- The state of the scopes after some calls. -/
structure Inv (P : Str) (s : Scopes) (done : List (Str × List Str)) : Prop where
  internal : s.inner.text c!"INTERNAL_TEST_LABELS" = joined (done.map Prod.fst)
  inner : ∀ (i : Nat) (d : Str × List Str), done[i]? = some d →
    s.inner.get (testsVar P (decimal i)) = some (joined d.2)
  outer : ∀ (i : Nat) (d : Str × List Str), done[i]? = some d →
    s.outer.get (testsVar P (decimal i)) = some (joined d.2)
  labels : done ≠ [] → Holds P s.inner done ∧ Holds P s.outer done

theorem labelFile_inv {P : Str} {files : Str → Option (List Str)} {f l : Str} {s : Scopes}
    {done : List (Str × List Str)} {lines : List Str} (hi : Inv P s done)
    (hd : ∀ d ∈ done, OneWord d.1) (hl : OneWord l) (hf : files f = some lines) :
    ∃ s', labelFile P files f l s = some s' ∧ Inv P s' (done ++ [(l, lines)]) := by
  have hw : ∀ w ∈ done.map Prod.fst, w ≠ [] ∧ ';' ∉ w := by
    intro w hw
    obtain ⟨d, hd', rfl⟩ := List.mem_map.1 hw
    exact hd d hd'
  have hlen : listLength (s.inner.text c!"INTERNAL_TEST_LABELS") = done.length := by
    rw [hi.internal, listLength]
    by_cases h0 : done = []
    · subst h0; rfl
    · have h1 : done.map Prod.fst ≠ [] := by simpa using h0
      rw [if_neg (joined_ne_nil h1 (fun w h => (hw w h).1)),
        splitOn_joined h1 (fun w h => (hw w h).2), List.length_map]
  have happ : appended (s.inner.text c!"INTERNAL_TEST_LABELS") l =
      joined ((done ++ [(l, lines)]).map Prod.fst) := by
    rw [hi.internal, appended]
    by_cases h0 : done = []
    · subst h0; rfl
    · have h1 : done.map Prod.fst ≠ [] := by simpa using h0
      rw [if_neg (joined_ne_nil h1 (fun w h => (hw w h).1)), List.map_append, List.map_cons,
        List.map_nil, joined_append _ h1]
  unfold labelFile
  rw [hf]
  dsimp only
  rw [hlen, happ]
  have hin : ∀ (i : Nat) (d : Str × List Str), done[i]? = some d →
      (((s.inner.put c!"TEST_LIST" (some (joined lines))).put c!"LABELS_SIZE"
        (some (decimal done.length))).put c!"INTERNAL_TEST_LABELS"
        (some (joined ((done ++ [(l, lines)]).map Prod.fst)))).get (testsVar P (decimal i)) =
        some (joined d.2) := by
    intro i d h
    obtain ⟨k, hk, hlast⟩ := testsVar_last P i
    have hdig : ∀ d < 10, Nat.digitChar d ≠ 'T' ∧ Nat.digitChar d ≠ 'E' := by decide
    rw [get_put_ne _ _ (testsVar_ne_internal P i), get_put_ne _ _ ?_, get_put_ne _ _ ?_,
      hi.inner i d h]
    · intro hh
      rw [hh] at hlast
      exact (hdig k hk).1 (Option.some.inj hlast).symm
    · intro hh
      rw [hh] at hlast
      exact (hdig k hk).2 (Option.some.inj hlast).symm
  refine ⟨_, rfl, ⟨?_, (holds_put l lines hin).2, (holds_put l lines hi.outer).2,
    fun _ => ⟨holds_put l lines hin, holds_put l lines hi.outer⟩⟩⟩
  unfold Env.text
  rw [get_put_ne _ _ (Ne.symm (testsVar_ne_internal P _))]
  by_cases hP : c!"INTERNAL_TEST_LABELS" = labelsVar P
  · rw [← hP, get_put_self, Option.getD_some]
  · rw [get_put_ne _ _ hP, get_put_self, Option.getD_some]

theorem labelFiles_inv {P : Str} {files : Str → Option (List Str)} :
    ∀ {calls : List (Str × Str)} {s : Scopes} {done : List (Str × List Str)}, Inv P s done →
    (∀ d ∈ done, OneWord d.1) →
    (∀ c ∈ calls, OneWord c.2 ∧ ∃ lines, files c.1 = some lines) →
    Inv P (labelFiles P files calls s)
      (done ++ calls.map fun c => (c.2, (files c.1).getD []))
  | [], s, done, hi, _, _ => by simpa [labelFiles] using hi
  | c :: cs, s, done, hi, hd, hc => by
    obtain ⟨h1, lines, h2⟩ := hc c (by simp)
    obtain ⟨s', hs', hi'⟩ := labelFile_inv hi hd h1 h2
    unfold labelFiles
    rw [hs']
    have := labelFiles_inv (calls := cs) hi' (by
      intro d hd'
      rcases List.mem_append.1 hd' with h | h
      · exact hd d h
      · simp at h; rw [h]; exact h1) (fun c' h => hc c' (by simp [h]))
    simpa [h2] using this

theorem addLabels_eq {P : Str} {e : Env} {t : Str} {done : List (Str × List Str)}
    (h : ∀ (i : Nat) (d : Str × List Str), done[i]? = some d →
      e.get (testsVar P (decimal i)) = some (joined d.2))
    (ht : e.get t = none) (ht0 : t ≠ []) (hd : ∀ d ∈ done, ∀ w ∈ d.2, ';' ∉ w) :
    ∀ (rest : List (Str × List Str)) (k : Nat) (cur : List Str), done.drop k = rest →
    addLabels P e t k (rest.map Prod.fst) cur =
      cur ++ (rest.filter (fun d => d.2.contains t)).map Prod.fst
  | [], k, cur, _ => by simp [addLabels]
  | d :: rest, k, cur, hr => by
    have hk : done[k]? = some d := by
      rw [← List.head?_drop, hr]
      rfl
    have hr' : done.drop (k + 1) = rest := by
      rw [← List.drop_drop, hr]
      rfl
    have hin : inList e t (testsVar P (decimal k)) = d.2.contains t := by
      unfold inList
      rw [h k d hk, ht]
      simp only [Option.getD_none]
      by_cases h0 : d.2 = []
      · rw [h0]
        simp [joined, ht0]
      · rw [splitOn_joined h0 (hd d (List.mem_of_getElem? hk))]
    rw [List.map_cons, addLabels, hin, addLabels_eq h ht ht0 hd rest (k + 1) _ hr']
    rw [List.filter_cons]
    split <;> simp

/-- The labels whose files list the test, in the order of the calls. -/
def labelsListing (files : Str → Option (List Str)) (calls : List (Str × Str)) (t : Str) : List Str :=
  (calls.filter fun c => ((files c.1).getD []).contains t).map Prod.snd

/-- C134.  A directory calls `set_test_label_file` for any number of files and labels
(at least one), starting without labels of its own.  Then a test gets, in the same
directory and in its parent, exactly the labels whose files have its name in one of
their lines, in the order of the calls.  Missing: files that do not exist, see
`C134_negation_missing`; calls in several directories, see
`C134_negation_directories`; labels and lines with `;`; tests whose name is that of a
variable. -/
theorem C134_labels_partial (P : Str) (files : Str → Option (List Str)) (calls : List (Str × Str))
    (s : Scopes) (h0 : s.inner.get c!"INTERNAL_TEST_LABELS" = none)
    (hc : ∀ c ∈ calls, OneWord c.2 ∧ ∃ lines, files c.1 = some lines ∧ ∀ w ∈ lines, ';' ∉ w)
    (hne : calls ≠ []) (t : Str) (ht : t ≠ []) (e : Env)
    (he : e = (labelFiles P files calls s).inner ∨ e = (labelFiles P files calls s).outer)
    (hv : e.get t = none) :
    testLabels P e t = labelsListing files calls t := by
  have hinv : Inv P s [] :=
    ⟨by simp [Env.text, h0, joined], by simp, by simp, fun h => absurd rfl h⟩
  have hi := labelFiles_inv (calls := calls) hinv (by simp)
    (fun c h => ⟨(hc c h).1, (hc c h).2.imp fun _ h => h.1⟩)
  rw [List.nil_append] at hi
  obtain ⟨done, hdone⟩ : ∃ done, calls.map (fun c => (c.2, (files c.1).getD [])) = done := ⟨_, rfl⟩
  rw [hdone] at hi
  have hne' : done ≠ [] := by rw [← hdone]; simpa using hne
  have hh : Holds P e done := by
    rcases he with h | h <;> rw [h]
    · exact (hi.labels hne').1
    · exact (hi.labels hne').2
  have hwords : ∀ w ∈ done.map Prod.fst, w ≠ [] ∧ ';' ∉ w := by
    intro w hw
    rw [← hdone] at hw
    simp only [List.map_map, List.mem_map, Function.comp] at hw
    obtain ⟨c, hcc, rfl⟩ := hw
    exact (hc c hcc).1
  have hlines : ∀ d ∈ done, ∀ w ∈ d.2, ';' ∉ w := by
    intro d hd w hw
    rw [← hdone] at hd
    obtain ⟨c, hcc, rfl⟩ := List.mem_map.1 hd
    obtain ⟨-, lines, hl, hl'⟩ := hc c hcc
    rw [hl, Option.getD_some] at hw
    exact hl' w hw
  unfold testLabels Env.text
  rw [hh.1, Option.getD_some, elements_joined hwords,
    addLabels_eq hh.2 hv ht hlines done 0 [] rfl, List.nil_append, ← hdone, labelsListing,
    List.filter_map, List.map_map]
  rfl

/-- Two lists of tests. -/
def twoFiles (f : Str) : Option (List Str) :=
  if f = c!"xfail.list" then some [c!"fileTest.exist", c!"mathTest.add"]
  else if f = c!"slow.list" then some [c!"mathTest.add"] else none

/-- No variables, as at the beginning. -/
def noScopes : Scopes := ⟨⟨fun _ => none, fun _ => none⟩, ⟨fun _ => none, fun _ => none⟩⟩

example : (∀ c ∈ [(c!"xfail.list", c!"xfail"), (c!"slow.list", c!"slow")], OneWord c.2 ∧
      ∃ lines, twoFiles c.1 = some lines ∧ ∀ w ∈ lines, ';' ∉ w) ∧
    testLabels c!"cpp_utils" (labelFiles c!"cpp_utils" twoFiles
      [(c!"xfail.list", c!"xfail"), (c!"slow.list", c!"slow")] noScopes).outer c!"mathTest.add" =
      [c!"xfail", c!"slow"] := by
  refine ⟨?_, by decide⟩
  intro c hc
  simp only [List.mem_cons, List.not_mem_nil, or_false] at hc
  rcases hc with rfl | rfl
  · exact ⟨by decide, _, rfl, by decide⟩
  · exact ⟨by decide, _, rfl, by decide⟩

theorem testsVar_project {P Q : Str} {m n : Nat}
    (h : testsVar P (decimal m) = testsVar Q (decimal n)) : P = Q := by
  have hd : ∀ k c, c ∈ decimal k → c ≠ '_' := by
    intro k
    induction k using Nat.strongRecOn with
    | _ k ih =>
      intro c hc
      unfold decimal at hc ih
      rw [Nat.toDigits_eq_if (by decide)] at hc
      have hdig : ∀ d < 10, Nat.digitChar d ≠ '_' := by decide
      split at hc
      · rw [List.mem_singleton.1 hc]
        exact hdig _ (by assumption)
      · rcases List.mem_append.1 hc with h | h
        · exact ih (k / 10) (by omega) c h
        · rw [List.mem_singleton.1 h]
          exact hdig _ (Nat.mod_lt _ (by decide))
  have hr := congrArg List.reverse h
  unfold testsVar at hr
  rw [show c!"_LABEL_TEST_" = c!"_LABEL_TEST" ++ ['_'] from rfl] at hr
  simp only [List.reverse_append, List.reverse_cons, List.reverse_nil, List.nil_append,
    List.append_assoc] at hr
  have key : ∀ (a b x y : Str), (∀ c ∈ a, c ≠ '_') → (∀ c ∈ b, c ≠ '_') →
      a ++ '_' :: x = b ++ '_' :: y → x = y := by
    intro a
    induction a with
    | nil =>
      intro b x y _ hb he
      cases b with
      | nil => exact (List.cons.inj he).2
      | cons c b => exact absurd (List.cons.inj he).1.symm (hb c (by simp))
    | cons c a ih =>
      intro b x y ha hb he
      cases b with
      | nil => exact absurd (List.cons.inj he).1 (ha c (by simp))
      | cons d b =>
        exact ih b x y (fun k hk => ha k (by simp [hk])) (fun k hk => hb k (by simp [hk]))
          (List.cons.inj he).2
  have := key _ _ _ _ (fun c hc => hd m c (List.mem_reverse.1 hc))
    (fun c hc => hd n c (List.mem_reverse.1 hc)) hr
  have := congrArg List.reverse (List.append_cancel_left this)
  simpa using this

theorem labelFiles_outer {Q : Str} {files : Str → Option (List Str)} {y : Str}
    (h1 : y ≠ labelsVar Q) (h2 : ∀ n, y ≠ testsVar Q (decimal n)) :
    ∀ (calls : List (Str × Str)) (s : Scopes),
    (labelFiles Q files calls s).outer.get y = s.outer.get y
  | [], _ => rfl
  | c :: cs, s => by
    unfold labelFiles
    cases hl : labelFile Q files c.1 c.2 s with
    | none => rfl
    | some s' =>
      dsimp only
      rw [labelFiles_outer h1 h2 cs s']
      unfold labelFile at hl
      cases hf : files c.1 with
      | none => rw [hf] at hl; cases hl
      | some lines =>
        rw [hf] at hl
        rw [← Option.some.inj hl]
        dsimp only
        rw [get_put_ne _ _ (h2 _), get_put_ne _ _ h1]

theorem addLabels_congr {P : Str} {e e' : Env} {t : Str} (ht : e'.get t = e.get t)
    (h : ∀ n, e'.get (testsVar P (decimal n)) = e.get (testsVar P (decimal n))) :
    ∀ (ls : List Str) (k : Nat) (cur : List Str), addLabels P e' t k ls cur = addLabels P e t k ls cur
  | [], _, _ => rfl
  | l :: ls, k, cur => by
    unfold addLabels
    rw [addLabels_congr ht h ls]
    unfold inList
    rw [h k, ht]

/-- C134.  The labels that one project sets do not change the labels of the tests of
another. -/
theorem C134_projects (P Q : Str) (hpq : P ≠ Q) (files : Str → Option (List Str))
    (calls : List (Str × Str)) (s : Scopes) (t : Str) (h1 : t ≠ labelsVar Q)
    (h2 : ∀ n, t ≠ testsVar Q (decimal n)) :
    testLabels P (labelFiles Q files calls s).outer t = testLabels P s.outer t := by
  unfold testLabels Env.text
  rw [labelFiles_outer (y := labelsVar P)
    (fun h => hpq (List.append_cancel_right (bs := c!"_TEST_LABELS") h))
    (fun n h => testsVar_ne_labelsVar Q P n h.symm)]
  exact addLabels_congr (labelFiles_outer h1 h2 calls s)
    (fun n => labelFiles_outer (testsVar_ne_labelsVar P Q n)
      (fun m h => hpq (testsVar_project h)) calls s) _ _ _

example : c!"cpp_utils" ≠ c!"ddspipe_core" ∧ c!"mathTest.add" ≠ labelsVar c!"ddspipe_core" ∧
    ∀ n, c!"mathTest.add" ≠ testsVar c!"ddspipe_core" (decimal n) :=
  ⟨by decide, by decide, fun n h => absurd (List.cons.inj h).1 (by decide)⟩

/-- C134 fails when a file does not exist: the warning says that its label cannot be
set, but no later call of the directory has an effect either. -/
theorem C134_negation_missing (P : Str) (files : Str → Option (List Str))
    (before after : List (Str × Str)) (f l : Str) (hf : files f = none) (s : Scopes) :
    labelFiles P files (before ++ (f, l) :: after) s = labelFiles P files before s := by
  induction before generalizing s with
  | nil => simp [labelFiles, labelFile, hf]
  | cons c cs ih =>
    rw [List.cons_append, labelFiles, labelFiles]
    cases labelFile P files c.1 c.2 s with
    | none => rfl
    | some s' => exact ih s'

/-- The label after a missing file: its file lists the test, which does not get it. -/
example : labelsListing twoFiles [(c!"none.list", c!"none"), (c!"slow.list", c!"slow")]
      c!"mathTest.add" = [c!"slow"] ∧
    testLabels c!"cpp_utils" (labelFiles c!"cpp_utils" twoFiles
      [(c!"none.list", c!"none"), (c!"slow.list", c!"slow")] noScopes).outer c!"mathTest.add" =
      [] := by decide

/-- C134 fails for a second directory: the labels of the first are lost, in the parent
and for the tests of the second. -/
theorem C134_negation_directories (P : Str) (files : Str → Option (List Str))
    (first second : List (Str × Str)) (s : Scopes)
    (h0 : (labelFiles P files first s).outer.get c!"INTERNAL_TEST_LABELS" = none)
    (hc : ∀ c ∈ second, OneWord c.2 ∧ ∃ lines, files c.1 = some lines ∧ ∀ w ∈ lines, ';' ∉ w)
    (hne : second ≠ []) (t : Str) (ht : t ≠ []) (e : Env)
    (he : e = (labelFiles P files second ⟨(labelFiles P files first s).outer,
      (labelFiles P files first s).outer⟩).outer) (hv : e.get t = none) :
    testLabels P e t = labelsListing files second t :=
  C134_labels_partial P files second _ h0 hc hne t ht e (Or.inr he) hv

/-- `fileTest.exist` is in the file of the first directory, and has no label. -/
example : testLabels c!"cpp_utils" (labelFiles c!"cpp_utils" twoFiles [(c!"slow.list", c!"slow")]
      ⟨(labelFiles c!"cpp_utils" twoFiles [(c!"xfail.list", c!"xfail")] noScopes).outer,
        (labelFiles c!"cpp_utils" twoFiles [(c!"xfail.list", c!"xfail")] noScopes).outer⟩).outer
      c!"fileTest.exist" = [] ∧
    (labelFiles c!"cpp_utils" twoFiles [(c!"xfail.list", c!"xfail")] noScopes).outer.get
      c!"INTERNAL_TEST_LABELS" = none := by decide

end Verif.CMake
