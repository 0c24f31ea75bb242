import Verif.Props.CMakeSettings

/-!
C132: `find_external_projects`, and C133: `set_installation_paths`.
-/
namespace Verif.CMake

theorem numeral_upper {v : Str} (h : ∀ c ∈ v, c ∈ c!"0123456789.") : v.map Char.toUpper = v := by
  have : ∀ c ∈ c!"0123456789.", c.toUpper = c := by decide
  induction v with
  | nil => rfl
  | cons a v ih =>
    rw [List.map_cons, ih (fun c hc => h c (by simp [hc])), this a (h a (by simp))]

/-- A text of digits and points with a digit other than 0 is not a word that says no. -/
theorem numeral_not_off {v : Str} (h : ∀ c ∈ v, c ∈ c!"0123456789.") {d : Char} (hd : d ∈ v)
    (h0 : d ∈ c!"123456789") : isOff v = false := by
  rw [← Bool.not_eq_true, isOff_iff]
  rintro (hv | hv | hv | hv)
  · rw [hv] at hd
    exact absurd hd (by simp)
  · unfold No at hv
    rw [numeral_upper h] at hv
    simp only [List.mem_cons, List.not_mem_nil, or_false] at hv
    rcases hv with hv | hv | hv | hv | hv | hv <;> subst hv
    · simp only [List.mem_singleton] at hd
      subst hd
      exact absurd h0 (by decide)
    all_goals exact absurd h (by decide)
  · subst hv
    exact absurd h (by decide)
  · have : 'D' ∈ v := hv.subset (by decide)
    exact absurd (h _ this) (by decide)

theorem digits_span {a r : Str} (ha : ∀ c ∈ a, c ∈ c!"0123456789")
    (hr : ∀ c, r.head? = some c → c ∉ c!"0123456789") :
    (a ++ r).takeWhile isDigit = a ∧ (a ++ r).dropWhile isDigit = r := by
  have h1 := takeWhile_numeral a r ha hr
  refine ⟨h1, ?_⟩
  have h2 := List.takeWhile_append_dropWhile (p := isDigit) (l := a ++ r)
  rw [h1] at h2
  exact List.append_cancel_left h2

theorem number_body {a r : Str} (ha : Numeral a) (hr : ∀ c, r.head? = some c → c ∉ c!"0123456789") :
    number (a ++ r) =
      if isExponent (fraction r).2 then some ((a ++ (fraction r).1).any (fun c => c ≠ '0'))
      else none := by
  obtain ⟨h0, hd⟩ := ha
  have hs := digits_span hd hr
  cases a with
  | nil => exact absurd rfl h0
  | cons c a =>
    have hc := hd c (by simp)
    have hsp : (c = ' ' || c = '\t' || c = '\n') = false := by
      have : ∀ c ∈ c!"0123456789", (c = ' ' || c = '\t' || c = '\n') = false := by decide
      exact this c hc
    have h1 : (c :: a ++ r).dropWhile (fun c => c = ' ' || c = '\t' || c = '\n') = c :: a ++ r := by
      rw [List.cons_append, List.dropWhile_cons]
      simp only [hsp, Bool.false_eq_true, if_false]
    have h2 : unsigned (c :: a ++ r) = c :: a ++ r := by
      have : ∀ c ∈ c!"0123456789", ¬ (c = '+' ∨ c = '-') := by decide
      rw [List.cons_append, unsigned, if_neg (this c hc)]
    unfold number
    rw [h1]
    simp only [h2, hs.1, hs.2]
    rw [if_neg (by simp)]

theorem any_nonzero {v : Str} {d : Char} (hd : d ∈ v) (h0 : d ∈ c!"123456789") :
    v.any (fun c => c ≠ '0') = true := by
  rw [List.any_eq_true]
  refine ⟨d, hd, ?_⟩
  have : ∀ d ∈ c!"123456789", decide (d ≠ '0') = true := by decide
  exact this d h0

theorem number_one {a : Str} (ha : Numeral a) {d : Char} (hd : d ∈ a) (h0 : d ∈ c!"123456789") :
    number a = some true := by
  have := number_body (r := []) ha (by simp)
  rw [List.append_nil] at this
  rw [this, if_pos (by rfl)]
  simp only [fraction, List.append_nil]
  rw [any_nonzero hd h0]

theorem number_two {a b : Str} (ha : Numeral a) (hb : Numeral b) {d : Char} (hd : d ∈ a ++ b)
    (h0 : d ∈ c!"123456789") : number (a ++ '.' :: b) = some true := by
  rw [number_body ha (by simp)]
  have hs := digits_span (r := []) hb.2 (by simp)
  rw [List.append_nil] at hs
  simp only [fraction, if_true, hs.1, hs.2]
  rw [if_pos (by rfl), any_nonzero hd h0]

theorem number_three {a b r : Str} (ha : Numeral a) (hb : Numeral b) :
    number (a ++ '.' :: b ++ '.' :: r) = none := by
  rw [List.append_assoc, number_body ha (by simp)]
  have hs := digits_span (r := '.' :: r) hb.2 (by simp)
  simp only [List.cons_append, fraction, if_true, hs.2]
  rw [if_neg]
  simp [isExponent]

/-- The variable with the least version of a package. -/
def minimumOf (p : Str) : Str := p ++ c!"_MINIMUM_VERSION"

theorem findExternal_at (e : Env) : ∀ (ps : List Str) (r : List Request),
    findExternal e ps = some r → ∀ (i : Nat) (p : Str), ps[i]? = some p →
    ∃ b, ifArgs e (elements (e.text (minimumOf p))) = some b ∧
      r[i]? = some ⟨p, if b then some (e.text (minimumOf p)) else none⟩
  | [], _, _, i, p, hp => by simp at hp
  | q :: ps, r, h, i, p, hp => by
    unfold findExternal at h
    cases hb : ifArgs e (elements (e.text (q ++ c!"_MINIMUM_VERSION"))) with
    | none => rw [hb] at h; simp at h
    | some b =>
      rw [hb] at h
      obtain ⟨r', hr', hr⟩ := Option.map_eq_some_iff.1 h
      subst hr
      cases i with
      | zero =>
        simp only [List.getElem?_cons_zero, Option.some.injEq] at hp
        subst hp
        exact ⟨b, hb, rfl⟩
      | succ i =>
        simp only [List.getElem?_cons_succ] at hp ⊢
        exact findExternal_at e ps r' hr' i p hp

theorem findExternal_length (e : Env) : ∀ (ps : List Str) (r : List Request),
    findExternal e ps = some r → r.map Request.package = ps
  | [], r, h => by simp [findExternal] at h; simp [h]
  | q :: ps, r, h => by
    unfold findExternal at h
    cases hb : ifArgs e (elements (e.text (q ++ c!"_MINIMUM_VERSION"))) with
    | none => rw [hb] at h; simp at h
    | some b =>
      rw [hb] at h
      obtain ⟨r', hr', hr⟩ := Option.map_eq_some_iff.1 h
      subst hr
      rw [List.map_cons, findExternal_length e ps r' hr']

/-- C132.  Every package of the list is looked for, in order and once each; the
version asked for, if any, is the one of its own variable; without that variable
none is asked for; and the macro goes through when these variables are not lists. -/
theorem C132_packages (e : Env) (ps : List Str) :
    (∀ r, findExternal e ps = some r →
      r.map Request.package = ps ∧
      (∀ q ∈ r, ∀ v, q.version = some v → e.get (q.package ++ c!"_MINIMUM_VERSION") = some v)) ∧
    ((∀ p ∈ ps, ∀ v, e.get (p ++ c!"_MINIMUM_VERSION") = some v → ';' ∉ v) →
      ∃ r, findExternal e ps = some r) := by
  constructor
  · intro r h
    have hl := findExternal_length e ps r h
    refine ⟨hl, fun q hq v hv => ?_⟩
    obtain ⟨i, hi⟩ := List.mem_iff_getElem?.1 hq
    have hp : ps[i]? = some q.package := by
      rw [← hl, List.getElem?_map, hi]
      rfl
    obtain ⟨b, hb, hr⟩ := findExternal_at e ps r h i _ hp
    rw [hi] at hr
    have hq' := Option.some.inj hr
    have hv' : (if b then some (e.text (minimumOf q.package)) else none) = some v := by
      rw [← hv]
      exact (congrArg Request.version hq').symm
    cases b with
    | false => simp at hv'
    | true =>
      simp only [if_true, Option.some.injEq] at hv'
      show e.get (minimumOf q.package) = some v
      cases hg : e.get (minimumOf q.package) with
      | some w => rw [Env.text, hg] at hv'; simpa using hv'
      | none =>
        rw [Env.text, hg] at hb
        simp [elements_nil, ifArgs] at hb
  · intro h
    induction ps with
    | nil => exact ⟨[], rfl⟩
    | cons p ps ih =>
      obtain ⟨r, hr⟩ := ih (fun q hq => h q (by simp [hq]))
      unfold findExternal
      have : ∃ b, ifArgs e (elements (e.text (p ++ c!"_MINIMUM_VERSION"))) = some b := by
        cases hg : e.get (p ++ c!"_MINIMUM_VERSION") with
        | none => exact ⟨false, by simp [Env.text, hg, elements_nil, ifArgs]⟩
        | some v =>
          by_cases h0 : v = []
          · exact ⟨false, by simp [Env.text, hg, h0, elements_nil, ifArgs]⟩
          · exact ⟨_, by
              simp only [Env.text, hg, Option.getD_some]
              rw [elements_single h0 (h p (by simp) v hg)]
              rfl⟩
      obtain ⟨b, hb⟩ := this
      rw [hb, hr]
      exact ⟨_, rfl⟩

example : findExternal (noEnv.put c!"fastdds_MINIMUM_VERSION" (some c!"3.1")) [c!"fastcdr", c!"fastdds"] =
    some [⟨c!"fastcdr", none⟩, ⟨c!"fastdds", some c!"3.1"⟩] := by decide

/-- C132.  A list of several elements as the least version of one of the packages ends the configuration with an error,
and nothing else does.  (Lists with words of conditions, such as `NOT`, are outside the model.) -/
theorem C132_error_iff (e : Env) (ps : List Str) :
    findExternal e ps = none ↔ ∃ p ∈ ps, 2 ≤ (elements (e.text (p ++ c!"_MINIMUM_VERSION"))).length := by
  induction ps with
  | nil => simp [findExternal]
  | cons p ps ih =>
    unfold findExternal
    match hx : elements (e.text (p ++ c!"_MINIMUM_VERSION")) with
    | [] => simp [ifArgs, ih, hx]
    | [a] => simp [ifArgs, ih, hx]
    | a :: b :: l => simp [ifArgs, hx]

example : findExternal (noEnv.put c!"fastdds_MINIMUM_VERSION" (some c!"3;1")) [c!"fastcdr", c!"fastdds"] = none := by
  decide

/-- C132.  A least version of one number, or of two with a point between, is asked
for, provided it is not zero.  Missing: versions of three numbers, which are the
ones the README shows; see `C132_negation`. -/
theorem C132_honoured_partial (e : Env) (ps : List Str) (r : List Request)
    (h : findExternal e ps = some r) (i : Nat) (p v : Str) (hp : ps[i]? = some p)
    (hv : e.get (p ++ c!"_MINIMUM_VERSION") = some v)
    (hn : Numeral v ∨ ∃ a b, Numeral a ∧ Numeral b ∧ v = a ++ '.' :: b)
    (h0 : ∃ d ∈ v, d ∈ c!"123456789") :
    r[i]? = some ⟨p, some v⟩ := by
  obtain ⟨b, hb, hr⟩ := findExternal_at e ps r h i p hp
  have htext : e.text (minimumOf p) = v := by
    show (e.get (p ++ c!"_MINIMUM_VERSION")).getD [] = v
    rw [hv]
    rfl
  obtain ⟨d, hd, hd0⟩ := h0
  have hsub : ∀ c ∈ c!"0123456789", c ∈ c!"0123456789." := by decide
  have hdig : ∀ c ∈ v, c ∈ c!"0123456789." := by
    rcases hn with hn | ⟨x, y, hx, hy, rfl⟩
    · exact fun c hc => hsub c (hn.2 c hc)
    · intro c hc
      simp only [List.mem_append, List.mem_cons] at hc
      rcases hc with hc | hc | hc
      · exact hsub c (hx.2 c hc)
      · subst hc; decide
      · exact hsub c (hy.2 c hc)
  have hnum : number v = some true := by
    rcases hn with hn | ⟨x, y, hx, hy, rfl⟩
    · exact number_one hn hd hd0
    · refine number_two hx hy ?_ hd0
      simp only [List.mem_append, List.mem_cons] at hd ⊢
      rcases hd with hd | hd | hd
      · exact Or.inl hd
      · subst hd; exact absurd hd0 (by decide)
      · exact Or.inr hd
  have hel : elements v = [v] := elements_single (by rintro rfl; simp at hd) (fun hm =>
    absurd (hdig _ hm) (by decide))
  have htr : truth e v = true := by
    unfold truth
    rw [numeral_not_off hdig hd hd0, hnum]
    split
    · rfl
    · simp
  rw [htext, hel] at hb
  simp only [ifArgs, htr, Option.some.injEq] at hb
  rw [hr, htext, ← hb]
  rfl

example : Numeral c!"3" ∧ Numeral c!"1" ∧ (∃ d ∈ c!"3.1", d ∈ c!"123456789") := by
  unfold Numeral
  decide

/-- C132 fails for every version of three numbers, such as the `3.0.0` of the README:
it is not a number, so `if(3.0.0)` looks for a variable of that name, and the
package is looked for without a version. -/
theorem C132_negation (e : Env) (ps : List Str) (r : List Request)
    (h : findExternal e ps = some r) (i : Nat) (p a b c : Str) (hp : ps[i]? = some p)
    (ha : Numeral a) (hb : Numeral b) (hc : Numeral c)
    (hv : e.get (p ++ c!"_MINIMUM_VERSION") = some (a ++ '.' :: b ++ '.' :: c))
    (hno : e.get (a ++ '.' :: b ++ '.' :: c) = none) :
    r[i]? = some ⟨p, none⟩ := by
  obtain ⟨t, ht, hr⟩ := findExternal_at e ps r h i p hp
  obtain ⟨v, hvv⟩ : ∃ v, a ++ '.' :: b ++ '.' :: c = v := ⟨_, rfl⟩
  have hnum : number v = none := by
    rw [← hvv]
    exact number_three ha hb
  have hsub : ∀ c ∈ c!"0123456789", c ∈ c!"0123456789." := by decide
  have hdig : ∀ d ∈ v, d ∈ c!"0123456789." := by
    intro d hd
    rw [← hvv] at hd
    simp only [List.mem_append, List.mem_cons] at hd
    rcases hd with (hd | hd | hd) | hd | hd
    · exact hsub d (ha.2 d hd)
    · subst hd; decide
    · exact hsub d (hb.2 d hd)
    · subst hd; decide
    · exact hsub d (hc.2 d hd)
  have hdot : '.' ∈ v := by
    rw [← hvv]
    simp
  rw [hvv] at hv hno
  have htext : e.text (minimumOf p) = v := by
    show (e.get (p ++ c!"_MINIMUM_VERSION")).getD [] = v
    rw [hv]
    rfl
  have hel : elements v = [v] := elements_single (by rintro rfl; simp at hdot) (fun hm =>
    absurd (hdig _ hm) (by decide))
  have hon : isOn v = false := by
    rw [← Bool.not_eq_true]
    intro hon
    simp only [isOn, upper, numeral_upper hdig, Bool.or_eq_true, decide_eq_true_eq] at hon
    rcases hon with (((hon | hon) | hon) | hon) | hon <;> rw [hon] at hdot <;>
      exact absurd hdot (by decide)
  have htr : truth e v = false := by
    unfold truth
    rw [hon, hnum, hno]
    simp
  rw [htext, hel] at ht
  simp only [ifArgs, htr, Option.some.injEq] at ht
  rw [hr, ← ht]
  rfl

example : findExternal (noEnv.put c!"fastdds_MINIMUM_VERSION" (some c!"3.0.0")) [c!"fastdds"] =
    some [⟨c!"fastdds", none⟩] := by decide

/-! ### C133 -/

/-- The directories with a fixed default: the variable of the module, the default and
the short name. -/
def fixedDirs : List (Str × Str × Str) :=
  [(c!"MODULE_BIN_INSTALL_DIR", c!"bin/", c!"BIN_INSTALL_DIR"),
    (c!"MODULE_INCLUDE_INSTALL_DIR", c!"include/", c!"INCLUDE_INSTALL_DIR"),
    (c!"MODULE_LIB_INSTALL_DIR", c!"lib/", c!"LIB_INSTALL_DIR"),
    (c!"MODULE_DATA_INSTALL_DIR", c!"share/", c!"DATA_INSTALL_DIR")]

theorem get_setCache_ne (e : Env) {x y : Str} (v : Str) (h : y ≠ x) :
    (e.setCache x v).get y = e.get y := by
  unfold Env.setCache
  split
  · rfl
  · simp [Env.get, h]
  · simp [Env.get, h]

theorem get_orCache_ne (e : Env) {x y : Str} (v : Str) (h : y ≠ x) :
    (e.orCache x v).get y = e.get y := by
  unfold Env.orCache
  split
  · rfl
  · exact get_setCache_ne e v h

theorem cache_orCache_ne (e : Env) {x y : Str} (v : Str) (h : y ≠ x) :
    (e.orCache x v).cache y = e.cache y := by
  unfold Env.orCache
  split
  · rfl
  · unfold Env.setCache
    split
    · rfl
    · simp [h]
    · simp [h]

theorem vars_orCache_ne (e : Env) {x y : Str} (v : Str) (h : y ≠ x) :
    (e.orCache x v).vars y = e.vars y := by
  unfold Env.orCache
  split
  · rfl
  · unfold Env.setCache
    split
    · rfl
    · simp [h]
    · simp [h]

theorem get_orCache_given {e : Env} {x v : Str} (d : Str) (hx : IsName x) (h : Given e x v) :
    (e.orCache x d).get x = some v := by
  unfold Env.orCache
  rw [truth_given hx h, if_pos rfl, h.1]

theorem get_orCache_missing {e : Env} {x : Str} (d : Str) (hx : IsName x) (h : Missing e x)
    (hc : e.cache x = none) : (e.orCache x d).get x = some d := by
  unfold Env.orCache
  rw [truth_missing hx h]
  simp [Env.setCache, hc, Env.get]

/-- The first four variables of the module. -/
def settledFour (e : Env) : Env :=
  let e := e.orCache c!"MODULE_BIN_INSTALL_DIR" c!"bin/"
  let e := e.orCache c!"MODULE_INCLUDE_INSTALL_DIR" c!"include/"
  let e := e.orCache c!"MODULE_LIB_INSTALL_DIR" c!"lib/"
  e.orCache c!"MODULE_DATA_INSTALL_DIR" c!"share/"

/-- The default of the licence directory. -/
def licenceDefault (win : Bool) (e : Env) : Str :=
  if win then c!"." else
    joined (elements (e.text c!"MODULE_DATA_INSTALL_DIR" ++ '/' :: e.text c!"MODULE_NAME"))

/-- The five variables of the module are settled before the short names are set. -/
def settled (win : Bool) (e : Env) : Env :=
  (settledFour e).orCache c!"MODULE_LICENSE_INSTALL_DIR" (licenceDefault win (settledFour e))

/-- The short names for the five variables. -/
def shortNames (e : Env) : Env :=
  let e := e.set c!"BIN_INSTALL_DIR" (elements (e.text c!"MODULE_BIN_INSTALL_DIR"))
  let e := e.set c!"INCLUDE_INSTALL_DIR" (elements (e.text c!"MODULE_INCLUDE_INSTALL_DIR"))
  let e := e.set c!"LIB_INSTALL_DIR" (elements (e.text c!"MODULE_LIB_INSTALL_DIR"))
  let e := e.set c!"DATA_INSTALL_DIR" (elements (e.text c!"MODULE_DATA_INSTALL_DIR"))
  e.set c!"LICENSE_INSTALL_DIR" (elements (e.text c!"MODULE_LICENSE_INSTALL_DIR"))

theorem installPaths_eq (win : Bool) (e : Env) : installPaths win e = shortNames (settled win e) := rfl

theorem shortNames_get (e : Env) {x y v : Str}
    (h : (x, y) ∈ [(c!"MODULE_BIN_INSTALL_DIR", c!"BIN_INSTALL_DIR"),
      (c!"MODULE_INCLUDE_INSTALL_DIR", c!"INCLUDE_INSTALL_DIR"),
      (c!"MODULE_LIB_INSTALL_DIR", c!"LIB_INSTALL_DIR"),
      (c!"MODULE_DATA_INSTALL_DIR", c!"DATA_INSTALL_DIR"),
      (c!"MODULE_LICENSE_INSTALL_DIR", c!"LICENSE_INSTALL_DIR")])
    (hv : e.get x = some v) (hl : Listed v) :
    (shortNames e).get x = some v ∧ (shortNames e).get y = some v := by
  have key : ∀ e' : Env, e'.get x = some v →
      (e'.set y (elements (e'.text x))).get y = some v := by
    intro e' h'
    have hj := listed_joined hl
    rw [Env.text, h', Option.getD_some, get_set_self _ _ _ hj.2, hj.1]
  unfold shortNames
  dsimp only
  simp only [List.mem_cons, List.not_mem_nil, or_false, Prod.mk.injEq] at h
  rcases h with ⟨h, h'⟩ | ⟨h, h'⟩ | ⟨h, h'⟩ | ⟨h, h'⟩ | ⟨h, h'⟩ <;> subst h <;> subst h'
  · refine ⟨?_, ?_⟩
    · iterate 5 rw [get_set_ne _ _ (by decide)]
      exact hv
    · iterate 4 rw [get_set_ne _ _ (by decide)]
      exact key _ hv
  · refine ⟨?_, ?_⟩
    · iterate 5 rw [get_set_ne _ _ (by decide)]
      exact hv
    · iterate 3 rw [get_set_ne _ _ (by decide)]
      refine key _ ?_
      iterate 1 rw [get_set_ne _ _ (by decide)]
      exact hv
  · refine ⟨?_, ?_⟩
    · iterate 5 rw [get_set_ne _ _ (by decide)]
      exact hv
    · iterate 2 rw [get_set_ne _ _ (by decide)]
      refine key _ ?_
      iterate 2 rw [get_set_ne _ _ (by decide)]
      exact hv
  · refine ⟨?_, ?_⟩
    · iterate 5 rw [get_set_ne _ _ (by decide)]
      exact hv
    · iterate 1 rw [get_set_ne _ _ (by decide)]
      refine key _ ?_
      iterate 3 rw [get_set_ne _ _ (by decide)]
      exact hv
  · refine ⟨?_, ?_⟩
    · iterate 5 rw [get_set_ne _ _ (by decide)]
      exact hv
    · refine key _ ?_
      iterate 4 rw [get_set_ne _ _ (by decide)]
      exact hv

/-- What `orCache` leaves in its variable depends on that variable alone. -/
theorem orCache_congr {e e' : Env} {x : Str} (d : Str) (hv : e'.vars x = e.vars x)
    (hc : e'.cache x = e.cache x) : (e'.orCache x d).get x = (e.orCache x d).get x := by
  have hg : e'.get x = e.get x := by unfold Env.get; rw [hv, hc]
  unfold Env.orCache
  rw [truth_congr hg]
  split
  · exact hg
  · unfold Env.setCache
    rw [hc]
    split
    · exact hg
    · simp [Env.get]
    · simp [Env.get]

/-- The four plain directories after the first part of the macro. -/
theorem settled_get (win : Bool) (e : Env) {x d : Str}
    (h : (x, d) ∈ [(c!"MODULE_BIN_INSTALL_DIR", c!"bin/"),
      (c!"MODULE_INCLUDE_INSTALL_DIR", c!"include/"),
      (c!"MODULE_LIB_INSTALL_DIR", c!"lib/"),
      (c!"MODULE_DATA_INSTALL_DIR", c!"share/")]) :
    (settled win e).get x = (e.orCache x d).get x := by
  unfold settled settledFour
  dsimp only
  simp only [List.mem_cons, List.not_mem_nil, or_false, Prod.mk.injEq] at h
  rcases h with ⟨h, h'⟩ | ⟨h, h'⟩ | ⟨h, h'⟩ | ⟨h, h'⟩ <;> subst h <;> subst h'
  · iterate 4 rw [get_orCache_ne _ _ (by decide)]
  · iterate 3 rw [get_orCache_ne _ _ (by decide)]
    refine orCache_congr _ ?_ ?_
    · iterate 1 rw [vars_orCache_ne _ _ (by decide)]
    · iterate 1 rw [cache_orCache_ne _ _ (by decide)]
  · iterate 2 rw [get_orCache_ne _ _ (by decide)]
    refine orCache_congr _ ?_ ?_
    · iterate 2 rw [vars_orCache_ne _ _ (by decide)]
    · iterate 2 rw [cache_orCache_ne _ _ (by decide)]
  · iterate 1 rw [get_orCache_ne _ _ (by decide)]
    refine orCache_congr _ ?_ ?_
    · iterate 3 rw [vars_orCache_ne _ _ (by decide)]
    · iterate 3 rw [cache_orCache_ne _ _ (by decide)]

/-- The licence directory after the first part of the macro. -/
theorem settled_licence (win : Bool) (e : Env) :
    ∃ d, (settled win e).get c!"MODULE_LICENSE_INSTALL_DIR" =
        (e.orCache c!"MODULE_LICENSE_INSTALL_DIR" d).get c!"MODULE_LICENSE_INSTALL_DIR" ∧
      (win = true → d = c!".") ∧
      (win = false → ∀ dd n, (settled win e).get c!"MODULE_DATA_INSTALL_DIR" = some dd →
        e.get c!"MODULE_NAME" = some n → ';' ∉ dd → ';' ∉ n → d = dd ++ '/' :: n) := by
  refine ⟨licenceDefault win (settledFour e), ?_, ?_, ?_⟩
  · unfold settled
    refine orCache_congr _ ?_ ?_ <;> unfold settledFour <;> dsimp only
    · iterate 4 rw [vars_orCache_ne _ _ (by decide)]
    · iterate 4 rw [cache_orCache_ne _ _ (by decide)]
  · intro hw
    rw [hw]
    rfl
  · intro hw dd n hd hn h1 h2
    unfold licenceDefault
    rw [hw, if_neg (by decide)]
    unfold settled at hd
    rw [get_orCache_ne _ _ (by decide)] at hd
    have hn' : (settledFour e).get c!"MODULE_NAME" = some n := by
      unfold settledFour
      dsimp only
      iterate 4 rw [get_orCache_ne _ _ (by decide)]
      exact hn
    unfold Env.text
    rw [hd, hn', Option.getD_some, Option.getD_some,
      elements_single (by simp) (by simp [h1, h2])]
    rfl

theorem dirs_names : ∀ p ∈ fixedDirs, IsName p.1 := by decide

theorem dirs_defaults : ∀ p ∈ fixedDirs, OneWord p.2.1 := by decide

/-- C133.  An installation directory the user gives (a value that does not read as
"no", as a variable, in the settings file or with `-D`) is the one used; a directory
not given is the documented one, provided no value reading as "no" is in the cache; in
both cases the short name has the same value.  The licence goes to a directory
with the name of the module inside the data directory (`.` on Windows).  Missing: a
licence directory left in the cache by another module of the same build; see
`C133_negation`. -/
theorem C133_directories_partial (win : Bool) (e : Env) :
    (∀ x d y v, (x, d, y) ∈ fixedDirs ∨
        (x, y) = (c!"MODULE_LICENSE_INSTALL_DIR", c!"LICENSE_INSTALL_DIR") →
      Given e x v → Listed v →
      (installPaths win e).get x = some v ∧ (installPaths win e).get y = some v) ∧
    (∀ x d y, (x, d, y) ∈ fixedDirs → Missing e x → e.cache x = none →
      (installPaths win e).get x = some d ∧ (installPaths win e).get y = some d) ∧
    (Missing e c!"MODULE_LICENSE_INSTALL_DIR" → e.cache c!"MODULE_LICENSE_INSTALL_DIR" = none →
      ∀ dd n, (installPaths win e).get c!"MODULE_DATA_INSTALL_DIR" = some dd → OneWord dd →
      e.get c!"MODULE_NAME" = some n → OneWord n →
      (installPaths win e).get c!"LICENSE_INSTALL_DIR" =
        some (if win then c!"." else dd ++ '/' :: n)) := by
  rw [installPaths_eq]
  refine ⟨?_, ?_, ?_⟩
  · intro x d y v hx hg hl
    rcases hx with hx | hx
    · have hn := dirs_names _ hx
      refine shortNames_get _ ?_ ?_ hl
      · simp only [fixedDirs, List.mem_cons, Prod.mk.injEq, List.not_mem_nil, or_false] at hx ⊢
        rcases hx with h | h | h | h <;> simp [h.1, h.2.2]
      · rw [settled_get win e (d := d), get_orCache_given d hn hg]
        simp only [fixedDirs, List.mem_cons, Prod.mk.injEq, List.not_mem_nil, or_false] at hx ⊢
        rcases hx with h | h | h | h <;> simp [h.1, h.2.1]
    · obtain ⟨rfl, rfl⟩ := Prod.mk.inj hx
      refine shortNames_get _ (by simp) ?_ hl
      obtain ⟨d', hd', -⟩ := settled_licence win e
      rw [hd', get_orCache_given d' (by decide) hg]
  · intro x d y hx hm hc
    have hn := dirs_names _ hx
    refine shortNames_get _ ?_ ?_ (listed_oneWord (dirs_defaults _ hx))
    · simp only [fixedDirs, List.mem_cons, Prod.mk.injEq, List.not_mem_nil, or_false] at hx ⊢
      rcases hx with h | h | h | h <;> simp [h.1, h.2.2]
    · rw [settled_get win e (d := d), get_orCache_missing d hn hm hc]
      simp only [fixedDirs, List.mem_cons, Prod.mk.injEq, List.not_mem_nil, or_false] at hx ⊢
      rcases hx with h | h | h | h <;> simp [h.1, h.2.1]
  · intro hm hc dd n hd h1 hn h2
    have hd' : (settled win e).get c!"MODULE_DATA_INSTALL_DIR" = some dd := by
      rw [← hd]
      unfold shortNames
      dsimp only
      iterate 5 rw [get_set_ne _ _ (by decide)]
    obtain ⟨d', hl, hw, hp⟩ := settled_licence win e
    rw [get_orCache_missing d' (by decide) hm hc] at hl
    have : d' = if win then c!"." else dd ++ '/' :: n := by
      cases win with
      | true => exact hw rfl
      | false => exact hp rfl dd n hd' hn h1.2 h2.2
    rw [← this]
    refine (shortNames_get _ (by simp) hl (listed_oneWord ?_)).2
    rw [this]
    cases win with
    | true => exact show OneWord c!"." by decide
    | false => exact ⟨by simp, by simp [h1.2, h2.2]⟩

/-- A module called `cpp_utils` whose settings file moves the libraries. -/
example : Given (((noEnv.put c!"MODULE_NAME" (some c!"cpp_utils")).put
      c!"MODULE_LIB_INSTALL_DIR" (some c!"lib64/"))) c!"MODULE_LIB_INSTALL_DIR" c!"lib64/" ∧
    (installPaths false ((noEnv.put c!"MODULE_NAME" (some c!"cpp_utils")).put
      c!"MODULE_LIB_INSTALL_DIR" (some c!"lib64/"))).get c!"LIB_INSTALL_DIR" = some c!"lib64/" ∧
    (installPaths false ((noEnv.put c!"MODULE_NAME" (some c!"cpp_utils")).put
      c!"MODULE_LIB_INSTALL_DIR" (some c!"lib64/"))).get c!"LICENSE_INSTALL_DIR" =
        some c!"share//cpp_utils" := by
  unfold Given Denies No
  decide

/-- The variables another module starts with after this one has been configured in the
same build: the cache stays, the normal variables are those of the new module. -/
def nextModule (e : Env) (name : Str) : Env :=
  { vars := fun x => if x = c!"MODULE_NAME" then some name else none, cache := e.cache }

theorem shortNames_cache (e : Env) : (shortNames e).cache = e.cache := by
  unfold shortNames
  dsimp only
  iterate 5 rw [set_cache]

theorem first_licence (a : Str) (ha : OneWord a) :
    (installPaths false (nextModule noEnv a)).cache c!"MODULE_LICENSE_INSTALL_DIR" =
      some ⟨c!"share//" ++ a, true⟩ := by
  have hnone : ∀ x, x ≠ c!"MODULE_NAME" → (nextModule noEnv a).get x = none := by
    intro x hx
    simp [nextModule, noEnv, Env.get, hx]
  have hdata : (settledFour (nextModule noEnv a)).get c!"MODULE_DATA_INSTALL_DIR" =
      some c!"share/" := by
    have h := settled_get false (nextModule noEnv a) (x := c!"MODULE_DATA_INSTALL_DIR")
      (d := c!"share/") (by simp)
    unfold settled at h
    rw [get_orCache_ne _ _ (by decide)] at h
    rw [h]
    refine get_orCache_missing _ (by decide) ?_ rfl
    intro v hv
    rw [hnone _ (by decide)] at hv
    cases hv
  have hname : (settledFour (nextModule noEnv a)).get c!"MODULE_NAME" = some a := by
    unfold settledFour
    dsimp only
    iterate 4 rw [get_orCache_ne _ _ (by decide)]
    simp [nextModule, Env.get]
  have hlic : (settledFour (nextModule noEnv a)).get c!"MODULE_LICENSE_INSTALL_DIR" = none := by
    unfold settledFour
    dsimp only
    iterate 4 rw [get_orCache_ne _ _ (by decide)]
    exact hnone _ (by decide)
  have hdef : licenceDefault false (settledFour (nextModule noEnv a)) = c!"share//" ++ a := by
    unfold licenceDefault Env.text
    rw [if_neg (by decide), hdata, hname, Option.getD_some, Option.getD_some,
      elements_single (by simp) (by simp [ha.2])]
    rfl
  have htruth : truth (settledFour (nextModule noEnv a)) c!"MODULE_LICENSE_INSTALL_DIR" = false := by
    refine truth_missing (by decide) ?_
    intro v hv
    rw [hlic] at hv
    cases hv
  rw [installPaths_eq, shortNames_cache]
  unfold settled Env.orCache
  rw [htruth, if_neg (by decide), hdef]
  unfold Env.setCache
  rw [cache_none_of_get _ _ hlic]
  simp

/-- C133 fails for the second of two modules configured in one build, as with
`add_subdirectory`: whatever its name, its licence is installed under the name of
the first. -/
theorem C133_negation (a b : Str) (ha : OneWord a) (hn : ¬ c!"-NOTFOUND" <:+ a) :
    (installPaths false (nextModule (installPaths false
      (nextModule noEnv a)) b)).get c!"LICENSE_INSTALL_DIR" = some (c!"share//" ++ a) := by
  have hc := first_licence a ha
  generalize installPaths false (nextModule noEnv a) = e at hc
  refine ((C133_directories_partial false (nextModule e b)).1 c!"MODULE_LICENSE_INSTALL_DIR" []
    c!"LICENSE_INSTALL_DIR" _ (Or.inr rfl) ⟨?_, ?_⟩ (listed_oneWord ⟨by simp, by simp [ha.2]⟩)).2
  · simp [nextModule, Env.get, hc]
  · rintro (h | h | h | h)
    · simp at h
    · have : '/' ∈ (c!"share//" ++ a).map Char.toUpper := by
        simp only [List.map_append, List.mem_append, List.mem_map]
        exact Or.inl ⟨'/', by decide, by decide⟩
      unfold No at h
      simp only [List.mem_cons, List.not_mem_nil, or_false] at h
      rcases h with h | h | h | h | h | h <;> rw [h] at this <;> exact absurd this (by decide)
    · simp at h
    · rcases List.suffix_or_suffix_of_suffix h (List.suffix_append c!"share//" a) with h' | ⟨t, ht⟩
      · exact hn h'
      · obtain ⟨s, hs⟩ := h
        rw [← ht, ← List.append_assoc] at hs
        have hst : s ++ t = c!"share//" := List.append_cancel_right hs
        cases t with
        | nil => exact hn ⟨[], by rw [← ht]; rfl⟩
        | cons c t =>
          have h1 : (s ++ c :: t).getLast? = some '/' := by rw [hst]; rfl
          have h3 : (c :: t).getLast? = some '/' := by
            rw [List.getLast?_append, List.getLast?_cons] at h1
            rw [List.getLast?_cons]
            exact h1
          have h2 : '/' ∈ c :: t ++ a := List.mem_append_left _ (List.mem_of_getLast? h3)
          rw [ht] at h2
          exact absurd h2 (by decide)

example : OneWord c!"cpp_utils" ∧ ¬ c!"-NOTFOUND" <:+ c!"cpp_utils" ∧
    (installPaths false (nextModule noEnv c!"ddspipe")).get c!"LICENSE_INSTALL_DIR" =
      some c!"share//ddspipe" := by decide

end Verif.CMake
