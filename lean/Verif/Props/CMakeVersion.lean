import Verif.Lemmas.CMake

/-!
C129: `read_version` and the version part of `configure_project`.
-/
namespace Verif.CMake

/-- A numeral: at least one character, all of them decimal digits. -/
def Numeral (s : Str) : Prop := s ≠ [] ∧ ∀ c ∈ s, c ∈ c!"0123456789"

/-- The file gives `key` the numeral `value`: at the first place where the key
and a blank stand, that numeral follows and ends. -/
def Gives (content key value : Str) : Prop :=
  ∃ x y, content = x ++ (key ++ ' ' :: (value ++ y)) ∧
    (∀ c, y.head? = some c → c ∉ c!"0123456789") ∧
    (∀ x' y', content = x' ++ (key ++ ' ' :: y') → x.length ≤ x'.length)

theorem isDigit_iff (c : Char) : isDigit c = true ↔ c ∈ c!"0123456789" := by
  have hc : ∀ d : Char, c = d ↔ c.toNat = d.toNat := by
    intro d
    constructor
    · intro h; rw [h]
    · intro h; exact Char.toNat_inj.1 h
  simp only [isDigit, Bool.and_eq_true, decide_eq_true_eq, List.mem_cons, List.not_mem_nil,
    or_false, hc, Char.le_def, UInt32.le_iff_toNat_le]
  simp only [Char.toNat]
  obtain ⟨n, hn⟩ : ∃ n, c.val.toNat = n := ⟨_, rfl⟩
  rw [hn]
  simp only [show '0'.val.toNat = 48 from rfl, show '1'.val.toNat = 49 from rfl,
    show '2'.val.toNat = 50 from rfl, show '3'.val.toNat = 51 from rfl,
    show '4'.val.toNat = 52 from rfl, show '5'.val.toNat = 53 from rfl,
    show '6'.val.toNat = 54 from rfl, show '7'.val.toNat = 55 from rfl,
    show '8'.val.toNat = 56 from rfl, show '9'.val.toNat = 57 from rfl]
  omega

theorem takeWhile_numeral : ∀ (v y : Str), (∀ c ∈ v, c ∈ c!"0123456789") →
    (∀ c, y.head? = some c → c ∉ c!"0123456789") → (v ++ y).takeWhile isDigit = v
  | [], [], _, _ => rfl
  | [], c :: y, _, h => by
    have : isDigit c = false := by
      rw [← Bool.not_eq_true, isDigit_iff]
      exact h c rfl
    simp [this]
  | c :: v, y, hv, h => by
    have : isDigit c = true := (isDigit_iff c).2 (hv c (by simp))
    simp only [List.cons_append, List.takeWhile_cons, this, if_true]
    rw [takeWhile_numeral v y (fun d hd => hv d (by simp [hd])) h]

theorem after_first (key : Str) (hk : key ≠ []) : ∀ (s x r : Str), s = x ++ (key ++ r) →
    (∀ x' r', s = x' ++ (key ++ r') → x.length ≤ x'.length) → after key s = some r
  | [], x, r, h, _ => by
    have : key = [] := by
      have := congrArg List.length h
      simp only [List.length_nil, List.length_append] at this
      exact List.eq_nil_of_length_eq_zero (by omega)
    exact absurd this hk
  | c :: s, x, r, h, hf => by
    unfold after
    by_cases hp : key.isPrefixOf (c :: s) = true
    · rw [if_pos hp]
      obtain ⟨t, ht⟩ := List.isPrefixOf_iff_prefix.1 hp
      have hx := hf [] t (by simpa using ht.symm)
      have hx : x = [] := List.eq_nil_of_length_eq_zero (by simpa using hx)
      rw [h, hx]
      simp
    · rw [if_neg hp]
      cases x with
      | nil =>
        exfalso
        apply hp
        rw [h]
        exact List.isPrefixOf_iff_prefix.2 ⟨r, by simp⟩
      | cons d x =>
        have hs : s = x ++ (key ++ r) := by
          have := (List.cons.inj h).2
          simpa using this
        exact after_first key hk s x r hs (fun x' r' hs' => by
          have := hf (c :: x') r' (by rw [hs']; rfl)
          simpa using this)

theorem matched_gives {content key value : Str} (hn : ∀ c ∈ value, c ∈ c!"0123456789")
    (h : Gives content key value) : matched key content = value := by
  obtain ⟨x, y, hc, hy, hf⟩ := h
  unfold matched
  rw [after_first (key ++ [' ']) (by simp) content x (value ++ y) (by simpa using hc)
    (fun x' r' h' => hf x' r' (by simpa using h'))]
  exact takeWhile_numeral value y hn hy

theorem numeral_plain {v : Str} (h : Numeral v) : elements v = [v] :=
  elements_single h.1 (fun hm => absurd (h.2 _ hm) (by decide))

/-- `after` finds nothing before the place where it stops: used to read `Gives`
off a given file. -/
theorem gives_of_after {content key value y : Str} (hk : key ≠ [])
    (h : after (key ++ [' ']) content = some (value ++ y))
    (hy : ∀ c, y.head? = some c → c ∉ c!"0123456789") : Gives content key value := by
  suffices hs : ∀ (s r : Str), after (key ++ [' ']) s = some r →
      ∃ x, s = x ++ ((key ++ [' ']) ++ r) ∧
        ∀ x' y', s = x' ++ ((key ++ [' ']) ++ y') → x.length ≤ x'.length by
    obtain ⟨x, hx, hf⟩ := hs content _ h
    exact ⟨x, y, by simpa using hx, hy, fun x' y' h' => hf x' y' (by simpa using h')⟩
  intro s
  induction s with
  | nil =>
    intro r hr
    simp [after] at hr
  | cons c s ih =>
    intro r hr
    unfold after at hr
    by_cases hp : (key ++ [' ']).isPrefixOf (c :: s) = true
    · rw [if_pos hp] at hr
      obtain ⟨t, ht⟩ := List.isPrefixOf_iff_prefix.1 hp
      refine ⟨[], ?_, fun _ _ _ => Nat.zero_le _⟩
      rw [← ht] at hr
      simp only [List.drop_left, Option.some.injEq] at hr
      rw [← ht, hr]
      rfl
    · rw [if_neg hp] at hr
      obtain ⟨x, hx, hf⟩ := ih r hr
      refine ⟨c :: x, by rw [hx]; rfl, fun x' y' h' => ?_⟩
      cases x' with
      | nil =>
        exfalso
        apply hp
        rw [h']
        exact List.isPrefixOf_iff_prefix.2 ⟨y', by simp⟩
      | cons d x' =>
        have := hf x' y' (by simpa using (List.cons.inj h').2)
        simpa using this

/-- The names `read_version` may change. -/
def versionNames : List Str :=
  [c!"MODULE_VERSION_MAJOR", c!"MODULE_VERSION_MINOR", c!"MODULE_VERSION_PATCH",
    c!"MODULE_VERSION", c!"MODULE_VERSION_STRING"]

/-- C129.  A file that gives the three numbers, wherever they stand and whatever
else it holds, is read exactly: the three variables get the three numerals,
`MODULE_VERSION` and `MODULE_VERSION_STRING` are made of them unless they have a
value already, and nothing else changes. -/
theorem C129_read (e : Env) (content a b c : Str) (hs : ';' ∉ content)
    (ha : Numeral a) (hb : Numeral b) (hc : Numeral c)
    (ga : Gives content c!"VERSION_MAJOR" a) (gb : Gives content c!"VERSION_MINOR" b)
    (gc : Gives content c!"VERSION_PATCH" c) :
    ∃ e', readVersion e content = some e' ∧
      e'.get c!"MODULE_VERSION_MAJOR" = some a ∧
      e'.get c!"MODULE_VERSION_MINOR" = some b ∧
      e'.get c!"MODULE_VERSION_PATCH" = some c ∧
      (e.get c!"MODULE_VERSION" = none →
        e'.get c!"MODULE_VERSION" = some (a ++ '.' :: b ++ '.' :: c)) ∧
      (∀ v, e.get c!"MODULE_VERSION" = some v → e'.get c!"MODULE_VERSION" = some v) ∧
      (e.get c!"MODULE_VERSION_STRING" = none →
        ∃ v, e'.get c!"MODULE_VERSION" = some v ∧
          e'.get c!"MODULE_VERSION_STRING" = some ('v' :: v)) ∧
      (∀ v, e.get c!"MODULE_VERSION_STRING" = some v →
        e'.get c!"MODULE_VERSION_STRING" = some v) ∧
      (∀ x, x ∉ versionNames → e'.get x = e.get x) := by
  have hcon : content ≠ [] := by
    obtain ⟨x, y, h, _⟩ := ga
    rw [h]
    simp
  have hin : (elements content).flatten = content := by
    rw [elements_single hcon hs]
    simp
  unfold readVersion
  simp only [hin, hcon, if_false]
  rw [matched_gives ha.2 ga, matched_gives hb.2 gb, matched_gives hc.2 gc, numeral_plain ha,
    numeral_plain hb, numeral_plain hc]
  obtain ⟨e3, he3⟩ : ∃ e3, ((e.set c!"MODULE_VERSION_MAJOR" [a]).set c!"MODULE_VERSION_MINOR"
    [b]).set c!"MODULE_VERSION_PATCH" [c] = e3 := ⟨_, rfl⟩
  have hM : e3.get c!"MODULE_VERSION_MAJOR" = some a := by
    rw [← he3, get_set_ne _ _ (by decide), get_set_ne _ _ (by decide), get_set_self _ _ _ (by simp)]
    rfl
  have hm : e3.get c!"MODULE_VERSION_MINOR" = some b := by
    rw [← he3, get_set_ne _ _ (by decide), get_set_self _ _ _ (by simp)]
    rfl
  have hp : e3.get c!"MODULE_VERSION_PATCH" = some c := by
    rw [← he3, get_set_self _ _ _ (by simp)]
    rfl
  have ho : ∀ x, x ≠ c!"MODULE_VERSION_MAJOR" → x ≠ c!"MODULE_VERSION_MINOR" →
      x ≠ c!"MODULE_VERSION_PATCH" → e3.get x = e.get x := by
    intro x h1 h2 h3
    rw [← he3, get_set_ne _ _ h3, get_set_ne _ _ h2, get_set_ne _ _ h1]
  rw [he3]
  have htext : e3.text c!"MODULE_VERSION_MAJOR" ++ '.' :: e3.text c!"MODULE_VERSION_MINOR" ++
      '.' :: e3.text c!"MODULE_VERSION_PATCH" = a ++ '.' :: b ++ '.' :: c := by
    simp only [Env.text, hM, hm, hp, Option.getD_some]
  have hplain : elements (a ++ '.' :: b ++ '.' :: c) = [a ++ '.' :: b ++ '.' :: c] := by
    apply elements_single
    · simp
    · have h1 : ';' ∉ a := fun h => absurd (ha.2 _ h) (by decide)
      have h2 : ';' ∉ b := fun h => absurd (hb.2 _ h) (by decide)
      have h3 : ';' ∉ c := fun h => absurd (hc.2 _ h) (by decide)
      simp only [List.mem_append, List.mem_cons, not_or]
      exact ⟨⟨h1, by decide, h2⟩, by decide, h3⟩
  rw [htext, hplain]
  obtain ⟨e4, he4⟩ : ∃ e4, e3.orSet c!"MODULE_VERSION" [a ++ '.' :: b ++ '.' :: c] = e4 :=
    ⟨_, rfl⟩
  rw [he4]
  have hV : ∃ v, e4.get c!"MODULE_VERSION" = some v := by
    rw [← he4]
    cases hv : e3.get c!"MODULE_VERSION" with
    | some v => exact ⟨v, get_orSet_keeps _ _ hv⟩
    | none => exact ⟨_, get_orSet_none _ hv (by simp)⟩
  have hb3 : e3.get c!"MODULE_VERSION" = e.get c!"MODULE_VERSION" :=
    ho _ (by decide) (by decide) (by decide)
  have hb4 : e4.get c!"MODULE_VERSION_STRING" = e.get c!"MODULE_VERSION_STRING" := by
    rw [← he4, get_orSet_ne _ _ (by decide), ho _ (by decide) (by decide) (by decide)]
  have h4 : ∀ x, x ≠ c!"MODULE_VERSION" → e4.get x = e3.get x := fun x hx => by
    rw [← he4, get_orSet_ne _ _ hx]
  refine ⟨_, rfl, ?_, ?_, ?_, ?_, ?_, ?_, ?_, ?_⟩
  · rw [get_orSet_ne _ _ (by decide), h4 _ (by decide), hM]
  · rw [get_orSet_ne _ _ (by decide), h4 _ (by decide), hm]
  · rw [get_orSet_ne _ _ (by decide), h4 _ (by decide), hp]
  · intro hv
    rw [get_orSet_ne _ _ (by decide), ← he4, get_orSet_none _ (hb3.trans hv) (by simp)]
    rfl
  · intro v hv
    rw [get_orSet_ne _ _ (by decide), ← he4, get_orSet_keeps _ _ (hb3.trans hv)]
  · intro hv
    obtain ⟨w, hw⟩ := hV
    refine ⟨w, ?_, ?_⟩
    · rw [get_orSet_ne _ _ (by decide), hw]
    · rw [get_orSet_none _ (hb4.trans hv) (by simp)]
      simp [joined, Env.text, hw]
  · intro v hv
    rw [get_orSet_keeps _ _ (hb4.trans hv)]
  · intro x hx
    simp only [versionNames, List.mem_cons, List.not_mem_nil, or_false, not_or] at hx
    rw [get_orSet_ne _ _ hx.2.2.2.2, h4 _ hx.2.2.2.1, ho _ hx.1 hx.2.1 hx.2.2.1]

/-- No variable at all. -/
def noEnv : Env := ⟨fun _ => none, fun _ => none⟩

/-- The file `/repo/VERSION`. -/
def versionFile : Str :=
  c!"VERSION_MAJOR 1\nVERSION_MINOR 5\nVERSION_PATCH 1\n"

example : Gives versionFile c!"VERSION_MAJOR" c!"1" ∧ Gives versionFile c!"VERSION_MINOR" c!"5" ∧
    Gives versionFile c!"VERSION_PATCH" c!"1" :=
  ⟨gives_of_after (y := c!"\nVERSION_MINOR 5\nVERSION_PATCH 1\n") (by decide) (by decide)
      (by decide),
    gives_of_after (y := c!"\nVERSION_PATCH 1\n") (by decide) (by decide) (by decide),
    gives_of_after (y := c!"\n") (by decide) (by decide) (by decide)⟩

example : (readVersion noEnv versionFile).map (fun e => e.get c!"MODULE_VERSION_STRING") =
    some (some c!"v1.5.1") := by decide

/-- C129.  `configure_project` takes all four variables from the file when none of
them is set, and leaves every variable alone when all four are.  Missing: a
project that sets some of the four, see `C129_negation`. -/
theorem C129_configured_partial (e : Env) (content a b c : Str) (hs : ';' ∉ content)
    (ha : Numeral a) (hb : Numeral b) (hc : Numeral c)
    (ga : Gives content c!"VERSION_MAJOR" a) (gb : Gives content c!"VERSION_MINOR" b)
    (gc : Gives content c!"VERSION_PATCH" c) :
    ((∀ x ∈ [c!"MODULE_VERSION_MAJOR", c!"MODULE_VERSION_MINOR", c!"MODULE_VERSION_PATCH",
          c!"MODULE_VERSION"], e.get x = none) →
      ∃ e', configureVersion e content = some e' ∧
        e'.get c!"MODULE_VERSION_MAJOR" = some a ∧ e'.get c!"MODULE_VERSION_MINOR" = some b ∧
        e'.get c!"MODULE_VERSION_PATCH" = some c ∧
        e'.get c!"MODULE_VERSION" = some (a ++ '.' :: b ++ '.' :: c)) ∧
    ((∀ x ∈ [c!"MODULE_VERSION_MAJOR", c!"MODULE_VERSION_MINOR", c!"MODULE_VERSION_PATCH",
          c!"MODULE_VERSION"], ∃ v, e.get x = some v) →
      configureVersion e content = some e) := by
  constructor
  · intro h
    obtain ⟨e', he', h1, h2, h3, h4, -⟩ := C129_read e content a b c hs ha hb hc ga gb gc
    refine ⟨e', ?_, h1, h2, h3, h4 (h _ (by simp))⟩
    unfold configureVersion
    rw [if_neg, he']
    rw [h c!"MODULE_VERSION_MAJOR" (by simp)]
    simp
  · intro h
    obtain ⟨v1, h1⟩ := h c!"MODULE_VERSION_MAJOR" (by simp)
    obtain ⟨v2, h2⟩ := h c!"MODULE_VERSION_MINOR" (by simp)
    obtain ⟨v3, h3⟩ := h c!"MODULE_VERSION_PATCH" (by simp)
    obtain ⟨v4, h4⟩ := h c!"MODULE_VERSION" (by simp)
    unfold configureVersion
    rw [h1, h2, h3, h4]
    simp

example : ∀ x ∈ [c!"MODULE_VERSION_MAJOR", c!"MODULE_VERSION_MINOR", c!"MODULE_VERSION_PATCH",
    c!"MODULE_VERSION"], noEnv.get x = none := by decide

/-- A settings file with the three numbers of a version 2.0.0. -/
def threeNumbers : Env :=
  ((noEnv.put c!"MODULE_VERSION_MAJOR" (some c!"2")).put c!"MODULE_VERSION_MINOR"
    (some c!"0")).put c!"MODULE_VERSION_PATCH" (some c!"0")

/-- A settings file with `MODULE_VERSION` only. -/
def onlyVersion : Env := noEnv.put c!"MODULE_VERSION" (some c!"2.0.0")

/-- C129 fails when a project sets some of the four variables: three numbers set in
the settings are replaced by those of the file, and a version set alone is
combined with the numbers of another version. -/
theorem C129_negation :
    ((configureVersion threeNumbers versionFile).map fun e =>
        (e.get c!"MODULE_VERSION_MAJOR", e.get c!"MODULE_VERSION")) =
      some (some c!"1", some c!"1.5.1") ∧
    ((configureVersion onlyVersion versionFile).map fun e =>
        (e.get c!"MODULE_VERSION_MAJOR", e.get c!"MODULE_VERSION")) =
      some (some c!"1", some c!"2.0.0") := by
  decide

theorem after_none (key : Str) (hk : key ≠ []) : ∀ (s : Str), ¬ key <:+: s → after key s = none
  | [], _ => by simp [after, hk]
  | c :: s, h => by
    unfold after
    rw [if_neg (fun hp => h (List.isPrefixOf_iff_prefix.1 hp).isInfix)]
    exact after_none key hk s (fun h' => h (h'.trans (List.infix_cons (List.infix_refl s))))

/-- C129 for a file that is not of the documented form: without the line of the third
number, or with a tab instead of the blank, nothing is reported.  The variable stays
undefined and the version ends with a point. -/
theorem C129_negation_missing (e : Env) (content a b : Str) (hs : ';' ∉ content)
    (ha : Numeral a) (hb : Numeral b)
    (ga : Gives content c!"VERSION_MAJOR" a) (gb : Gives content c!"VERSION_MINOR" b)
    (gc : ¬ c!"VERSION_PATCH " <:+: content)
    (h0 : ∀ x ∈ versionNames, e.get x = none) :
    ∃ e', configureVersion e content = some e' ∧
      e'.get c!"MODULE_VERSION_PATCH" = none ∧
      e'.get c!"MODULE_VERSION" = some (a ++ '.' :: b ++ c!".") ∧
      e'.get c!"MODULE_VERSION_STRING" = some ('v' :: a ++ '.' :: b ++ c!".") := by
  have hcon : content ≠ [] := by
    obtain ⟨x, y, h, _⟩ := ga
    rw [h]
    simp
  have hin : (elements content).flatten = content := by
    rw [elements_single hcon hs]
    simp
  have hm : matched c!"VERSION_PATCH" content = [] := by
    unfold matched
    rw [after_none (c!"VERSION_PATCH" ++ [' ']) (by decide) content gc]
  have hP : e.get c!"MODULE_VERSION_PATCH" = none := h0 _ (by decide)
  have hV : e.get c!"MODULE_VERSION" = none := h0 _ (by decide)
  have hS : e.get c!"MODULE_VERSION_STRING" = none := h0 _ (by decide)
  unfold configureVersion readVersion
  rw [if_neg (by simp [hP])]
  simp only [hin, hcon, if_false]
  rw [matched_gives ha.2 ga, matched_gives hb.2 gb, hm, numeral_plain ha, numeral_plain hb,
    elements_nil]
  obtain ⟨e3, he3⟩ : ∃ e3, ((e.set c!"MODULE_VERSION_MAJOR" [a]).set c!"MODULE_VERSION_MINOR"
    [b]).set c!"MODULE_VERSION_PATCH" [] = e3 := ⟨_, rfl⟩
  have h1 : e3.get c!"MODULE_VERSION_MAJOR" = some a := by
    rw [← he3, get_set_ne _ _ (by decide), get_set_ne _ _ (by decide), get_set_self _ _ _ (by simp)]
    rfl
  have h2 : e3.get c!"MODULE_VERSION_MINOR" = some b := by
    rw [← he3, get_set_ne _ _ (by decide), get_set_self _ _ _ (by simp)]
    rfl
  have h3 : e3.get c!"MODULE_VERSION_PATCH" = none := by
    rw [← he3, get_set_none]
    rw [get_set_ne _ _ (by decide), get_set_ne _ _ (by decide), hP]
  have ho : ∀ x, x ≠ c!"MODULE_VERSION_MAJOR" → x ≠ c!"MODULE_VERSION_MINOR" →
      x ≠ c!"MODULE_VERSION_PATCH" → e3.get x = e.get x := by
    intro x h1 h2 h3
    rw [← he3, get_set_ne _ _ h3, get_set_ne _ _ h2, get_set_ne _ _ h1]
  rw [he3]
  have htext : e3.text c!"MODULE_VERSION_MAJOR" ++ '.' :: e3.text c!"MODULE_VERSION_MINOR" ++
      '.' :: e3.text c!"MODULE_VERSION_PATCH" = a ++ '.' :: b ++ c!"." := by
    simp only [Env.text, h1, h2, h3, Option.getD_some, Option.getD_none]
  have hplain : elements (a ++ '.' :: b ++ c!".") = [a ++ '.' :: b ++ c!"."] := by
    apply elements_single
    · simp
    · have h1 : ';' ∉ a := fun h => absurd (ha.2 _ h) (by decide)
      have h2 : ';' ∉ b := fun h => absurd (hb.2 _ h) (by decide)
      simp only [List.mem_append, List.mem_cons, not_or]
      exact ⟨⟨h1, by decide, h2⟩, by decide, by simp⟩
  rw [htext, hplain]
  have hv3 : e3.get c!"MODULE_VERSION" = none := by
    rw [ho _ (by decide) (by decide) (by decide), hV]
  have hs3 : e3.get c!"MODULE_VERSION_STRING" = none := by
    rw [ho _ (by decide) (by decide) (by decide), hS]
  refine ⟨_, rfl, ?_, ?_, ?_⟩
  · rw [get_orSet_ne _ _ (by decide), get_orSet_ne _ _ (by decide), h3]
  · rw [get_orSet_ne _ _ (by decide), get_orSet_none _ hv3 (by simp)]
    rfl
  · have hv4 := get_orSet_none e3 hv3 (l := [a ++ '.' :: b ++ c!"."]) (by simp)
    rw [get_orSet_none _ (by rw [get_orSet_ne _ _ (by decide), hs3]) (by simp)]
    unfold Env.text
    rw [hv4]
    simp [joined]

/-- A file with a tab after `VERSION_PATCH`. -/
def tabFile : Str := c!"VERSION_MAJOR 1\nVERSION_MINOR 5\nVERSION_PATCH\t1\n"

example : Gives tabFile c!"VERSION_MAJOR" c!"1" ∧ Gives tabFile c!"VERSION_MINOR" c!"5" ∧
    ¬ c!"VERSION_PATCH " <:+: tabFile :=
  ⟨gives_of_after (y := c!"\nVERSION_MINOR 5\nVERSION_PATCH\t1\n") (by decide) (by decide)
      (by decide),
    gives_of_after (y := c!"\nVERSION_PATCH\t1\n") (by decide) (by decide) (by decide),
    by decide⟩

end Verif.CMake
