import Verif.Model.Pattern
import Mathlib.Data.List.Forall2
/-!
C121: patterns with wildcards.
-/
namespace Verif.Pattern

/-- Specification: a part of a pattern, as one writes it. -/
inductive Part
  /-- `*`: any text -/
  | star
  /-- `?`: any character -/
  | any
  /-- a character that is not special: itself -/
  | lit (c : Char)
  /-- `[abc]`: one of these characters -/
  | oneOf (cs : List Char)
  /-- `[!abc]`: any character but these -/
  | noneOf (cs : List Char)
  /-- `[a-z]`: a character from the first to the last -/
  | range (a b : Char)

/-- Specification: characters allowed inside brackets. -/
def Plain (c : Char) : Prop := c ∉ [']', '[', '-', '!', '^', '\x00']

def Part.Good : Part → Prop
  | .star | .any => True
  | .lit c => c ∉ ['*', '?', '[', '\x00']
  | .oneOf cs | .noneOf cs => cs ≠ [] ∧ ∀ c ∈ cs, Plain c
  | .range a b => Plain a ∧ Plain b

/-- Specification: how a part is written. -/
def Part.text : Part → Str
  | .star => c!"*"
  | .any => c!"?"
  | .lit c => [c]
  | .oneOf cs => c!"[" ++ cs ++ c!"]"
  | .noneOf cs => c!"[!" ++ cs ++ c!"]"
  | .range a b => ['[', a, '-', b, ']']

/-- Specification: the texts a part stands for. -/
def Part.Means : Part → Str → Prop
  | .star, _ => True
  | .any, t => ∃ c, t = [c]
  | .lit c, t => t = [c]
  | .oneOf cs, t => ∃ c ∈ cs, t = [c]
  | .noneOf cs, t => ∃ c, c ∉ cs ∧ t = [c]
  | .range a b, t => ∃ c, a.toNat ≤ c.toNat ∧ c.toNat ≤ b.toNat ∧ t = [c]

/-- The element of the model for a part. -/
def Part.elem : Part → Elem
  | .star => .star
  | .any => .any
  | .lit c => .lit c
  | .oneOf cs => .set false (cs.map fun c => (c, c))
  | .noneOf cs => .set true (cs.map fun c => (c, c))
  | .range a b => .set false [(a, b)]

theorem inside_plain (a : Char) (h : Plain a) (p : Str) (hp : p.head? ≠ some '-') (acc : List (Char × Char)) :
    inside (a :: p) acc = inside p ((a, a) :: acc) := by
  simp only [Plain, List.mem_cons, List.not_mem_nil, or_false, not_or] at h
  obtain ⟨h1, h2, h3, h4, h5, -⟩ := h
  rw [inside.eq_def]
  split <;> simp_all

theorem inside_range (a b : Char) (ha : Plain a) (hb : Plain b) (p : Str) (acc : List (Char × Char)) :
    inside (a :: '-' :: b :: p) acc = inside p ((a, b) :: acc) := by
  simp only [Plain, List.mem_cons, List.not_mem_nil, or_false, not_or] at ha hb
  obtain ⟨h1, h2, h3, h4, h5, -⟩ := ha
  obtain ⟨k1, k2, k3, k4, k5, -⟩ := hb
  rw [inside.eq_def]
  split <;> simp_all
  rename_i h e
  exact absurd e.2.symm (h b p)

theorem inside_list (cs : List Char) (h : ∀ c ∈ cs, Plain c) (p : Str) (acc : List (Char × Char)) (hne : cs ≠ [] ∨ acc ≠ []) :
    inside (cs ++ ']' :: p) acc = some (some (acc.reverse ++ cs.map fun c => (c, c), p)) := by
  induction cs generalizing acc with
  | nil =>
    have : acc ≠ [] := by simpa using hne
    simp [inside, this]
  | cons c cs ih =>
    have hd : (cs ++ ']' :: p).head? ≠ some '-' := by
      cases cs with
      | nil => simp
      | cons d ds =>
        have := h d (by simp)
        simp only [Plain, List.mem_cons, List.not_mem_nil, or_false, not_or] at this
        simpa using this.2.2.1
    rw [List.cons_append, inside_plain c (h c (by simp)) _ hd, ih (fun c hc => h c (by simp [hc])) _ (by simp)]
    simp

theorem text_len (q : Part) (h : q.Good) : 1 ≤ q.text.length := by
  cases q <;> simp [Part.text]

theorem parse_parts (qs : List Part) (h : ∀ q ∈ qs, q.Good) (k : Nat) (hk : (qs.flatMap Part.text).length ≤ k) :
    parse k (qs.flatMap Part.text) = some (qs.map Part.elem) := by
  induction qs generalizing k with
  | nil => cases k <;> rfl
  | cons q qs ih =>
    have hq := h q (by simp)
    have hl := text_len q hq
    simp only [List.flatMap_cons, List.length_append] at hk ⊢
    cases k with
    | zero => omega
    | succ k =>
      have ih := ih (fun q hq => h q (by simp [hq])) k (by omega)
      cases q with
      | star => simp [Part.text, Part.elem, parse, ih]
      | any => simp [Part.text, Part.elem, parse, ih]
      | lit c =>
        simp only [Part.Good, List.mem_cons, List.not_mem_nil, or_false, not_or] at hq
        obtain ⟨h1, h2, h3, -⟩ := hq
        simp only [Part.text, Part.elem, List.singleton_append, List.map_cons]
        rw [parse.eq_def]
        split <;> simp_all
      | oneOf cs =>
        obtain ⟨hne, hp⟩ := hq
        have hn : ¬ (cs ++ ']' :: qs.flatMap Part.text).head? = some '!' := by
          cases cs with
          | nil => exact absurd rfl hne
          | cons d ds =>
            have := hp d (by simp)
            simp only [Plain, List.mem_cons, List.not_mem_nil, or_false, not_or] at this
            simpa using this.2.2.2.1
        have e : Part.text (.oneOf cs) ++ qs.flatMap Part.text = '[' :: (cs ++ ']' :: qs.flatMap Part.text) := by
          simp [Part.text]
        rw [e]
        simp only [parse, hn, if_neg, decide_false, Bool.false_eq_true, not_false_eq_true]
        rw [inside_list cs hp _ [] (Or.inl hne)]
        simp [ih, Part.elem]
      | noneOf cs =>
        obtain ⟨hne, hp⟩ := hq
        have e : Part.text (.noneOf cs) ++ qs.flatMap Part.text = '[' :: '!' :: (cs ++ ']' :: qs.flatMap Part.text) := by
          simp [Part.text]
        rw [e]
        simp only [parse, List.head?_cons, decide_true, if_true, List.drop_succ_cons, List.drop_zero]
        rw [inside_list cs hp _ [] (Or.inl hne)]
        simp [ih, Part.elem]
      | range a b =>
        obtain ⟨ha, hb⟩ := hq
        have hn : ¬ a = '!' := by
          simp only [Plain, List.mem_cons, List.not_mem_nil, or_false, not_or] at ha
          exact ha.2.2.2.1
        have e : Part.text (.range a b) ++ qs.flatMap Part.text = '[' :: a :: '-' :: b :: (']' :: qs.flatMap Part.text) := by
          simp [Part.text]
        rw [e]
        simp only [parse, List.head?_cons, Option.some.injEq, hn, decide_false, Bool.false_eq_true, if_false]
        rw [inside_range a b ha hb]
        simp [inside, ih, Part.elem]

theorem within_single (cs : List Char) (c : Char) : within (cs.map fun c => (c, c)) c = true ↔ c ∈ cs := by
  simp only [within, List.any_map, List.any_eq_true, Function.comp, Bool.and_eq_true, decide_eq_true_eq]
  constructor
  · rintro ⟨d, hd, h1, h2⟩
    have : d = c := Char.le_antisymm h1 h2
    exact this ▸ hd
  · intro h
    exact ⟨c, h, Char.le_refl c, Char.le_refl c⟩

/-- One character for an element that takes one. -/
theorem go_one (q : Part) (hq : q ≠ .star) (es : List Elem) (s : Str) :
    go (q.elem :: es) s = true ↔ ∃ c s', s = c :: s' ∧ q.Means [c] ∧ go es s' = true := by
  have hb : ∀ b : Bool, (b != false) = b := by decide
  cases s with
  | nil => cases q <;> simp_all [Part.elem, go]
  | cons c s =>
    cases q with
    | star => exact absurd rfl hq
    | any => simp [Part.elem, go, Part.Means]
    | lit a =>
      simp only [Part.elem, go, Bool.and_eq_true, beq_iff_eq, Part.Means]
      constructor
      · rintro ⟨rfl, h⟩; exact ⟨_, s, rfl, rfl, h⟩
      · rintro ⟨d, s', e, h1, h2⟩; cases e; cases h1; exact ⟨rfl, h2⟩
    | oneOf cs =>
      simp only [Part.elem, go, Bool.and_eq_true, Part.Means, hb]
      rw [within_single]
      constructor
      · rintro ⟨h1, h2⟩; exact ⟨c, s, rfl, ⟨c, h1, rfl⟩, h2⟩
      · rintro ⟨d, s', e, ⟨f, h1, h2⟩, h3⟩; cases e; cases h2; exact ⟨h1, h3⟩
    | noneOf cs =>
      simp only [Part.elem, go, Bool.and_eq_true, Part.Means, bne_iff_ne, ne_eq]
      rw [within_single]
      constructor
      · rintro ⟨h1, h2⟩; exact ⟨c, s, rfl, ⟨c, h1, rfl⟩, h2⟩
      · rintro ⟨d, s', e, ⟨f, h1, h2⟩, h3⟩; cases e; cases h2; exact ⟨h1, h3⟩
    | range a b =>
      simp only [Part.elem, go, Bool.and_eq_true, Part.Means, hb, within, List.any_cons, List.any_nil, Bool.or_false,
        decide_eq_true_eq]
      constructor
      · rintro ⟨h1, h2⟩; exact ⟨c, s, rfl, ⟨c, h1.1, h1.2, rfl⟩, h2⟩
      · rintro ⟨d, s', e, ⟨f, h1, h1', h2⟩, h3⟩; cases e; cases h2; exact ⟨⟨h1, h1'⟩, h3⟩

theorem means_one (q : Part) (hq : q ≠ .star) (t : Str) (h : q.Means t) : ∃ c, t = [c] := by
  cases q with
  | star => exact absurd rfl hq
  | any => exact h
  | lit c => exact ⟨c, h⟩
  | oneOf cs => obtain ⟨c, -, h⟩ := h; exact ⟨c, h⟩
  | noneOf cs => obtain ⟨c, -, h⟩ := h; exact ⟨c, h⟩
  | range a b => obtain ⟨c, -, -, h⟩ := h; exact ⟨c, h⟩

theorem mem_rests (x s : Str) : x ∈ rests s ↔ ∃ t, t ++ x = s := by
  induction s with
  | nil =>
    simp only [rests, List.mem_singleton]
    constructor
    · rintro rfl; exact ⟨[], rfl⟩
    · rintro ⟨t, h⟩; exact (List.append_eq_nil_iff.1 h).2
  | cons c s ih =>
    rw [rests, List.mem_cons, ih]
    constructor
    · rintro (rfl | ⟨t, rfl⟩)
      · exact ⟨[], rfl⟩
      · exact ⟨c :: t, rfl⟩
    · rintro ⟨t, h⟩
      cases t with
      | nil => exact Or.inl h
      | cons d t => cases h; exact Or.inr ⟨t, rfl⟩

theorem go_parts (qs : List Part) (s : Str) :
    go (qs.map Part.elem) s = true ↔ ∃ ts : List Str, s = ts.flatten ∧ List.Forall₂ Part.Means qs ts := by
  induction qs generalizing s with
  | nil =>
    simp only [List.map_nil, go, List.isEmpty_iff]
    constructor
    · rintro rfl; exact ⟨[], rfl, .nil⟩
    · rintro ⟨ts, rfl, h⟩; cases h; rfl
  | cons q qs ih =>
    rw [List.map_cons]
    by_cases hq : q = .star
    · subst hq
      simp only [Part.elem, go, List.any_eq_true]
      constructor
      · rintro ⟨x, hx, hg⟩
        obtain ⟨ts, rfl, h⟩ := (ih x).1 hg
        obtain ⟨t, rfl⟩ := (mem_rests _ _).1 hx
        exact ⟨t :: ts, by simp, .cons trivial h⟩
      · rintro ⟨ts, rfl, h⟩
        cases h with
        | cons h1 h2 =>
          rename_i t ts
          exact ⟨ts.flatten, (mem_rests _ _).2 ⟨t, by simp⟩, (ih _).2 ⟨ts, rfl, h2⟩⟩
    · rw [go_one q hq]
      constructor
      · rintro ⟨c, s', rfl, h1, h2⟩
        obtain ⟨ts, rfl, h⟩ := (ih s').1 h2
        exact ⟨[c] :: ts, by simp, .cons h1 h⟩
      · rintro ⟨ts, rfl, h⟩
        cases h with
        | cons h1 h2 =>
          obtain ⟨c, rfl⟩ := means_one q hq _ h1
          rename_i ts
          exact ⟨c, ts.flatten, by simp, h1, (ih _).2 ⟨ts, rfl, h2⟩⟩

theorem cStr_self (s : Str) (h : '\x00' ∉ s) : cStr s = s := by
  unfold cStr
  induction s with
  | nil => rfl
  | cons c s ih =>
    have hc : c ≠ '\x00' := fun e => h (e ▸ List.mem_cons_self)
    rw [List.takeWhile_cons_of_pos (by simpa using hc), ih fun hm => h (List.mem_cons_of_mem _ hm)]

theorem text_noNull (q : Part) (h : q.Good) : '\x00' ∉ q.text := by
  cases q with
  | star | any => decide
  | lit c =>
    simp only [Part.Good, List.mem_cons, List.not_mem_nil, or_false, not_or] at h
    simpa [Part.text] using fun e => h.2.2.2 e.symm
  | oneOf cs | noneOf cs =>
    simp only [Part.text, List.mem_append, not_or]
    refine ⟨⟨by decide, fun hc => ?_⟩, by decide⟩
    have := h.2 _ hc
    simp [Plain] at this
  | range a b =>
    simp only [Part.Good, Plain, List.mem_cons, List.not_mem_nil, or_false, not_or] at h
    simp only [Part.text, List.mem_cons, List.not_mem_nil, or_false, not_or]
    exact ⟨by decide, fun e => h.1.2.2.2.2.2 e.symm, by decide, fun e => h.2.2.2.2.2.2 e.symm, by decide⟩

/-- C121, part: for texts without null characters a pattern matches exactly the texts that can be cut into pieces of which each is one that
the corresponding part of the pattern stands for. -/
theorem C121_match_partial (qs : List Part) (h : ∀ q ∈ qs, q.Good) (s : Str) (hs : '\x00' ∉ s) :
    (matchPattern (qs.flatMap Part.text) s = some true ↔
      ∃ ts : List Str, s = ts.flatten ∧ List.Forall₂ Part.Means qs ts) ∧
    (matchPattern (qs.flatMap Part.text) s).isSome = true := by
  have hn : '\x00' ∉ qs.flatMap Part.text := by
    intro hm
    obtain ⟨q, hq, hm⟩ := List.mem_flatMap.1 hm
    exact text_noNull q (h q hq) hm
  unfold matchPattern fnmatch
  rw [cStr_self _ hn, cStr_self s hs, parse_parts qs h _ (Nat.le_refl _)]
  refine ⟨?_, rfl⟩
  rw [← go_parts]
  simp

/-- A pattern without special characters matches only itself, also one with backslashes. -/
theorem C121_literal (p s : Str) (hp : ∀ c ∈ p, c ∉ ['*', '?', '[', '\x00']) (hs : '\x00' ∉ s) :
    matchPattern p s = some true ↔ s = p := by
  have e : p = (p.map Part.lit).flatMap Part.text := by
    clear hp
    induction p with
    | nil => rfl
    | cons c p ih => simp only [List.map_cons, List.flatMap_cons, Part.text, List.singleton_append]; rw [← ih]
  have key : ∀ (p : Str) (ts : List Str), List.Forall₂ Part.Means (p.map Part.lit) ts → ts.flatten = p := by
    intro p
    induction p with
    | nil => intro ts h; cases h; rfl
    | cons c p ih =>
      intro ts h
      rw [List.map_cons] at h
      cases h with
      | cons h1 h2 =>
        cases h1
        simp [ih _ h2]
  have hmem : ∀ (p : Str), List.Forall₂ Part.Means (p.map Part.lit) (p.map fun c => [c]) := by
    intro p
    induction p with
    | nil => exact .nil
    | cons c p ih => exact .cons rfl ih
  have hm := (C121_match_partial (p.map Part.lit) (by simpa [Part.Good] using hp) s hs).1
  rw [← e] at hm
  rw [hm]
  constructor
  · rintro ⟨ts, rfl, h⟩; exact key p ts h
  · rintro rfl
    refine ⟨s.map fun c => [c], ?_, hmem s⟩
    clear e hm hp hs
    induction s with
    | nil => rfl
    | cons c s ih => simp [← ih]

theorem inside_open (cs : List Char) (h : ∀ c ∈ cs, Plain c) (acc : List (Char × Char)) : inside cs acc = none := by
  induction cs generalizing acc with
  | nil => rfl
  | cons c cs ih =>
    have hd : cs.head? ≠ some '-' := by
      cases cs with
      | nil => simp
      | cons d ds =>
        have := h d (by simp)
        simp only [Plain, List.mem_cons, List.not_mem_nil, or_false, not_or] at this
        simpa using this.2.2.1
    rw [inside_plain c (h c (by simp)) _ hd, ih (fun c hc => h c (by simp [hc]))]

theorem parse_lits (p : Str) (hp : ∀ c ∈ p, c ∉ ['*', '?', '[', '\x00']) (k : Nat) (q : Str) (es : List Elem)
    (hq : parse k q = some es) : parse (p.length + k) (p ++ q) = some (p.map Elem.lit ++ es) := by
  induction p with
  | nil => simpa using hq
  | cons c p ih =>
    have hc := hp c (by simp)
    simp only [List.mem_cons, List.not_mem_nil, or_false, not_or] at hc
    obtain ⟨h1, h2, h3, -⟩ := hc
    have e : (c :: p).length + k = (p.length + k) + 1 := by rw [List.length_cons]; omega
    rw [e, List.cons_append, parse, ih fun c hc => hp c (by simp [hc])]
    · rfl
    all_goals simp_all

theorem go_lits (p s : Str) : go (p.map Elem.lit) s = true ↔ s = p := by
  induction p generalizing s with
  | nil => simp [go]
  | cons c p ih =>
    cases s with
    | nil => simp [go]
    | cons d s =>
      simp only [List.map_cons, go, Bool.and_eq_true, beq_iff_eq, ih, List.cons.injEq]
      exact ⟨fun ⟨a, b⟩ => ⟨a.symm, b⟩, fun ⟨a, b⟩ => ⟨a.symm, b⟩⟩

/-- A bracket that is not closed stands for itself. -/
theorem C121_open (a b s : Str) (ha : ∀ c ∈ a, c ∉ ['*', '?', '[', '\x00']) (hb : ∀ c ∈ b, c ∉ ['*', '?', '[', ']', '-', '!', '^', '\x00'])
    (hs : '\x00' ∉ s) : matchPattern (a ++ '[' :: b) s = some true ↔ s = a ++ '[' :: b := by
  have hb' : ∀ c ∈ b, c ∉ ['*', '?', '[', '\x00'] := by
    intro c hc; have := hb c hc; simp_all
  have hpl : ∀ c ∈ b, Plain c := by
    intro c hc; have := hb c hc; simp_all [Plain]
  have h0 : '\x00' ∉ a ++ '[' :: b := by
    simp only [List.mem_append, List.mem_cons, not_or]
    refine ⟨fun h => ?_, by decide, fun h => ?_⟩
    · exact absurd (ha _ h) (by decide)
    · exact absurd (hb _ h) (by decide)
  have hpb : parse b.length b = some (b.map Elem.lit) := by
    simpa using parse_lits b hb' 0 [] [] rfl
  have hneg : b.head? ≠ some '!' := by
    cases b with
    | nil => simp
    | cons d ds => have := hb d (by simp); simp_all
  have hp : parse (b.length + 1) ('[' :: b) = some (.lit '[' :: b.map Elem.lit) := by
    rw [parse]
    simp only [hneg, if_false, inside_open b hpl, hpb, Option.map_some]
  have := parse_lits a ha _ _ _ hp
  unfold matchPattern fnmatch
  rw [cStr_self _ h0, cStr_self s hs, List.length_append, List.length_cons, this]
  have e : a.map Elem.lit ++ .lit '[' :: b.map Elem.lit = (a ++ '[' :: b).map Elem.lit := by simp
  rw [e, Option.map_some, Option.some_inj]
  exact go_lits _ s

example : matchPattern c!"a[bc" c!"a[bc" = some true := (C121_open c!"a" c!"bc" _ (by decide) (by decide) (by decide)).2 rfl

/-- Text around a star: prefix and suffix. -/
theorem C121_star (a b s : Str) (ha : ∀ c ∈ a ++ b, c ∉ ['*', '?', '[', '\x00']) (hs : '\x00' ∉ s) :
    matchPattern (a ++ '*' :: b) s = some true ↔ ∃ t, s = a ++ t ++ b := by
  have e : ∀ p : Str, p = (p.map Part.lit).flatMap Part.text := by
    intro p
    induction p with
    | nil => rfl
    | cons c p ih => simp only [List.map_cons, List.flatMap_cons, Part.text, List.singleton_append]; rw [← ih]
  have key : ∀ (p : Str) (ts : List Str), List.Forall₂ Part.Means (p.map Part.lit) ts → ts.flatten = p := by
    intro p
    induction p with
    | nil => intro ts h; cases h; rfl
    | cons c p ih =>
      intro ts h
      rw [List.map_cons] at h
      cases h with
      | cons h1 h2 =>
        cases h1
        simp [ih _ h2]
  have hmem : ∀ (p : Str), List.Forall₂ Part.Means (p.map Part.lit) (p.map fun c => [c]) := by
    intro p
    induction p with
    | nil => exact .nil
    | cons c p ih => exact .cons rfl ih
  have eq : a ++ '*' :: b = (a.map Part.lit ++ .star :: b.map Part.lit).flatMap Part.text := by
    rw [List.flatMap_append, List.flatMap_cons, ← e a, ← e b]; rfl
  rw [eq, (C121_match_partial _ ?_ s hs).1]
  · constructor
    · rintro ⟨ts, rfl, h⟩
      obtain ⟨ts1, ts2, rfl, h1, h2⟩ : ∃ t1 t2, ts = t1 ++ t2 ∧ List.Forall₂ Part.Means (a.map Part.lit) t1 ∧
          List.Forall₂ Part.Means (.star :: b.map Part.lit) t2 := by
        clear ha hs eq
        induction a generalizing ts with
        | nil => exact ⟨[], ts, rfl, .nil, h⟩
        | cons c a ih =>
          rw [List.map_cons, List.cons_append] at h
          cases h with
          | cons h1 h2 =>
            obtain ⟨t1, t2, rfl, h3, h4⟩ := ih _ h2
            exact ⟨_ :: t1, t2, rfl, .cons h1 h3, h4⟩
      cases h2 with
      | cons h3 h4 =>
        rename_i t ts2
        exact ⟨t, by rw [List.flatten_append, List.flatten_cons, key a ts1 h1, key b ts2 h4]; simp⟩
    · rintro ⟨t, rfl⟩
      have hfl : ∀ p : Str, (p.map fun c => [c]).flatten = p := by
        intro p
        induction p with
        | nil => rfl
        | cons c p ih => simp [ih]
      refine ⟨a.map (fun c => [c]) ++ t :: b.map fun c => [c], ?_, ?_⟩
      · rw [List.flatten_append, List.flatten_cons, hfl, hfl]; simp
      · have : ∀ (x : List Part) (y : List Str) (x' : List Part) (y' : List Str), List.Forall₂ Part.Means x y →
            List.Forall₂ Part.Means x' y' → List.Forall₂ Part.Means (x ++ x') (y ++ y') := by
          intro x y x' y' h1 h2
          induction h1 with
          | nil => exact h2
          | cons h _ ih => exact .cons h ih
        exact this _ _ _ _ (hmem a) (.cons trivial (hmem b))
  · intro q hq
    rcases List.mem_append.1 hq with hq | hq
    · obtain ⟨c, hc, rfl⟩ := List.mem_map.1 hq
      exact ha c (by simp [hc])
    · rcases List.mem_cons.1 hq with rfl | hq
      · trivial
      · obtain ⟨c, hc, rfl⟩ := List.mem_map.1 hq
        exact ha c (by simp [hc])

example : matchPattern c!"rt/*_[0-9]?" c!"rt/cam/x_7b" = some true := by decide

example : matchPattern c!"a\\*b" c!"a\\xxb" = some true :=
  (C121_star c!"a\\" c!"b" _ (by decide) (by decide)).2 ⟨c!"xx", rfl⟩

/-- C121 does not hold: texts are compared only up to their first null character. -/
theorem C121_negation (p s x : Str) (hp : ∀ c ∈ p, c ∉ ['*', '?', '[', '\x00']) (h : s = p ++ '\x00' :: x) :
    matchPattern p s = some true ∧ s ≠ p := by
  have hn : '\x00' ∉ p := fun hm => absurd (hp _ hm) (by decide)
  have e : cStr s = p := by
    rw [h, cStr, List.takeWhile_append_of_pos]
    · simp
    · intro c hc
      have : c ≠ '\x00' := fun e => hn (e ▸ hc)
      simpa using this
  have h1 : matchPattern p p = some true := (C121_literal p p hp hn).2 rfl
  refine ⟨?_, ?_⟩
  · rw [← h1, matchPattern, e, matchPattern, cStr_self p hn]
  · rw [h]; intro e
    have := congrArg List.length e
    simp at this

end Verif.Pattern
