import Verif.Model.EnumGen
import Verif.Props.NumFormat
import Verif.Props.Builder
import Mathlib.Data.List.Forall2
/-!
C102-C104: the generator of enumerations.
-/
namespace Verif.EnumGen

open NumFormat (IsDecimal natToDec natToDec_spec)

/-! ### replacing placeholders -/

/-- Replace the placeholder `k` by `v`. -/
def sub (k v : Str) (t : List Seg) : List Seg :=
  t.map fun x => match x with
    | .lit s => .lit s
    | .hole k' => if k' = k then .lit v else .hole k'

/-- A character that appears in no name of a placeholder. -/
def foreign (c : Char) : Bool := !(('a' ≤ c && c ≤ 'z') || c = '_')

def keyOk (k : Str) : Bool := k.all fun c => !foreign c

/-- Something foreign stands before the next placeholder. -/
def sepBefore : List Seg → Bool
  | [] => true
  | .hole _ :: _ => false
  | .lit s :: r => s.any foreign || sepBefore r

/-- The pieces of a template cannot be mistaken. -/
def wf : List Seg → Bool
  | [] => true
  | .lit s :: r => !s.contains '%' && wf r
  | .hole k :: r => keyOk k && sepBefore r && wf r

theorem keyOk_percent {k : Str} (h : keyOk k = true) : '%' ∉ k := by
  intro hm
  have := List.all_eq_true.1 h _ hm
  revert this; decide

theorem wf_lit {s : Str} {r : List Seg} (h : wf (.lit s :: r) = true) : '%' ∉ s ∧ wf r = true := by
  simp only [wf, Bool.and_eq_true, Bool.not_eq_true', List.contains_eq_mem, decide_eq_false_iff_not] at h
  exact h

theorem wf_hole {k : Str} {r : List Seg} (h : wf (.hole k :: r) = true) :
    keyOk k = true ∧ sepBefore r = true ∧ wf r = true := by
  simp only [wf, Bool.and_eq_true] at h
  exact ⟨h.1.1, h.1.2, h.2⟩

theorem flat_lit (s : Str) (r : List Seg) : flat (.lit s :: r) = s ++ flat r := by
  simp [flat, Seg.text]

theorem flat_hole (k : Str) (r : List Seg) : flat (.hole k :: r) = '%' :: (k ++ '%' :: flat r) := by
  simp [flat, Seg.text]

/-- No name of a placeholder, with its closing sign, starts the text after a placeholder. -/
theorem no_key {r : List Seg} (h : wf r = true) (hs : sepBefore r = true) {k : Str} (hk : keyOk k = true) :
    ¬ (k ++ ['%']) <+: flat r := by
  induction r generalizing k with
  | nil => simp [flat]
  | cons x r ih =>
    cases x with
    | hole k' => simp [sepBefore] at hs
    | lit s =>
      obtain ⟨hp, hr⟩ := wf_lit h
      rw [flat_lit]
      intro hpre
      obtain ⟨t, ht⟩ := hpre
      rw [List.append_assoc, List.append_eq_append_iff] at ht
      rcases ht with ⟨u, hu1, hu2⟩ | ⟨u, hu1, hu2⟩
      · -- the name is shorter than the literal
        cases u with
        | nil =>
          simp only [List.append_nil] at hu1
          subst hu1
          have hs' : sepBefore r = true := by
            simp only [sepBefore, Bool.or_eq_true] at hs
            rcases hs with hs | hs
            · obtain ⟨c, hc, hf⟩ := List.any_eq_true.1 hs
              have := List.all_eq_true.1 hk c hc
              simp [hf] at this
            · exact hs
          refine ih hr hs' (k := []) rfl ?_
          simp only [List.nil_append] at hu2 ⊢
          exact ⟨t, hu2⟩
        | cons c u =>
          simp only [List.singleton_append, List.cons_append, List.cons.injEq] at hu2
          exact hp (by rw [hu1, ← hu2.1]; simp)
      · -- the literal is a part of the name
        have hs' : sepBefore r = true := by
          simp only [sepBefore, Bool.or_eq_true] at hs
          rcases hs with hs | hs
          · obtain ⟨c, hc, hf⟩ := List.any_eq_true.1 hs
            have := List.all_eq_true.1 hk c (by rw [hu1]; exact List.mem_append_left _ hc)
            simp [hf] at this
          · exact hs
        have hk' : keyOk u = true := by
          rw [hu1] at hk
          simp only [keyOk, List.all_append, Bool.and_eq_true] at hk ⊢
          exact hk.2
        refine ih hr hs' hk' ⟨t, ?_⟩
        rw [List.append_assoc]; exact hu2.symm

theorem go_clean (pat rep s t : Str) (c0 : Char) (hp : pat.head? = some c0) (hs : c0 ∉ s) :
    replaceGo pat rep 0 (s ++ t) = s ++ replaceGo pat rep 0 t := by
  induction s with
  | nil => rfl
  | cons c s ih =>
    have h1 : pat.isPrefixOf (c :: (s ++ t)) = false := by
      cases pat with
      | nil => simp at hp
      | cons p ps =>
        simp only [List.head?_cons, Option.some.injEq] at hp
        subst hp
        have : p ≠ c := fun e => hs (by simp [e])
        simp [List.isPrefixOf, this]
    simp only [List.cons_append, replaceGo, h1, Bool.false_eq_true, if_false]
    rw [ih (fun h => hs (List.mem_cons_of_mem _ h))]

theorem go_skip (pat rep s t : Str) : replaceGo pat rep s.length (s ++ t) = replaceGo pat rep 0 t := by
  induction s with
  | nil => rfl
  | cons c s ih => simpa [replaceGo] using ih

theorem key_eq {k k' : Str} (hk : '%' ∉ k) (hk' : '%' ∉ k') {t : Str}
    (h : (k ++ ['%']) <+: k' ++ '%' :: t) : k = k' := by
  induction k generalizing k' with
  | nil =>
    cases k' with
    | nil => rfl
    | cons c k' =>
      obtain ⟨u, hu⟩ := h
      simp only [List.nil_append, List.cons_append, List.singleton_append, List.cons.injEq] at hu
      exact absurd (by rw [← hu.1]; simp) hk'
  | cons c k ih =>
    cases k' with
    | nil =>
      obtain ⟨u, hu⟩ := h
      simp only [List.nil_append, List.cons_append, List.cons.injEq] at hu
      exact absurd (by rw [hu.1]; simp) hk
    | cons c' k' =>
      obtain ⟨u, hu⟩ := h
      simp only [List.cons_append, List.cons.injEq] at hu
      rw [hu.1, ih (fun h => hk (List.mem_cons_of_mem _ h)) (fun h => hk' (List.mem_cons_of_mem _ h))
        ⟨u, hu.2⟩]

/-- One `replace` on the text of a template replaces exactly that placeholder. -/
theorem replace_flat {t : List Seg} (h : wf t = true) {k v : Str} (hk : keyOk k = true) :
    replaceInText (flat t) k v = flat (sub k v t) := by
  unfold replaceInText
  have hkp := keyOk_percent hk
  induction t with
  | nil => simp [flat, sub, replaceGo]
  | cons x r ih =>
    cases x with
    | lit s =>
      obtain ⟨hp, hr⟩ := wf_lit h
      rw [flat_lit, go_clean _ _ _ _ '%' rfl hp, ih hr]
      simp [sub, flat, Seg.text]
    | hole k' =>
      obtain ⟨hk', hs, hr⟩ := wf_hole h
      have hkp' := keyOk_percent hk'
      rw [flat_hole]
      by_cases e : k' = k
      · subst e
        have h1 : ('%' :: (k' ++ ['%'])).isPrefixOf ('%' :: (k' ++ '%' :: flat r)) = true := by
          rw [List.isPrefixOf_iff_prefix]
          exact ⟨flat r, by simp⟩
        have h2 := go_skip ('%' :: (k' ++ ['%'])) v (k' ++ ['%']) (flat r)
        simp only [replaceGo, h1, if_true, List.length_cons, Nat.add_sub_cancel]
        rw [show k' ++ '%' :: flat r = (k' ++ ['%']) ++ flat r by simp, h2, ih hr]
        simp [sub, flat, Seg.text]
      · have h1 : ('%' :: (k ++ ['%'])).isPrefixOf ('%' :: (k' ++ '%' :: flat r)) = false := by
          rw [Bool.eq_false_iff, ne_eq, List.isPrefixOf_iff_prefix]
          intro hpre
          obtain ⟨u, hu⟩ := hpre
          simp only [List.cons_append, List.cons.injEq, true_and] at hu
          exact e (key_eq hkp hkp' ⟨u, hu⟩).symm
        have h2 : ('%' :: (k ++ ['%'])).isPrefixOf ('%' :: flat r) = false := by
          rw [Bool.eq_false_iff, ne_eq, List.isPrefixOf_iff_prefix]
          intro hpre
          obtain ⟨u, hu⟩ := hpre
          simp only [List.cons_append, List.cons.injEq, true_and] at hu
          exact no_key hr hs hk ⟨u, hu⟩
        rw [replaceGo, if_neg (by simp [h1]), go_clean _ _ _ _ '%' rfl hkp', replaceGo,
          if_neg (by simp [h2]), ih hr]
        simp [sub, flat, Seg.text, e]

theorem sub_sep {k v : Str} {t : List Seg} (h : sepBefore t = true) : sepBefore (sub k v t) = true := by
  induction t with
  | nil => rfl
  | cons x r ih =>
    cases x with
    | hole k' => simp [sepBefore] at h
    | lit s =>
      simp only [sepBefore, Bool.or_eq_true] at h
      simp only [sub, List.map_cons, sepBefore, Bool.or_eq_true]
      exact h.imp id ih

theorem sub_wf {k v : Str} {t : List Seg} (hv : '%' ∉ v) (h : wf t = true) : wf (sub k v t) = true := by
  induction t with
  | nil => rfl
  | cons x r ih =>
    cases x with
    | lit s =>
      obtain ⟨hp, hr⟩ := wf_lit h
      simp only [sub, List.map_cons, wf, Bool.and_eq_true, Bool.not_eq_true', List.contains_eq_mem,
        decide_eq_false_iff_not]
      exact ⟨hp, ih hr⟩
    | hole k' =>
      obtain ⟨hk', hs, hr⟩ := wf_hole h
      by_cases e : k' = k
      · simp only [sub, List.map_cons, e, if_true, wf, Bool.and_eq_true, Bool.not_eq_true',
          List.contains_eq_mem, decide_eq_false_iff_not]
        exact ⟨hv, ih hr⟩
      · simp only [sub, List.map_cons, e, if_false, wf, Bool.and_eq_true]
        exact ⟨⟨hk', sub_sep hs⟩, ih hr⟩

/-- A sequence of replacements. -/
theorem replace_all_flat (kvs : List (Str × Str)) {t : List Seg} (h : wf t = true)
    (hk : ∀ x ∈ kvs, keyOk x.1 = true ∧ '%' ∉ x.2) :
    kvs.foldl (fun text x => replaceInText text x.1 x.2) (flat t) =
      flat (kvs.foldl (fun t x => sub x.1 x.2 t) t) := by
  induction kvs generalizing t with
  | nil => rfl
  | cons x kvs ih =>
    rw [List.foldl_cons, List.foldl_cons, replace_flat h (hk x (by simp)).1]
    exact ih (sub_wf (hk x (by simp)).2 h) fun y hy => hk y (by simp [hy])

/-- What the script puts in the place of each placeholder. -/
def pairs (i : Input) : List (Str × Str) := [
  (c!"year", i.year), (c!"output_file", fileName i.outputFile), (c!"command", i.command),
  (c!"start_namespace", join c!"\n" (i.namespaces.map fun x => c!"namespace " ++ x ++ c!" {")),
  (c!"end_namespace",
    join c!"\n" (i.namespaces.reverse.map fun x => c!"} /* namespace " ++ x ++ c!" */")),
  (c!"enum_name", i.name), (c!"values", join c!",\n" (i.values.map fun x => c!"    " ++ x)),
  (c!"quotes_values", join c!",\n" (i.values.map fun x => c!"    \"" ++ x ++ c!"\"")),
  (c!"n_values", natToDec i.values.length)]

theorem generate_fold (t : Str) (i : Input) :
    generate t i = (pairs i).foldl (fun text x => replaceInText text x.1 x.2) t := rfl

theorem join_mem {c : Char} {sep : Str} {xs : List Str} (h : c ∈ join sep xs) : c ∈ sep ∨ ∃ x ∈ xs, c ∈ x := by
  induction xs with
  | nil => simp [join] at h
  | cons x xs ih =>
    cases xs with
    | nil => exact .inr ⟨x, by simp, h⟩
    | cons y ys =>
      simp only [join, List.mem_append] at h
      rcases h with (h | h) | h
      · exact .inr ⟨x, by simp, h⟩
      · exact .inl h
      · rcases ih h with h | ⟨z, hz, h⟩
        · exact .inl h
        · exact .inr ⟨z, by simp [hz], h⟩

theorem strip_mem {c : Char} {s : Str} (h : c ∈ strip s) : c ∈ s := by
  simp only [strip, List.mem_reverse] at h
  exact (List.dropWhile_sublist _).mem (List.mem_reverse.1 ((List.dropWhile_sublist _).mem h))

theorem splitChar_mem {c sep : Char} {s x : Str} (hx : x ∈ splitChar sep s) (h : c ∈ x) : c ∈ s := by
  induction s generalizing x with
  | nil => simp [splitChar] at hx; subst hx; simp at h
  | cons a s ih =>
    unfold splitChar at hx
    split at hx
    · rcases List.mem_cons.1 hx with rfl | hx
      · simp at h
      · exact List.mem_cons_of_mem _ (ih hx h)
    · split at hx
      · rename_i hh
        simp only [List.mem_singleton] at hx
        subst hx
        simp at h; simp [h]
      · rename_i p ps hh
        rcases List.mem_cons.1 hx with rfl | hx
        · rcases List.mem_cons.1 h with rfl | h
          · simp
          · exact List.mem_cons_of_mem _ (ih (by rw [hh]; simp) h)
        · exact List.mem_cons_of_mem _ (ih (by rw [hh]; simp [hx]) h)

theorem last_mem {c sep : Char} {s : Str} (h : c ∈ (splitChar sep s).getLast?.getD []) : c ∈ s := by
  cases hl : (splitChar sep s).getLast? with
  | none => simp [hl] at h
  | some x =>
    rw [hl] at h
    exact splitChar_mem (List.mem_of_getLast? hl) h

theorem fileName_mem {c : Char} {p : Str} (h : c ∈ fileName p) : c ∈ p :=
  last_mem (last_mem (strip_mem h))

theorem digits_no_percent (n : Nat) : '%' ∉ natToDec n := by
  intro h
  have := (natToDec_spec n).1.1 _ h
  revert this; decide

/-- The inputs contain no `%`. -/
def Input.Clean (i : Input) : Prop :=
  '%' ∉ i.year ∧ '%' ∉ i.outputFile ∧ '%' ∉ i.command ∧ (∀ x ∈ i.namespaces, '%' ∉ x) ∧ '%' ∉ i.name ∧
    ∀ x ∈ i.values, '%' ∉ x

theorem pairs_ok {i : Input} (h : i.Clean) : ∀ x ∈ pairs i, keyOk x.1 = true ∧ '%' ∉ x.2 := by
  obtain ⟨h1, h2, h3, h4, h5, h6⟩ := h
  intro x hx
  simp only [pairs, List.mem_cons, List.not_mem_nil, or_false] at hx
  have key : ∀ (xs : List Str) (a b sep : Str), (∀ y ∈ xs, '%' ∉ y) → '%' ∉ a → '%' ∉ b → '%' ∉ sep →
      '%' ∉ join sep (xs.map fun y => a ++ y ++ b) := by
    intro xs a b sep hy ha hb hs hm
    rcases join_mem hm with hm | ⟨z, hz, hm⟩
    · exact hs hm
    · obtain ⟨y, hy', rfl⟩ := List.mem_map.1 hz
      simp only [List.mem_append] at hm
      rcases hm with (hm | hm) | hm
      · exact ha hm
      · exact hy y hy' hm
      · exact hb hm
  rcases hx with rfl | rfl | rfl | rfl | rfl | rfl | rfl | rfl | rfl
  · exact ⟨rfl, h1⟩
  · exact ⟨rfl, fun h => h2 (fileName_mem h)⟩
  · exact ⟨rfl, h3⟩
  · exact ⟨rfl, key _ _ _ _ h4 (by decide) (by decide) (by decide)⟩
  · exact ⟨rfl, key _ _ _ _ (fun y hy => h4 y (List.mem_reverse.1 hy)) (by decide) (by decide) (by decide)⟩
  · exact ⟨rfl, h5⟩
  · refine ⟨rfl, ?_⟩
    have := key i.values c!"    " [] c!",\n" h6 (by decide) (by decide) (by decide)
    simpa using this
  · exact ⟨rfl, key _ _ _ _ h6 (by decide) (by decide) (by decide)⟩
  · exact ⟨rfl, digits_no_percent _⟩

theorem template_wf : wf template = true := by decide +kernel

/-- The text of a piece when some placeholders are known. -/
def known (kvs : List (Str × Str)) : Seg → Str
  | .lit s => s
  | .hole k => match kvs.find? (fun x => x.1 = k) with
    | some x => x.2
    | none => '%' :: (k ++ ['%'])

theorem flat_fold (kvs : List (Str × Str)) (t : List Seg) :
    flat (kvs.foldl (fun t x => sub x.1 x.2 t) t) = t.flatMap (known kvs) := by
  induction kvs generalizing t with
  | nil =>
    simp only [List.foldl_nil, flat]
    congr 1
  | cons y kvs ih =>
    rw [List.foldl_cons, ih, sub, List.flatMap_map]
    congr 1
    funext x
    cases x with
    | lit s => rfl
    | hole k =>
      by_cases e : k = y.1
      · simp [known, e]
      · simp [known, e, Ne.symm e]

/-! ### C102 -/

/-- A template with its placeholders filled in. -/
def fill (val : Str → Str) (t : List Seg) : Str :=
  t.flatMap fun x => match x with
    | .lit s => s
    | .hole k => val k

/-- What is meant to stand in the place of each placeholder. -/
def meaning (i : Input) (k : Str) : Str :=
  if k = c!"year" then i.year
  else if k = c!"output_file" then fileName i.outputFile
  else if k = c!"command" then i.command
  else if k = c!"start_namespace" then
    List.intercalate c!"\n" (i.namespaces.map fun x => c!"namespace " ++ x ++ c!" {")
  else if k = c!"end_namespace" then
    List.intercalate c!"\n" (i.namespaces.reverse.map fun x => c!"} /* namespace " ++ x ++ c!" */")
  else if k = c!"enum_name" then i.name
  else if k = c!"values" then List.intercalate c!",\n" (i.values.map fun x => c!"    " ++ x)
  else if k = c!"quotes_values" then
    List.intercalate c!",\n" (i.values.map fun x => c!"    \"" ++ x ++ c!"\"")
  else if k = c!"n_values" then natToDec i.values.length
  else []

theorem join_eq (sep : Str) (xs : List Str) : join sep xs = List.intercalate sep xs := by
  induction xs with
  | nil => rfl
  | cons x xs ih =>
    cases xs with
    | nil => simp [join, List.intercalate]
    | cons y ys => simp [join, ih, List.intercalate]

/-- The names of the placeholders of the template. -/
def keys : List Str := [c!"year", c!"output_file", c!"command", c!"start_namespace", c!"end_namespace",
  c!"enum_name", c!"values", c!"quotes_values", c!"n_values"]

theorem template_keys : ∀ x ∈ template, ∀ k, x = Seg.hole k → k ∈ keys := by
  have : template.all (fun x => match x with | .lit _ => true | .hole k => keys.contains k) = true := by
    decide +kernel
  intro x hx k e
  have := List.all_eq_true.1 this x hx
  subst e
  simpa using this

theorem known_meaning (i : Input) {k : Str} (h : k ∈ keys) : known (pairs i) (.hole k) = meaning i k := by
  simp only [keys, List.mem_cons, List.not_mem_nil, or_false] at h
  rcases h with rfl | rfl | rfl | rfl | rfl | rfl | rfl | rfl | rfl <;>
    simp [known, pairs, meaning, join_eq]

/-- C102: when no input contains a `%`, the file is the template with every placeholder filled in
with what is meant, wherever it stands.  (Missing: inputs with `%`, see `C102_negation`.) -/
theorem C102_filled_partial (i : Input) (h : i.Clean) : generate (flat template) i = fill (meaning i) template := by
  rw [generate_fold, replace_all_flat _ template_wf (pairs_ok h), flat_fold, fill]
  simp only [List.flatMap_def]
  congr 1
  refine List.map_congr_left fun x hx => ?_
  cases x with
  | lit s => rfl
  | hole k => exact known_meaning i (template_keys _ hx k rfl)

theorem fill_append (val : Str → Str) (a b : List Seg) : fill val (a ++ b) = fill val a ++ fill val b := by
  simp [fill]

/-- C102: no `%`, hence no placeholder, is left when no input contains a `%`. -/
theorem C102_complete_partial (i : Input) (h : i.Clean) : '%' ∉ generate (flat template) i := by
  rw [C102_filled_partial i h]
  intro hm
  obtain ⟨x, hx, hm⟩ := List.mem_flatMap.1 hm
  cases x with
  | lit s =>
    have : template.all (fun x => match x with | .lit s => !s.contains '%' | .hole _ => true) = true := by
      decide +kernel
    have := List.all_eq_true.1 this _ hx
    simp [hm] at this
  | hole k =>
    have hk := template_keys _ hx k rfl
    change '%' ∈ meaning i k at hm
    rw [← known_meaning i hk] at hm
    simp only [known] at hm
    split at hm
    · rename_i y hy
      exact (pairs_ok h y (List.mem_of_find?_eq_some hy)).2 hm
    · rename_i hy
      rw [List.find?_eq_none] at hy
      simp only [keys, List.mem_cons, List.not_mem_nil, or_false] at hk
      rcases hk with rfl | rfl | rfl | rfl | rfl | rfl | rfl | rfl | rfl <;> simp [pairs] at hy

/-- C102, negation: the placeholders are replaced one after the other in the whole text, so one that
comes from the command line is replaced too. -/
theorem C102_negation : ∃ i : Input, generate (flat template) i ≠ fill (meaning i) template := by
  refine ⟨⟨c!"2026", c!"%values%.hpp", c!"x", [c!"ns"], c!"E", [c!"a"]⟩, ?_⟩
  have h1 : natToDec 1 = ['1'] := by rw [natToDec]; rfl
  simp only [generate, meaning, List.length_singleton, h1]
  decide +kernel

/-! ### the code does not depend on what stands in the comment -/

/-- A pattern without line breaks is replaced line by line. -/
theorem go_newline (pat rep : Str) (hp : pat ≠ []) (hn : '\n' ∉ pat) (a b : Str) (k : Nat) (hk : k ≤ a.length) :
    replaceGo pat rep k (a ++ '\n' :: b) = replaceGo pat rep k a ++ '\n' :: replaceGo pat rep 0 b := by
  induction a generalizing k with
  | nil =>
    obtain rfl : k = 0 := by simpa using hk
    have h1 : pat.isPrefixOf ('\n' :: b) = false := by
      cases pat with
      | nil => exact absurd rfl hp
      | cons p ps =>
        have : p ≠ '\n' := fun e => hn (by simp [e])
        simp [List.isPrefixOf, this]
    simp [replaceGo, h1]
  | cons c a ih =>
    cases k with
    | succ k => simpa [replaceGo] using ih k (by simpa using hk)
    | zero =>
      have h1 : pat.isPrefixOf (c :: (a ++ '\n' :: b)) = pat.isPrefixOf (c :: a) := by
        rw [Bool.eq_iff_iff, List.isPrefixOf_iff_prefix, List.isPrefixOf_iff_prefix]
        constructor
        · intro h
          obtain ⟨u, hu⟩ := (show pat <+: (c :: a) ++ '\n' :: b from h)
          rcases List.append_eq_append_iff.1 hu with ⟨t, ht, -⟩ | ⟨t, ht, hb⟩
          · exact ⟨t, ht.symm⟩
          · cases t with
            | nil => exact ⟨[], by simp [ht]⟩
            | cons d t =>
              simp only [List.cons_append, List.cons.injEq] at hb
              exact absurd (by rw [ht, hb.1]; simp) hn
        · intro h
          exact h.trans (List.prefix_append (c :: a) _)
      simp only [List.cons_append, replaceGo, h1]
      split
      · rename_i h2
        have h3 : pat.length ≤ (c :: a).length := (List.isPrefixOf_iff_prefix.1 h2).length_le
        rw [ih _ (by simp at h3; omega), List.append_assoc]
      · rw [ih 0 (Nat.zero_le _), List.cons_append]

theorem fold_newline (kvs : List (Str × Str)) (h : ∀ x ∈ kvs, keyOk x.1 = true) (a b : Str) :
    kvs.foldl (fun text x => replaceInText text x.1 x.2) (a ++ '\n' :: b) =
      kvs.foldl (fun text x => replaceInText text x.1 x.2) a ++ '\n' ::
        kvs.foldl (fun text x => replaceInText text x.1 x.2) b := by
  induction kvs generalizing a b with
  | nil => rfl
  | cons x kvs ih =>
    have hx : '\n' ∉ '%' :: (x.1 ++ ['%']) := by
      intro hm
      simp only [List.mem_cons, List.mem_append, List.not_mem_nil, or_false] at hm
      rcases hm with e | hm | e
      · revert e; decide
      · have := List.all_eq_true.1 (h x (by simp)) _ hm
        revert this; decide
      · revert e; decide
    simp only [List.foldl_cons]
    rw [show replaceInText (a ++ '\n' :: b) x.1 x.2 =
        replaceInText a x.1 x.2 ++ '\n' :: replaceInText b x.1 x.2 from
      go_newline _ _ (by simp) hx _ _ 0 (Nat.zero_le _)]
    exact ih (fun y hy => h y (by simp [hy])) _ _

theorem pairs_keys (i : Input) : ∀ x ∈ pairs i, keyOk x.1 = true := by
  intro x hx
  simp only [pairs, List.mem_cons, List.not_mem_nil, or_false] at hx
  rcases hx with rfl | rfl | rfl | rfl | rfl | rfl | rfl | rfl | rfl <;> rfl

/-- The names of the enumeration, of its values and of the namespaces contain no `%` (no identifier
does).  Nothing is said about the year, the file and the command. -/
def Input.Named (i : Input) : Prop :=
  (∀ x ∈ i.namespaces, '%' ∉ x) ∧ '%' ∉ i.name ∧ ∀ x ∈ i.values, '%' ∉ x

theorem Input.Clean.named {i : Input} (h : i.Clean) : i.Named := ⟨h.2.2.2.1, h.2.2.2.2.1, h.2.2.2.2.2⟩

/-- The lines of the template up to the end of its comment. -/
def comment : List Seg := template.take 25

/-- The lines of the template after its comment. -/
def code : List Seg := template.drop 26

theorem template_parts : flat template = (flat comment ++ c!" */") ++ '\n' :: flat code := by decide +kernel

theorem code_keys : ∀ x ∈ code, ∀ k, x = Seg.hole k → k ∈ keys.drop 3 := by
  have : code.all (fun x => match x with | .lit _ => true | .hole k => (keys.drop 3).contains k) = true := by
    decide +kernel
  intro x hx k e
  have := List.all_eq_true.1 this x hx
  subst e
  simpa using this

theorem sub_absent {k v : Str} {t : List Seg} (h : ∀ x ∈ t, x ≠ Seg.hole k) : sub k v t = t := by
  rw [sub]
  conv_rhs => rw [← List.map_id t]
  refine List.map_congr_left fun x hx => ?_
  cases x with
  | lit s => rfl
  | hole k' =>
    have : k' ≠ k := fun e => h _ hx (by rw [e])
    simp [this]

theorem code_wf : wf code = true := by decide +kernel

theorem known_rest (i : Input) {k : Str} (h : k ∈ keys.drop 3) :
    known ((pairs i).drop 3) (.hole k) = meaning i k := by
  simp only [keys, List.drop_succ_cons, List.drop_zero, List.mem_cons, List.not_mem_nil, or_false] at h
  rcases h with rfl | rfl | rfl | rfl | rfl | rfl <;>
    simp [known, pairs, meaning, join_eq]

theorem fill_code (i : Input) (h : i.Named) : generate (flat code) i = fill (meaning i) code := by
  have h0 : ∀ k v : Str, keyOk k = true → k ∉ keys.drop 3 → replaceInText (flat code) k v = flat code := by
    intro k v hk hm
    rw [replace_flat code_wf hk, sub_absent]
    intro x hx e
    exact hm (code_keys x hx k e)
  have hc : Input.Clean ⟨[], [], [], i.namespaces, i.name, i.values⟩ :=
    ⟨by simp, by simp, by simp, h.1, h.2.1, h.2.2⟩
  have hp : ∀ x ∈ (pairs i).drop 3, keyOk x.1 = true ∧ '%' ∉ x.2 := fun x hx =>
    pairs_ok hc x (List.mem_of_mem_drop (i := 3) (by exact hx))
  rw [generate_fold, show pairs i = _ :: _ :: _ :: (pairs i).drop 3 from rfl]
  simp only [List.foldl_cons]
  rw [h0 _ _ rfl (by decide), h0 _ _ rfl (by decide), h0 _ _ rfl (by decide),
    replace_all_flat _ code_wf hp, flat_fold, fill]
  simp only [List.flatMap_def]
  congr 1
  refine List.map_congr_left fun x hx => ?_
  cases x with
  | lit s => rfl
  | hole k => exact known_rest i (code_keys _ hx k rfl)

/-- C102: whatever the year, the name of the file and the command are, also with `%` in them, the
lines after the comment are those of the template with every placeholder filled in with what is
meant. -/
theorem C102_code (i : Input) (h : i.Named) : ∃ head : Str,
    generate (flat template) i = head ++ '\n' :: fill (meaning i) code := by
  refine ⟨generate (flat comment ++ c!" */") i, ?_⟩
  rw [template_parts, generate_fold, fold_newline _ (pairs_keys i), ← generate_fold, ← generate_fold, fill_code i h]

/-- The hypothesis of `C102_code` is met although the name of the file is a placeholder. -/
example : (⟨c!"2026", c!"%values%.hpp", c!"x", [c!"ns"], c!"E", [c!"a"]⟩ : Input).Named := by
  unfold Input.Named
  decide

/-- The lines after the comment, word for word. -/
example : code.head? = some (.lit c!"\n") ∧ code[1]? = some (.lit c!"#pragma once\n") := by decide

/-! ### where the comment ends -/

/-- A text that contains no end of comment. -/
def Open (s : Str) : Prop := ¬ c!"*/" <:+: s

theorem open_glue {a b : Str} (ha : Open a) (hb : Open b) (c : Char) (h1 : c ≠ '*') (h2 : c ≠ '/') :
    Open (a ++ c :: b) := by
  induction a with
  | nil =>
    rintro ⟨x, y, e⟩
    cases x with
    | nil =>
      simp only [List.nil_append, List.cons_append, List.cons.injEq] at e
      exact h1 e.1.symm
    | cons d x =>
      simp only [List.nil_append, List.cons_append, List.cons.injEq] at e
      exact hb ⟨x, y, by simpa using e.2⟩
  | cons d a ih =>
    rintro ⟨x, y, e⟩
    have ha' : Open a := fun ⟨u, v, h⟩ => ha ⟨d :: u, v, by simp [← h]⟩
    cases x with
    | nil =>
      simp only [List.nil_append, List.cons_append, List.cons.injEq] at e
      obtain ⟨rfl, e⟩ := e
      cases a with
      | nil =>
        simp only [List.nil_append, List.cons.injEq] at e
        exact h2 e.1.symm
      | cons f a =>
        simp only [List.cons_append, List.cons.injEq] at e
        obtain ⟨rfl, -⟩ := e
        exact ha ⟨[], a, by simp⟩
    | cons f x =>
      simp only [List.cons_append, List.cons.injEq] at e
      exact ih ha' ⟨x, y, by simpa using e.2⟩

theorem open_of_slash {s : Str} (h : '/' ∉ s) : Open s := by
  rintro ⟨x, y, e⟩
  exact h (by rw [← e]; simp)

theorem split_no_sep {sep : Char} {s x : Str} (hx : x ∈ splitChar sep s) : sep ∉ x := by
  induction s generalizing x with
  | nil => simp [splitChar] at hx; subst hx; simp
  | cons a s ih =>
    unfold splitChar at hx
    split at hx
    · rcases List.mem_cons.1 hx with rfl | hx
      · simp
      · exact ih hx
    · rename_i hne
      split at hx
      · simp only [List.mem_singleton] at hx
        subst hx
        simpa using fun e => hne e.symm
      · rename_i p ps hh
        rcases List.mem_cons.1 hx with rfl | hx
        · have := ih (x := p) (by rw [hh]; simp)
          simp only [List.mem_cons, not_or]
          exact ⟨fun e => hne e.symm, this⟩
        · exact ih (by rw [hh]; simp [hx])

theorem fileName_no_slash (p : Str) : '/' ∉ fileName p := by
  intro h
  have h := last_mem (strip_mem h)
  cases hl : (splitChar '/' p).getLast? with
  | none => simp [hl] at h
  | some x =>
    rw [hl] at h
    exact split_no_sep (List.mem_of_getLast? hl) h

/-- C102: when no input contains a `%` and the command does not contain `*/`, the comment in which the
file and the command stand ends where it ends in the template.  (Missing: see
`C102_negation_comment`.) -/
theorem C102_comment_partial (i : Input) (h : i.Clean) (hc : ¬ c!"*/" <:+: i.command) : ∃ licence body : Str,
    generate (flat template) i = licence ++ c!"/**" ++ body ++ c!"*/\n" ++ fill (meaning i) code ∧
      ¬ c!"*/" <:+: body ∧ (c!" * @file " ++ fileName i.outputFile ++ c!"\n") <:+: body ∧
      (c!" *  " ++ i.command ++ c!"\n") <:+: body := by
  have e : template = template.take 16 ++ [.lit c!"/**\n", .lit c!" * @file ", .hole c!"output_file",
      .lit c!"\n", .lit c!" *\n", .lit c!" * This is an autogenerated file from command:\n",
      .lit c!" *  ", .hole c!"command", .lit c!"\n", .lit c!" */\n"] ++ code := by decide +kernel
  refine ⟨fill (meaning i) (template.take 16), c!"\n * @file " ++ fileName i.outputFile ++
    c!"\n *\n * This is an autogenerated file from command:\n *  " ++ i.command ++ c!"\n ", ?_, ?_, ?_, ?_⟩
  · rw [C102_filled_partial i h]
    conv_lhs => rw [e]
    rw [fill_append, fill_append]
    simp [fill, meaning]
  · have h1 : Open (c!"\n * @file" ++ ' ' :: fileName i.outputFile) :=
      open_glue (open_of_slash (by decide)) (open_of_slash (fileName_no_slash _)) ' ' (by decide) (by decide)
    have h2 := open_glue h1 (open_of_slash (s := c!" *\n * This is an autogenerated file from command:\n * ")
      (by decide)) '\n' (by decide) (by decide)
    have h3 := open_glue h2 hc ' ' (by decide) (by decide)
    have h4 := open_glue h3 (open_of_slash (s := c!" ") (by decide)) '\n' (by decide) (by decide)
    simpa [Open] using h4
  · exact ⟨c!"\n", c!" *\n * This is an autogenerated file from command:\n *  " ++ i.command ++ c!"\n ", by simp⟩
  · exact ⟨c!"\n * @file " ++ fileName i.outputFile ++
      c!"\n *\n * This is an autogenerated file from command:\n", c!" ", by simp⟩

/-- The hypotheses of `C102_comment_partial` are met. -/
example : (⟨c!"2026", c!"dir/color.hpp", command c!"enumeration_builder.py" [c!"-o", c!"dir*/color.hpp"], [c!"ns"],
      c!"Color", [c!"red"]⟩ : Input).Clean ∧
    ¬ c!"*/" <:+: command c!"enumeration_builder.py" [c!"-o", c!"dir*/color.hpp"] := by
  constructor
  · unfold Input.Clean
    decide
  · decide

/-- C102, negation: the comment of the header can end too early, so that the rest of it is read as
code: with a file whose name is the placeholder of the namespaces, and with an argument of the form
`--output=…*/…`, which is written down unchanged. -/
theorem C102_negation_comment :
    (∃ (i : Input) (a b : Str), i.Named ∧ generate (flat template) i =
      a ++ c!"*/" ++ b ++ c!" */\n" ++ fill (meaning i) code ∧ c!"/**" <:+: a ∧ c!"command:" <:+: b) ∧
    ∃ (i : Input) (argv : List Str) (a b : Str), i.Clean ∧ i.command = command c!"enumeration_builder.py" argv ∧
      generate (flat template) i = a ++ c!"*/" ++ b ++ c!" */\n" ++ fill (meaning i) code ∧ c!"/**" <:+: a ∧
      c!"color.hpp" <:+: b := by
  have h1 : natToDec 1 = ['1'] := by rw [natToDec]; rfl
  constructor
  · refine ⟨⟨c!"2026", c!"%end_namespace%.hpp", c!"x", [c!"ns"], c!"E", [c!"a"]⟩,
      fill (fun _ => c!"2026") (template.take 16) ++ c!"/**\n * @file } /* namespace ns ",
      c!".hpp\n *\n * This is an autogenerated file from command:\n *  x\n", ?_, ?_, ?_, ?_⟩
    · unfold Input.Named
      decide
    · simp only [generate, meaning, List.length_singleton, h1]
      decide +kernel
    · exact ⟨fill (fun _ => c!"2026") (template.take 16), c!"\n * @file } /* namespace ns ", by simp⟩
    · exact ⟨c!".hpp\n *\n * This is an autogenerated file from ", c!"\n *  x\n", by simp⟩
  · have hc : (⟨c!"2026", c!"*/color.hpp", command c!"enumeration_builder.py" [c!"--output=*/color.hpp"],
        [c!"ns"], c!"E", [c!"a"]⟩ : Input).Clean := by
      unfold Input.Clean
      decide
    refine ⟨_, [c!"--output=*/color.hpp"],
      fill (fun _ => c!"2026") (template.take 16) ++
        c!"/**\n * @file color.hpp\n *\n * This is an autogenerated file from command:\n *  enumeration_builder.py\n *   --output=",
      c!"color.hpp\n", hc, rfl, ?_, ?_, ?_⟩
    · simp only [generate, meaning, List.length_singleton, h1]
      decide +kernel
    · exact ⟨fill (fun _ => c!"2026") (template.take 16), _, by simp; rfl⟩
    · exact ⟨[], c!"\n", by simp⟩

/-! ### C103: reading the header as a C++ compiler does -/

/-- White space between tokens. -/
def Blank (s : Str) : Prop := ∀ c ∈ s, c = ' ' ∨ c = '\n'

/-- Characters of an identifier. -/
def identChar (c : Char) : Bool :=
  ('a' ≤ c && c ≤ 'z') || ('A' ≤ c && c ≤ 'Z') || ('0' ≤ c && c ≤ '9') || c = '_'

/-- An identifier of C++ (keywords not excluded). -/
def Ident (s : Str) : Prop :=
  s ≠ [] ∧ (∀ c ∈ s, identChar c = true) ∧ ∀ c, s.head? = some c → ¬ ('0' ≤ c ∧ c ≤ '9')

instance (s : Str) : Decidable (Ident s) := by
  unfold Ident
  cases s with
  | nil => exact .isFalse (by simp)
  | cons a s =>
    exact decidable_of_iff ((∀ c ∈ a :: s, identChar c = true) ∧ ¬ ('0' ≤ a ∧ a ≤ '9')) (by simp)

/-- What stands between the braces of an enumeration with the enumerators `xs` (no values given):
names between commas, with an optional comma at the end. -/
def EnumBody (body : Str) (xs : List Str) : Prop :=
  xs ≠ [] ∧ (∀ x ∈ xs, Ident x) ∧ ∃ ts : List Str,
    List.Forall₂ (fun t x => ∃ l r, Blank l ∧ Blank r ∧ t = l ++ x ++ r) ts xs ∧
    (body = List.intercalate c!"," ts ∨ ∃ r, Blank r ∧ body = List.intercalate c!"," ts ++ ',' :: r)

/-- What stands between the braces of the initialiser of an array with the strings `xs`: texts
between quotes that need no escape, between commas. -/
def ArrayBody (body : Str) (xs : List Str) : Prop :=
  xs ≠ [] ∧ (∀ x ∈ xs, ∀ c ∈ x, c ≠ '"' ∧ c ≠ '\\' ∧ c ≠ '\n') ∧ ∃ ts : List Str,
    List.Forall₂ (fun t x => ∃ l r, Blank l ∧ Blank r ∧ t = l ++ ('"' :: x) ++ '"' :: r) ts xs ∧
    body = List.intercalate c!"," ts

/-- The file declares the enumeration `name` with the enumerators `xs` and the array of names `ys`,
whose size is written as the number of `ys`. -/
def Declares (text name : Str) (xs ys : List Str) : Prop :=
  ∃ pre post body inits n : Str, text = pre ++ c!"enum class " ++ name ++ c!"\n{\n" ++ body ++
      c!"\n};\n\nconst std::array<std::string, " ++ n ++ c!"> NAMES_" ++ name ++ c!" =\n{\n" ++ inits ++
      c!"\n};\n" ++ post ∧
    EnumBody body xs ∧ ArrayBody inits ys ∧ IsDecimal n ys.length

theorem ident_ne {x : Str} (h : Ident x) (d : Char) (hd : identChar d = false) : d ∉ x := fun hc => by
  have := h.2.1 d hc
  rw [hd] at this
  cases this

theorem inter_lines (f : Str → Str) (xs : List Str) (h : xs ≠ []) :
    ∃ ts : List Str, List.Forall₂ (fun t x => ∃ l, Blank l ∧ t = l ++ f x) ts xs ∧
      List.intercalate c!",\n" (xs.map f) = List.intercalate c!"," ts := by
  cases xs with
  | nil => exact absurd rfl h
  | cons x xs =>
    refine ⟨f x :: xs.map (fun y => '\n' :: f y), ?_, ?_⟩
    · refine .cons ⟨[], by simp [Blank], rfl⟩ ?_
      clear h
      induction xs with
      | nil => exact .nil
      | cons y ys ih =>
        exact .cons ⟨c!"\n", by simp [Blank], rfl⟩ ih
    · clear h
      induction xs generalizing x with
      | nil => rfl
      | cons y ys ih =>
        have := ih y
        simp only [List.map_cons, ← join_eq] at this ⊢
        simp only [join] at this ⊢
        rw [this]
        cases ys <;> simp [join]

theorem values_body (xs : List Str) (h : xs ≠ []) (hi : ∀ x ∈ xs, Ident x) :
    EnumBody (List.intercalate c!",\n" (xs.map fun x => c!"    " ++ x)) xs := by
  obtain ⟨ts, h1, h2⟩ := inter_lines (fun x => c!"    " ++ x) xs h
  refine ⟨h, hi, ts, h1.imp ?_, .inl h2⟩
  rintro t x ⟨l, hl, rfl⟩
  refine ⟨l ++ c!"    ", [], ?_, by simp [Blank], by simp⟩
  intro c hc
  rcases List.mem_append.1 hc with hc | hc
  · exact hl c hc
  · simp at hc; exact .inl hc

theorem quotes_body (xs : List Str) (h : xs ≠ []) (hi : ∀ x ∈ xs, ∀ c ∈ x, c ≠ '"' ∧ c ≠ '\\' ∧ c ≠ '\n') :
    ArrayBody (List.intercalate c!",\n" (xs.map fun x => c!"    \"" ++ x ++ c!"\"")) xs := by
  obtain ⟨ts, h1, h2⟩ := inter_lines (fun x => c!"    \"" ++ x ++ c!"\"") xs h
  refine ⟨h, hi, ts, h1.imp ?_, h2⟩
  rintro t x ⟨l, hl, rfl⟩
  refine ⟨l ++ c!"    ", [], ?_, by simp [Blank], by simp⟩
  intro c hc
  rcases List.mem_append.1 hc with hc | hc
  · exact hl c hc
  · simp at hc; exact .inl hc

theorem ident_quotable {x : Str} (h : Ident x) : ∀ c ∈ x, c ≠ '"' ∧ c ≠ '\\' ∧ c ≠ '\n' := by
  intro c hc
  refine ⟨?_, ?_, ?_⟩ <;> rintro rfl
  · exact ident_ne h '"' rfl hc
  · exact ident_ne h '\\' rfl hc
  · exact ident_ne h '\n' rfl hc

/-- The declarations in the template. -/
def middle : List Seg := [
  .lit c!"enum class ", .hole c!"enum_name", .lit c!"\n",
  .lit c!"{\n",
  .hole c!"values", .lit c!"\n",
  .lit c!"};\n",
  .lit c!"\n",
  .lit c!"const std::array<std::string, ", .hole c!"n_values", .lit c!"> NAMES_", .hole c!"enum_name", .lit c!" =\n",
  .lit c!"{\n",
  .hole c!"quotes_values", .lit c!"\n",
  .lit c!"};\n"]

theorem code_middle : ∃ a b, code = a ++ middle ++ b := by
  refine ⟨code.take 11, code.drop (11 + 17), ?_⟩
  decide +kernel

theorem text_middle (i : Input) (h : i.Named) : ∃ pre post : Str,
    generate (flat template) i = pre ++ c!"enum class " ++ i.name ++ c!"\n{\n" ++
      List.intercalate c!",\n" (i.values.map fun x => c!"    " ++ x) ++
      c!"\n};\n\nconst std::array<std::string, " ++ natToDec i.values.length ++ c!"> NAMES_" ++ i.name ++
      c!" =\n{\n" ++ List.intercalate c!",\n" (i.values.map fun x => c!"    \"" ++ x ++ c!"\"") ++
      c!"\n};\n" ++ post := by
  obtain ⟨a, b, hab⟩ := code_middle
  obtain ⟨head, hh⟩ := C102_code i h
  refine ⟨head ++ '\n' :: fill (meaning i) a, fill (meaning i) b, ?_⟩
  rw [hh, hab, fill_append, fill_append]
  simp [fill, middle, meaning]

/-- C103: for values that are identifiers, the enumerators and the names in the array are the values
given, in order, and the size of the array is their number. -/
theorem C103_declares_partial (i : Input) (h : i.Named) (hn : i.values ≠ []) (hi : ∀ x ∈ i.values, Ident x) :
    Declares (generate (flat template) i) i.name i.values i.values := by
  obtain ⟨pre, post, e⟩ := text_middle i h
  exact ⟨pre, post, _, _, _, e, values_body _ hn hi, quotes_body _ hn fun x hx => ident_quotable (hi x hx),
    (natToDec_spec _).1⟩

/-! ### splitting -/

theorem split_none {d : Char} {t : Str} (h : d ∉ t) : splitChar d t = [t] := by
  induction t with
  | nil => rfl
  | cons c t ih =>
    have h1 : c ≠ d := fun e => h (by simp [e])
    simp [splitChar, h1, ih (fun hm => h (List.mem_cons_of_mem _ hm))]

theorem split_cut {d : Char} {t : Str} (h : d ∉ t) (s : Str) :
    splitChar d (t ++ d :: s) = t :: splitChar d s := by
  induction t with
  | nil => simp [splitChar]
  | cons c t ih =>
    have h1 : c ≠ d := fun e => h (by simp [e])
    simp [splitChar, h1, ih (fun hm => h (List.mem_cons_of_mem _ hm))]

theorem split_join {d : Char} {ts : List Str} (h0 : ts ≠ []) (h : ∀ t ∈ ts, d ∉ t) :
    splitChar d (List.intercalate [d] ts) = ts := by
  rw [← join_eq]
  induction ts with
  | nil => exact absurd rfl h0
  | cons t ts ih =>
    cases ts with
    | nil => exact split_none (h t (by simp))
    | cons u us =>
      simp only [join, List.append_assoc, List.singleton_append]
      rw [split_cut (h t (by simp)), ih (by simp) fun x hx => h x (by simp [hx])]

theorem split_join_end {d : Char} {ts : List Str} (h0 : ts ≠ []) (h : ∀ t ∈ ts, d ∉ t) (s : Str) :
    splitChar d (List.intercalate [d] ts ++ d :: s) = ts ++ splitChar d s := by
  rw [← join_eq]
  induction ts with
  | nil => exact absurd rfl h0
  | cons t ts ih =>
    cases ts with
    | nil => exact split_cut (h t (by simp)) s
    | cons u us =>
      have := ih (by simp) fun x hx => h x (by simp [hx])
      simp only [join, List.append_assoc, List.singleton_append] at this ⊢
      change splitChar d (t ++ d :: (join [d] (u :: us) ++ d :: s)) = _
      rw [split_cut (h t (by simp)), this]
      rfl

/-! ### a body is read in one way only -/

/-- The non-empty pieces between commas, without white space. -/
def readEnum (body : Str) : List Str :=
  ((splitChar ',' body).map fun t => t.filter fun c => c ≠ ' ' ∧ c ≠ '\n').filter (· ≠ [])

theorem filter_blank {s : Str} (h : Blank s) : (s.filter fun c => c ≠ ' ' ∧ c ≠ '\n') = [] := by
  rw [List.filter_eq_nil_iff]
  intro c hc
  rcases h c hc with rfl | rfl <;> simp

theorem filter_ident {x : Str} (h : Ident x) : (x.filter fun c => c ≠ ' ' ∧ c ≠ '\n') = x := by
  rw [List.filter_eq_self]
  intro c hc
  have h1 : c ≠ ' ' := by rintro rfl; exact ident_ne h ' ' rfl hc
  have h2 : c ≠ '\n' := by rintro rfl; exact ident_ne h '\n' rfl hc
  simp [h1, h2]

theorem blank_no_comma {s : Str} (h : Blank s) : ',' ∉ s := by
  intro hc
  rcases h _ hc with e | e <;> revert e <;> decide

theorem read_items {ts xs : List Str} (hi : ∀ x ∈ xs, Ident x)
    (h : List.Forall₂ (fun t x => ∃ l r, Blank l ∧ Blank r ∧ t = l ++ x ++ r) ts xs) :
    (∀ t ∈ ts, ',' ∉ t) ∧ (ts.map fun t => t.filter fun c => c ≠ ' ' ∧ c ≠ '\n') = xs := by
  induction h with
  | nil => simp
  | @cons t x ts xs hx hxs ih =>
    obtain ⟨l, r, hl, hr, rfl⟩ := hx
    have ix := hi x (by simp)
    obtain ⟨h1, h2⟩ := ih fun y hy => hi y (by simp [hy])
    refine ⟨?_, ?_⟩
    · intro u hu
      rcases List.mem_cons.1 hu with rfl | hu
      · simp only [List.mem_append, not_or]
        exact ⟨⟨blank_no_comma hl, ident_ne ix ',' rfl⟩, blank_no_comma hr⟩
      · exact h1 u hu
    · rw [List.map_cons, h2, List.filter_append, List.filter_append, filter_blank hl, filter_blank hr,
        filter_ident ix]
      simp

theorem enumBody_read {body : Str} {xs : List Str} (h : EnumBody body xs) : readEnum body = xs := by
  obtain ⟨h0, hi, ts, hts, hb⟩ := h
  obtain ⟨hc, hm⟩ := read_items hi hts
  have ht : ts ≠ [] := by
    rintro rfl
    cases hts
    exact h0 rfl
  have hne : xs.filter (fun x => decide (x ≠ [])) = xs := by
    rw [List.filter_eq_self]
    intro x hx
    simpa using (hi x hx).1
  rcases hb with rfl | ⟨r, hr, rfl⟩
  · simp only [readEnum]
    rw [split_join ht hc, hm]
    exact hne
  · simp only [readEnum]
    rw [split_join_end ht hc, split_none (blank_no_comma hr), List.map_append, hm, List.map_singleton,
      filter_blank hr, List.filter_append, hne]
    simp

/-- A body has one list of enumerators. -/
theorem enumBody_unique {body : Str} {xs ys : List Str} (h : EnumBody body xs) (h' : EnumBody body ys) :
    xs = ys := (enumBody_read h).symm.trans (enumBody_read h')

/-! ### the arguments -/

/-- The code points of white space, as Python counts them. -/
def blanks : List Nat :=
  [0x9, 0xA, 0xB, 0xC, 0xD, 0x1C, 0x1D, 0x1E, 0x1F, 0x20, 0x85, 0xA0, 0x1680, 0x2000, 0x2001, 0x2002, 0x2003, 0x2004, 0x2005,
    0x2006, 0x2007, 0x2008, 0x2009, 0x200A, 0x2028, 0x2029, 0x202F, 0x205F, 0x3000]

/-- `x` with white space around it. -/
def Padded (t x : Str) : Prop :=
  ∃ l r, (∀ c ∈ l, c.toNat ∈ blanks) ∧ (∀ c ∈ r, c.toNat ∈ blanks) ∧ t = l ++ x ++ r

theorem blank_space {c : Char} (h : c.toNat ∈ blanks) : isSpace c = true := by
  have all : ∀ n ∈ blanks, ((9 ≤ n && n ≤ 13) || (28 ≤ n && n ≤ 32) || n == 0x85 || n == 0xA0 || n == 0x1680 ||
      (0x2000 ≤ n && n ≤ 0x200A) || n == 0x2028 || n == 0x2029 || n == 0x202F || n == 0x205F || n == 0x3000) = true := by
    decide
  exact all _ h

theorem identChar_cases {c : Char} (h : identChar c = true) :
    (97 ≤ c.toNat ∧ c.toNat ≤ 122) ∨ (65 ≤ c.toNat ∧ c.toNat ≤ 90) ∨ (48 ≤ c.toNat ∧ c.toNat ≤ 57) ∨
      c.toNat = 95 := by
  simp only [identChar, Bool.or_eq_true, Bool.and_eq_true, decide_eq_true_eq, Char.le_def,
    UInt32.le_iff_toNat_le] at h
  rcases h with ((h | h) | h) | h
  · exact .inl h
  · exact .inr (.inl h)
  · exact .inr (.inr (.inl h))
  · subst h; exact .inr (.inr (.inr rfl))

theorem ident_not_space {c : Char} (h : identChar c = true) : isSpace c = false := by
  have := identChar_cases h
  simp only [isSpace, Bool.or_eq_false_iff, Bool.and_eq_false_iff, decide_eq_false_iff_not, beq_eq_false_iff_ne]
  omega

theorem dropWhile_pre {p : Char → Bool} {l s : Str} (h : ∀ c ∈ l, p c = true) :
    (l ++ s).dropWhile p = s.dropWhile p := by
  induction l with
  | nil => rfl
  | cons c l ih =>
    simp only [List.cons_append, List.dropWhile_cons, h c (by simp), if_true]
    exact ih fun c hc => h c (by simp [hc])

theorem dropWhile_stop {p : Char → Bool} {x s : Str} (h0 : x ≠ []) (h : ∀ c ∈ x, p c = false) :
    (x ++ s).dropWhile p = x ++ s := by
  cases x with
  | nil => exact absurd rfl h0
  | cons c x => simp [h c (by simp)]

theorem strip_padded {t x : Str} (h : Padded t x) (hx : Ident x) : strip t = x := by
  obtain ⟨l, r, hl, hr, rfl⟩ := h
  replace hl := fun c hc => blank_space (hl c hc)
  replace hr := fun c hc => blank_space (hr c hc)
  have hs : ∀ c ∈ x, isSpace c = false := fun c hc => ident_not_space (hx.2.1 c hc)
  rw [strip, List.append_assoc, dropWhile_pre hl, dropWhile_stop hx.1 hs, List.reverse_append,
    dropWhile_pre (fun c hc => hr c (List.mem_reverse.1 hc))]
  have : x.reverse.dropWhile isSpace = x.reverse := by
    have := dropWhile_stop (p := isSpace) (x := x.reverse) (s := []) (by simpa using hx.1)
      (fun c hc => hs c (List.mem_reverse.1 hc))
    simpa using this
  rw [this, List.reverse_reverse]

theorem padded_ne {t x : Str} (h : Padded t x) (hx : Ident x) (d : Char) (hd : identChar d = false)
    (hs : isSpace d = false) : d ∉ t := by
  obtain ⟨l, r, hl, hr, rfl⟩ := h
  simp only [List.mem_append, not_or]
  refine ⟨⟨fun hc => ?_, ident_ne hx d hd⟩, fun hc => ?_⟩
  · simp [blank_space (hl d hc)] at hs
  · simp [blank_space (hr d hc)] at hs

theorem clean_padded {t x : Str} (h : Padded t x) (hx : Ident x) : (strip t).filter (· ≠ ' ') = x := by
  rw [strip_padded h hx, List.filter_eq_self]
  intro c hc
  have : c ≠ ' ' := by rintro rfl; exact ident_ne hx ' ' rfl hc
  simp [this]

theorem padded_list {ts xs : List Str} (h : List.Forall₂ Padded ts xs) (hi : ∀ x ∈ xs, Ident x) :
    (ts.map fun x => (strip x).filter (· ≠ ' ')) = xs ∧
      ∀ d, identChar d = false → isSpace d = false → ∀ t ∈ ts, d ∉ t := by
  induction h with
  | nil => simp
  | @cons t x ts xs hx hxs ih =>
    obtain ⟨h1, h2⟩ := ih fun y hy => hi y (by simp [hy])
    refine ⟨?_, ?_⟩
    · rw [List.map_cons, h1, clean_padded hx (hi x (by simp))]
    · intro d hd hs u hu
      rcases List.mem_cons.1 hu with rfl | hu
      · exact padded_ne hx (hi x (by simp)) d hd hs
      · exact h2 d hd hs u hu

theorem mem_inter {c : Char} {sep : Str} {ts : List Str} (h : c ∈ List.intercalate sep ts) :
    c ∈ sep ∨ ∃ t ∈ ts, c ∈ t := join_mem (by rw [join_eq]; exact h)

/-- C103: identifiers separated by `;`, or by `,`, with any white space around them, are read as
these identifiers. -/
theorem C103_arguments (sep : Char) (hsep : sep = ';' ∨ sep = ',') (ts xs : List Str) (h0 : xs ≠ [])
    (h : List.Forall₂ Padded ts xs) (hi : ∀ x ∈ xs, Ident x) :
    parseValues (List.intercalate [sep] ts) = xs := by
  obtain ⟨h1, h2⟩ := padded_list h hi
  have ht : ts ≠ [] := by rintro rfl; cases h; exact h0 rfl
  have hd : ∀ t ∈ ts, ';' ∉ t ∧ ',' ∉ t := fun t ht => ⟨h2 ';' rfl rfl t ht, h2 ',' rfl rfl t ht⟩
  by_cases hc : ';' ∈ List.intercalate [sep] ts
  · have : sep = ';' := by
      rcases mem_inter hc with hc | ⟨t, ht, hc⟩
      · simpa using (List.mem_singleton.1 hc).symm
      · exact absurd hc (hd t ht).1
    subst this
    simp only [parseValues, List.contains_eq_mem, hc, decide_true, if_true]
    rw [split_join ht fun t ht => (hd t ht).1, h1]
  · simp only [parseValues, List.contains_eq_mem, hc, decide_false, Bool.false_eq_true, if_false]
    rcases hsep with rfl | rfl
    · -- one identifier only
      cases ts with
      | nil => exact absurd rfl ht
      | cons t ts =>
        cases ts with
        | nil =>
          rw [← join_eq, join, split_none (hd t (by simp)).2, h1]
        | cons u us =>
          rw [← join_eq, join] at hc
          simp at hc
    · rw [split_join ht fun t ht => (hd t ht).2, h1]

example : parseValues c!" red; light green ;blue" = [c!"red", c!"lightgreen", c!"blue"] := by decide

theorem parse_mem {c : Char} {v x : Str} (hx : x ∈ parseValues v) (h : c ∈ x) : c ∈ v := by
  simp only [parseValues] at hx
  obtain ⟨y, hy, rfl⟩ := List.mem_map.1 hx
  exact splitChar_mem hy (strip_mem (List.mem_filter.1 h).1)

/-- What `main` passes on is free of `%` where it matters if the names are. -/
theorem main_named {year script : Str} {argv : List Str} {enum values namespaces output : Str}
    (he : '%' ∉ enum) (hv : '%' ∉ values) (hn : '%' ∉ namespaces) :
    Input.Named ⟨year, if output = [] then enum ++ c!".hpp" else output, command script argv,
      parseValues namespaces, enum, parseValues values⟩ :=
  ⟨fun _ hx h => hn (parse_mem hx h), he, fun _ hx h => hv (parse_mem hx h)⟩

/-- C103: run with identifiers separated by `;` or `,`, with white space around them, the script
writes a header that declares these enumerators and these names.  (Missing: a list that ends with a
separator, see `C103_negation_trailing`.) -/
theorem C103_main_partial (year script : Str) (argv : List Str) (enum namespaces output : Str)
    (sep : Char) (hsep : sep = ';' ∨ sep = ',') (ts xs : List Str) (h0 : xs ≠ [])
    (h : List.Forall₂ Padded ts xs) (hi : ∀ x ∈ xs, Ident x)
    (he : '%' ∉ enum) (hn : '%' ∉ namespaces) :
    Declares (main year script argv enum (List.intercalate [sep] ts) namespaces output) enum xs xs := by
  have hp := C103_arguments sep hsep ts xs h0 h hi
  have hv : '%' ∉ List.intercalate [sep] ts := by
    intro hc
    rcases mem_inter hc with hc | ⟨t, ht, hc⟩
    · have := List.mem_singleton.1 hc
      rcases hsep with rfl | rfl <;> revert this <;> decide
    · exact (padded_list h hi).2 '%' rfl rfl t ht hc
  have := C103_declares_partial _ (main_named (year := year) (script := script) (argv := argv) (output := output) he hv hn)
    (by dsimp only; rw [hp]; exact h0) (by dsimp only; rw [hp]; exact hi)
  dsimp only at this
  rw [hp] at this
  simp only [main, hp]
  exact this

example : Declares (main c!"2026" c!"enumeration_builder.py" [c!"-e", c!"Color", c!"-v", c!"red, green"]
    c!"Color" c!"red, green" c!"eprosima" c!"") c!"Color" [c!"red", c!"green"] [c!"red", c!"green"] :=
  C103_main_partial _ _ _ _ _ _ ',' (.inr rfl) [c!"red", c!" green"] _ (by decide)
    (.cons ⟨[], [], by simp, by simp, rfl⟩ (.cons ⟨c!" ", [], by decide, by simp, rfl⟩ .nil)) (by decide)
    (by decide) (by decide)

theorem inter_end (sep : Str) (xs : List Str) (h : xs ≠ []) (y : Str) :
    List.intercalate sep (xs ++ [y]) = List.intercalate sep xs ++ sep ++ y := by
  rw [← join_eq, ← join_eq]
  induction xs with
  | nil => exact absurd rfl h
  | cons x xs ih =>
    cases xs with
    | nil => simp [join]
    | cons z zs =>
      have := ih (by simp)
      simp only [List.cons_append] at this ⊢
      simp only [join]
      rw [this]
      simp [List.append_assoc]

/-- C103, negation: with a separator at the end of the list, which C++ allows in an enumeration, the
header has an additional empty name that belongs to no enumerator: the array has one name more than
there are enumerators, and `from_string("")` returns a value that is none of them. -/
theorem C103_negation_trailing (year script : Str) (argv : List Str) (enum namespaces output : Str)
    (xs : List Str) (h0 : xs ≠ []) (hi : ∀ x ∈ xs, Ident x)
    (he : '%' ∉ enum) (hn : '%' ∉ namespaces) :
    Declares (main year script argv enum (List.intercalate c!";" xs ++ c!";") namespaces output) enum xs
      (xs ++ [[]]) ∧ fromStr (xs ++ [[]]) (xs ++ [[]]).length [] = .ok xs.length := by
  have hpad : List.Forall₂ Padded xs xs := by
    clear h0 hi
    induction xs with
    | nil => exact .nil
    | cons x xs ih => exact .cons ⟨[], [], by simp, by simp, by simp⟩ ih
  obtain ⟨h1, h2⟩ := padded_list hpad hi
  have hp : parseValues (List.intercalate c!";" xs ++ c!";") = xs ++ [[]] := by
    have hc : ';' ∈ List.intercalate c!";" xs ++ c!";" := by simp
    simp only [parseValues, List.contains_eq_mem, hc, decide_true, if_true]
    rw [show c!";" = ';' :: [] from rfl, split_join_end h0 (h2 ';' rfl rfl), List.map_append, h1]
    rfl
  have hv : '%' ∉ List.intercalate c!";" xs ++ c!";" := by
    intro hc
    rcases List.mem_append.1 hc with hc | hc
    · rcases mem_inter hc with hc | ⟨t, ht, hc⟩
      · revert hc; decide
      · exact h2 '%' rfl rfl t ht hc
    · revert hc; decide
  refine ⟨?_, ?_⟩
  · obtain ⟨pre, post, e⟩ := text_middle _ (main_named (year := year) (script := script) (argv := argv) (output := output) he hv hn)
    simp only [main]
    refine ⟨pre, post, _, _, _, e, ?_, ?_, ?_⟩
    · dsimp only
      rw [hp, List.map_append]
      obtain ⟨ts, k1, k2⟩ := inter_lines (fun x => c!"    " ++ x) xs h0
      refine ⟨h0, hi, ts, k1.imp ?_, .inr ⟨c!"\n    ", by simp [Blank], ?_⟩⟩
      · rintro t x ⟨l, hl, rfl⟩
        refine ⟨l ++ c!"    ", [], ?_, by simp [Blank], by simp⟩
        intro c hc
        rcases List.mem_append.1 hc with hc | hc
        · exact hl c hc
        · simp at hc; exact .inl hc
      · rw [List.map_singleton, inter_end _ _ (by simpa using h0), k2]
        simp
    · dsimp only
      rw [hp]
      refine quotes_body _ (by simp) ?_
      intro x hx
      rcases List.mem_append.1 hx with hx | hx
      · exact ident_quotable (hi x hx)
      · simp at hx; subst hx; simp
    · dsimp only
      rw [hp]
      exact (natToDec_spec _).1
  · have : ∀ (pre rest : List Str), (∀ x ∈ rest, Ident x) →
        fromStrGo (pre ++ rest ++ [[]]) [] (rest.length + 1) pre.length = .ok (pre.length + rest.length) := by
      intro pre rest
      induction rest generalizing pre with
      | nil => intro _; simp [fromStrGo]
      | cons x rest ih =>
        intro hr
        have hx : x ≠ [] := (hr x (by simp)).1
        have := ih (pre ++ [x]) fun y hy => hr y (by simp [hy])
        simp only [List.length_append, List.length_singleton, List.append_assoc, List.singleton_append,
          List.cons_append, List.nil_append] at this
        rw [List.length_cons, fromStrGo]
        simp only [List.append_assoc, List.cons_append]
        rw [List.getElem?_append_right (Nat.le_refl _)]
        simp only [Nat.sub_self, List.getElem?_cons_zero, hx, if_false]
        rw [this]
        congr 1
        omega
    have := this [] xs hi
    simpa [fromStr] using this

/-! ### C104: the functions of the header -/

theorem fromStrGo_spec (names : List Str) (s : Str) (n i : Nat) (h : i + n = names.length) :
    (∃ j, i ≤ j ∧ names[j]? = some s ∧ (∀ k, i ≤ k → k < j → names[k]? ≠ some s) ∧
      fromStrGo names s n i = .ok j) ∨
    ((∀ j, i ≤ j → names[j]? ≠ some s) ∧ fromStrGo names s n i = .throw .invalidArgument) := by
  induction n generalizing i with
  | zero =>
    refine .inr ⟨fun j hj e => ?_, rfl⟩
    have := (List.getElem?_eq_some_iff.1 e).1
    omega
  | succ n ih =>
    have hlt : i < names.length := by omega
    rw [fromStrGo, List.getElem?_eq_getElem hlt]
    simp only
    by_cases e : names[i] = s
    · refine .inl ⟨i, Nat.le_refl _, by rw [List.getElem?_eq_getElem hlt, e], fun k h1 h2 => by omega, ?_⟩
      rw [if_pos e]
    · rw [if_neg e]
      rcases ih (i + 1) (by omega) with ⟨j, h1, h2, h3, h4⟩ | ⟨h1, h2⟩
      · refine .inl ⟨j, by omega, h2, fun k hk1 hk2 => ?_, h4⟩
        by_cases hk : k = i
        · subst hk
          rw [List.getElem?_eq_getElem hlt]
          simpa using e
        · exact h3 k (by omega) hk2
      · refine .inr ⟨fun j hj => ?_, h2⟩
        by_cases hk : j = i
        · subst hk
          rw [List.getElem?_eq_getElem hlt]
          simpa using e
        · exact h1 j (by omega)

/-- C104: in a header for distinct names, `to_string` and `from_string` are inverse to each other,
`from_string` throws for every other text, and nothing is read out of range for an enumerator. -/
theorem C104_roundtrip (names : List Str) (hd : names.Nodup) :
    (∀ i s, toStr names i = .ok s ↔ fromStr names names.length s = .ok i) ∧
    (∀ i, i < names.length → ∃ s ∈ names, toStr names i = .ok s) ∧
    (∀ s, s ∉ names ↔ fromStr names names.length s = .throw .invalidArgument) ∧
    ∀ s i, fromStr names names.length s = .ok i → i < names.length := by
  have key : ∀ i s, names[i]? = some s ↔ fromStr names names.length s = .ok i := by
    intro i s
    rcases fromStrGo_spec names s names.length 0 (by omega) with ⟨j, -, h2, -, h4⟩ | ⟨h1, h2⟩
    · change fromStr names names.length s = .ok j at h4
      rw [h4]
      constructor
      · intro hi
        have hlt := (List.getElem?_eq_some_iff.1 hi).1
        rw [(List.getElem?_inj hlt hd).1 (hi.trans h2.symm)]
      · intro e
        cases e
        exact h2
    · change fromStr names names.length s = _ at h2
      rw [h2]
      exact ⟨fun h => absurd h (h1 i (Nat.zero_le _)), nofun⟩
  have ts : ∀ i s, toStr names i = .ok s ↔ names[i]? = some s := by
    intro i s
    unfold toStr
    cases names[i]? <;> simp
  refine ⟨fun i s => (ts i s).trans (key i s), ?_, ?_, ?_⟩
  · intro i hi
    exact ⟨names[i], List.getElem_mem hi, (ts _ _).2 (List.getElem?_eq_getElem hi)⟩
  · intro s
    rcases fromStrGo_spec names s names.length 0 (by omega) with ⟨j, -, h2, -, h4⟩ | ⟨h1, h2⟩
    · change fromStr names names.length s = .ok j at h4
      rw [h4]
      exact ⟨fun h => absurd (List.mem_of_getElem? h2) h, nofun⟩
    · change fromStr names names.length s = _ at h2
      refine ⟨fun _ => h2, fun _ hm => ?_⟩
      obtain ⟨j, hj⟩ := List.getElem?_of_mem hm
      exact h1 j (Nat.zero_le _) hj
  · intro s i h
    exact (List.getElem?_eq_some_iff.1 ((key i s).2 h)).1

example : fromStr [c!"red", c!"green"] 2 c!"green" = .ok 1 ∧ toStr [c!"red", c!"green"] 1 = .ok c!"green" ∧
    fromStr [c!"red", c!"green"] 2 c!"blue" = .throw .invalidArgument := by decide

/-- C104: the header behaves like the enumeration that the macro makes from the same names (the macro
takes up to eighteen), except for the class of the exception. -/
theorem C104_macro (names : List Str) (e : Builder.Enum) (hl : names.length ≤ 18)
    (he : Builder.enumeration names = some e) (i : Nat) (s : Str) :
    (e.toString i = some s ↔ toStr names i = .ok s) ∧
    (e.fromString s = .ok i ↔ fromStr names names.length s = .ok i) ∧
    (e.fromString s = .throw .initialization ↔ fromStr names names.length s = .throw .invalidArgument) := by
  obtain ⟨h1, h2, h3, h4⟩ := Builder.C35_roundtrip names e hl he
  obtain ⟨rfl, hd, -⟩ := Builder.enumeration_eq names e hl he
  obtain ⟨g1, g2, g3, g4⟩ := C104_roundtrip names hd
  have ht : ∀ i s, Builder.Enum.toString ⟨names, names.length⟩ i = some s ↔ toStr names i = .ok s := by
    intro i s
    unfold toStr Builder.Enum.toString
    cases names[i]? <;> simp
  refine ⟨ht i s, ?_, ?_⟩
  · rw [← g1]
    exact ⟨fun h => (ht i s).1 (h2 s i h).1, fun h => h1 i s ((ht i s).2 h)⟩
  · rw [← g3]
    constructor
    · intro h hm
      obtain ⟨j, hj⟩ := h3 s hm
      rw [hj] at h
      cases h
    · exact fun h => (h4 s h).1

example : ∃ e, Builder.enumeration [c!"red", c!"green"] = some e ∧ e.fromString c!"green" = .ok 1 :=
  ⟨_, rfl, by decide⟩

/-- The functions in the template. -/
def functions : List Seg := [
  .lit c!"inline const std::string& to_string(\n",
  .lit c!"        const ", .hole c!"enum_name", .lit c!"& e)\n",
  .lit c!"{\n",
  .lit c!"    return NAMES_", .hole c!"enum_name", .lit c!"[static_cast<int>(e)];\n",
  .lit c!"}\n",
  .lit c!"\n",
  .lit c!"inline std::vector<std::string> string_vector_", .hole c!"enum_name", .lit c!"()\n",
  .lit c!"{\n",
  .lit c!"    return std::vector<std::string> (\n",
  .lit c!"        NAMES_", .hole c!"enum_name", .lit c!".begin(),\n",
  .lit c!"        NAMES_", .hole c!"enum_name", .lit c!".end());\n",
  .lit c!"}\n",
  .lit c!"\n",
  .lit c!"inline ", .hole c!"enum_name", .lit c!" from_string_", .hole c!"enum_name", .lit c!"(\n",
  .lit c!"        const std::string& s)\n",
  .lit c!"{\n",
  .lit c!"    for (int i = 0; i < ", .hole c!"n_values", .lit c!"; i++)\n",
  .lit c!"    {\n",
  .lit c!"        if (NAMES_", .hole c!"enum_name", .lit c!"[i] == s)\n",
  .lit c!"        {\n",
  .lit c!"            return static_cast<", .hole c!"enum_name", .lit c!">(i);\n",
  .lit c!"        }\n",
  .lit c!"    }\n",
  .lit c!"    throw std::invalid_argument(\"Incorrect name for enum ", .hole c!"enum_name", .lit c!".\");\n",
  .lit c!"}\n"]

theorem code_functions : ∃ a b, code = a ++ functions ++ b := by
  refine ⟨code.take 29, code.drop (29 + functions.length), ?_⟩
  decide +kernel

set_option maxRecDepth 8000 in
/-- C104: the functions modelled by `toStr` and `fromStr` are the text of the header, with the name of the enumeration and
the number of values in their places, whatever the year, the file and the command are. -/
theorem C104_text (i : Input) (h : i.Named) : ∃ pre post : Str,
    generate (flat template) i = pre ++
      (c!"inline const std::string& to_string(\n        const " ++ i.name ++ c!"& e)\n{\n    return NAMES_" ++ i.name ++
        c!"[static_cast<int>(e)];\n}\n\n") ++
      (c!"inline std::vector<std::string> string_vector_" ++ i.name ++
        c!"()\n{\n    return std::vector<std::string> (\n        NAMES_" ++ i.name ++
        c!".begin(),\n        NAMES_" ++ i.name ++ c!".end());\n}\n\n") ++
      (c!"inline " ++ i.name ++ c!" from_string_" ++ i.name ++ c!"(\n        const std::string& s)\n{\n" ++
        c!"    for (int i = 0; i < " ++ natToDec i.values.length ++ c!"; i++)\n    {\n        if (NAMES_" ++ i.name ++
        c!"[i] == s)\n        {\n            return static_cast<" ++ i.name ++ c!">(i);\n        }\n    }\n" ++
        c!"    throw std::invalid_argument(\"Incorrect name for enum " ++ i.name ++ c!".\");\n}\n") ++ post := by
  obtain ⟨a, b, hab⟩ := code_functions
  obtain ⟨head, hh⟩ := C102_code i h
  refine ⟨head ++ '\n' :: fill (meaning i) a, fill (meaning i) b, ?_⟩
  rw [hh, hab, fill_append, fill_append]
  simp [fill, functions, meaning]

/-- The hypothesis of `C104_text` is met. -/
example : (⟨c!"2026", c!"dir/%command%.hpp", c!"enumeration_builder.py 50%", [c!"ns"], c!"Color", [c!"red", c!"green"]⟩ : Input).Named := by
  unfold Input.Named
  decide

end Verif.EnumGen
