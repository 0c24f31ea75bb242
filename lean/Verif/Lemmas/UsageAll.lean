import Verif.Lemmas.UsageLine
/-!
The tables of `printUsage`, and how far its lines go.
-/
namespace Verif.Usage
open Verif.Spec.Usage

/-! ### Texts are known by their bytes -/

theorem enc_inj (a b : Char) (s t : Bytes) (h : enc a ++ s = enc b ++ t) : a = b ∧ s = t := by
  have ha := enc_spec a
  have hb := enc_spec b
  rcases ha with ⟨a0, ha⟩ | ⟨a0, a1, ha⟩ | ⟨a0, a1, ha⟩ | ⟨a0, a1, ha⟩ <;>
    rcases hb with ⟨b0, hb⟩ | ⟨b0, b1, hb⟩ | ⟨b0, b1, hb⟩ | ⟨b0, b1, hb⟩ <;>
    rw [ha, hb] at h <;> simp only [List.cons_append, List.nil_append, List.cons.injEq] at h <;>
    first
      | (exfalso; omega)
      | (refine ⟨Char.toNat_inj.1 (by omega), ?_⟩; simp only [h])

theorem utf8_inj (s t : List Char) (h : utf8 s = utf8 t) : s = t := by
  induction s generalizing t with
  | nil =>
    cases t with
    | nil => rfl
    | cons c t =>
      exfalso
      obtain ⟨b, rest, e, -⟩ := decode1_enc c [] (by simp [Fresh])
      rw [utf8_nil, utf8_cons, e] at h
      simp at h
  | cons a s ih =>
    cases t with
    | nil =>
      exfalso
      obtain ⟨b, rest, e, -⟩ := decode1_enc a [] (by simp [Fresh])
      rw [utf8_nil, utf8_cons, e] at h
      simp at h
    | cons c t =>
      rw [utf8_cons, utf8_cons] at h
      obtain ⟨h1, h2⟩ := enc_inj a c _ _ h
      rw [h1, ih t h2]

/-! ### A table -/

theorem measured_fits {width : Nat} {parts : List Part} {thr : Nat} {m : Columns} (h : Measured thr parts m) (hl : m.left ≤ width)
    (hcol : columns width parts = some m) (L : List (Part × Item)) (hL : L.map Prod.fst = parts) (hc : ∀ x ∈ L, Corr x.1 x.2) : Fits width (L.map Prod.snd) m.last m.widths := by
  subst hL
  refine ⟨h.len, h.last, ?_, ?_, ?_, ?_, hl, ?_⟩
  rotate_left 4
  · intro u hu hs i hi ht hc'
    obtain ⟨x, hx, rfl⟩ := List.mem_map.1 hi
    have hcx := hc x hx
    have := columns_natural width _ m hcol u (by
      intro p hp hp1 hp2
      obtain ⟨y, hy, rfl⟩ := List.mem_map.1 hp
      have hcy := hc y hy
      have := hu y.2 (List.mem_map.2 ⟨y, hy, rfl⟩) (by rw [← hcy.table]; exact hp1) (by rw [← hcy.col]; exact hp2)
      rw [hcy.width, hcy.col]
      exact this) hs x.1 (List.mem_map.2 ⟨x, hx, rfl⟩) (by rw [hcx.table]; exact ht) (by rw [hcx.col]; exact hc')
    rw [hcx.width, hcx.col] at this
    exact this
  · intro i hi h8
    obtain ⟨x, hx, rfl⟩ := List.mem_map.1 hi
    have := hc x hx
    have := h.le x.1 (List.mem_map.2 ⟨x, hx, rfl⟩)
    rw [(hc x hx).col] at this
    exact this h8
  · rcases h.ex with h1 | ⟨p, hp, h1⟩
    · exact .inl h1
    · obtain ⟨x, hx, rfl⟩ := List.mem_map.1 hp
      exact .inr ⟨x.2, List.mem_map.2 ⟨x, hx, rfl⟩, by rw [← (hc x hx).col]; exact h1⟩
  · intro i hi ht h8
    obtain ⟨x, hx, rfl⟩ := List.mem_map.1 hi
    have hcx := hc x hx
    have := overlong h x.1 (List.mem_map.2 ⟨x, hx, rfl⟩) (by rw [hcx.col]; exact h8) (by rw [hcx.table]; exact ht)
    rw [hcx.width, hcx.col] at this
    exact this
  · intro j
    rcases h.from_ j with h1 | ⟨p, hp, h1, h2, h3, -⟩
    · exact .inl h1
    · obtain ⟨x, hx, rfl⟩ := List.mem_map.1 hp
      have hcx := hc x hx
      exact .inr ⟨x.2, List.mem_map.2 ⟨x, hx, rfl⟩, by rw [← hcx.col]; exact h1, by rw [← hcx.table]; exact h2, by
        rw [← hcx.width]; exact h3⟩

theorem printRows_laid {l : Layout} {B LW IW : Nat} (hL : LOk l B) (hLW : 2 ≤ LW) (hIW : 2 ≤ IW) (rs : List (Nat × List Char))
    (heb : ∀ r ∈ rs, r.1 = 0 ∨ r.1 = 10) (hok : ∀ r ∈ rs, RowOk r.2)
    (hfair : ∀ r ∈ rs, ∀ x ∈ (rowPairs r.1 r.2).flatten, Fair l x.1) (s : Pr) (h : Between l LW IW s) :
    ∃ (s' : Pr) (os : List (List Char)), (rs.map fun r => (rowPairs r.1 r.2).flatten.map Prod.fst).foldlM (printRow l) s = some s' ∧ s'.out = s.out ++ utf8 os.flatten ∧
      Between l LW IW s' ∧ os.length = rs.length ∧ ∀ (k : Nat) (r : Nat × List Char) (ro : List Char), rs[k]? = some r → os[k]? = some ro →
        (∃ ch, Laid B (stopOf l) ro ch ∧ ro.getLast? = some '\n' ∧ Shows l.last LW IW (grid r.2) ch) ∧
        (l.last ≠ 0 → (∀ i ∈ grid r.2, FitsCol l i) → RowLines LW l.last l.widths ((l.width : Int) - l.right) l.own r.2 ro) := by
  induction rs generalizing s with
  | nil => exact ⟨s, [], rfl, by simp [utf8_nil], h, rfl, by simp⟩
  | cons r rs ih =>
    have hr := rowPairs_run r.1 (heb r (by simp)) r.2 (hok r (by simp))
    obtain ⟨s1, o, ch, g1, g2, g3, g4, g5, g6⟩ := printRow_laid hL hLW hIW (rowPairs r.1 r.2) (fun L hL => (hr L hL).1)
      (fun L hL x hx => hfair r (by simp) x (List.mem_flatten.2 ⟨L, hL, hx⟩)) (fun L hL => (hr L hL).2)
      (rowPairs_corr r.1 (heb r (by simp)) r.2 (hok r (by simp))) s h
    rw [rowPairs_snd] at g6
    obtain ⟨s2, os, k1, k2, k3, k4, k5⟩ := ih (fun r hr => heb r (by simp [hr])) (fun r hr => hok r (by simp [hr]))
      (fun r hr => hfair r (by simp [hr])) s1 g3
    refine ⟨s2, o :: os, ?_, ?_, k3, by simp [k4], ?_⟩
    · simp only [List.map_cons, List.foldlM_cons, g1, Option.bind_eq_bind, Option.bind_some, k1]
    · rw [k2, g2, List.flatten_cons, utf8_append, List.append_assoc]
    · intro k r' ro' hk ho
      cases k with
      | zero =>
        simp at hk ho
        subst hk ho
        refine ⟨⟨ch, g4, g5, g6⟩, ?_⟩
        intro hl hfit
        obtain ⟨s1', ro', e1, e2, e3⟩ := printRow_exact l hl r.1 (heb r (by simp)) r.2 (hok r (by simp)) hfit LW IW hLW s h
        rw [g1] at e1
        obtain rfl := Option.some.inj e1
        rw [g2] at e2
        have := utf8_inj _ _ (List.append_cancel_left e2)
        rw [this]
        exact e3
      | succ k => exact k5 k r' ro' (by simpa using hk) (by simpa using ho)

/-- A table. -/
theorem printTable_text (width : Nat) (minW ownW : Int) (rs : List (Nat × List Char))
    (heb : ∀ r ∈ rs, r.1 = 0 ∨ r.1 = 10) (hok : ∀ r ∈ rs, RowOk r.2) :
    ∃ last w start own o, printTable width minW ownW (rs.map fun r => (rowPairs r.1 r.2).flatten.map Prod.fst) = some (utf8 o) ∧
      TableText width minW ownW (rs.map Prod.snd) last w start own o := by
  have hparts : (rs.map fun r => (rowPairs r.1 r.2).flatten.map Prod.fst).flatten =
      (rs.flatMap fun r => (rowPairs r.1 r.2).flatten).map Prod.fst := by
    rw [List.map_flatMap, List.flatMap_def]
  have hitems : (rs.flatMap fun r => (rowPairs r.1 r.2).flatten).map Prod.snd = (rs.map Prod.snd).flatMap grid := by
    rw [List.map_flatMap, List.flatMap_map]
    congr 1
    funext r
    exact rowPairs_snd _ _
  have hcorr : ∀ x ∈ rs.flatMap (fun r => (rowPairs r.1 r.2).flatten), Corr x.1 x.2 := by
    intro x hx
    obtain ⟨r, hr, hx⟩ := List.mem_flatMap.1 hx
    exact rowPairs_corr r.1 (heb r hr) r.2 (hok r hr) x hx
  obtain ⟨m, thr, h1, h2, h3⟩ := columns_some width (rs.map fun r => (rowPairs r.1 r.2).flatten.map Prod.fst).flatten
  have hfits := measured_fits h2 h3 h1 _ hparts.symm hcorr
  rw [hitems] at hfits
  -- the layout
  obtain ⟨l, hl⟩ : ∃ l, layout width minW ownW m = l := ⟨_, rfl⟩
  have hlw : l.width = width := by rw [← hl]; unfold layout; dsimp only; split <;> rfl
  have hll : l.last = m.last := by rw [← hl]; unfold layout; dsimp only; split <;> rfl
  have hlc : l.widths = m.widths := by rw [← hl]; unfold layout; dsimp only; split <;> rfl
  obtain ⟨own, hown⟩ : ∃ own : Bool, own = false ↔ minW ≤ (width : Int) - (m.widths.take m.last).sum ∨
      (0 < m.widths.getD m.last 0 ∧ (m.widths.getD m.last 0 : Int) ≤ (width : Int) - (m.widths.take m.last).sum) :=
    ⟨decide (¬ (minW ≤ (width : Int) - (m.widths.take m.last).sum ∨
      (0 < m.widths.getD m.last 0 ∧ (m.widths.getD m.last 0 : Int) ≤ (width : Int) - (m.widths.take m.last).sum))), by
        rw [decide_eq_false_iff_not, Classical.not_not]⟩
  have hstart : (width : Int) - l.right = (if own then (width : Int) - ownW else ((m.widths.take m.last).sum : Int)) ∧
      (m.last ≠ 0 → l.own = own) := by
    rw [← hl]
    unfold layout
    dsimp only [tabstop]
    cases own with
    | false =>
      have := hown.1 rfl
      rw [if_neg (by omega)]
      simp only [Bool.false_eq_true, if_false, implies_true, and_true]
      omega
    | true =>
      have : ¬ (minW ≤ (width : Int) - (m.widths.take m.last).sum ∨
        (0 < m.widths.getD m.last 0 ∧ (m.widths.getD m.last 0 : Int) ≤ (width : Int) - (m.widths.take m.last).sum)) := fun h => by
          have := hown.2 h; simp at this
      rw [if_pos (by omega)]
      simp
  have hL : LOk l (max width ((width : Int) - l.right).toNat) := by
    refine ⟨?_, ?_, ?_, ?_⟩
    · intro ho
      rw [hll]
      rw [← hl] at ho
      unfold layout at ho
      dsimp only at ho
      split at ho
      · simpa using ho
      · simp at ho
    · intro ho hn
      rw [hlw, hll, hlc]
      rw [hll] at hn
      rw [← hl] at ho ⊢
      unfold layout at ho ⊢
      dsimp only at ho ⊢
      split at ho
      · simp at ho; exact absurd ho hn
      · rename_i hq
        rw [if_neg hq]
        dsimp only
        omega
    · rw [hlc, hll]
      have : tabstop m.widths m.last = m.left := rfl
      omega
    · rw [hlw]; omega
  have hfair : ∀ r ∈ rs, ∀ x ∈ (rowPairs r.1 r.2).flatten, Fair l x.1 := by
    intro r hr x hx hcol ht
    have hx' : x.1 ∈ (rs.map fun r => (rowPairs r.1 r.2).flatten.map Prod.fst).flatten :=
      List.mem_flatten.2 ⟨_, List.mem_map.2 ⟨r, hr, rfl⟩, List.mem_map.2 ⟨x, hx, rfl⟩⟩
    rw [hll] at hcol
    have hlast := h2.last
    rcases overlong h2 x.1 hx' (by omega) ht with hq | hq
    · left; rw [hlc]; exact hq
    · right
      intro j
      rw [hlc]
      have := hq j
      omega
  have hbetween : Between l (max 2 ((width : Int) - ((width : Int) - l.right))).toNat (max 2 width)
      { out := [], x := -1, lastW := Wrapper.mk' (l.width - l.right) l.width, interW := Wrapper.mk' 0 l.width } := by
    refine ⟨rep_mk _ _, rfl, ?_, rep_mk _ _, rfl, ?_⟩
    · simp only [Wrapper.mk', hlw]; split <;> omega
    · simp only [Wrapper.mk', hlw]; split <;> omega
  obtain ⟨s', os, g1, g2, g3, g4, g5⟩ := printRows_laid hL (by omega) (by omega) rs heb hok hfair _ hbetween
  refine ⟨m.last, m.widths, (width : Int) - l.right, own, os.flatten, ?_, hfits, hown, hstart.1, os, rfl, by simp [g4], ?_⟩
  · unfold printTable
    simp only [h1, Option.bind_eq_bind, Option.bind_some, hl, g1, g2]
    simp
  · intro k row ro hk ho
    rw [List.getElem?_map] at hk
    obtain ⟨r, hr, rfl⟩ := Option.map_eq_some_iff.1 hk
    obtain ⟨⟨ch, k1, k2, k3⟩, k4⟩ := g5 k r ro hr ho
    refine ⟨⟨ch, ?_, k2, by rw [← hll]; exact k3⟩, ?_⟩
    rotate_left 1
    · intro hl0 hfit
      rw [hll, hlc, hlw, hstart.2 hl0] at k4
      apply k4 hl0
      intro i hi
      obtain ⟨q1, q2⟩ := hfit i hi
      exact ⟨q1, by rw [hll, hlc]; exact q2⟩
    have e : stopOf l = stops m.widths ((width : Int) - l.right) := by
      funext tag
      cases tag with
      | left c => simp [stopOf, stops, hlc, tabstop]
      | last => simp [stopOf, stops, hlw]
      | inter => rfl
    rw [← e]
    exact k1

/-! ### The rows of a table -/

/-- The rows of a help text, and what ends them. -/
def ends : List (List Char) → List (Nat × List Char)
  | [] => []
  | [r] => [(0, r)]
  | r :: r' :: rs => (10, r) :: ends (r' :: rs)

theorem ends_snd (rs : List (List Char)) : (ends rs).map Prod.snd = rs := by
  induction rs with
  | nil => rfl
  | cons r rs ih =>
    cases rs with
    | nil => rfl
    | cons r' rs => simp only [ends, List.map_cons, ih]

theorem ends_fst (rs : List (List Char)) : ∀ r ∈ ends rs, r.1 = 0 ∨ r.1 = 10 := by
  induction rs with
  | nil => simp [ends]
  | cons r rs ih =>
    cases rs with
    | nil => simp [ends]
    | cons r' rs =>
      intro x hx
      simp only [ends] at hx
      rcases List.mem_cons.1 hx with h | h
      · subst h; exact .inr rfl
      · exact ih x h

def partsOf (r : Nat × List Char) : List Part := (rowPairs r.1 r.2).flatten.map Prod.fst

theorem dropWhile_end (e : Bytes) (he : AtEnd e) : e.dropWhile (fun b => b ≠ 0 ∧ b ≠ 10) = e := by
  rcases he with rfl | ⟨r, rfl⟩
  · rfl
  · rfl

/-- The rows of one help text, and then those of the next. -/
theorem tableRows_help (r : List Char) (rs : List (List Char)) (hok : ∀ x ∈ r :: rs, RowOk x) (k : Nat) (rest : List Desc)
    (q : List (List Part))
    (hq : (match rest with
      | [] => none
      | d :: rest' => match d.help with
        | none => some []
        | some h => tableRows k h rest') = some q) (fuel : Nat) (hf : fuel = k + rs.length + 1) :
    tableRows fuel (utf8 r ++ rs.flatMap fun p => 10 :: utf8 p) rest = some ((ends (r :: rs)).map partsOf ++ q) := by
  induction rs generalizing r fuel with
  | nil =>
    subst hf
    have h1 := rowParts_row r (hok r (by simp)) [] (.inl rfl)
    rw [List.flatMap_nil, tableRows]
    simp only [h1, Option.bind_eq_bind, Option.bind_some, List.dropWhile_nil]
    cases rest with
    | nil => simp at hq
    | cons d rest =>
      dsimp only at hq ⊢
      cases hd : d.help with
      | none =>
        rw [hd] at hq
        simp at hq
        subst hq
        rfl
      | some h =>
        rw [hd] at hq
        simp only at hq
        simp only [List.length_nil, Nat.add_zero, hq]
        rfl
  | cons r' rs ih =>
    subst hf
    have he : AtEnd ((r' :: rs).flatMap fun p => 10 :: utf8 p) := .inr ⟨_, by rw [List.flatMap_cons, List.cons_append]⟩
    have h1 := rowParts_row r (hok r (by simp)) _ he
    rw [tableRows]
    simp only [h1, Option.bind_eq_bind, Option.bind_some]
    rw [dropWhile_end _ he]
    have h2 := ih r' (fun x hx => hok x (List.mem_cons_of_mem _ hx)) (k + (rs.length + 1)) (by omega)
    simp only [List.flatMap_cons, List.cons_append, List.length_cons, h2, Option.bind_some]
    rfl

/-- The characters of a help text. -/
def HelpOk (h : List Char) : Prop := ∀ c ∈ h, c.toNat ≠ 0

theorem helpRows_ok (h : List Char) (hh : HelpOk h) : ∀ r ∈ split '\n' h, RowOk r := by
  intro r hr c hc
  obtain ⟨h1, h2⟩ := mem_split _ _ _ hr c hc
  exact ⟨hh c h1, h2⟩

def helpRows (h : List Char) : List (Nat × List Char) := ends (split '\n' h)

def descOf (h : Option (List Char)) : Desc := { shortNull := false, help := h.map utf8 }

theorem tableRows_spec (hs : List (List Char)) (d : Desc) (hd : d.help = none) (r : List Desc) : ∀ (h : List Char), (∀ x ∈ h :: hs, HelpOk x) →
    ∀ (fuel : Nat), (h :: hs).foldr (fun x a => (split '\n' x).length + a) 0 ≤ fuel →
    tableRows fuel (utf8 h) (hs.map (fun x => descOf (some x)) ++ d :: r) = some (((h :: hs).flatMap helpRows).map partsOf) := by
  induction hs with
  | nil =>
    intro h hok fuel hf
    rw [split_utf8 '\n' 10 (by rw [enc_small _ (by decide)]; rfl) h]
    have hc := split_cons '\n' h
    have hl : (split '\n' h).length = (split '\n' h).tail.length + 1 := by rw [← hc]; simp
    have h1 := tableRows_help ((split '\n' h).headD []) (split '\n' h).tail (by rw [hc]; exact helpRows_ok h (hok h (by simp)))
      (fuel - (split '\n' h).length) (d :: r) [] (by simp [hd]) fuel (by simp at hf; omega)
    simp only [List.map_nil, List.nil_append]
    rw [h1, hc]
    simp [helpRows]
  | cons g hs ih =>
    intro h hok fuel hf
    rw [split_utf8 '\n' 10 (by rw [enc_small _ (by decide)]; rfl) h]
    have hc := split_cons '\n' h
    have hl : (split '\n' h).length = (split '\n' h).tail.length + 1 := by rw [← hc]; simp
    rw [List.foldr_cons] at hf
    have h2 := ih g (fun x hx => hok x (List.mem_cons_of_mem _ hx)) (fuel - (split '\n' h).length) (by omega)
    have h1 := tableRows_help ((split '\n' h).headD []) (split '\n' h).tail (by rw [hc]; exact helpRows_ok h (hok h (by simp)))
      (fuel - (split '\n' h).length) ((g :: hs).map (fun x => descOf (some x)) ++ d :: r) _
      (by simp only [List.map_cons, List.cons_append]; exact h2) fuel (by omega)
    rw [h1, hc]
    simp [helpRows]

/-! ### The tables -/

/-- An array of descriptors: none of these with a null `shortopt`, then the terminator. -/
def usageOf (es : List (Option (List Char))) : List Desc := es.map descOf ++ [{ shortNull := true, help := none }]

theorem skipBreaks_usage (es : List (Option (List Char))) : skipBreaks (usageOf es) = some (usageOf (es.dropWhile Option.isNone)) := by
  induction es with
  | nil => rfl
  | cons e es ih =>
    cases e with
    | none => simpa [usageOf, skipBreaks, descOf] using ih
    | some h => simp [usageOf, skipBreaks, descOf]

theorem skipTable_usage (es : List (Option (List Char))) : skipTable (usageOf es) = some (usageOf (es.dropWhile Option.isSome)) := by
  induction es with
  | nil => rfl
  | cons e es ih =>
    cases e with
    | some h => simpa [usageOf, skipTable, descOf] using ih
    | none => simp [usageOf, skipTable, descOf]

theorem groups_ne (es : List (Option (List Char))) : groups es ≠ [] := by
  cases es with
  | nil => simp [groups]
  | cons e es => cases e <;> simp [groups]

theorem groups_append (hs : List (List Char)) (es : List (Option (List Char))) :
    groups (hs.map some ++ es) = (hs ++ (groups es).headD []) :: (groups es).tail := by
  induction hs with
  | nil =>
    have := groups_ne es
    cases h : groups es with
    | nil => exact absurd h this
    | cons a l => simp [h]
  | cons a hs ih => simp only [List.map_cons, List.cons_append, groups, ih, List.headD_cons, List.tail_cons]

theorem tables_dropNone (es : List (Option (List Char))) : tables (es.dropWhile Option.isNone) = tables es := by
  induction es with
  | nil => rfl
  | cons e es ih =>
    cases e with
    | none =>
      rw [List.dropWhile_cons_of_pos (by rfl), ih]
      simp [tables, groups]
    | some h => rw [List.dropWhile_cons_of_neg (by simp)]

/-- The help texts of each table. -/
def helps (es : List (Option (List Char))) : List (List (List Char)) := (groups es).filter fun g => g ≠ []

theorem helps_dropNone (es : List (Option (List Char))) : helps (es.dropWhile Option.isNone) = helps es := by
  induction es with
  | nil => rfl
  | cons e es ih =>
    cases e with
    | none =>
      rw [List.dropWhile_cons_of_pos (by rfl), ih]
      simp [helps, groups]
    | some h => rw [List.dropWhile_cons_of_neg (by simp)]

theorem helps_break (es fs : List (Option (List Char))) : helps (es ++ none :: fs) = helps es ++ helps fs := by
  have : groups (es ++ none :: fs) = groups es ++ groups fs := by
    induction es with
    | nil => simp [groups]
    | cons e es ih =>
      cases e with
      | none => simp [groups, ih]
      | some h =>
        have := groups_ne es
        cases hg : groups es with
        | nil => exact absurd hg this
        | cons a l => simp [groups, ih, hg]
  simp [helps, this]

/-- Entries with a help text, and the rest. -/
theorem some_prefix (es : List (Option (List Char))) :
    ∃ (hs : List (List Char)) (r : List (Option (List Char))), es = hs.map some ++ r ∧ es.dropWhile Option.isSome = r ∧ (r = [] ∨ ∃ r', r = none :: r') := by
  induction es with
  | nil => exact ⟨[], [], rfl, rfl, .inl rfl⟩
  | cons e es ih =>
    cases e with
    | none => exact ⟨[], _, rfl, by rw [List.dropWhile_cons_of_neg (by simp)], .inr ⟨es, rfl⟩⟩
    | some h =>
      obtain ⟨hs, r, h1, h2, h3⟩ := ih
      refine ⟨h :: hs, r, by rw [h1]; rfl, ?_, h3⟩
      rw [List.dropWhile_cons_of_pos (by rfl), h2]

theorem tables_some (h : List Char) (hs : List (List Char)) (r : List (Option (List Char))) (hr : r = [] ∨ ∃ r', r = none :: r') :
    tables ((h :: hs).map some ++ r) = ((h :: hs).flatMap (split '\n')) :: tables r := by
  unfold tables
  rw [groups_append]
  rcases hr with rfl | ⟨r', rfl⟩
  · simp [groups]
  · simp [groups]

theorem helps_some (h : List Char) (hs : List (List Char)) (r : List (Option (List Char))) (hr : r = [] ∨ ∃ r', r = none :: r') :
    helps ((h :: hs).map some ++ r) = (h :: hs) :: helps r := by
  unfold helps
  rw [groups_append]
  rcases hr with rfl | ⟨r', rfl⟩
  · simp [groups]
  · simp [groups]

theorem split_length (sep : Char) (o : List Char) : (split sep o).length ≤ (utf8 o).length + 1 := by
  induction o with
  | nil => simp [split]
  | cons c o ih =>
    have hc : 1 ≤ (enc c).length := by
      obtain ⟨b, rest, e, -⟩ := decode1_enc c [] (by simp [Fresh])
      rw [e]; simp
    rw [utf8_cons, List.length_append]
    simp only [split]
    split
    · simp; omega
    · have := split_cons sep o
      rw [← this] at ih
      simp at ih ⊢
      omega

theorem rowFuel_le (h : List Char) (hs : List (List Char)) (r : List (Option (List Char))) :
    (h :: hs).foldr (fun x a => (split '\n' x).length + a) 0 ≤ rowFuel (usageOf ((h :: hs).map some ++ r)) := by
  have : ∀ l : List (List Char), l.foldr (fun x a => (split '\n' x).length + a) 0 ≤ rowFuel (usageOf (l.map some ++ r)) := by
    intro l
    induction l with
    | nil => simp
    | cons g l ih =>
      have := split_length '\n' g
      simp [rowFuel, usageOf, descOf] at ih ⊢
      omega
  exact this _

theorem printTables_eq (width : Nat) (minW ownW : Int) (fuel : Nat) (first : Bool) (usage : List Desc) :
    printTables width minW ownW (fuel + 1) first usage =
      (if first then some usage else skipTable usage).bind fun u => (skipBreaks u).bind fun u => match u with
        | [] => none
        | d :: rest => match d.help with
          | none => some []
          | some h => (tableRows (rowFuel u) h rest).bind fun rows => (printTable width minW ownW rows).bind fun o =>
            (printTables width minW ownW fuel false u).bind fun q => some (o ++ q) := by
  cases first <;> rfl

/-- All the tables. -/
theorem printTables_text (width : Nat) (minW ownW : Int) (fuel : Nat) : ∀ (first : Bool) (es : List (Option (List Char))),
    (∀ h, some h ∈ es → HelpOk h) → (tables (if first then es else es.dropWhile Option.isSome)).length < fuel →
    ∃ os : List (List Char), printTables width minW ownW fuel first (usageOf es) = some (utf8 os.flatten) ∧
      os.length = (tables (if first then es else es.dropWhile Option.isSome)).length ∧
      (∀ (k : Nat) (rows : List (List Char)) (o : List Char), (tables (if first then es else es.dropWhile Option.isSome))[k]? = some rows → os[k]? = some o →
        ∃ last w start own, TableText width minW ownW rows last w start own o) ∧
      os.map (fun o => some (utf8 o)) = (helps (if first then es else es.dropWhile Option.isSome)).map fun g =>
        printTable width minW ownW ((g.flatMap helpRows).map partsOf) := by
  induction fuel with
  | zero => intro first es _ h; omega
  | succ fuel ih =>
    intro first es hok hf
    obtain ⟨fs, hfs⟩ : ∃ fs, (if first then es else es.dropWhile Option.isSome) = fs := ⟨_, rfl⟩
    rw [hfs] at hf ⊢
    have hmem : ∀ h, some h ∈ fs → HelpOk h := by
      intro h hh
      apply hok
      rw [← hfs] at hh
      split at hh
      · exact hh
      · exact (List.dropWhile_suffix _).subset hh
    have h1 : (if first then some (usageOf es) else skipTable (usageOf es)) = some (usageOf fs) := by
      rw [← hfs]
      cases first with
      | true => rfl
      | false => exact skipTable_usage es
    obtain ⟨gs, hgs⟩ : ∃ gs, fs.dropWhile Option.isNone = gs := ⟨_, rfl⟩
    have ht : tables gs = tables fs := by rw [← hgs]; exact tables_dropNone fs
    have ht' : helps gs = helps fs := by rw [← hgs]; exact helps_dropNone fs
    have hmem' : ∀ h, some h ∈ gs → HelpOk h := by
      intro h hh
      apply hmem
      rw [← hgs] at hh
      exact (List.dropWhile_suffix _).subset hh
    have hhead : gs = [] ∨ ∃ h r, gs = some h :: r := by
      cases hq : gs with
      | nil => exact .inl rfl
      | cons a r =>
        cases a with
        | some h => exact .inr ⟨h, r, rfl⟩
        | none =>
          exfalso
          have : ¬ (Option.isNone (fs.dropWhile Option.isNone).head?.join = true ∧ (fs.dropWhile Option.isNone) ≠ []) := by
            clear h1 ht ht' hmem' hgs hq hmem hfs hf ih
            induction fs with
            | nil => simp
            | cons a fs ih =>
              cases a with
              | none => rw [List.dropWhile_cons_of_pos (by rfl)]; exact ih
              | some h => rw [List.dropWhile_cons_of_neg (by simp)]; simp
          apply this
          rw [hgs, hq]
          simp
    rw [printTables_eq]
    simp only [h1, skipBreaks_usage, hgs, Option.bind_some]
    rw [← ht] at hf ⊢
    rw [← ht']
    rcases hhead with rfl | ⟨h, r, rfl⟩
    · refine ⟨[], ?_, rfl, by simp [tables, groups], by simp [helps, groups]⟩
      simp [usageOf, utf8_nil]
    · obtain ⟨hs, r', hr, hdrop, hr'⟩ := some_prefix r
      subst hr
      have hgs' : (h :: hs).map some ++ r' = some h :: (hs.map some ++ r') := rfl
      rw [← hgs', tables_some h hs r' hr'] at hf ⊢
      rw [helps_some h hs r' hr']
      have hmem'' : ∀ x ∈ h :: hs, HelpOk x := fun x hx => hmem' x (by
        rw [← hgs']; exact List.mem_append_left _ (List.mem_map.2 ⟨x, hx, rfl⟩))
      -- the table
      obtain ⟨d, rd, hd, hrest⟩ : ∃ d rd, d.help = none ∧ usageOf r' = d :: rd := by
        rcases hr' with rfl | ⟨q, rfl⟩
        · exact ⟨_, _, rfl, rfl⟩
        · exact ⟨descOf none, _, rfl, rfl⟩
      have hu : usageOf ((h :: hs).map some ++ r') = descOf (some h) :: (hs.map (fun x => descOf (some x)) ++ d :: rd) := by
        rw [← hrest]
        simp [usageOf]
      have h3 := tableRows_spec hs d hd rd h hmem'' _ (rowFuel_le h hs r')
      have heb : ∀ x ∈ (h :: hs).flatMap helpRows, x.1 = 0 ∨ x.1 = 10 := by
        intro x hx
        obtain ⟨g, -, hx⟩ := List.mem_flatMap.1 hx
        exact ends_fst _ x hx
      have hsnd : ((h :: hs).flatMap helpRows).map Prod.snd = (h :: hs).flatMap (split '\n') := by
        rw [List.map_flatMap]
        congr 1
        funext g
        exact ends_snd _
      have hro : ∀ x ∈ (h :: hs).flatMap helpRows, RowOk x.2 := by
        intro x hx
        obtain ⟨g, hg, hx⟩ := List.mem_flatMap.1 hx
        apply helpRows_ok g (hmem'' g hg)
        rw [← ends_snd (split '\n' g)]
        exact List.mem_map.2 ⟨x, hx, rfl⟩
      obtain ⟨last, w, start, own, o, h4, h5⟩ := printTable_text width minW ownW _ heb hro
      rw [hsnd] at h5
      obtain ⟨os, k1, k2, k3, k4⟩ := ih false ((h :: hs).map some ++ r') hmem' (by
        simp only [Bool.false_eq_true, if_false]
        rw [hgs', List.dropWhile_cons_of_pos (by rfl), hdrop]
        simp at hf
        exact hf)
      simp only [Bool.false_eq_true, if_false] at k2 k3 k4
      rw [hgs', List.dropWhile_cons_of_pos (by rfl), hdrop] at k2 k3 k4
      refine ⟨o :: os, ?_, by simp [k2], ?_, by rw [List.map_cons, List.map_cons, k4]; exact congrArg (· :: _) h4.symm⟩
      · rw [hu] at h3 k1 ⊢
        have e : (descOf (some h)).help = some (utf8 h) := rfl
        simp only [e, h3, Option.bind_some]
        have h4' : printTable width minW ownW (((h :: hs).flatMap helpRows).map partsOf) = some (utf8 o) := h4
        simp only [h4', k1, Option.bind_some, List.flatten_cons, utf8_append]
      · intro k rows o' hk ho
        cases k with
        | zero =>
          simp at hk ho
          subst hk ho
          exact ⟨last, w, start, own, by simpa using h5⟩
        | succ k => exact k3 k rows o' (by simpa using hk) (by simpa using ho)

/-! ### How far lines go -/

theorem laid_cursor {B M : Nat} {stop : Tag → Nat} {o : List Char} {ch : List (Tag × List Char)} (h : Laid B stop o ch) (hB : B ≤ M)
    (hch : ∀ p ∈ ch, stop p.1 + textWidth p.2 ≤ M ∧ '\n' ∉ p.2) : ∀ p, p <+: o → cursor p ≤ M := by
  induction h with
  | nil =>
    intro p hp
    rw [List.prefix_nil] at hp
    subst hp
    simp [cursor]
  | newline h ih =>
    intro p hp
    rcases List.prefix_concat_iff.1 hp with hp | hp
    · subst hp; rw [cursor_nl]; omega
    · exact ih hch p hp
  | space h hc ih =>
    intro p hp
    rcases List.prefix_concat_iff.1 hp with hp | hp
    · subst hp; rw [cursor_snoc, if_neg (by decide), charWidth_space]; omega
    · exact ih hch p hp
  | @text o ch tag t h hc ih =>
    intro p hp
    obtain ⟨h1, h2⟩ := hch (tag, t) (by simp)
    rcases Nat.lt_or_ge p.length o.length with hlt | hge
    · exact ih (fun q hq => hch q (by simp [hq])) p (List.prefix_of_prefix_length_le hp (List.prefix_append o t) (by omega))
    · obtain ⟨t', rfl⟩ := List.prefix_of_prefix_length_le (List.prefix_append o t) hp hge
      have ht' : t' <+: t := (List.prefix_append_right_inj o).1 hp
      obtain ⟨t'', rfl⟩ := ht'
      have hno : '\n' ∉ t' := fun hm => h2 (by simp [hm])
      rw [cursor_text _ _ hno, hc]
      rw [textWidth_append] at h1
      simp only at h1
      omega

end Verif.Usage
