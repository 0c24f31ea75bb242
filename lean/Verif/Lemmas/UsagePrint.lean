import Verif.Lemmas.UsageCols
import Verif.Lemmas.UsageWrap
/-!
What `printUsage` writes for a row.
-/
namespace Verif.Usage
open Verif.Spec.Usage

/-! ### Blanks -/

theorem utf8_nl : utf8 ['\n'] = [10] := by rw [utf8_cons, enc_small '\n' (by decide), utf8_nil]; rfl

theorem utf8_spaces (n : Nat) : utf8 (List.replicate n ' ') = List.replicate n 32 := by
  induction n with
  | zero => rfl
  | succ n ih => rw [List.replicate_succ, utf8_cons, enc_space, ih, List.replicate_succ]; rfl

/-- The characters of `ind`. -/
def indC (x : Int) : List Char := if x < 0 then ['\n'] else List.replicate x.toNat ' '

theorem utf8_indC (x : Int) : utf8 (indC x) = ind x := by
  unfold indC ind indent
  by_cases h : x < 0
  · simp only [Int.sub_zero, h, if_true, utf8_nl]
    rw [if_neg (by omega)]
  · simp only [Int.sub_zero, h, if_false, List.nil_append, utf8_spaces]
    by_cases h0 : x > 0
    · rw [if_pos h0]
    · rw [if_neg h0, show x.toNat = 0 by omega]; rfl

/-- The characters of `joinL`. -/
def joinC (x : Int) : List (List Char) → List Char
  | [] => []
  | p :: ps => p ++ ps.flatMap fun p => '\n' :: (indC x ++ p)

theorem utf8_joinC (x : Int) (em : List (List Char)) : utf8 (joinC x em) = joinL x (em.map utf8) := by
  cases em with
  | nil => rfl
  | cons p ps =>
    simp only [joinC, List.map_cons, joinL, utf8_append]
    congr 1
    induction ps with
    | nil => rfl
    | cons q ps ih =>
      rw [List.flatMap_cons, utf8_append, ih, show '\n' :: (indC x ++ q) = ['\n'] ++ (indC x ++ q) from rfl, utf8_append,
        utf8_append, utf8_nl, utf8_indC]
      simp

theorem process_chars (t : List Char) (w : Wrapper) (qc : List (List Char)) (hw : Rep w (qc.map utf8)) (hW : 2 ≤ w.width) :
    ∃ ps em qc' w', Wrapped w.width t ps ∧ qc ++ ps = em ++ qc' ∧ w.process (utf8 t) = some (w', utf8 (joinC w.x em)) ∧
      Rep w' (qc'.map utf8) ∧ Same w w' := by
  obtain ⟨ps, em, q', w', h1, h2, h3, h4, h5, -⟩ := process_utf8 t w _ hw hW
  rw [← List.map_append, List.map_eq_append_iff] at h2
  obtain ⟨em', q'', h6, h7, h8⟩ := h2
  subst h7 h8
  exact ⟨ps, em', q'', w', h1, h6, by rw [utf8_joinC]; exact h3, h4, h5⟩

theorem flush_chars (w : Wrapper) (qc : List (List Char)) (hw : Rep w (qc.map utf8)) :
    ∃ w', w.flush = some (w', utf8 (if qc = [] then [] else indC w.x ++ joinC w.x qc ++ ['\n'])) ∧ Rep w' [] ∧ Same w w' := by
  obtain ⟨w', h1, h2, h3⟩ := flush_rep w _ hw
  refine ⟨w', ?_, h2, h3⟩
  rw [h1]
  cases qc with
  | nil => simp [utf8_nil]
  | cons p ps =>
    rw [if_neg (by simp), if_neg (by simp), utf8_append, utf8_append, utf8_indC, utf8_joinC, utf8_nl]

/-! ### The cursor -/

theorem cursor_nil : cursor [] = 0 := rfl

theorem cursor_snoc (o : List Char) (c : Char) : cursor (o ++ [c]) = if c = '\n' then 0 else cursor o + charWidth c := by
  simp [cursor]

theorem cursor_text (o t : List Char) (h : '\n' ∉ t) : cursor (o ++ t) = cursor o + textWidth t := by
  induction t generalizing o with
  | nil => simp [textWidth]
  | cons c t ih =>
    rw [show o ++ c :: t = (o ++ [c]) ++ t by simp, ih _ (by simp at h; exact h.2), cursor_snoc, textWidth_cons]
    have : c ≠ '\n' := by simp at h; exact fun e => h.1 e.symm
    rw [if_neg this]
    omega

theorem charWidth_space : charWidth ' ' = 1 := charWidth_small ' ' (by decide)

theorem cursor_spaces (o : List Char) (n : Nat) : cursor (o ++ List.replicate n ' ') = cursor o + n := by
  rw [cursor_text]
  · congr 1
    induction n with
    | zero => rfl
    | succ n ih => rw [List.replicate_succ, textWidth_cons, ih, charWidth_space]; omega
  · intro h
    exact absurd (List.eq_of_mem_replicate h) (by decide)

theorem cursor_nl (o : List Char) : cursor (o ++ ['\n']) = 0 := by rw [cursor_snoc, if_pos rfl]

section
variable {B : Nat} {stop : Tag → Nat} {o : List Char} {ch : List (Tag × List Char)}

theorem laid_spaces (n : Nat) (h : Laid B stop o ch) (hn : cursor o + n ≤ B) : Laid B stop (o ++ List.replicate n ' ') ch := by
  induction n with
  | zero => simpa using h
  | succ n ih =>
    rw [List.replicate_succ', ← List.append_assoc]
    exact .space (ih (by omega)) (by rw [cursor_spaces]; omega)

theorem laid_ind (x : Int) (h : Laid B stop o ch) (h0 : cursor o = 0) (hx : x.toNat ≤ B) :
    Laid B stop (o ++ indC x) ch ∧ cursor (o ++ indC x) = x.toNat := by
  unfold indC
  by_cases hx0 : x < 0
  · rw [if_pos hx0]
    exact ⟨.newline h, by rw [cursor_nl]; omega⟩
  · rw [if_neg hx0]
    exact ⟨laid_spaces _ h (by omega), by rw [cursor_spaces]; omega⟩

theorem laid_next (tag : Tag) (x : Int) (em : List (List Char)) (h : Laid B stop o ch) (hs : stop tag = x.toNat) (hx : x.toNat ≤ B) :
    Laid B stop (o ++ em.flatMap fun p => '\n' :: (indC x ++ p)) (ch ++ em.map fun p => (tag, p)) := by
  induction em generalizing o ch with
  | nil => simpa using h
  | cons p em ih =>
    obtain ⟨h1, h2⟩ := laid_ind x (.newline h) (cursor_nl o) hx
    have h3 := ih (.text tag p h1 (by rw [h2, hs]))
    simpa using h3

theorem laid_join (tag : Tag) (x : Int) (em : List (List Char)) (h : Laid B stop o ch) (hc : cursor o = stop tag)
    (hs : stop tag = x.toNat) (hx : x.toNat ≤ B) : Laid B stop (o ++ joinC x em) (ch ++ em.map fun p => (tag, p)) := by
  cases em with
  | nil => simpa [joinC] using h
  | cons p em =>
    have := laid_next tag x em (.text tag p h hc) hs hx
    simpa [joinC] using this

end

/-! ### Accumulated pieces -/

theorem wrappedAll_append {W : Nat} {ts ls ts' ls' : List (List Char)} (h : WrappedAll W ts ls) (h' : WrappedAll W ts' ls') :
    WrappedAll W (ts ++ ts') (ls ++ ls') := by
  induction h with
  | nil => simpa using h'
  | cons h1 _ ih => rw [List.cons_append, List.append_assoc]; exact .cons h1 ih

theorem wrappedAll_one {W : Nat} {t : List Char} {ls : List (List Char)} (h : Wrapped W t ls) : WrappedAll W [t] ls := by
  have := WrappedAll.cons h (.nil (W := W))
  simpa using this

/-- The texts of the items that `f` gives a tag. -/
def sel (f : Item → Option Tag) (tag : Tag) (items : List Item) : List (List Char) :=
  (items.filter fun i => f i = some tag).map Item.text

def selLeft (f : Item → Option Tag) (items : List Item) : List (Tag × List Char) :=
  items.filterMap fun i => match f i with
    | some (.left c) => some (.left c, i.text)
    | _ => none

def leftsOf (ch : List (Tag × List Char)) : List (Tag × List Char) := ch.filter fun p => p.1 ≠ .last ∧ p.1 ≠ .inter

/-- The pieces `ch` and the queues after show the queues before and the items. -/
structure Acc (LW IW : Nat) (f : Item → Option Tag) (items : List Item) (ch : List (Tag × List Char))
    (ql qi ql' qi' : List (List Char)) : Prop where
  lefts : leftsOf ch = selLeft f items
  lasts : ∃ pl, WrappedAll LW (sel f .last items) pl ∧ ql ++ pl = textsOf .last ch ++ ql'
  inters : ∃ pl, WrappedAll IW (sel f .inter items) pl ∧ qi ++ pl = textsOf .inter ch ++ qi'

theorem textsOf_append (tag : Tag) (a b : List (Tag × List Char)) : textsOf tag (a ++ b) = textsOf tag a ++ textsOf tag b := by
  simp [textsOf]

theorem leftsOf_append (a b : List (Tag × List Char)) : leftsOf (a ++ b) = leftsOf a ++ leftsOf b := by simp [leftsOf]

theorem textsOf_same (tag : Tag) (ps : List (List Char)) : textsOf tag (ps.map fun p => (tag, p)) = ps := by
  induction ps with
  | nil => rfl
  | cons p ps ih => simp [textsOf] at ih ⊢; exact ih

theorem textsOf_other {tag tag' : Tag} (h : tag' ≠ tag) (ps : List (List Char)) : textsOf tag (ps.map fun p => (tag', p)) = [] := by
  induction ps with
  | nil => rfl
  | cons p ps ih => simp [textsOf, h] at ih ⊢

theorem leftsOf_last (ps : List (List Char)) : leftsOf (ps.map fun p => (Tag.last, p)) = [] := by
  simp [leftsOf]

theorem leftsOf_inter (ps : List (List Char)) : leftsOf (ps.map fun p => (Tag.inter, p)) = [] := by
  simp [leftsOf]

section
variable {LW IW : Nat} {f : Item → Option Tag}

theorem Acc.nil (ql qi : List (List Char)) : Acc LW IW f [] [] ql qi ql qi :=
  ⟨rfl, ⟨[], .nil, by simp [textsOf]⟩, ⟨[], .nil, by simp [textsOf]⟩⟩

theorem Acc.append {is js : List Item} {ch ch' : List (Tag × List Char)} {ql qi ql' qi' ql'' qi'' : List (List Char)}
    (h : Acc LW IW f is ch ql qi ql' qi') (h' : Acc LW IW f js ch' ql' qi' ql'' qi'') :
    Acc LW IW f (is ++ js) (ch ++ ch') ql qi ql'' qi'' := by
  refine ⟨?_, ?_, ?_⟩
  · rw [leftsOf_append, h.lefts, h'.lefts]; simp [selLeft]
  · obtain ⟨pl, h1, h2⟩ := h.lasts
    obtain ⟨pl', h3, h4⟩ := h'.lasts
    refine ⟨pl ++ pl', ?_, ?_⟩
    · have := wrappedAll_append h1 h3
      simpa [sel] using this
    · rw [← List.append_assoc, h2, List.append_assoc, h4, textsOf_append, List.append_assoc]
  · obtain ⟨pl, h1, h2⟩ := h.inters
    obtain ⟨pl', h3, h4⟩ := h'.inters
    refine ⟨pl ++ pl', ?_, ?_⟩
    · have := wrappedAll_append h1 h3
      simpa [sel] using this
    · rw [← List.append_assoc, h2, List.append_assoc, h4, textsOf_append, List.append_assoc]

theorem Acc.none {i : Item} (h : f i = none) (ql qi : List (List Char)) : Acc LW IW f [i] [] ql qi ql qi := by
  refine ⟨by simp [leftsOf, selLeft, h], ⟨[], ?_, by simp [textsOf]⟩, ⟨[], ?_, by simp [textsOf]⟩⟩
  · simp [sel, h]; exact .nil
  · simp [sel, h]; exact .nil

theorem Acc.left {i : Item} {c : Nat} (h : f i = some (.left c)) (ql qi : List (List Char)) :
    Acc LW IW f [i] [(.left c, i.text)] ql qi ql qi := by
  refine ⟨by simp [leftsOf, selLeft, h], ⟨[], ?_, by simp [textsOf]⟩, ⟨[], ?_, by simp [textsOf]⟩⟩
  · simp [sel, h]; exact .nil
  · simp [sel, h]; exact .nil

theorem Acc.last {i : Item} (h : f i = some .last) {ps em ql ql' : List (List Char)} (qi : List (List Char))
    (hw : Wrapped LW i.text ps) (hq : ql ++ ps = em ++ ql') : Acc LW IW f [i] (em.map fun p => (Tag.last, p)) ql qi ql' qi := by
  refine ⟨by rw [leftsOf_last]; simp [selLeft, h], ⟨ps, ?_, by rw [textsOf_same]; exact hq⟩, ⟨[], ?_, by
    rw [textsOf_other (by decide)]; simp⟩⟩
  · simp [sel, h]; exact wrappedAll_one hw
  · simp [sel, h]; exact .nil

theorem Acc.inter {i : Item} (h : f i = some .inter) {ps em qi qi' : List (List Char)} (ql : List (List Char))
    (hw : Wrapped IW i.text ps) (hq : qi ++ ps = em ++ qi') : Acc LW IW f [i] (em.map fun p => (Tag.inter, p)) ql qi ql qi' := by
  refine ⟨by rw [leftsOf_inter]; simp [selLeft, h], ⟨[], ?_, by rw [textsOf_other (by decide)]; simp⟩, ⟨ps, ?_, by
    rw [textsOf_same]; exact hq⟩⟩
  · simp [sel, h]; exact .nil
  · simp [sel, h]; exact wrappedAll_one hw

end

/-! ### State while a row is printed -/

/-- A part and the item it stands for. -/
structure Corr (p : Part) (i : Item) : Prop where
  col : p.col = i.col
  text : p.text = utf8 i.text
  width : p.width = textWidth i.text
  table : p.inTable = i.table
  noNL : '\n' ∉ i.text

/-- Where pieces begin. -/
def stopOf (l : Layout) : Tag → Nat
  | .left c => tabstop l.widths c
  | .last => ((l.width : Int) - l.right).toNat
  | .inter => 0

structure St (l : Layout) (B LW IW : Nat) (prev : Bytes) (s : Pr) (o : List Char) (ch : List (Tag × List Char))
    (ql qi : List (List Char)) : Prop where
  out : s.out = prev ++ utf8 o
  laid : Laid B (stopOf l) o ch
  lrep : Rep s.lastW (ql.map utf8)
  lx : s.lastW.x = (l.width : Int) - l.right
  lw : s.lastW.width = LW
  irep : Rep s.interW (qi.map utf8)
  ix : s.interW.x = 0
  iw : s.interW.width = IW

theorem indent_nat (n w : Nat) : indent (n : Int) (w : Int) =
    if n ≤ w then (List.replicate (w - n) 32, (w : Int)) else (10 :: List.replicate w 32, if w = 0 then (n : Int) else (w : Int)) := by
  unfold indent
  by_cases h : n ≤ w
  · rw [if_pos h]
    have h1 : ¬ ((w : Int) - n < 0) := by omega
    simp only [h1, if_false, List.nil_append]
    by_cases h2 : (w : Int) - n > 0
    · rw [if_pos h2, show ((w : Int) - n).toNat = w - n by omega]
    · rw [if_neg h2, show w - n = 0 by omega, show n = w by omega]
      rfl
  · rw [if_neg h]
    have h1 : (w : Int) - n < 0 := by omega
    simp only [h1, if_true]
    by_cases h2 : (w : Int) > 0
    · rw [if_pos h2, if_neg (by omega)]
      simp
    · rw [if_neg h2, if_pos (by omega), show w = 0 by omega]
      rfl

/-- Wider than every column. -/
def Big (l : Layout) (x : Int) : Prop := ∀ j, (l.widths.getD j 0 : Int) < x

/-- Before the part in column `c + 1`: `x`, and the cursor. -/
def XInv (l : Layout) (c : Nat) (x : Int) (k : Nat) : Prop :=
  0 ≤ x ∧ (tabstop l.widths (c + 1) = 0 → x = 0 ∨ Big l x) ∧ (x = k ∨ (tabstop l.widths c = 0 ∧ Big l x))

/-- After the indentation for column `c`. -/
def YInv (l : Layout) (c : Nat) (x : Int) (k : Nat) : Prop :=
  k = tabstop l.widths c ∧ (x = tabstop l.widths c ∨ (tabstop l.widths c = 0 ∧ Big l x))

theorem xinv_of_y {l : Layout} {c : Nat} {x : Int} {k w : Nat} (h : YInv l c x k) (hx : 0 ≤ x)
    (hw : w ≤ l.widths.getD c 0 ∨ Big l w) : XInv l c (x + w) (k + w) := by
  obtain ⟨h1, h2⟩ := h
  refine ⟨by omega, ?_, ?_⟩
  · intro h0
    rw [tabstop_succ] at h0
    rcases hw with hw | hw
    · rw [show w = 0 by omega]
      rcases h2 with h2 | ⟨-, h2⟩
      · left; omega
      · right; simpa using h2
    · right
      intro j
      have := hw j
      omega
  · rcases h2 with h2 | ⟨h2, h3⟩
    · left; omega
    · right
      refine ⟨h2, fun j => ?_⟩
      have := h3 j
      omega

/-- What `indent` does to the output in column `c + 1`. -/
theorem indent_step {l : Layout} {c : Nat} {x : Int} {o : List Char} {B : Nat} {ch : List (Tag × List Char)}
    (h : XInv l c x (cursor o)) (hl : Laid B (stopOf l) o ch) (hB : tabstop l.widths (c + 1) ≤ B) :
    ∃ b, (indent x (tabstop l.widths (c + 1) : Nat)).1 = utf8 b ∧ Laid B (stopOf l) (o ++ b) ch ∧
      YInv l (c + 1) (indent x (tabstop l.widths (c + 1) : Nat)).2 (cursor (o ++ b)) ∧
      0 ≤ (indent x (tabstop l.widths (c + 1) : Nat)).2 := by
  obtain ⟨h0, h1, h2⟩ := h
  obtain ⟨n, rfl⟩ : ∃ n : Nat, x = n := ⟨x.toNat, by omega⟩
  rw [indent_nat]
  by_cases hn : n ≤ tabstop l.widths (c + 1)
  · rw [if_pos hn]
    have hk : n = cursor o := by
      rcases h2 with h2 | ⟨h2, h3⟩
      · omega
      · exfalso
        have := h3 c
        rw [tabstop_succ] at hn
        omega
    refine ⟨List.replicate (tabstop l.widths (c + 1) - n) ' ', (utf8_spaces _).symm, laid_spaces _ hl (by omega), ⟨?_, .inl rfl⟩, by
      simp⟩
    rw [cursor_spaces]; omega
  · rw [if_neg hn]
    refine ⟨'\n' :: List.replicate (tabstop l.widths (c + 1)) ' ', ?_, ?_, ⟨?_, ?_⟩, ?_⟩
    · rw [show '\n' :: List.replicate (tabstop l.widths (c + 1)) ' ' = ['\n'] ++ List.replicate (tabstop l.widths (c + 1)) ' ' from rfl,
        utf8_append, utf8_nl, utf8_spaces]
      rfl
    · have := laid_spaces (tabstop l.widths (c + 1)) (.newline hl) (by rw [cursor_nl]; omega)
      simpa using this
    · have := cursor_spaces (o ++ ['\n']) (tabstop l.widths (c + 1))
      rw [cursor_nl] at this
      simp at this ⊢
      omega
    · dsimp only
      by_cases hz : tabstop l.widths (c + 1) = 0
      · rw [if_pos hz]
        right
        refine ⟨hz, ?_⟩
        rcases h1 hz with h | h
        · omega
        · exact h
      · rw [if_neg hz]; exact .inl rfl
    · dsimp only
      split <;> omega

/-- Where the first loop over the parts puts an item. -/
def tag1 (l : Layout) (i : Item) : Option Tag := if l.own ∧ i.col = l.last then none else i.tag l.last

/-- Where the second one does. -/
def tag2 (l : Layout) (i : Item) : Option Tag := if i.col = l.last then some .last else none

/-- What is known about the layout. -/
structure LOk (l : Layout) (B : Nat) : Prop where
  own : l.own = true → l.last ≠ 0
  right : l.own = false → l.last ≠ 0 → (l.width : Int) - l.right = tabstop l.widths l.last
  stops : tabstop l.widths l.last ≤ B
  lastB : ((l.width : Int) - l.right).toNat ≤ B

/-- The part is as wide as its column at most, or wider than all. -/
def Fair (l : Layout) (p : Part) : Prop :=
  p.col < l.last → p.inTable = true → p.width ≤ l.widths.getD p.col 0 ∨ Big l p.width

/-- What one part adds once the cursor is in its column. -/
theorem put_part {l : Layout} {B LW IW : Nat} {prev : Bytes} {s : Pr} {o : List Char} {ch : List (Tag × List Char)}
    {ql qi : List (List Char)} {p : Part} {i : Item} (hL : LOk l B) (h : St l B LW IW prev s o ch ql qi) (hc : Corr p i)
    (hcol : p.col ≤ l.last) (hy : YInv l p.col s.x (cursor o)) (hx : 0 ≤ s.x) (hLW : 2 ≤ LW) (hIW : 2 ≤ IW) :
    ∃ s' o' ch' ql' qi',
      (if p.col < l.last ∧ p.inTable then some { s with out := s.out ++ p.text, x := s.x + p.width }
       else if ¬ l.own ∨ p.col ≠ l.last then
         if p.col = 0 then do
           let r ← s.interW.process p.text
           some { s with out := s.out ++ r.2, interW := r.1 }
         else do
           let r ← s.lastW.process p.text
           some { s with out := s.out ++ r.2, lastW := r.1 }
       else some s) = some s' ∧
      St l B LW IW prev s' o' (ch ++ ch') ql' qi' ∧ Acc LW IW (tag1 l) [i] ch' ql qi ql' qi' ∧ 0 ≤ s'.x ∧
      (p.col < l.last → p.inTable = true → Fair l p → XInv l p.col s'.x (cursor o')) := by
  by_cases h1 : p.col < l.last ∧ p.inTable = true
  · rw [if_pos h1]
    have htag : tag1 l i = some (.left p.col) := by
      unfold tag1 Item.tag
      rw [if_neg (by rw [← hc.col]; omega), if_neg (by rw [← hc.col]; omega), if_pos (by rw [← hc.col, ← hc.table]; exact h1), hc.col]
    refine ⟨_, o ++ i.text, [(.left p.col, i.text)], ql, qi, rfl, ⟨?_, ?_, h.lrep, h.lx, h.lw, h.irep, h.ix, h.iw⟩,
      Acc.left htag _ _, by show 0 ≤ s.x + (p.width : Int); omega, ?_⟩
    · show s.out ++ p.text = _
      rw [h.out, hc.text, utf8_append, List.append_assoc]
    · exact .text (.left p.col) i.text h.laid hy.1
    · intro _ ht hfair
      rw [cursor_text _ _ hc.noNL, ← hc.width]
      exact xinv_of_y hy hx (hfair h1.1 h1.2)
  · rw [if_neg h1]
    have hno : p.col < l.last → p.inTable = true → Fair l p → ∀ s' o', XInv l p.col s' o' := fun a b => absurd ⟨a, b⟩ h1
    by_cases h2 : ¬ l.own = true ∨ p.col ≠ l.last
    · rw [if_pos h2]
      by_cases h3 : p.col = 0
      · rw [if_pos h3]
        have htag : tag1 l i = some .inter := by
          unfold tag1 Item.tag
          rw [if_neg (by rw [← hc.col]; exact fun hab => h2.elim (fun h => h hab.1) (fun h => h hab.2)), if_neg (by rw [← hc.col]; omega),
            if_neg (by rw [← hc.col, ← hc.table]; exact h1), if_pos (by rw [← hc.col]; exact h3)]
        obtain ⟨ps, em, qc', w', g1, g2, g3, g4, g5⟩ := process_chars i.text s.interW qi h.irep (by rw [h.iw]; exact hIW)
        rw [hc.text, g3]
        refine ⟨_, o ++ joinC s.interW.x em, em.map (fun p => (Tag.inter, p)), ql, qc', rfl,
          ⟨?_, ?_, h.lrep, h.lx, h.lw, g4, g5.1.trans h.ix, g5.2.trans h.iw⟩,
          Acc.inter htag ql (by rw [← h.iw]; exact g1) g2, hx, fun a b c => hno a b c _ _⟩
        · show s.out ++ utf8 _ = _
          rw [h.out, utf8_append, List.append_assoc]
        · have h0 : cursor o = 0 := by rw [hy.1, h3, tabstop_zero]
          rw [h.ix]
          exact laid_join .inter 0 em h.laid h0 rfl (by simp)
      · rw [if_neg h3]
        have hlast : p.col = l.last := by
          by_cases hq : p.col = l.last
          · exact hq
          · exfalso
            apply h1
            refine ⟨by omega, ?_⟩
            simp [Part.inTable, show p.col > 0 by omega]
        have hown : l.own = false := by
          rcases h2 with h2 | h2
          · simpa using h2
          · exact absurd hlast h2
        have htag : tag1 l i = some .last := by
          unfold tag1 Item.tag
          rw [if_neg (by rw [hown]; simp), if_neg (by rw [← hc.col]; omega),
            if_neg (by rw [← hc.col, ← hc.table]; exact h1), if_neg (by rw [← hc.col]; exact h3)]
        obtain ⟨ps, em, qc', w', g1, g2, g3, g4, g5⟩ := process_chars i.text s.lastW ql h.lrep (by rw [h.lw]; exact hLW)
        rw [hc.text, g3]
        have hr := hL.right hown (by omega)
        refine ⟨_, o ++ joinC s.lastW.x em, em.map (fun p => (Tag.last, p)), qc', qi, rfl,
          ⟨?_, ?_, g4, g5.1.trans h.lx, g5.2.trans h.lw, h.irep, h.ix, h.iw⟩,
          Acc.last htag qi (by rw [← h.lw]; exact g1) g2, hx, fun a b c => hno a b c _ _⟩
        · show s.out ++ utf8 _ = _
          rw [h.out, utf8_append, List.append_assoc]
        · rw [h.lx]
          exact laid_join .last _ em h.laid (by rw [hy.1, hlast]; show _ = ((l.width : Int) - l.right).toNat; rw [hr]; simp) rfl hL.lastB
    · rw [if_neg h2]
      have htag : tag1 l i = none := by
        unfold tag1
        rw [if_pos]
        rw [← hc.col]
        exact ⟨by false_or_by_contra; exact h2 (.inl ‹_›), by false_or_by_contra; exact h2 (.inr ‹_›)⟩
      refine ⟨s, o, [], ql, qi, rfl, by simpa using h, Acc.none htag _ _, hx, fun a b c => hno a b c _ _⟩

/-- Before the part in column `c`. -/
def Enter (l : Layout) (s : Pr) (o : List Char) : Nat → Prop
  | 0 => 0 ≤ s.x ∨ cursor o = 0
  | c + 1 => l.last ≤ c ∨ XInv l c s.x (cursor o)

/-- One part of a row. -/
theorem printPart_step {l : Layout} {B LW IW : Nat} {prev : Bytes} {s : Pr} {o : List Char} {ch : List (Tag × List Char)}
    {ql qi : List (List Char)} {p : Part} {i : Item} (hL : LOk l B) (h : St l B LW IW prev s o ch ql qi) (hc : Corr p i)
    (he : Enter l s o p.col) (hf : Fair l p) (hx : p.col ≠ 0 → 0 ≤ s.x) (hLW : 2 ≤ LW) (hIW : 2 ≤ IW) :
    ∃ s' o' ch' ql' qi', printPart l s p = some s' ∧ St l B LW IW prev s' o' (ch ++ ch') ql' qi' ∧
      Acc LW IW (tag1 l) [i] ch' ql qi ql' qi' ∧ 0 ≤ s'.x ∧ (p.inTable = true → Enter l s' o' (p.col + 1)) := by
  unfold printPart
  by_cases h1 : p.col > l.last
  · rw [if_pos h1]
    refine ⟨s, o, [], ql, qi, rfl, by simpa using h, Acc.none ?_ _ _, hx (by omega), fun _ => .inl (by omega)⟩
    unfold tag1 Item.tag
    rw [if_neg (by rw [← hc.col]; omega), if_pos (by rw [← hc.col]; omega)]
  · rw [if_neg h1]
    dsimp only
    cases hq : p.col with
    | zero =>
      rw [hq] at he
      simp only [if_true, tabstop_zero]
      obtain ⟨o0, ho0, hl0, hc0⟩ : ∃ o0, s.out ++ (if s.x ≥ 0 then [10] else []) = prev ++ utf8 o0 ∧ Laid B (stopOf l) o0 ch ∧ cursor o0 = 0 := by
        by_cases hx0 : s.x ≥ 0
        · rw [if_pos hx0]
          exact ⟨o ++ ['\n'], by rw [h.out, utf8_append, utf8_nl, List.append_assoc], .newline h.laid, cursor_nl o⟩
        · rw [if_neg hx0]
          refine ⟨o, by rw [h.out, List.append_nil], h.laid, ?_⟩
          rcases he with he | he
          · omega
          · exact he
      have hi : indent 0 ((0 : Nat) : Int) = ([], 0) := by decide
      rw [hi]
      dsimp only
      have hs0 : St l B LW IW prev { s with out := s.out ++ (if s.x ≥ 0 then [10] else []) ++ [], x := 0 } o0 ch ql qi :=
        ⟨by simpa using ho0, hl0, h.lrep, h.lx, h.lw, h.irep, h.ix, h.iw⟩
      obtain ⟨s', o', ch', ql', qi', g1, g2, g3, g4, g5⟩ := put_part hL hs0 hc (by omega)
        (show YInv l p.col 0 (cursor o0) by rw [hq, hc0]; exact ⟨(tabstop_zero _).symm, .inl (by rw [tabstop_zero]; rfl)⟩)
        (Int.le_refl 0) hLW hIW
      rw [hq] at g1 g5
      refine ⟨s', o', ch', ql', qi', g1, g2, g3, g4, ?_⟩
      intro ht
      by_cases hl0 : l.last ≤ 0
      · exact .inl hl0
      · exact .inr (g5 (by omega) ht hf)
    | succ c =>
      rw [hq] at he
      simp only [show ¬ (c + 1 = 0) by omega, if_false]
      rcases he with he | he
      · omega
      · obtain ⟨b, g1, g2, g3, g4⟩ := indent_step he h.laid
          (Nat.le_trans (tabstop_mono _ _ _ (by omega)) hL.stops)
        rw [g1]
        have hs0 : St l B LW IW prev { s with out := s.out ++ utf8 b, x := (indent s.x (tabstop l.widths (c + 1) : Nat)).2 } (o ++ b) ch ql qi :=
          ⟨by show s.out ++ utf8 b = _; rw [h.out, utf8_append, List.append_assoc], g2, h.lrep, h.lx, h.lw, h.irep, h.ix, h.iw⟩
        obtain ⟨s', o', ch', ql', qi', k1, k2, k3, k4, k5⟩ := put_part hL hs0 hc (by omega)
          (by rw [hq]; exact g3) g4 hLW hIW
        rw [hq] at k1 k5
        simp only [show ¬ (c + 1 = 0) by omega, if_false] at k1
        refine ⟨s', o', ch', ql', qi', k1, k2, k3, k4, ?_⟩
        intro ht
        by_cases hl0 : l.last ≤ c + 1
        · exact .inl hl0
        · exact .inr (k5 (by omega) ht hf)

/-- The parts of a line: consecutive columns, all but a single first part within a table. -/
inductive Run : Nat → List (Part × Item) → Prop
  | nil (c : Nat) : Run c []
  | cons {c : Nat} {p : Part} {i : Item} {L : List (Part × Item)} : p.col = c → Corr p i → (L ≠ [] → p.inTable = true) →
      Run (c + 1) L → Run c ((p, i) :: L)

theorem printLine {l : Layout} {B LW IW : Nat} {prev : Bytes} (hL : LOk l B) (hLW : 2 ≤ LW) (hIW : 2 ≤ IW)
    (L : List (Part × Item)) : ∀ (c : Nat) (s : Pr) (o : List Char) (ch : List (Tag × List Char)) (ql qi : List (List Char)), Run c L →
    (∀ x ∈ L, Fair l x.1) → St l B LW IW prev s o ch ql qi → (L ≠ [] → Enter l s o c) → (c ≠ 0 → 0 ≤ s.x) →
    ∃ s' o' ch' ql' qi', (L.map Prod.fst).foldlM (printPart l) s = some s' ∧ St l B LW IW prev s' o' (ch ++ ch') ql' qi' ∧
      Acc LW IW (tag1 l) (L.map Prod.snd) ch' ql qi ql' qi' ∧ (L ≠ [] ∨ c ≠ 0 → 0 ≤ s'.x) := by
  induction L with
  | nil =>
    intro c s o ch ql qi _ _ h _ hx
    exact ⟨s, o, [], ql, qi, rfl, by simpa using h, Acc.nil _ _, fun h => hx (by simpa using h)⟩
  | cons a L ih =>
    intro c s o ch ql qi hrun hfair h he hx
    obtain ⟨p, i⟩ := a
    cases hrun with
    | cons h1 h2 h3 h4 =>
      subst h1
      obtain ⟨s1, o1, ch1, ql1, qi1, g1, g2, g3, g4, g5⟩ := printPart_step hL h h2 (he (by simp)) (hfair (p, i) (by simp)) hx hLW hIW
      obtain ⟨s2, o2, ch2, ql2, qi2, k1, k2, k3, k4⟩ := ih _ s1 o1 _ ql1 qi1 h4 (fun x hx => hfair x (by simp [hx])) g2
        (fun hne => g5 (h3 hne)) (fun _ => g4)
      refine ⟨s2, o2, ch1 ++ ch2, ql2, qi2, ?_, by rw [← List.append_assoc]; exact k2, ?_, fun _ => k4 (.inr (by omega))⟩
      · simp only [List.map_cons, List.foldlM_cons, g1, Option.bind_eq_bind, Option.bind_some, k1]
      · have := g3.append k3
        simpa using this

/-- The lines of a row. -/
theorem printLines {l : Layout} {B LW IW : Nat} {prev : Bytes} (hL : LOk l B) (hLW : 2 ≤ LW) (hIW : 2 ≤ IW)
    (Ls : List (List (Part × Item))) : ∀ (s : Pr) (o : List Char) (ch : List (Tag × List Char)) (ql qi : List (List Char)),
    (∀ L ∈ Ls, Run 0 L) → (∀ L ∈ Ls, ∀ x ∈ L, Fair l x.1) → St l B LW IW prev s o ch ql qi → (0 ≤ s.x ∨ cursor o = 0) →
    (∀ L ∈ Ls, L ≠ []) →
    ∃ s' o' ch' ql' qi', (Ls.flatten.map Prod.fst).foldlM (printPart l) s = some s' ∧ St l B LW IW prev s' o' (ch ++ ch') ql' qi' ∧
      Acc LW IW (tag1 l) (Ls.flatten.map Prod.snd) ch' ql qi ql' qi' := by
  induction Ls with
  | nil =>
    intro s o ch ql qi _ _ h _ _
    exact ⟨s, o, [], ql, qi, rfl, by simpa using h, Acc.nil _ _⟩
  | cons L Ls ih =>
    intro s o ch ql qi hrun hfair h he hne
    obtain ⟨s1, o1, ch1, ql1, qi1, g1, g2, g3, g4⟩ := printLine hL hLW hIW L 0 s o ch ql qi (hrun L (by simp)) (hfair L (by simp)) h
      (fun _ => he) (by simp)
    obtain ⟨s2, o2, ch2, ql2, qi2, k1, k2, k3⟩ := ih s1 o1 _ ql1 qi1 (fun M hM => hrun M (by simp [hM])) (fun M hM => hfair M (by simp [hM])) g2
      (.inl (g4 (.inl (hne L (by simp))))) (fun M hM => hne M (by simp [hM]))
    refine ⟨s2, o2, ch1 ++ ch2, ql2, qi2, ?_, by rw [← List.append_assoc]; exact k2, ?_⟩
    · simp only [List.flatten_cons, List.map_append, List.foldlM_append, g1, Option.bind_eq_bind, Option.bind_some, k1]
    · have := g3.append k3
      simpa using this

/-- The second loop over the parts. -/
theorem printOwns {l : Layout} {B LW IW : Nat} {prev : Bytes} (hL : LOk l B) (hLW : 2 ≤ LW)
    (L : List (Part × Item)) : ∀ (s : Pr) (o : List Char) (ch : List (Tag × List Char)) (ql qi : List (List Char)),
    (∀ x ∈ L, Corr x.1 x.2) → St l B LW IW prev s o ch ql qi →
    ∃ s' o' ch' ql' qi', (L.map Prod.fst).foldlM (printOwn l) s = some s' ∧ St l B LW IW prev s' o' (ch ++ ch') ql' qi' ∧
      Acc LW IW (tag2 l) (L.map Prod.snd) ch' ql qi ql' qi' := by
  induction L with
  | nil =>
    intro s o ch ql qi _ h
    exact ⟨s, o, [], ql, qi, rfl, by simpa using h, Acc.nil _ _⟩
  | cons a L ih =>
    intro s o ch ql qi hcorr h
    obtain ⟨p, i⟩ := a
    have hc : Corr p i := hcorr (p, i) (by simp)
    obtain ⟨s1, o1, ch1, ql1, qi1, g1, g2, g3⟩ : ∃ s' o' ch' ql' qi', printOwn l s p = some s' ∧ St l B LW IW prev s' o' (ch ++ ch') ql' qi' ∧
        Acc LW IW (tag2 l) [i] ch' ql qi ql' qi' := by
      unfold printOwn
      by_cases h1 : p.col = l.last
      · rw [if_pos h1]
        obtain ⟨ps, em, qc', w', k1, k2, k3, k4, k5⟩ := process_chars i.text s.lastW ql h.lrep (by rw [h.lw]; exact hLW)
        rw [hc.text, k3]
        have htag : tag2 l i = some .last := by unfold tag2; rw [if_pos (by rw [← hc.col]; exact h1)]
        refine ⟨_, o ++ ['\n'] ++ indC ((l.width : Int) - l.right) ++ joinC s.lastW.x em, em.map (fun p => (Tag.last, p)), qc', qi, rfl,
          ⟨?_, ?_, k4, k5.1.trans h.lx, k5.2.trans h.lw, h.irep, h.ix, h.iw⟩, Acc.last htag qi (by rw [← h.lw]; exact k1) k2⟩
        · show s.out ++ [10] ++ ind ((l.width : Int) - l.right) ++ utf8 _ = _
          simp only [h.out, utf8_append, utf8_nl, utf8_indC, List.append_assoc]
        · obtain ⟨m1, m2⟩ := laid_ind ((l.width : Int) - l.right) (.newline h.laid) (cursor_nl o) hL.lastB
          rw [h.lx]
          exact laid_join .last _ em m1 m2 rfl hL.lastB
      · rw [if_neg h1]
        have htag : tag2 l i = none := by unfold tag2; rw [if_neg (by rw [← hc.col]; exact h1)]
        exact ⟨s, o, [], ql, qi, rfl, by simpa using h, Acc.none htag _ _⟩
    obtain ⟨s2, o2, ch2, ql2, qi2, k1, k2, k3⟩ := ih s1 o1 _ ql1 qi1 (fun x hx => hcorr x (by simp [hx])) g2
    refine ⟨s2, o2, ch1 ++ ch2, ql2, qi2, ?_, by rw [← List.append_assoc]; exact k2, ?_⟩
    · simp only [List.map_cons, List.foldlM_cons, g1, Option.bind_eq_bind, Option.bind_some, k1]
    · have := g3.append k3
      simpa using this

/-- Between two rows. -/
structure Between (l : Layout) (LW IW : Nat) (s : Pr) : Prop where
  lrep : Rep s.lastW []
  lx : s.lastW.x = (l.width : Int) - l.right
  lw : s.lastW.width = LW
  irep : Rep s.interW []
  ix : s.interW.x = 0
  iw : s.interW.width = IW

theorem sel_congr {f g : Item → Option Tag} {tag : Tag} {items : List Item} (h : ∀ i ∈ items, (f i = some tag ↔ g i = some tag)) :
    sel f tag items = sel g tag items := by
  unfold sel
  congr 1
  apply List.filter_congr
  intro i hi
  simp only [decide_eq_decide]
  exact h i hi

theorem selLeft_congr {f g : Item → Option Tag} {items : List Item} (h : ∀ i ∈ items, ∀ c, (f i = some (.left c) ↔ g i = some (.left c))) :
    selLeft f items = selLeft g items := by
  unfold selLeft
  induction items with
  | nil => rfl
  | cons i items ih =>
    have := h i (by simp)
    rw [List.filterMap_cons, List.filterMap_cons, ih fun j hj => h j (by simp [hj])]
    rcases hf : f i with _ | ⟨c⟩ | _ | _ <;> rcases hg : g i with _ | ⟨d⟩ | _ | _ <;> simp_all

/-- One row. -/
theorem printRow_laid {l : Layout} {B LW IW : Nat} (hL : LOk l B) (hLW : 2 ≤ LW) (hIW : 2 ≤ IW) (Ls : List (List (Part × Item)))
    (hrun : ∀ L ∈ Ls, Run 0 L) (hfair : ∀ L ∈ Ls, ∀ x ∈ L, Fair l x.1) (hne : ∀ L ∈ Ls, L ≠ []) (hcorr : ∀ x ∈ Ls.flatten, Corr x.1 x.2)
    (s : Pr) (h : Between l LW IW s) :
    ∃ s' o ch, printRow l s (Ls.flatten.map Prod.fst) = some s' ∧ s'.out = s.out ++ utf8 o ∧ Between l LW IW s' ∧
      Laid B (stopOf l) o ch ∧ o.getLast? = some '\n' ∧ Shows l.last LW IW (Ls.flatten.map Prod.snd) ch := by
  have h0 : St l B LW IW s.out { s with x := -1 } [] [] [] [] :=
    ⟨by simp [utf8_nil], .nil, h.lrep, h.lx, h.lw, h.irep, h.ix, h.iw⟩
  obtain ⟨s1, o1, ch1, ql1, qi1, g1, g2, g3⟩ := printLines hL hLW hIW Ls { s with x := -1 } [] [] [] [] hrun hfair h0 (.inr cursor_nil) hne
  simp only [List.nil_append] at g2
  -- the second loop
  obtain ⟨s2, o2, ch2, ql2, qi2, k1, k2, k3⟩ : ∃ s' o' ch' ql' qi',
      (if l.own then (Ls.flatten.map Prod.fst).foldlM (printOwn l) s1 else some s1) = some s' ∧
      St l B LW IW s.out s' o' (ch1 ++ ch') ql' qi' ∧
      Acc LW IW (fun i => if l.own then tag2 l i else none) (Ls.flatten.map Prod.snd) ch' ql1 qi1 ql' qi' := by
    cases hown : l.own with
    | true =>
      obtain ⟨s2, o2, ch2, ql2, qi2, k1, k2, k3⟩ := printOwns hL hLW Ls.flatten s1 o1 ch1 ql1 qi1 hcorr g2
      exact ⟨s2, o2, ch2, ql2, qi2, by simpa using k1, k2, by simpa using k3⟩
    | false =>
      refine ⟨s1, o1, [], ql1, qi1, by simp, by simpa using g2, ?_⟩
      have hall : ∀ items : List Item, Acc LW IW (fun _ => none) items [] ql1 qi1 ql1 qi1 := by
        intro items
        induction items with
        | nil => exact Acc.nil _ _
        | cons i items ih => exact Acc.append (is := [i]) (ch := []) (Acc.none rfl _ _) ih
      simpa using hall _
  -- the end of the row
  obtain ⟨w1, m1, m2, m3⟩ := flush_chars s2.lastW ql2 k2.lrep
  obtain ⟨w2, n1, n2, n3⟩ := flush_chars s2.interW qi2 k2.irep
  have hlaid1 : Laid B (stopOf l) (o2 ++ ['\n']) (ch1 ++ ch2) := .newline k2.laid
  have hflush : ∀ (tag : Tag) (x : Int) (q : List (List Char)) (o : List Char) (ch : List (Tag × List Char)), Laid B (stopOf l) o ch →
      o.getLast? = some '\n' → cursor o = 0 → stopOf l tag = x.toNat → x.toNat ≤ B →
      Laid B (stopOf l) (o ++ if q = [] then [] else indC x ++ joinC x q ++ ['\n']) (ch ++ q.map fun p => (tag, p)) ∧
      (o ++ if q = [] then [] else indC x ++ joinC x q ++ ['\n']).getLast? = some '\n' ∧
      cursor (o ++ if q = [] then [] else indC x ++ joinC x q ++ ['\n']) = 0 := by
    intro tag x q o ch hl hlast hcur hs hB
    by_cases hq : q = []
    · subst hq
      simpa using ⟨hl, hlast, hcur⟩
    · rw [if_neg hq]
      obtain ⟨a1, a2⟩ := laid_ind x hl hcur hB
      have a3 := Laid.newline (laid_join tag x q a1 (by rw [a2, hs]) hs hB)
      have e : o ++ (indC x ++ joinC x q ++ ['\n']) = (o ++ indC x ++ joinC x q) ++ ['\n'] := by simp
      rw [e]
      exact ⟨a3, by simp, cursor_nl _⟩
  obtain ⟨a1, a2, a3⟩ := hflush .last s2.lastW.x ql2 _ _ hlaid1 (by simp) (cursor_nl o2) (by rw [k2.lx]; rfl) (by rw [k2.lx]; exact hL.lastB)
  obtain ⟨b1, b2, b3⟩ := hflush .inter s2.interW.x qi2 _ _ a1 a2 a3 (by rw [k2.ix]; rfl) (by rw [k2.ix]; simp)
  refine ⟨{ s2 with
      out := s2.out ++ [10] ++ utf8 (if ql2 = [] then [] else indC s2.lastW.x ++ joinC s2.lastW.x ql2 ++ ['\n']) ++
        utf8 (if qi2 = [] then [] else indC s2.interW.x ++ joinC s2.interW.x qi2 ++ ['\n'])
      lastW := w1, interW := w2 }, _, _, ?_, ?_, ⟨m2, m3.1.trans k2.lx, m3.2.trans k2.lw, n2, n3.1.trans k2.ix, n3.2.trans k2.iw⟩,
    b1, b2, ?_⟩
  · unfold printRow
    simp only [g1, Option.bind_eq_bind, Option.bind_some]
    split
    · rename_i ho
      rw [if_pos ho] at k1
      simp only [k1, Option.bind_some, m1, n1]
    · rename_i ho
      rw [if_neg ho] at k1
      obtain rfl := Option.some.inj k1
      simp only [m1, Option.bind_some, n1]
  · show s2.out ++ [10] ++ utf8 _ ++ utf8 _ = _
    rw [k2.out]
    simp only [utf8_append, utf8_nl, List.append_assoc]
  · -- what is shown
    have t1 : ∀ i : Item, ∀ c, (tag1 l i = some (.left c) ↔ i.tag l.last = some (.left c)) := by
      intro i c
      unfold tag1
      split
      · rename_i hq
        have : l.last ≠ 0 := hL.own hq.1
        simp only [Item.tag]
        rw [if_neg (by omega), if_neg (by omega), if_neg (by omega)]
        simp
      · rfl
    have t2 : ∀ i : Item, (tag1 l i = some .inter ↔ i.tag l.last = some .inter) := by
      intro i
      unfold tag1
      split
      · rename_i hq
        have : l.last ≠ 0 := hL.own hq.1
        simp only [Item.tag]
        rw [if_neg (by omega), if_neg (by omega), if_neg (by omega)]
        simp
      · rfl
    refine ⟨?_, ?_, ?_⟩
    · show leftsOf _ = selLeft (fun i => i.tag l.last) _
      rw [leftsOf_append, leftsOf_append, leftsOf_append, leftsOf_last, leftsOf_inter, g3.lefts, k3.lefts,
        selLeft_congr (g := fun i => i.tag l.last) fun i _ c => t1 i c]
      have : selLeft (fun i => if l.own then tag2 l i else none) (Ls.flatten.map Prod.snd) = [] := by
        unfold selLeft
        rw [List.filterMap_eq_nil_iff]
        intro i _
        by_cases ho : l.own = true
        · simp only [ho, if_true, tag2]; split <;> simp_all
        · simp [ho]
      rw [this]
      simp
    · show WrappedAll LW (sel (fun i => i.tag l.last) .last _) _
      obtain ⟨p1, c1, c2⟩ := g3.lasts
      obtain ⟨p2, d1, d2⟩ := k3.lasts
      rw [textsOf_append, textsOf_append, textsOf_append, textsOf_same, textsOf_other (by decide), List.append_nil]
      rw [List.nil_append] at c2
      have e : textsOf .last ch1 ++ textsOf .last ch2 ++ ql2 = p1 ++ p2 := by
        rw [List.append_assoc, ← d2, ← List.append_assoc, ← c2]
      rw [e]
      cases ho : l.own with
      | true =>
        have e1 : sel (tag1 l) .last (Ls.flatten.map Prod.snd) = [] := by
          unfold sel
          rw [List.map_eq_nil_iff, List.filter_eq_nil_iff]
          intro i _
          simp only [decide_eq_true_eq, tag1, ho, true_and]
          split
          · simp
          · rename_i hq
            simp only [Item.tag]
            split
            · simp
            · split
              · simp
              · split
                · simp
                · rename_i ha hb hc
                  exfalso
                  apply hb
                  obtain ⟨x, hx, rfl⟩ := List.mem_map.1 ‹_›
                  have hcx := hcorr x hx
                  refine ⟨by omega, ?_⟩
                  rw [← hcx.table, Part.inTable, hcx.col]
                  simp [show x.2.col > 0 by omega]
        rw [e1] at c1
        have hp1 : p1 = [] := by
          generalize hn : ([] : List (List Char)) = n at c1
          cases c1 with
          | nil => rfl
          | cons => simp at hn
        subst hp1
        rw [List.nil_append]
        rw [← sel_congr (f := fun i => if l.own then tag2 l i else none) (g := fun i => i.tag l.last)] at *
        · simpa using d1
        · intro i hi
          obtain ⟨x, hx, rfl⟩ := List.mem_map.1 hi
          have hcx := hcorr x hx
          have hl0 := hL.own ho
          simp only [ho, if_true, tag2, Item.tag]
          by_cases hq : x.2.col = l.last
          · rw [if_pos hq, if_neg (by omega), if_neg (by omega), if_neg (by omega)]
          · rw [if_neg hq]
            split
            · simp
            · split
              · simp
              · split
                · simp
                · rename_i ha hb hc
                  exfalso
                  apply hb
                  refine ⟨by omega, ?_⟩
                  rw [← hcx.table, Part.inTable, hcx.col]
                  simp [show x.2.col > 0 by omega]
      | false =>
        have e1 : sel (tag1 l) .last (Ls.flatten.map Prod.snd) = sel (fun i => i.tag l.last) .last (Ls.flatten.map Prod.snd) := by
          apply sel_congr
          intro i _
          simp [tag1, ho]
        have e2 : sel (fun i => if l.own then tag2 l i else none) .last (Ls.flatten.map Prod.snd) = [] := by
          simp [sel, ho]
        rw [e1] at c1
        rw [e2] at d1
        have := wrappedAll_append c1 d1
        simpa using this
    · show WrappedAll IW (sel (fun i => i.tag l.last) .inter _) _
      obtain ⟨p1, c1, c2⟩ := g3.inters
      obtain ⟨p2, d1, d2⟩ := k3.inters
      rw [textsOf_append, textsOf_append, textsOf_append, textsOf_same, textsOf_other (by decide), List.append_nil]
      rw [List.nil_append] at c2
      have e : textsOf .inter ch1 ++ textsOf .inter ch2 ++ qi2 = p1 ++ p2 := by
        rw [List.append_assoc, ← d2, ← List.append_assoc, ← c2]
      rw [e]
      have e1 : sel (tag1 l) .inter (Ls.flatten.map Prod.snd) = sel (fun i => i.tag l.last) .inter (Ls.flatten.map Prod.snd) :=
        sel_congr fun i _ => t2 i
      have e2 : sel (fun i => if l.own then tag2 l i else none) .inter (Ls.flatten.map Prod.snd) = [] := by
        unfold sel
        rw [List.map_eq_nil_iff, List.filter_eq_nil_iff]
        intro i _
        by_cases ho : l.own = true
        · simp only [ho, if_true, tag2]; split <;> simp
        · simp [ho]
      rw [e1] at c1
      rw [e2] at d1
      have := wrappedAll_append c1 d1
      simpa using this

end Verif.Usage
