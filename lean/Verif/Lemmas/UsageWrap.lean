import Verif.Lemmas.Usage
/-!
`LineWrapper`: where lines are cut, and the ring buffer.
-/
namespace Verif.Usage
open Verif.Spec.Usage

theorem fresh_nil : Fresh [] := by simp [Fresh]

/-! ### Cutting -/

/-- The loop that looks for what fits. -/
theorem fit_utf8 (W : Nat) (t : List Char) (uw fuel : Nat) (hu : uw ≤ W) (hf : (utf8 t).length ≤ fuel) :
    ∃ p r, t = p ++ r ∧ fit W fuel uw (utf8 t) = some (utf8 p).length ∧ uw + textWidth p ≤ W ∧
      (r = [] ∨ ∃ c r', r = c :: r' ∧ uw + textWidth p + charWidth c > W) := by
  induction t generalizing uw fuel with
  | nil => exact ⟨[], [], rfl, by cases fuel <;> rfl, by simpa [textWidth] using hu, .inl rfl⟩
  | cons c t ih =>
    have hfr : Fresh (utf8 t) := by have := utf8_fresh t [] fresh_nil; simpa using this
    obtain ⟨b, rest, e, -, hd⟩ := decode1_enc c (utf8 t) hfr
    have hw := toNat_le_one c
    rw [utf8_cons, e] at hf ⊢
    cases fuel with
    | zero => simp at hf
    | succ fuel =>
      rw [List.cons_append, fit]
      by_cases h1 : uw < W
      · rw [if_pos h1]
        simp only [hd, Option.bind_eq_bind, Option.bind_some, List.drop_left]
        by_cases h2 : charWidth c = 2 ∧ uw + 2 > W
        · rw [if_pos (by simpa using h2)]
          exact ⟨[], c :: t, rfl, rfl, by simp [textWidth]; omega, .inr ⟨c, t, rfl, by simp [textWidth]; omega⟩⟩
        · rw [if_neg (by simpa using h2)]
          have hle : uw + charWidth c ≤ W := by
            rcases charWidth_cases c with h | h <;> omega
          obtain ⟨p, r, h3, h4, h5, h6⟩ := ih (uw + charWidth c) fuel hle (by simp at hf; omega)
          rw [show uw + 1 + (decide (charWidth c = 2)).toNat = uw + charWidth c by omega, h4]
          refine ⟨c :: p, r, by rw [h3]; rfl, ?_, by rw [textWidth_cons]; omega, ?_⟩
          · simp only [Option.bind_some, utf8_cons, e, List.length_append, List.length_cons, List.cons_append]
            congr 1
            omega
          · rcases h6 with h6 | ⟨c', r', h6, h7⟩
            · exact .inl h6
            · exact .inr ⟨c', r', h6, by rw [textWidth_cons]; omega⟩
      · rw [if_neg h1]
        exact ⟨[], c :: t, rfl, rfl, by simp [textWidth]; omega, .inr ⟨c, t, rfl, by
          rcases charWidth_cases c with h | h <;> simp [textWidth, h] <;> omega⟩⟩

theorem lastSpace_some (data : Bytes) (m i : Nat) (h : lastSpace data m = some i) :
    i ≤ m ∧ data.getD i 0 = 32 ∧ ∀ j, i < j → j ≤ m → data.getD j 0 ≠ 32 := by
  induction m with
  | zero =>
    rw [lastSpace] at h
    split at h
    · rename_i h'
      simp only [Option.some.injEq] at h
      subst h
      exact ⟨Nat.le_refl _, h', by omega⟩
    · simp at h
  | succ m ih =>
    rw [lastSpace] at h
    split at h
    · rename_i h'
      simp only [Option.some.injEq] at h
      subst h
      exact ⟨Nat.le_refl _, h', by omega⟩
    · rename_i h'
      obtain ⟨h1, h2, h3⟩ := ih h
      refine ⟨by omega, h2, ?_⟩
      intro j hj hj'
      by_cases hq : j = m + 1
      · subst hq; exact h'
      · exact h3 j hj (by omega)

theorem lastSpace_none (data : Bytes) (m : Nat) (h : lastSpace data m = none) : ∀ j ≤ m, data.getD j 0 ≠ 32 := by
  induction m with
  | zero =>
    rw [lastSpace] at h
    split at h
    · simp at h
    · rename_i h'
      intro j hj
      rw [show j = 0 by omega]
      exact h'
  | succ m ih =>
    rw [lastSpace] at h
    split at h
    · simp at h
    · rename_i h'
      intro j hj
      by_cases hq : j = m + 1
      · subst hq; exact h'
      · exact ih h j (by omega)

theorem enc_space : enc ' ' = [32] := enc_small ' ' (by decide)

/-- A space among the bytes is a space of the text. -/
theorem space_at (t : List Char) (i : Nat) (h : (utf8 t).getD i 0 = 32) :
    ∃ q s, t = q ++ ' ' :: s ∧ i = (utf8 q).length := by
  induction t generalizing i with
  | nil => simp [utf8_nil] at h
  | cons c t ih =>
    rw [utf8_cons] at h
    by_cases hi : i < (enc c).length
    · rw [List.getD_eq_getElem?_getD, List.getElem?_append_left hi, List.getElem?_eq_getElem hi] at h
      simp only [Option.getD_some] at h
      have hm : 32 ∈ enc c := h ▸ List.getElem_mem hi
      obtain ⟨e, hc⟩ := mem_enc_small c 32 hm (by decide)
      have : c = ' ' := by rw [← Char.ofNat_toNat c, hc]
      subst this
      rw [e] at hi
      simp at hi
      exact ⟨[], t, rfl, by simp [utf8_nil, hi]⟩
    · rw [List.getD_eq_getElem?_getD, List.getElem?_append_right (by omega), ← List.getD_eq_getElem?_getD] at h
      obtain ⟨q, s, h1, h2⟩ := ih _ h
      refine ⟨c :: q, s, by rw [h1]; rfl, ?_⟩
      rw [utf8_cons, List.length_append]
      omega

theorem space_get (q s : List Char) : (utf8 (q ++ ' ' :: s)).getD (utf8 q).length 0 = 32 := by
  rw [utf8_append, utf8_cons, enc_space, List.getD_eq_getElem?_getD, List.getElem?_append_right (Nat.le_refl _)]
  simp

theorem utf8_length_pos (c : Char) (t : List Char) : 0 < (utf8 (c :: t)).length := by
  obtain ⟨b, rest, e, -⟩ := decode1_enc c [] fresh_nil
  rw [utf8_cons, e]; simp

/-- Beginnings of the same text: the shorter one has fewer bytes. -/
theorem prefix_cmp {q s p r : List Char} (h : q ++ s = p ++ r) :
    (∃ u, p = q ++ u) ∧ (utf8 q).length ≤ (utf8 p).length ∧ q.length ≤ p.length ∧ textWidth q ≤ textWidth p ∨
    (∃ c u, q = p ++ c :: u) ∧ (utf8 p).length < (utf8 q).length ∧ p.length < q.length := by
  rw [List.append_eq_append_iff] at h
  rcases h with ⟨u, h1, h2⟩ | ⟨u, h1, h2⟩
  · left
    subst h1
    refine ⟨⟨u, rfl⟩, ?_, ?_, ?_⟩
    · simp [utf8_append]
    · simp
    · rw [textWidth_append]; omega
  · cases u with
    | nil =>
      simp only [List.append_nil] at h1
      subst h1
      left
      exact ⟨⟨[], by simp⟩, Nat.le_refl _, Nat.le_refl _, Nat.le_refl _⟩
    | cons c u =>
      right
      subst h1
      refine ⟨⟨c, u, rfl⟩, ?_, ?_⟩
      · rw [utf8_append, List.length_append]; have := utf8_length_pos c u; omega
      · simp

/-- How one line is cut off. -/
theorem cut_utf8 (W : Nat) (t : List Char) (ht : t ≠ []) (hW : 2 ≤ W) :
    ∃ p r, cut W (utf8 t) = some (utf8 p, utf8 r) ∧ r.length < t.length ∧
      ∀ ps, Wrapped W r ps → Wrapped W t (p :: ps) := by
  unfold cut
  by_cases h1 : (utf8 t).length ≤ W
  · rw [if_pos h1]
    refine ⟨t, [], rfl, by cases t; exact absurd rfl ht; simp, ?_⟩
    intro ps hps
    have hps' : ps = [] := by
      generalize hn : ([] : List Char) = n at hps
      cases hps with
      | nil => rfl
      | fits _ h => exact absurd hn.symm h
      | atSpace => simp at hn
      | inWord => simp at hn
    subst hps'
    exact .fits t ht (Nat.le_trans (textWidth_le t) h1)
  · rw [if_neg h1]
    obtain ⟨p, r, h2, h3, h4, h5⟩ := fit_utf8 W t 0 (utf8 t).length (by omega) (Nat.le_refl _)
    simp only [h3, Option.bind_eq_bind, Option.bind_some]
    rcases h5 with h5 | ⟨c, r', h5, h6⟩
    · subst h5
      simp only [List.append_nil] at h2
      subst h2
      rw [if_pos rfl]
      refine ⟨t, [], rfl, by cases t; exact absurd rfl ht; simp, ?_⟩
      intro ps hps
      have hps' : ps = [] := by
        generalize hn : ([] : List Char) = n at hps
        cases hps with
        | nil => rfl
        | fits _ h => exact absurd hn.symm h
        | atSpace => simp at hn
        | inWord => simp at hn
      subst hps'
      exact .fits t ht (by omega)
    · subst h5
      have hpc : textWidth (p ++ [c]) > W := by rw [textWidth_append, textWidth_cons]; simp [textWidth] at *; omega
      have hne : ¬ (utf8 p).length = (utf8 t).length := by
        rw [h2, utf8_append, List.length_append]; have := utf8_length_pos c r'; omega
      rw [if_neg hne]
      have hlong : textWidth t > W := by
        rw [h2, show p ++ c :: r' = (p ++ [c]) ++ r' by simp, textWidth_append]; omega
      -- what fits is at most `p`
      have hfit : ∀ q s, t = q ++ s → textWidth q ≤ W → (utf8 q).length ≤ (utf8 p).length := by
        intro q s hq hqw
        rcases prefix_cmp (hq.symm.trans h2) with ⟨-, h, -⟩ | ⟨⟨c', u, hu⟩, -⟩
        · exact h
        · exfalso
          rw [hu] at hq
          have hcc : c' = c := by
            have := h2.symm.trans hq
            simp only [List.append_assoc, List.cons_append, List.append_cancel_left_eq, List.cons.injEq] at this
            exact this.1.symm
          subst hcc
          rw [hu, show p ++ c' :: u = (p ++ [c']) ++ u by simp, textWidth_append] at hqw
          omega
      cases hl : lastSpace (utf8 t) (utf8 p).length with
      | some i =>
        obtain ⟨h7, h8, h9⟩ := lastSpace_some _ _ _ hl
        obtain ⟨q, s, h10, h11⟩ := space_at t i h8
        dsimp only
        have hq : textWidth q ≤ W := by
          rcases prefix_cmp (h10.symm.trans h2) with ⟨-, -, -, h⟩ | ⟨-, h, -⟩
          · omega
          · omega
        refine ⟨q, s, ?_, by rw [h10]; simp; omega, ?_⟩
        · rw [h10, h11, utf8_append, utf8_cons, enc_space]
          simp
        · intro ps hps
          rw [h10]
          refine .atSpace q s ps (by rw [← h10]; exact hlong) hq ?_ hps
          intro p' r'' he hw'
          rw [← h10] at he
          have hle := hfit p' _ he hw'
          have hj : (utf8 t).getD (utf8 p').length 0 = 32 := by rw [he]; exact space_get p' r''
          have : (utf8 p').length ≤ i := by
            apply Nat.le_of_not_lt
            intro hlt
            exact h9 _ hlt hle hj
          rcases prefix_cmp (he.symm.trans h10) with ⟨-, -, h, -⟩ | ⟨-, h, -⟩
          · exact h
          · omega
      | none =>
        have h7 := lastSpace_none _ _ hl
        dsimp only
        refine ⟨p, c :: r', ?_, ?_, ?_⟩
        · rw [h2, utf8_append]
          simp
        · rw [h2]
          have : p ≠ [] := by
            intro hp
            subst hp
            simp only [List.nil_append, textWidth, List.map_cons, List.map_nil, List.sum_cons, List.sum_nil] at hpc
            rcases charWidth_cases c with h | h <;> omega
          have := List.length_pos_iff.2 this
          simp; omega
        · intro ps hps
          rw [h2]
          refine .inWord p c r' ps ?_ (by omega) hpc hps
          intro p' r'' he
          apply Nat.lt_of_not_le
          intro hw'
          rw [← h2] at he
          have hle := hfit p' _ he hw'
          have hj : (utf8 t).getD (utf8 p').length 0 = 32 := by rw [he]; exact space_get p' r''
          exact h7 _ hle hj

/-! ### The ring buffer -/

theorem and15 (n : Nat) : n &&& 15 = n % 16 := Nat.and_two_pow_sub_one_eq_mod n 4

/-- The ring buffer holds these lines. -/
structure Rep (w : Wrapper) (q : List Bytes) : Prop where
  len : w.buf.length = 16
  tail : w.tail < 16
  cap : q.length ≤ 15
  head : w.head = (w.tail + 1 + q.length) % 16
  get : ∀ i, i < q.length → w.buf.getD ((w.tail + 1 + i) % 16) [] = q.getD i []

theorem rep_mk (x1 x2 : Int) : Rep (Wrapper.mk' x1 x2) [] where
  len := by simp [Wrapper.mk']
  tail := by simp [Wrapper.mk']
  cap := by simp
  head := by simp [Wrapper.mk']
  get := by simp

theorem Rep.isEmpty {w : Wrapper} {q : List Bytes} (h : Rep w q) : w.isEmpty = q.isEmpty := by
  have h1 := h.head
  have h2 := h.cap
  have h3 := h.tail
  unfold Wrapper.isEmpty
  rw [and15, Bool.eq_iff_iff]
  simp only [beq_iff_eq, List.isEmpty_iff]
  constructor
  · intro e
    apply List.eq_nil_of_length_eq_zero
    omega
  · intro e
    subst e
    simp at h1
    omega

theorem Rep.isFull {w : Wrapper} {q : List Bytes} (h : Rep w q) : w.isFull = decide (q.length = 15) := by
  have h1 := h.head
  have h2 := h.cap
  have h3 := h.tail
  unfold Wrapper.isFull
  rw [Bool.eq_iff_iff]
  simp only [beq_iff_eq, decide_eq_true_eq]
  omega

theorem Rep.store {w : Wrapper} {q : List Bytes} (h : Rep w q) (d : Bytes) (hq : q.length < 15) : Rep (w.store d) (q ++ [d]) := by
  have h1 := h.head
  have h3 := h.tail
  have h4 := h.len
  refine ⟨by simp [Wrapper.store, h4], h.tail, by simp; omega, ?_, ?_⟩
  · show (w.head + 1) &&& 15 = _
    rw [and15]
    simp only [Wrapper.store, List.length_append, List.length_cons, List.length_nil]
    omega
  · intro i hi
    simp only [List.length_append, List.length_cons, List.length_nil] at hi
    show (w.buf.set w.head d).getD ((w.tail + 1 + i) % 16) [] = _
    by_cases hq' : i = q.length
    · subst hq'
      rw [← h1, List.getD_eq_getElem?_getD, List.getElem?_set_self (by omega)]
      simp
    · have : w.head ≠ (w.tail + 1 + i) % 16 := by omega
      rw [List.getD_eq_getElem?_getD, List.getElem?_set_ne this, ← List.getD_eq_getElem?_getD, h.get i (by omega),
        List.getD_eq_getElem?_getD, List.getD_eq_getElem?_getD, List.getElem?_append_left (by omega)]

theorem Rep.advance {w : Wrapper} {d : Bytes} {q : List Bytes} (h : Rep w (d :: q)) :
    Rep w.advance q ∧ w.advance.buf.getD w.advance.tail [] = d := by
  have h1 := h.head
  have h2 := h.cap
  have h3 := h.tail
  have e : (w.tail + 1) &&& 15 = (w.tail + 1) % 16 := and15 _
  have hg := h.get
  simp only [List.length_cons] at h1 h2 hg
  refine ⟨⟨h.len, ?_, by omega, ?_, ?_⟩, ?_⟩
  · show (w.tail + 1) &&& 15 < 16
    omega
  · show w.head = (((w.tail + 1) &&& 15) + 1 + q.length) % 16
    omega
  · intro i hi
    have := hg (i + 1) (by omega)
    show w.buf.getD ((((w.tail + 1) &&& 15) + 1 + i) % 16) [] = _
    rw [show (((w.tail + 1) &&& 15) + 1 + i) % 16 = (w.tail + 1 + (i + 1)) % 16 by omega, this]
    simp
  · have := hg 0 (by omega)
    show w.buf.getD ((w.tail + 1) &&& 15) [] = d
    rw [e, this]
    simp

/-- What is written at the start of a line. -/
def ind (x : Int) : Bytes := (indent 0 x).1

/-- Lines below each other. -/
def joinL (x : Int) : List Bytes → Bytes
  | [] => []
  | p :: ps => p ++ ps.flatMap fun p => 10 :: (ind x ++ p)

/-- Lines each of which begins with a line break. -/
def nextL (x : Int) (ps : List Bytes) : Bytes := ps.flatMap fun p => 10 :: (ind x ++ p)

theorem joinL_append (x : Int) (p : Bytes) (ps qs : List Bytes) : joinL x (p :: ps ++ qs) = joinL x (p :: ps) ++ nextL x qs := by
  simp [joinL, nextL]

/-- Output of the lines `em`, with a line break before the first if something has been written. -/
def emit (wrote : Bool) (x : Int) (em : List Bytes) : Bytes := if wrote then nextL x em else joinL x em

theorem emit_nil (wrote : Bool) (x : Int) : emit wrote x [] = [] := by cases wrote <;> rfl

theorem emit_append (wrote : Bool) (x : Int) (em em' : List Bytes) :
    emit wrote x (em ++ em') = emit wrote x em ++ emit (wrote || !em.isEmpty) x em' := by
  cases wrote with
  | true => simp [emit, nextL]
  | false =>
    cases em with
    | nil => simp [emit, joinL]
    | cons p ps => simp [emit, joinL, nextL]

/-- The members that do not change. -/
def Same (w w' : Wrapper) : Prop := w'.x = w.x ∧ w'.width = w.width

theorem writeOneLine_rep {w : Wrapper} {d : Bytes} {q : List Bytes} (h : Rep w (d :: q)) :
    Rep w.writeOneLine.1 q ∧ Same w w.writeOneLine.1 ∧ w.writeOneLine.1.wrote = true ∧
      w.writeOneLine.2 = emit w.wrote w.x [d] := by
  have he := h.isEmpty
  obtain ⟨h1, h2⟩ := h.advance
  unfold Wrapper.writeOneLine
  rw [he]
  simp only [List.isEmpty_cons, Bool.false_eq_true, if_false]
  refine ⟨⟨h1.len, h1.tail, h1.cap, h1.head, h1.get⟩, ⟨rfl, rfl⟩, trivial, ?_⟩
  rw [h2]
  cases w.wrote <;> simp [emit, nextL, joinL, ind]

theorem output_rep {w : Wrapper} {q : List Bytes} (h : Rep w q) (d : Bytes) :
    ∃ em q', q ++ [d] = em ++ q' ∧ Rep (w.output d).1 q' ∧ Same w (w.output d).1 ∧
      (w.output d).1.wrote = (w.wrote || !em.isEmpty) ∧ (w.output d).2 = emit w.wrote w.x em ∧
      em.length = q.length + 1 - 15 ∧ q' ≠ [] := by
  unfold Wrapper.output
  rw [h.isFull]
  by_cases hq : q.length = 15
  · rw [if_pos (by simpa using hq)]
    cases q with
    | nil => simp at hq
    | cons d0 q =>
      obtain ⟨h1, h2, h3, h4⟩ := writeOneLine_rep h
      simp only [List.length_cons] at hq
      refine ⟨[d0], q ++ [d], by simp, h1.store d (by omega), h2, ?_, h4, by simp; omega, by simp⟩
      show (w.writeOneLine).1.wrote = _
      rw [h3]; simp
  · rw [if_neg (by simpa using hq)]
    have := h.cap
    refine ⟨[], q ++ [d], by simp, h.store d (by omega), ⟨?_, ?_⟩, by simp [Wrapper.store], by rw [emit_nil], by simp; omega, by simp⟩
    · rfl
    · rfl

theorem Same.trans {a b c : Wrapper} (h1 : Same a b) (h2 : Same b c) : Same a c :=
  ⟨h2.1.trans h1.1, h2.2.trans h1.2⟩

/-- The loop of `process`. -/
theorem processLoop_utf8 (t : List Char) : ∀ (w : Wrapper) (q : List Bytes) (fuel : Nat), Rep w q → 2 ≤ w.width → t.length ≤ fuel →
    ∃ ps em q' w', Wrapped w.width t ps ∧ q ++ ps.map utf8 = em ++ q' ∧
      Wrapper.processLoop fuel w (utf8 t) = some (w', emit w.wrote w.x em) ∧ Rep w' q' ∧ Same w w' ∧
      w'.wrote = (w.wrote || !em.isEmpty) ∧ em.length = q.length + ps.length - 15 := by
  induction hn : t.length using Nat.strongRecOn generalizing t with
  | _ n ih =>
    intro w q fuel hw hW hf
    cases ht : t with
    | nil =>
      refine ⟨[], [], q, w, .nil, by simp, ?_, hw, ⟨rfl, rfl⟩, by simp, by have := hw.cap; simp; omega⟩
      rw [emit_nil]
      cases fuel <;> rfl
    | cons c t' =>
      rw [← ht]
      obtain ⟨p, r, h1, h2, h3⟩ := cut_utf8 w.width t (by simp [ht]) hW
      obtain ⟨em1, q1, h4, h5, h6, h7, h8, h9, h9'⟩ := output_rep hw (utf8 p)
      cases fuel with
      | zero => subst hn; rw [ht] at hf; simp at hf
      | succ fuel =>
        have hlt : r.length < n := by omega
        obtain ⟨ps, em2, q2, w2, g1, g2, g3, g4, g5, g6, g7⟩ := ih r.length hlt r rfl (w.output (utf8 p)).1 q1 fuel h5
          (by rw [h6.2]; exact hW) (by omega)
        rw [h6.2] at g1
        refine ⟨p :: ps, em1 ++ em2, q2, w2, h3 ps g1, ?_, ?_, g4, h6.trans g5, ?_, ?_⟩
        · rw [List.map_cons, show q ++ utf8 p :: ps.map utf8 = (q ++ [utf8 p]) ++ ps.map utf8 by simp, h4,
            List.append_assoc, g2, List.append_assoc]
        · obtain ⟨b, bs, hb⟩ : ∃ b bs, utf8 t = b :: bs := by
            have := utf8_length_pos c t'
            rw [← ht] at this
            cases hu : utf8 t with
            | nil => rw [hu] at this; simp at this
            | cons b bs => exact ⟨b, bs, rfl⟩
          rw [hb, Wrapper.processLoop, ← hb, h1]
          simp only [Option.bind_eq_bind, Option.bind_some, g3, h8]
          rw [emit_append, h7, h6.1]
        · rw [g6, h7]
          cases em1 <;> cases em2 <;> simp
        · have e1 := congrArg List.length h4
          simp only [List.length_append, List.length_cons, List.length_nil] at e1 ⊢
          have := h5.cap
          omega

/-- The first lines of a list that are written. -/
theorem process_utf8 (t : List Char) (w : Wrapper) (q : List Bytes) (hw : Rep w q) (hW : 2 ≤ w.width) :
    ∃ ps em q' w', Wrapped w.width t ps ∧ q ++ ps.map utf8 = em ++ q' ∧
      w.process (utf8 t) = some (w', joinL w.x em) ∧ Rep w' q' ∧ Same w w' ∧
      em.length = min (q.length + ps.length) (max 1 (q.length + ps.length - 15)) := by
  have hw0 : Rep { w with wrote := false } q := ⟨hw.len, hw.tail, hw.cap, hw.head, hw.get⟩
  have hlen : t.length ≤ (utf8 t).length := by
    clear hW hw hw0
    induction t with
    | nil => simp
    | cons c t ih =>
      rw [utf8_cons, List.length_append]
      obtain ⟨b, rest, e, -⟩ := decode1_enc c [] fresh_nil
      rw [e]; simp; omega
  obtain ⟨ps, em, q', w', h1, h2, h3, h4, h5, h6, h7⟩ := processLoop_utf8 t { w with wrote := false } q (utf8 t).length hw0 hW hlen
  have hl := congrArg List.length h2
  simp only [List.length_append, List.length_map] at hl
  unfold Wrapper.process
  simp only [h3, Option.bind_eq_bind, Option.bind_some]
  simp only [Bool.false_or] at h6
  rw [h6]
  cases em with
  | cons d em =>
    refine ⟨ps, d :: em, q', w', h1, h2, by simp [emit], h4, h5, ?_⟩
    simp only [List.length_cons] at h7 hl ⊢
    omega
  | nil =>
    simp only [List.isEmpty_nil, Bool.not_true, Bool.false_eq_true, if_false, emit_nil, List.nil_append]
    cases q' with
    | nil =>
      refine ⟨ps, [], [], { w' with wrote := true }, h1, h2, ?_, ⟨h4.len, h4.tail, h4.cap, h4.head, h4.get⟩, h5, ?_⟩
      · have he := h4.isEmpty
        have hwr : w'.wrote = false := by rw [h6]; rfl
        unfold Wrapper.writeOneLine
        rw [he, hwr]
        simp [joinL]
      · have e0 : q.length + ps.length = 0 := by simpa using hl
        simp [e0]
    | cons d q' =>
      obtain ⟨g1, g2, g3, g4⟩ := writeOneLine_rep h4
      have hwr : w'.wrote = false := by rw [h6]; rfl
      refine ⟨ps, [d], q', w'.writeOneLine.1, h1, by simpa using h2, ?_, g1, h5.trans g2, ?_⟩
      · rw [g4, hwr]
        simp [emit, joinL]
      · simp at hl h7 ⊢
        omega

theorem flushLoop_rep (q : List Bytes) : ∀ (w : Wrapper) (fuel : Nat), Rep w q → q.length < fuel →
    ∃ w', Wrapper.flushLoop fuel w = some (w', emit w.wrote w.x q) ∧ Rep w' [] ∧ Same w w' := by
  induction q with
  | nil =>
    intro w fuel hw hf
    cases fuel with
    | zero => omega
    | succ fuel =>
      refine ⟨w, ?_, hw, ⟨rfl, rfl⟩⟩
      rw [Wrapper.flushLoop, hw.isEmpty, emit_nil]
      rfl
  | cons d q ih =>
    intro w fuel hw hf
    cases fuel with
    | zero => omega
    | succ fuel =>
      obtain ⟨g1, g2, g3, g4⟩ := writeOneLine_rep hw
      obtain ⟨w', k1, k2, k3⟩ := ih w.writeOneLine.1 fuel g1 (by simp at hf; omega)
      refine ⟨w', ?_, k2, g2.trans k3⟩
      rw [Wrapper.flushLoop, hw.isEmpty]
      simp only [List.isEmpty_cons, Bool.false_eq_true, if_false, k1, Option.bind_eq_bind, Option.bind_some]
      rw [g4, g3, g2.1, show d :: q = [d] ++ q from rfl, emit_append]
      simp

theorem flush_rep (w : Wrapper) (q : List Bytes) (hw : Rep w q) :
    ∃ w', w.flush = some (w', if q = [] then [] else ind w.x ++ joinL w.x q ++ [10]) ∧ Rep w' [] ∧ Same w w' := by
  unfold Wrapper.flush
  rw [hw.isEmpty]
  cases q with
  | nil => exact ⟨w, by simp, hw, ⟨rfl, rfl⟩⟩
  | cons d q =>
    obtain ⟨w', k1, k2, k3⟩ := flushLoop_rep (d :: q) { w with wrote := false } 17
      ⟨hw.len, hw.tail, hw.cap, hw.head, hw.get⟩ (by have := hw.cap; omega)
    refine ⟨w', ?_, k2, k3⟩
    simp only [List.isEmpty_cons, Bool.false_eq_true, if_false, k1, Option.bind_eq_bind, Option.bind_some]
    simp [emit, ind]

end Verif.Usage
