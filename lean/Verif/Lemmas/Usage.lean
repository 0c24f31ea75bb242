import Verif.Model.Usage
import Verif.Spec.Usage
/-!
`printUsage` on texts in UTF-8: decoding.
-/
namespace Verif.Usage
open Verif.Spec.Usage

/-- The first byte is not a continuation byte. -/
def Fresh (s : Bytes) : Prop := ∀ b ∈ s.head?, isCont b = false

theorem shl_xor (a x : Nat) (h : x < 64) : (a <<< 6) ^^^ x = a * 64 + x := by
  have h1 : a * 64 + x = a <<< 6 ||| x := by
    rw [← Nat.shiftLeft_add_eq_or_of_lt (i := 6) (by simpa using h), Nat.shiftLeft_eq]
  rw [h1]
  apply Nat.eq_of_testBit_eq
  intro i
  simp only [Nat.testBit_xor, Nat.testBit_or, Nat.testBit_shiftLeft]
  by_cases hi : 6 ≤ i
  · have : x.testBit i = false := by
      apply Nat.testBit_lt_two_pow
      calc x < 2 ^ 6 := by simpa using h
        _ ≤ 2 ^ i := Nat.pow_le_pow_right (by decide) hi
    simp [this]
  · simp [hi]

theorem isCont_cont : ∀ x < 64, isCont (x + 128) = true := by decide
theorem cont_xor : ∀ x < 64, (x + 128) ^^^ 128 = x := by decide
theorem mask2 : ∀ x < 32, mask (x + 192) = some 63 ∧ (x + 192) &&& 63 = x := by decide
theorem mask3 : ∀ x < 16, mask (x + 224) = some 31 ∧ (x + 224) &&& 31 = x := by decide
theorem mask4 : ∀ x < 8, mask (x + 240) = some 15 ∧ (x + 240) &&& 15 = x := by decide
theorem isCont_ascii : ∀ x < 128, isCont x = false := by decide
theorem isCont_lead : ∀ x < 64, isCont (x + 192) = false := by decide

theorem conts_cons (ch x : Nat) (s : Bytes) (hx : x < 64) (hc : ch < 2 ^ 26) :
    conts ch ((x + 128) :: s) = ((conts (ch * 64 + x) s).1, (conts (ch * 64 + x) s).2 + 1) := by
  have h1 : ch <<< 6 % 2 ^ 32 = ch <<< 6 := by
    rw [Nat.shiftLeft_eq]; apply Nat.mod_eq_of_lt; omega
  rw [conts, isCont_cont x hx]
  simp only [if_true]
  rw [h1, Nat.xor_assoc, cont_xor x hx, shl_xor _ _ hx]

theorem conts_fresh (ch : Nat) (s : Bytes) (h : Fresh s) : conts ch s = (ch, 0) := by
  cases s with
  | nil => rfl
  | cons b s => simp [conts, h b (by simp)]

theorem wide_iff (c : Char) : (decide (c.toNat ≥ 0x1100) && isWideChar c.toNat) = decide (charWidth c = 2) := by
  have hv : c.toNat < 0x110000 := by
    have := c.valid
    simp only [UInt32.isValidChar, Nat.isValidChar] at this
    show c.val.toNat < _
    omega
  generalize hn : c.toNat = n at *
  rw [Bool.eq_iff_iff]
  simp only [isWideChar, charWidth, wideRanges, hn, Bool.and_eq_true, decide_eq_true_eq, List.mem_cons, List.not_mem_nil,
    or_false, exists_eq_or_imp, exists_eq_left]
  constructor
  · rintro ⟨h1, h2⟩
    split at h2
    · simp at h2
    · simp only [Bool.or_eq_true, Bool.and_eq_true, decide_eq_true_eq] at h2
      rw [if_pos (by omega)]
  · intro h
    split at h
    · rename_i h'
      refine ⟨by omega, ?_⟩
      rw [if_neg (by omega)]
      simp only [Bool.or_eq_true, Bool.and_eq_true, decide_eq_true_eq]
      omega
    · simp at h

theorem charWidth_cases (c : Char) : charWidth c = 1 ∨ charWidth c = 2 := by
  unfold charWidth; split <;> simp

/-- The bytes of one character. -/
def enc (c : Char) : Bytes := (String.utf8EncodeChar c).map UInt8.toNat

theorem utf8_nil : utf8 [] = [] := rfl
theorem utf8_cons (c : Char) (t : List Char) : utf8 (c :: t) = enc c ++ utf8 t := by simp [utf8, enc]
theorem utf8_append (s t : List Char) : utf8 (s ++ t) = utf8 s ++ utf8 t := by simp [utf8]

theorem enc_spec (c : Char) :
    (c.toNat < 128 ∧ enc c = [c.toNat]) ∨
    (128 ≤ c.toNat ∧ c.toNat < 2048 ∧ enc c = [c.toNat / 64 + 192, c.toNat % 64 + 128]) ∨
    (2048 ≤ c.toNat ∧ c.toNat < 65536 ∧
      enc c = [c.toNat / 4096 + 224, c.toNat / 64 % 64 + 128, c.toNat % 64 + 128]) ∨
    (65536 ≤ c.toNat ∧ c.toNat < 0x110000 ∧
      enc c = [c.toNat / 262144 + 240, c.toNat / 4096 % 64 + 128, c.toNat / 64 % 64 + 128, c.toNat % 64 + 128]) := by
  have hv : c.toNat < 0x110000 := by
    have := c.valid
    simp only [UInt32.isValidChar, Nat.isValidChar] at this
    show c.val.toNat < _
    omega
  unfold enc String.utf8EncodeChar
  have e : c.val.toNat = c.toNat := rfl
  simp only [e]
  generalize c.toNat = n at *
  split
  · left
    simp only [List.map_cons, List.map_nil, UInt8.toNat_ofNat', List.cons.injEq, and_true]
    refine ⟨by omega, ?_⟩
    show n % 256 = n
    omega
  · split
    · right; left
      simp only [List.map_cons, List.map_nil, UInt8.toNat_ofNat', List.cons.injEq, and_true]
      refine ⟨by omega, by omega, ?_, ?_⟩ <;> omega
    · split
      · right; right; left
        simp only [List.map_cons, List.map_nil, UInt8.toNat_ofNat', List.cons.injEq, and_true]
        refine ⟨by omega, by omega, ?_, ?_, ?_⟩ <;> omega
      · right; right; right
        simp only [List.map_cons, List.map_nil, UInt8.toNat_ofNat', List.cons.injEq, and_true]
        refine ⟨by omega, by omega, ?_, ?_, ?_, ?_⟩ <;> omega

/-- What the model sees of a character: its first byte and the others. -/
theorem decode1_enc (c : Char) (tail : Bytes) (ht : Fresh tail) :
    ∃ b rest, enc c = b :: rest ∧ isCont b = false ∧
      decode1 b (rest ++ tail) = some (rest.length, decide (charWidth c = 2)) := by
  have hw := wide_iff c
  rcases enc_spec c with ⟨h, e⟩ | ⟨h1, h2, e⟩ | ⟨h1, h2, e⟩ | ⟨h1, h2, e⟩
  · refine ⟨_, _, e, isCont_ascii _ h, ?_⟩
    rw [← hw]
    simp [decode1, show ¬ (c.toNat > 0xC1) by omega, show ¬ (4352 ≤ c.toNat) by omega]
  · refine ⟨_, _, e, isCont_lead _ (by omega), ?_⟩
    obtain ⟨m1, m2⟩ := mask2 (c.toNat / 64) (by omega)
    have : c.toNat / 64 * 64 + c.toNat % 64 = c.toNat := by omega
    simp only [decode1, show c.toNat / 64 + 192 > 0xC1 by omega, if_true, m1, m2, Option.bind_eq_bind,
      Option.bind_some, List.cons_append, List.nil_append, List.length_cons, List.length_nil]
    rw [conts_cons _ _ _ (by omega) (by omega), conts_fresh _ _ ht]
    simp only [this, hw]
  · have h' : c.toNat / 4096 + 224 = (c.toNat / 4096 + 32) + 192 := by omega
    refine ⟨_, _, e, h' ▸ isCont_lead _ (by omega), ?_⟩
    obtain ⟨m1, m2⟩ := mask3 (c.toNat / 4096) (by omega)
    have : (c.toNat / 4096 * 64 + c.toNat / 64 % 64) * 64 + c.toNat % 64 = c.toNat := by omega
    simp only [decode1, show c.toNat / 4096 + 224 > 0xC1 by omega, if_true, m1, m2, Option.bind_eq_bind,
      Option.bind_some, List.cons_append, List.nil_append, List.length_cons, List.length_nil]
    rw [conts_cons _ _ _ (by omega) (by omega), conts_cons _ _ _ (by omega) (by omega), conts_fresh _ _ ht]
    simp only [this, hw]
  · have h' : c.toNat / 262144 + 240 = (c.toNat / 262144 + 48) + 192 := by omega
    refine ⟨_, _, e, h' ▸ isCont_lead _ (by omega), ?_⟩
    obtain ⟨m1, m2⟩ := mask4 (c.toNat / 262144) (by omega)
    have : ((c.toNat / 262144 * 64 + c.toNat / 4096 % 64) * 64 + c.toNat / 64 % 64) * 64 + c.toNat % 64 = c.toNat := by
      omega
    simp only [decode1, show c.toNat / 262144 + 240 > 0xC1 by omega, if_true, m1, m2, Option.bind_eq_bind,
      Option.bind_some, List.cons_append, List.nil_append, List.length_cons, List.length_nil]
    rw [conts_cons _ _ _ (by omega) (by omega), conts_cons _ _ _ (by omega) (by omega),
      conts_cons _ _ _ (by omega) (by omega), conts_fresh _ _ ht]
    simp only [this, hw]

theorem enc_fresh (c : Char) (s : Bytes) : Fresh (enc c ++ s) := by
  obtain ⟨b, rest, e, h, -⟩ := decode1_enc c [] (by simp [Fresh])
  intro b' hb'
  simp only [e, List.cons_append, List.head?_cons, Option.mem_def, Option.some.injEq] at hb'
  exact hb' ▸ h

theorem utf8_fresh (t : List Char) (s : Bytes) (h : Fresh s) : Fresh (utf8 t ++ s) := by
  cases t with
  | nil => simpa [utf8_nil] using h
  | cons c t => rw [utf8_cons, List.append_assoc]; exact enc_fresh c _

/-- Bytes that are not those of an ASCII character do not occur elsewhere. -/
theorem mem_enc_small (c : Char) (b : Nat) (hb : b ∈ enc c) (h : b < 128) : enc c = [b] ∧ c.toNat = b := by
  rcases enc_spec c with ⟨h1, e⟩ | ⟨h1, h2, e⟩ | ⟨h1, h2, e⟩ | ⟨h1, h2, e⟩ <;>
    rw [e] at hb <;> simp only [List.mem_cons, List.not_mem_nil, or_false] at hb
  · subst hb; exact ⟨e, rfl⟩
  all_goals omega

theorem enc_small (c : Char) (h : c.toNat < 128) : enc c = [c.toNat] := by
  rcases enc_spec c with ⟨h1, e⟩ | ⟨h1, h2, e⟩ | ⟨h1, h2, e⟩ | ⟨h1, h2, e⟩
  · exact e
  all_goals omega

theorem charWidth_small (c : Char) (h : c.toNat < 128) : charWidth c = 1 := by
  have := wide_iff c
  rcases charWidth_cases c with h' | h'
  · exact h'
  · simp [h', show ¬ (4352 ≤ c.toNat) by omega] at this

theorem charWidth_le (c : Char) : charWidth c ≤ (enc c).length := by
  have := wide_iff c
  rcases enc_spec c with ⟨h1, e⟩ | ⟨h1, h2, e⟩ | ⟨h1, h2, e⟩ | ⟨h1, h2, e⟩
  · rw [charWidth_small c h1]; simp [e]
  all_goals rcases charWidth_cases c with h' | h' <;> simp [e, h']

theorem textWidth_cons (c : Char) (t : List Char) : textWidth (c :: t) = charWidth c + textWidth t := by simp [textWidth]
theorem textWidth_append (s t : List Char) : textWidth (s ++ t) = textWidth s + textWidth t := by simp [textWidth]

theorem textWidth_le (t : List Char) : textWidth t ≤ (utf8 t).length := by
  induction t with
  | nil => simp [textWidth]
  | cons c t ih =>
    rw [textWidth_cons, utf8_cons, List.length_append]
    have := charWidth_le c
    omega

/-- The characters that end a part, other than the one that ends the string. -/
def sepChar (c : Char) : Bool := c == '\t' || c == Char.ofNat 11 || c == '\n' || c == Char.ofNat 0

theorem isSep_enc (c : Char) (h : sepChar c = false) : ∃ b rest, enc c = b :: rest ∧ isSep b = false := by
  obtain ⟨b, rest, e, -, -⟩ := decode1_enc c [] (by simp [Fresh])
  refine ⟨b, rest, e, ?_⟩
  cases hb : isSep b with
  | false => rfl
  | true =>
    exfalso
    have hlt : b < 128 := by
      simp only [isSep, Bool.or_eq_true, beq_iff_eq] at hb
      omega
    have h1 := (mem_enc_small c b (by simp [e]) hlt).2
    have h2 : c = Char.ofNat b := by rw [← h1]; exact (Char.ofNat_toNat c).symm
    simp only [isSep, Bool.or_eq_true, beq_iff_eq] at hb
    rcases hb with ((hb | hb) | hb) | hb <;> subst hb <;> subst h2 <;> exact absurd h (by decide)

theorem toNat_le_one (c : Char) : (decide (charWidth c = 2)).toNat + 1 = charWidth c := by
  rcases charWidth_cases c with h | h <;> simp [h]

/-- `update_length` on UTF-8. -/
theorem updLen_utf8 (t : List Char) (ht : ∀ c ∈ t, sepChar c = false) (s : Bytes) (hs : s = [] ∨ ∃ b r, s = b :: r ∧ isSep b = true)
    (fuel : Nat) (hf : (utf8 t).length + s.length ≤ fuel) :
    updLen fuel (utf8 t ++ s) = some ((utf8 t).length, textWidth t) := by
  have hfresh : Fresh s := by
    rcases hs with h | ⟨b, r, h, hb⟩
    · simp [h, Fresh]
    · intro b' hb'
      simp only [h, List.head?_cons, Option.mem_def, Option.some.injEq] at hb'
      subst hb'
      simp only [isSep, Bool.or_eq_true, beq_iff_eq] at hb
      exact isCont_ascii _ (by omega)
  induction t generalizing fuel with
  | nil =>
    rcases hs with h | ⟨b, r, h, hb⟩
    · subst h; cases fuel <;> rfl
    · subst h
      cases fuel with
      | zero => simp [utf8_nil] at hf
      | succ fuel => simp [utf8_nil, updLen, hb, textWidth]
  | cons c t ih =>
    have htail := utf8_fresh t s hfresh
    obtain ⟨b, rest, e, -, hd⟩ := decode1_enc c (utf8 t ++ s) htail
    obtain ⟨b', rest', e', hsep⟩ := isSep_enc c (ht c (by simp))
    have hb : b' = b := by rw [e] at e'; simp at e'; exact e'.1.symm
    subst hb
    rw [utf8_cons, e] at hf ⊢
    cases fuel with
    | zero => simp at hf
    | succ fuel =>
      simp only [List.cons_append, List.append_assoc, updLen, hsep, Bool.false_eq_true, if_false, hd, Option.bind_eq_bind,
        Option.bind_some]
      rw [List.drop_left, ih (fun c hc => ht c (by simp [hc])) fuel (by simp at hf; omega)]
      simp only [Option.bind_some, Option.some.injEq, Prod.mk.injEq, List.length_cons, List.length_append, textWidth_cons]
      have := toNat_le_one c
      omega

theorem updateLength_utf8 (t : List Char) (ht : ∀ c ∈ t, sepChar c = false) (s : Bytes)
    (hs : s = [] ∨ ∃ b r, s = b :: r ∧ isSep b = true) :
    updateLength (utf8 t ++ s) = some ((utf8 t).length, textWidth t) := by
  unfold updateLength
  exact updLen_utf8 t ht s hs _ (by simp)

end Verif.Usage
