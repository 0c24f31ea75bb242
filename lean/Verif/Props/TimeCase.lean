import Verif.Lemmas.Bytes
/-!
C97: letters of a text read by `string_to_timestamp`.
-/
namespace Verif.TimeUtils
open Verif
open Verif.Bytes (lower char_le toNat_ofNat upper_lower)

theorem upper_cases (c : Char) : upper c = c ∨ (97 ≤ c.toNat ∧ c.toNat ≤ 122 ∧
    65 ≤ (upper c).toNat ∧ (upper c).toNat ≤ 90) := by
  have e9 : 'a'.toNat = 97 := rfl
  have e10 : 'z'.toNat = 122 := rfl
  by_cases h : 'a' ≤ c ∧ c ≤ 'z'
  · right
    have h' := h
    simp only [char_le, e9, e10] at h'
    have hv : (c.toNat - 32).isValidChar := by left; omega
    have : (upper c).toNat = c.toNat - 32 := by
      unfold upper; rw [if_pos h, toNat_ofNat hv]
    omega
  · left; unfold upper; rw [if_neg h]

theorem upper_digit (c : Char) : ('0' ≤ upper c ∧ upper c ≤ '9') ↔ ('0' ≤ c ∧ c ≤ '9') := by
  rcases upper_cases c with h | h
  · rw [h]
  · have e1 : '0'.toNat = 48 := rfl
    have e2 : '9'.toNat = 57 := rfl
    simp only [char_le, e1, e2]; omega

theorem upper_of_digit {c : Char} (h : '0' ≤ c ∧ c ≤ '9') : upper c = c := by
  rcases upper_cases c with h' | h'
  · exact h'
  · have e1 : '0'.toNat = 48 := rfl
    have e2 : '9'.toNat = 57 := rfl
    simp only [char_le, e1, e2] at h; omega

theorem upper_space (c : Char) : isSpace (upper c) = isSpace c := by
  rcases upper_cases c with h | h
  · rw [h]
  · have key : ∀ x : Char, 65 ≤ x.toNat → isSpace x = false := by
      intro x hx
      rw [← Bool.not_eq_true]
      simp only [isSpace, Bool.or_eq_true, Bool.and_eq_true, decide_eq_true_eq, beq_iff_eq, char_le,
        ← Char.toNat_inj]
      have e1 : ' '.toNat = 32 := rfl
      have e2 : '\t'.toNat = 9 := rfl
      have e3 : '\r'.toNat = 13 := rfl
      omega
    rw [key c (by omega), key _ h.2.2.1]

theorem upper_percent (c : Char) : upper c = '%' ↔ c = '%' := by
  rcases upper_cases c with h | h
  · rw [h]
  · have e : '%'.toNat = 37 := rfl
    simp only [← Char.toNat_inj, e]; omega

theorem upper_upper (c : Char) : upper (upper c) = upper c := by
  rcases upper_cases c with h | h
  · rw [h, h]
  · rcases upper_cases (upper c) with h' | h'
    · exact h'
    · omega

theorem digits_upper (max : Nat) : ∀ (len v i : Nat) (s : Str), digits max len v i (s.map upper) =
    ((digits max len v i s).1, (digits max len v i s).2.1, (digits max len v i s).2.2.map upper) := by
  intro len
  induction len with
  | zero => intro v i s; rfl
  | succ n ih =>
    intro v i s
    cases s with
    | nil => rfl
    | cons c s =>
      simp only [List.map_cons, digits, upper_digit]
      by_cases h : '0' ≤ c ∧ c ≤ '9'
      · rw [if_pos h, if_pos h, upper_of_digit h]
        by_cases hv : v * 10 + (c.toNat - 48) > max
        · rw [if_pos hv, if_pos hv]; simp [upper_of_digit h]
        · rw [if_neg hv, if_neg hv, ih]
      · rw [if_neg h, if_neg h]; simp

theorem extract_upper (min max len : Nat) (s : Str) :
    extractNum min max len (s.map upper) = (extractNum min max len s).map fun x => (x.1, x.2.map upper) := by
  unfold extractNum
  rw [digits_upper]
  obtain ⟨v, i, r⟩ := digits max len 0 0 s
  simp only
  split <;> rfl

theorem dropWhile_upper (s : Str) : (s.map upper).dropWhile isSpace = (s.dropWhile isSpace).map upper := by
  induction s with
  | nil => rfl
  | cons c s ih =>
    simp only [List.map_cons, List.dropWhile_cons, upper_space]
    split
    · exact ih
    · rfl

theorem skipOne_upper (s : Str) : getConv.skipOne (s.map upper) = (getConv.skipOne s).map upper := by
  cases s with
  | nil => rfl
  | cons c s =>
    simp only [List.map_cons, getConv.skipOne, upper_space]
    split <;> rfl

theorem getConv_upper (tm : Tm) (s : Str) (c : Conv) :
    getConv tm (s.map upper) c = (getConv tm s c).map fun x => (x.1, x.2.map upper) := by
  cases c with
  | percent =>
    cases s with
    | nil => rfl
    | cons ch s =>
      by_cases h : ch = '%'
      · subst h; rfl
      · have h' : upper ch ≠ '%' := fun hc => h ((upper_percent ch).1 hc)
        unfold getConv
        simp only [List.map_cons]
        split
        · rename_i heq; simp at heq; exact absurd heq.1 h'
        · split
          · rename_i heq; simp at heq; exact absurd heq.1 h
          · rfl
  | d => simp only [getConv, skipOne_upper, extract_upper, Option.map_map]; rfl
  | Y => simp only [getConv, extract_upper, Option.map_map]; rfl
  | m => simp only [getConv, extract_upper, Option.map_map]; rfl
  | H => simp only [getConv, extract_upper, Option.map_map]; rfl
  | M => simp only [getConv, extract_upper, Option.map_map]; rfl
  | S => simp only [getConv, extract_upper, Option.map_map]; rfl

theorem getTime_upper (n : Nat) : ∀ (fmt : List Item) (tm : Tm) (s : Str), fmt.length ≤ n →
    getTime tm fmt (s.map upper) = getTime tm fmt s := by
  induction n with
  | zero =>
    intro fmt tm s h
    have : fmt = [] := List.length_eq_zero_iff.1 (by omega)
    subst this
    unfold getTime; rfl
  | succ n ih =>
    intro fmt tm s h
    cases fmt with
    | nil => unfold getTime; rfl
    | cons it is =>
      have hl : is.length ≤ n := by simp at h; omega
      cases s with
      | nil => rfl
      | cons ch s =>
        cases it with
        | conv c =>
          rw [List.map_cons]
          unfold getTime
          rw [← List.map_cons, getConv_upper]
          cases hg : getConv tm (ch :: s) c with
          | none => rfl
          | some x =>
            obtain ⟨tm', r⟩ := x
            cases r with
            | nil => rfl
            | cons a r => exact ih is tm' (a :: r) hl
        | lit l =>
          rw [List.map_cons]
          unfold getTime
          rw [← List.map_cons, dropWhile_upper, upper_upper,
            ih _ tm _ (le_trans (List.dropWhile_sublist _).length_le hl), ih is tm s hl]

/-- C97: the case of the letters of the text does not matter, whatever the format. -/
theorem C97_letters (text text' : Str) (fmt : List Item) (h : text.map lower = text'.map lower) :
    stringToTimestamp text fmt = stringToTimestamp text' fmt := by
  have key : ∀ s : Str, stringToTimestamp (s.map upper) fmt = stringToTimestamp s fmt := by
    intro s
    unfold stringToTimestamp
    rw [dropWhile_upper]
    cases hs : s.dropWhile isSpace with
    | nil => rfl
    | cons a r =>
      rw [List.map_cons]
      simp only
      rw [← List.map_cons, getTime_upper _ _ _ _ le_rfl]
  have hu : text.map upper = text'.map upper := by
    have h1 := congrArg (List.map upper) h
    rw [List.map_map, List.map_map] at h1
    have h2 : ∀ l : Str, l.map (upper ∘ lower) = l.map upper := fun l =>
      List.map_congr_left fun c _ => upper_lower c
    rwa [h2, h2] at h1
  rw [← key text, ← key text', hu]

example : c!"2024-02-29t12".map lower = c!"2024-02-29T12".map lower := by decide

end Verif.TimeUtils
