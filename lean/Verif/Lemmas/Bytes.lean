import Verif.Model.Bytes
import Verif.Lemmas.DoubleTie
import Verif.Props.TimeFormat
import Mathlib.Tactic.NormNum
/-!
Quantities with a unit: what the text of one is, and lemmas about reading it.
-/
namespace Verif.Bytes
open Verif.Double Verif.NumFormat

/-- Specification: `s` is a number with digits `i` before and `f` after the point (no point
when `f` is empty), optional white space and the letters `u`. -/
def Written (s i f u : Str) : Prop :=
  ∃ ws : Str, i ≠ [] ∧ (∀ c ∈ i, '0' ≤ c ∧ c ≤ '9') ∧ (∀ c ∈ f, '0' ≤ c ∧ c ≤ '9') ∧
    (∀ c ∈ ws, c ∈ [' ', '\t', '\n', Char.ofNat 11, Char.ofNat 12, '\r']) ∧
    u ≠ [] ∧ (∀ c ∈ u, ('a' ≤ c ∧ c ≤ 'z') ∨ ('A' ≤ c ∧ c ≤ 'Z')) ∧
    s = i ++ (if f = [] then [] else '.' :: f) ++ ws ++ u

/-- Specification: the number written. -/
def value (i f : Str) : ℚ := decValue i + (decValue f : ℚ) / 10 ^ f.length

/-- Specification: lower case of a letter. -/
def lower (c : Char) : Char := if 'A' ≤ c ∧ c ≤ 'Z' then Char.ofNat (c.toNat + 32) else c

/-- Specification: `u` names the unit of `n` bytes, in any case. -/
def UnitOf (u : Str) (n : ℕ) : Prop :=
  (u.map lower = c!"b" ∧ n = 1) ∨
  ∃ k p, (k, p) ∈ [(1, 'k'), (2, 'm'), (3, 'g'), (4, 't'), (5, 'p')] ∧
    ((u.map lower = [p, 'b'] ∧ n = 1000 ^ k) ∨ (u.map lower = [p, 'i', 'b'] ∧ n = 1024 ^ k))

theorem char_le {a b : Char} : a ≤ b ↔ a.toNat ≤ b.toNat := by
  rw [Char.le_def, UInt32.le_iff_toNat_le]; rfl

theorem digit_iff (c : Char) : isDigit c = true ↔ '0' ≤ c ∧ c ≤ '9' := by simp [isDigit]

theorem letter_iff (c : Char) :
    isLetter c = true ↔ ('a' ≤ c ∧ c ≤ 'z') ∨ ('A' ≤ c ∧ c ≤ 'Z') := by simp [isLetter]

theorem space_iff (c : Char) :
    isSpace c = true ↔ c ∈ [' ', '\t', '\n', Char.ofNat 11, Char.ofNat 12, '\r'] := by
  have key : ∀ d : Char, c = d ↔ c.toNat = d.toNat := fun d => by
    rw [← Char.toNat_inj]
  simp only [isSpace, List.mem_cons, List.not_mem_nil, or_false, Bool.or_eq_true, Bool.and_eq_true,
    decide_eq_true_eq, beq_iff_eq, char_le, key]
  have e1 : ' '.toNat = 32 := rfl
  have e2 : '\t'.toNat = 9 := rfl
  have e3 : '\n'.toNat = 10 := rfl
  have e4 : (Char.ofNat 11).toNat = 11 := rfl
  have e5 : (Char.ofNat 12).toNat = 12 := rfl
  have e6 : '\r'.toNat = 13 := rfl
  rw [e1, e2, e3, e4, e5, e6]
  omega

theorem classes (c : Char) : (isDigit c = true → isSpace c = false ∧ isLetter c = false ∧ c ≠ '.') ∧
    (isSpace c = true → isDigit c = false ∧ isLetter c = false ∧ c ≠ '.') ∧
    (isLetter c = true → isDigit c = false ∧ isSpace c = false ∧ c ≠ '.') := by
  have key : ∀ d : Char, c = d ↔ c.toNat = d.toNat := fun d => by
    rw [← Char.toNat_inj]
  simp only [isSpace, isDigit, isLetter, ← Bool.not_eq_true, Bool.or_eq_true, Bool.and_eq_true,
    decide_eq_true_eq, beq_iff_eq, char_le, key, ne_eq]
  have e1 : ' '.toNat = 32 := rfl
  have e2 : '\t'.toNat = 9 := rfl
  have e6 : '\r'.toNat = 13 := rfl
  have e7 : '0'.toNat = 48 := rfl
  have e8 : '9'.toNat = 57 := rfl
  have e9 : 'a'.toNat = 97 := rfl
  have e10 : 'z'.toNat = 122 := rfl
  have e11 : 'A'.toNat = 65 := rfl
  have e12 : 'Z'.toNat = 90 := rfl
  have e13 : '.'.toNat = 46 := rfl
  rw [e1, e2, e6, e7, e8, e9, e10, e11, e12, e13]
  omega

/-- A run of one class, up to a character of another. -/
theorem takeWhile_run (p : Char → Bool) (a b : Str) (ha : ∀ c ∈ a, p c = true)
    (hb : ∀ c, b.head? = some c → p c = false) :
    (a ++ b).takeWhile p = a ∧ (a ++ b).dropWhile p = b := by
  induction a with
  | nil =>
    cases b with
    | nil => simp
    | cons c t => simp [hb c rfl]
  | cons c t ih =>
    have := ih (fun d hd => ha d (List.mem_cons_of_mem _ hd))
    simp [ha c (List.mem_cons_self ..), this.1, this.2]

theorem mem_takeWhile {p : Char → Bool} {s : Str} {c : Char} (h : c ∈ s.takeWhile p) : p c = true := by
  induction s with
  | nil => simp at h
  | cons d t ih =>
    rw [List.takeWhile_cons] at h
    split at h
    · rcases List.mem_cons.1 h with rfl | h
      · assumption
      · exact ih h
    · simp at h

theorem rest_iff (i f r : Str) (x : Str × Str × Str) :
    parse.rest i f r = some x ↔ ∃ ws u : Str, x = (i, f, u) ∧ r = ws ++ u ∧ u ≠ [] ∧
      (∀ c ∈ ws, isSpace c = true) ∧ (∀ c ∈ u, isLetter c = true) := by
  unfold parse.rest
  simp only
  constructor
  · intro h
    split at h
    · rename_i hc
      refine ⟨r.takeWhile isSpace, r.dropWhile isSpace, (Option.some.inj h).symm,
        (List.takeWhile_append_dropWhile).symm, hc.1, fun c hc => mem_takeWhile hc, ?_⟩
      have := hc.2
      rw [List.all_eq_true] at this
      exact this
    · simp at h
  · rintro ⟨ws, u, rfl, rfl, hu, hw, hl⟩
    have := (takeWhile_run isSpace ws u hw (by
      intro c hc
      cases u with
      | nil => simp at hc
      | cons d t =>
        simp at hc; subst hc
        exact ((classes d).2.2 (hl d (List.mem_cons_self ..))).2.1)).2
    rw [this, if_pos ⟨hu, by rw [List.all_eq_true]; exact hl⟩]

/-- Head of what follows a number. -/
theorem head_rest {ws u : Str} (hu : u ≠ []) (hw : ∀ c ∈ ws, isSpace c = true)
    (hl : ∀ c ∈ u, isLetter c = true) : ∃ c t, ws ++ u = c :: t ∧ isDigit c = false ∧ c ≠ '.' := by
  cases ws with
  | nil =>
    cases u with
    | nil => exact absurd rfl hu
    | cons c t =>
      have := (classes c).2.2 (hl c (List.mem_cons_self ..))
      exact ⟨c, t, rfl, this.1, this.2.2⟩
  | cons c t =>
    have := (classes c).2.1 (hw c (List.mem_cons_self ..))
    exact ⟨c, t ++ u, rfl, this.1, this.2.2⟩

/-- The regular expression accepts the texts of quantities and takes them apart. -/
theorem parse_iff (s i f u : Str) : parse s = some (i, f, u) ↔ Written s i f u := by
  have hdot : isDigit '.' = false := by decide
  constructor
  · intro h
    unfold parse at h
    simp only at h
    split at h
    · simp at h
    · rename_i hi
      have hs : s = s.takeWhile isDigit ++ s.dropWhile isDigit := List.takeWhile_append_dropWhile.symm
      split at h
      · rename_i t ht
        split at h
        · simp at h
        · rename_i hf
          obtain ⟨ws, u', hx, hr, hu, hw, hl⟩ := (rest_iff _ _ _ _).1 h
          obtain ⟨rfl, rfl, rfl⟩ : i = _ ∧ f = _ ∧ u = u' := by simpa using hx
          refine ⟨ws, hi, fun c hc => (digit_iff c).1 (mem_takeWhile hc),
            fun c hc => (digit_iff c).1 (mem_takeWhile hc), fun c hc => (space_iff c).1 (hw c hc), hu,
            fun c hc => (letter_iff c).1 (hl c hc), ?_⟩
          rw [if_neg hf, List.append_assoc, List.append_assoc, ← hr, List.cons_append,
            List.takeWhile_append_dropWhile, ← ht]
          exact hs
      · obtain ⟨ws, u', hx, hr, hu, hw, hl⟩ := (rest_iff _ _ _ _).1 h
        obtain ⟨rfl, rfl, rfl⟩ : i = _ ∧ f = [] ∧ u = u' := by simpa using hx
        refine ⟨ws, hi, fun c hc => (digit_iff c).1 (mem_takeWhile hc), by simp,
          fun c hc => (space_iff c).1 (hw c hc), hu, fun c hc => (letter_iff c).1 (hl c hc), ?_⟩
        rw [if_pos rfl, List.append_nil, List.append_assoc, ← hr]
        exact hs
  · rintro ⟨ws, hi, di, df, hw, hu, hl, rfl⟩
    have di' : ∀ c ∈ i, isDigit c = true := fun c hc => (digit_iff c).2 (di c hc)
    have df' : ∀ c ∈ f, isDigit c = true := fun c hc => (digit_iff c).2 (df c hc)
    have hw' : ∀ c ∈ ws, isSpace c = true := fun c hc => (space_iff c).2 (hw c hc)
    have hl' : ∀ c ∈ u, isLetter c = true := fun c hc => (letter_iff c).2 (hl c hc)
    obtain ⟨c, t, ht, hcd, hcp⟩ := head_rest hu hw' hl'
    rw [List.append_assoc, List.append_assoc]
    unfold parse
    by_cases hf : f = []
    · subst hf
      rw [if_pos rfl, List.nil_append]
      obtain ⟨h1, h2⟩ := takeWhile_run isDigit i (ws ++ u) di' (by
        intro d hd; rw [ht] at hd; simp at hd; subst hd; exact hcd)
      simp only [h1, h2, if_neg hi]
      have : parse.rest i [] (ws ++ u) = some (i, [], u) :=
        (rest_iff _ _ _ _).2 ⟨ws, u, rfl, rfl, hu, hw', hl'⟩
      rw [ht] at this ⊢
      split
      · rename_i heq; simp at heq; exact absurd heq.1 hcp
      · exact this
    · rw [if_neg hf]
      obtain ⟨h1, h2⟩ := takeWhile_run isDigit i (('.' :: f) ++ (ws ++ u)) di' (by
        intro d hd; simp at hd; subst hd; exact hdot)
      obtain ⟨h3, h4⟩ := takeWhile_run isDigit f (ws ++ u) df' (by
        intro d hd; rw [ht] at hd; simp at hd; subst hd; exact hcd)
      rw [h1, h2]
      simp only [if_neg hi, List.cons_append, h3, h4, if_neg hf]
      exact (rest_iff _ _ _ _).2 ⟨ws, u, rfl, rfl, hu, hw', hl'⟩

theorem digitsValue_eq (s : Str) : digitsValue s = decValue s := rfl

theorem foldl_append_value (f : Str) : ∀ a : ℕ,
    f.foldl (fun v c => v * 10 + (c.toNat - 48)) a = a * 10 ^ f.length + decValue f := by
  induction f with
  | nil => intro a; simp [decValue]
  | cons c t ih =>
    intro a
    have h0 : decValue (c :: t) = (0 * 10 + (c.toNat - 48)) * 10 ^ t.length + decValue t := ih _
    rw [List.foldl_cons, ih, h0, List.length_cons, pow_succ]
    ring

theorem numberOf_eq (i f : Str) : numberOf i f = value i f := by
  unfold numberOf value digitsValue
  rw [List.foldl_append, foldl_append_value]
  have : (10 : ℚ) ^ f.length ≠ 0 := by positivity
  change (((decValue i * 10 ^ f.length + decValue f : ℕ) : ℚ)) / _ = _
  push_cast
  field_simp

theorem value_nonneg (i f : Str) : 0 ≤ value i f := by unfold value; positivity

/-! ### Units -/

theorem toNat_ofNat {n : ℕ} (h : n.isValidChar) : (Char.ofNat n).toNat = n := by
  unfold Char.ofNat
  rw [dif_pos h]
  simp [Char.toNat, Char.ofNatAux]

theorem lower_upper (c : Char) : lower (upper c) = lower c := by
  have e9 : 'a'.toNat = 97 := rfl
  have e10 : 'z'.toNat = 122 := rfl
  have e11 : 'A'.toNat = 65 := rfl
  have e12 : 'Z'.toNat = 90 := rfl
  unfold upper lower
  simp only [char_le, e9, e10, e11, e12]
  by_cases h : 97 ≤ c.toNat ∧ c.toNat ≤ 122
  · have hv : (c.toNat - 32).isValidChar := by left; omega
    have hn : (Char.ofNat (c.toNat - 32)).toNat = c.toNat - 32 := toNat_ofNat hv
    rw [if_pos h, hn, if_pos (by omega), if_neg (by omega),
      show c.toNat - 32 + 32 = c.toNat by omega, Char.ofNat_toNat]
  · rw [if_neg h]

theorem upper_lower (c : Char) : upper (lower c) = upper c := by
  have e9 : 'a'.toNat = 97 := rfl
  have e10 : 'z'.toNat = 122 := rfl
  have e11 : 'A'.toNat = 65 := rfl
  have e12 : 'Z'.toNat = 90 := rfl
  unfold upper lower
  simp only [char_le, e9, e10, e11, e12]
  by_cases h : 65 ≤ c.toNat ∧ c.toNat ≤ 90
  · have hv : (c.toNat + 32).isValidChar := by left; omega
    have hn : (Char.ofNat (c.toNat + 32)).toNat = c.toNat + 32 := toNat_ofNat hv
    rw [if_pos h, hn, if_pos (by omega), if_neg (by omega),
      show c.toNat + 32 - 32 = c.toNat by omega, Char.ofNat_toNat]
  · rw [if_neg h]

theorem upper_iff (u S L : Str) (h1 : S.map lower = L) (h2 : L.map upper = S) :
    u.map upper = S ↔ u.map lower = L := by
  constructor
  · intro h
    rw [← h1, ← h, List.map_map]
    exact List.map_congr_left fun c _ => (lower_upper c).symm
  · intro h
    rw [← h2, ← h, List.map_map]
    exact List.map_congr_left fun c _ => (upper_lower c).symm

theorem lookup_iff (u : Str) (n : ℕ) : units.lookup (u.map upper) = some n ↔ UnitOf u n := by
  have k : ∀ S L : Str, S.map lower = L → L.map upper = S → (u.map upper = S ↔ u.map lower = L) :=
    upper_iff u
  have mem : units.lookup (u.map upper) = some n ↔ (u.map upper, n) ∈ units := by
    have nd : (units.map Prod.fst).Nodup := by decide
    revert nd
    generalize u.map upper = s
    generalize units = l
    intro nd
    induction l with
    | nil => simp
    | cons a t ih =>
      obtain ⟨x, v⟩ := a
      simp only [List.map_cons, List.nodup_cons] at nd
      rw [List.lookup_cons]
      by_cases h : s = x
      · subst h
        simp only [beq_self_eq_true, List.mem_cons, Prod.mk.injEq, true_and, Option.some.injEq]
        constructor
        · intro h; exact .inl h.symm
        · rintro (h | h)
          · exact h.symm
          · exact absurd (List.mem_map_of_mem (f := Prod.fst) h) nd.1
      · have : (s == x) = false := by simpa using h
        simp only [this, List.mem_cons, Prod.mk.injEq, h, false_and, false_or]
        exact ih nd.2
  rw [mem]
  unfold units UnitOf
  simp only [List.mem_cons, Prod.mk.injEq, List.not_mem_nil, or_false]
  rw [k c!"B" c!"b" (by decide) (by decide), k c!"KB" c!"kb" (by decide) (by decide),
    k c!"MB" c!"mb" (by decide) (by decide), k c!"GB" c!"gb" (by decide) (by decide),
    k c!"TB" c!"tb" (by decide) (by decide), k c!"PB" c!"pb" (by decide) (by decide),
    k c!"KIB" c!"kib" (by decide) (by decide), k c!"MIB" c!"mib" (by decide) (by decide),
    k c!"GIB" c!"gib" (by decide) (by decide), k c!"TIB" c!"tib" (by decide) (by decide),
    k c!"PIB" c!"pib" (by decide) (by decide)]
  constructor
  · rintro (h | h | h | h | h | h | h | h | h | h | h)
    · exact .inl h
    · exact .inr ⟨1, 'k', by simp, .inl ⟨h.1, by rw [h.2]; norm_num⟩⟩
    · exact .inr ⟨2, 'm', by simp, .inl ⟨h.1, by rw [h.2]; norm_num⟩⟩
    · exact .inr ⟨3, 'g', by simp, .inl ⟨h.1, by rw [h.2]; norm_num⟩⟩
    · exact .inr ⟨4, 't', by simp, .inl ⟨h.1, by rw [h.2]; norm_num⟩⟩
    · exact .inr ⟨5, 'p', by simp, .inl ⟨h.1, by rw [h.2]; norm_num⟩⟩
    · exact .inr ⟨1, 'k', by simp, .inr ⟨h.1, by rw [h.2]; norm_num⟩⟩
    · exact .inr ⟨2, 'm', by simp, .inr ⟨h.1, by rw [h.2]; norm_num⟩⟩
    · exact .inr ⟨3, 'g', by simp, .inr ⟨h.1, by rw [h.2]; norm_num⟩⟩
    · exact .inr ⟨4, 't', by simp, .inr ⟨h.1, by rw [h.2]; norm_num⟩⟩
    · exact .inr ⟨5, 'p', by simp, .inr ⟨h.1, by rw [h.2]; norm_num⟩⟩
  · rintro (h | ⟨j, p, (⟨rfl, rfl⟩ | ⟨rfl, rfl⟩ | ⟨rfl, rfl⟩ | ⟨rfl, rfl⟩ | ⟨rfl, rfl⟩), h | h⟩)
    · exact .inl h
    all_goals
      obtain ⟨h, rfl⟩ := h
      simp [h]

theorem unit_cases {u : Str} {n : ℕ} (h : UnitOf u n) :
    n ∈ [1, 1000, 1000 ^ 2, 1000 ^ 3, 1000 ^ 4, 1000 ^ 5, 1024, 1024 ^ 2, 1024 ^ 3, 1024 ^ 4, 1024 ^ 5] := by
  rcases h with ⟨-, rfl⟩ | ⟨j, p, hm, h⟩
  · simp
  · simp only [List.mem_cons, Prod.mk.injEq, List.not_mem_nil, or_false] at hm
    rcases hm with ⟨rfl, -⟩ | ⟨rfl, -⟩ | ⟨rfl, -⟩ | ⟨rfl, -⟩ | ⟨rfl, -⟩ <;>
    rcases h with ⟨-, rfl⟩ | ⟨-, rfl⟩ <;> simp

end Verif.Bytes
