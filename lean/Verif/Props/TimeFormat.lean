import Verif.Props.TimeUtils
/-!
C77 (texts of dates), C97 (texts that are not dates), C98 `time_to_timestamp`,
C99 `normalize`.
-/
namespace Verif.TimeUtils
open Verif Verif.Spec.Calendar Verif.NumFormat

/-- Specification: `s` is `n` written with `w` decimal digits. -/
def Field (s : Str) (w n : Nat) : Prop :=
  (∀ c ∈ s, '0' ≤ c ∧ c ≤ '9') ∧ s.length = w ∧ decValue s = n

example : Field c!"0042" 4 42 := ⟨by decide, rfl, rfl⟩

/-- Specification: the text `YYYY-MM-DD_hh-mm-ss` of six numbers. -/
def IsText (s : Str) (Y M D h m sec : Nat) : Prop :=
  ∃ sY sM sD sh sm ss, Field sY 4 Y ∧ Field sM 2 M ∧ Field sD 2 D ∧ Field sh 2 h ∧ Field sm 2 m ∧
    Field ss 2 sec ∧
    s = sY ++ '-' :: (sM ++ '-' :: (sD ++ '_' :: (sh ++ '-' :: (sm ++ '-' :: ss))))

theorem text_2024 : IsText c!"2024-02-29_12-30-15" 2024 2 29 12 30 15 :=
  ⟨c!"2024", c!"02", c!"29", c!"12", c!"30", c!"15", ⟨by decide, rfl, rfl⟩, ⟨by decide, rfl, rfl⟩,
    ⟨by decide, rfl, rfl⟩, ⟨by decide, rfl, rfl⟩, ⟨by decide, rfl, rfl⟩, ⟨by decide, rfl, rfl⟩, rfl⟩

/-! ### Numbers -/

theorem foldl_dec (s : Str) (v : Nat) :
    s.foldl (fun v c => v * 10 + (c.toNat - 48)) v = v * 10 ^ s.length + decValue s := by
  unfold decValue
  induction s generalizing v with
  | nil => simp
  | cons c s ih =>
    simp only [List.foldl_cons, List.length_cons, Nat.zero_mul, Nat.zero_add]
    rw [ih, ih (c.toNat - 48)]
    rw [Nat.add_mul, Nat.pow_succ, Nat.mul_assoc, Nat.mul_comm 10, Nat.add_assoc]

theorem decValue_cons (c : Char) (s : Str) :
    decValue (c :: s) = (c.toNat - 48) * 10 ^ s.length + decValue s := by
  conv => lhs; unfold decValue
  rw [List.foldl_cons, foldl_dec]; simp

theorem decValue_lt (l : Str) : (∀ c ∈ l, '0' ≤ c ∧ c ≤ '9') → decValue l < 10 ^ l.length := by
  induction l with
  | nil => intro _; decide
  | cons c l ih =>
    intro hl
    have hc := hl c (by simp)
    have hi := ih fun d hd => hl d (by simp [hd])
    rw [decValue_cons, List.length_cons, Nat.pow_succ]
    have : c.toNat ≤ '9'.toNat := hc.2
    have : '9'.toNat = 57 := rfl
    have hle : c.toNat - 48 ≤ 9 := by omega
    have := Nat.mul_le_mul_right (10 ^ l.length) hle
    omega

theorem field_unique {s s' : Str} {w n : Nat} (a : Field s w n) (b : Field s' w n) : s = s' := by
  obtain ⟨a1, a2, a3⟩ := a
  obtain ⟨b1, b2, b3⟩ := b
  induction s generalizing s' w n with
  | nil =>
    cases s' with
    | nil => rfl
    | cons c s' => simp at a2 b2; omega
  | cons c s ih =>
    cases s' with
    | nil => simp at a2 b2; omega
    | cons c' s' =>
      have hl : s.length = s'.length := by simp at a2 b2; omega
      have l1 := decValue_lt s fun d hd => a1 d (by simp [hd])
      have l2 := decValue_lt s' fun d hd => b1 d (by simp [hd])
      rw [decValue_cons] at a3 b3
      rw [← hl] at b3 l2
      have q1 : n / 10 ^ s.length = c.toNat - 48 := by
        rw [← a3, Nat.mul_comm, Nat.mul_add_div (by omega), Nat.div_eq_of_lt l1]; rfl
      have q2 : n / 10 ^ s.length = c'.toNat - 48 := by
        rw [← b3, Nat.mul_comm, Nat.mul_add_div (by omega), Nat.div_eq_of_lt l2]; rfl
      have h1 : '0'.toNat ≤ c.toNat := (a1 c (by simp)).1
      have h2 : '0'.toNat ≤ c'.toNat := (b1 c' (by simp)).1
      have h0 : '0'.toNat = 48 := rfl
      have hc : c = c' := by
        have : c.toNat = c'.toNat := by omega
        exact Char.toNat_inj.1 this
      subst hc
      rw [ih (s' := s') (w := s.length) (n := decValue s) (fun d hd => a1 d (by simp [hd])) rfl rfl
        (fun d hd => b1 d (by simp [hd])) hl.symm (by omega)]

/-- Reading `w` digits whose value does not exceed the maximum. -/
theorem digits_field (max : Nat) (s : Str) (rest : Str) (v i : Nat)
    (hs : ∀ c ∈ s, '0' ≤ c ∧ c ≤ '9') (hv : v * 10 ^ s.length + decValue s ≤ max) :
    digits max s.length v i (s ++ rest) = (v * 10 ^ s.length + decValue s, i + s.length, rest) := by
  induction s generalizing v i with
  | nil => simp [digits, decValue]
  | cons c s ih =>
    rw [decValue_cons] at hv ⊢
    have hc := hs c (by simp)
    simp only [List.length_cons, List.cons_append, digits, hc, and_self, if_true]
    have e : v * 10 ^ (s.length + 1) + ((c.toNat - 48) * 10 ^ s.length + decValue s)
        = (v * 10 + (c.toNat - 48)) * 10 ^ s.length + decValue s := by
      rw [Nat.add_mul, Nat.pow_succ, Nat.mul_assoc v, Nat.mul_comm 10]; omega
    simp only [List.length_cons] at hv
    rw [e] at hv ⊢
    have hle : v * 10 + (c.toNat - 48) ≤ max := by
      have : 1 ≤ 10 ^ s.length := Nat.one_le_pow _ _ (by omega)
      have := Nat.le_mul_of_pos_right (v * 10 + (c.toNat - 48)) this
      omega
    rw [if_neg (by omega), ih _ _ (fun d hd => hs d (by simp [hd])) hv]
    simp; omega

theorem extractNum_field {s : Str} {w n : Nat} (h : Field s w n) (hw : 0 < w) (lo hi : Nat)
    (hlo : lo ≤ n) (hhi : n ≤ hi) (rest : Str) : extractNum lo hi w (s ++ rest) = some (n, rest) := by
  obtain ⟨h1, rfl, rfl⟩ := h
  unfold extractNum
  rw [digits_field hi s rest 0 0 h1 (by omega)]
  simp only [Nat.zero_mul, Nat.zero_add]
  rw [if_pos ⟨hw, hlo, hhi⟩]

/-- Two digits of a number that is out of range are refused. -/
theorem extractNum_bad {s : Str} {n : Nat} (h : Field s 2 n) (lo hi : Nat)
    (hn : n < lo ∨ hi < n) (hhi : 9 ≤ hi) (rest : Str) : extractNum lo hi 2 (s ++ rest) = none := by
  obtain ⟨h1, h2, h3⟩ := h
  match s, h2 with
  | [a, b], _ =>
    have ha := h1 a (by simp)
    have hb := h1 b (by simp)
    have hal : a.toNat - 48 ≤ 9 := by
      have : a.toNat ≤ '9'.toNat := ha.2
      have : '9'.toNat = 57 := rfl
      omega
    rw [decValue_cons, decValue_cons, show decValue [] = 0 from rfl] at h3
    simp only [List.length_cons, List.length_nil, Nat.zero_add, Nat.pow_one, Nat.pow_zero,
      Nat.mul_one, Nat.add_zero] at h3
    have hd : ∃ k r, digits hi 2 0 0 (a :: b :: rest) = (n, k, r) := by
      simp only [digits, ha, hb, and_self, if_true, Nat.zero_mul, Nat.zero_add]
      rw [if_neg (by omega)]
      split
      · exact ⟨_, _, by rw [Prod.mk.injEq]; exact ⟨by omega, rfl⟩⟩
      · exact ⟨_, _, by rw [Prod.mk.injEq]; exact ⟨by omega, rfl⟩⟩
    obtain ⟨k, r, hd⟩ := hd
    unfold extractNum
    simp only [List.cons_append, List.nil_append, hd]
    rw [if_neg (by omega)]

/-! ### Printing -/

theorem natToDec_lt10 {n : Nat} (h : n < 10) : natToDec n = [digitChar n] := by
  unfold natToDec; rw [if_pos h]

theorem natToDec_ge10 {n : Nat} (h : 10 ≤ n) : natToDec n = natToDec (n / 10) ++ [digitChar (n % 10)] := by
  conv => lhs; unfold natToDec
  rw [if_neg (by omega)]

theorem field_two (n : Nat) (h : n < 100) : Field (padLeft 2 (intToDec n)) 2 n := by
  have e : intToDec (n : Int) = natToDec n := by simp [intToDec]
  rw [e]
  obtain ⟨⟨h1, h2, h3, -⟩, -⟩ := natToDec_spec n
  by_cases hn : n < 10
  · rw [natToDec_lt10 hn] at *
    refine ⟨?_, rfl, ?_⟩
    · intro c hc
      simp only [padLeft, List.length_singleton, List.mem_append, List.mem_replicate] at hc
      rcases hc with hc | hc
      · rw [hc.2]; decide
      · exact h1 c hc
    · have : padLeft 2 [digitChar n] = '0' :: [digitChar n] := rfl
      rw [this, decValue_cons, h2]; simp
  · have e1 : natToDec n = [digitChar (n / 10), digitChar (n % 10)] := by
      rw [natToDec_ge10 (by omega), natToDec_lt10 (by omega)]; rfl
    rw [e1] at h1 h2 ⊢
    exact ⟨h1, rfl, h2⟩

theorem field_four (n : Nat) (h : 1000 ≤ n ∧ n < 10000) : Field (intToDec n) 4 n := by
  have e : intToDec (n : Int) = natToDec n := by simp [intToDec]
  rw [e]
  obtain ⟨⟨h1, h2, h3, -⟩, -⟩ := natToDec_spec n
  refine ⟨h1, ?_, h2⟩
  rw [natToDec_ge10 (by omega), natToDec_ge10 (n := n / 10) (by omega),
    natToDec_ge10 (n := n / 10 / 10) (by omega), natToDec_lt10 (by omega)]
  rfl

/-- Broken-down times whose fields are in their ranges, with a year of four digits. -/
def Tm.Good (tm : Tm) : Prop :=
  -900 ≤ tm.year ∧ tm.year < 8100 ∧ 0 ≤ tm.mon ∧ tm.mon < 12 ∧ 1 ≤ tm.mday ∧ tm.mday ≤ 31 ∧
  0 ≤ tm.hour ∧ tm.hour < 24 ∧ 0 ≤ tm.min ∧ tm.min < 60 ∧ 0 ≤ tm.sec ∧ tm.sec < 60

theorem field_two' (x : Int) (h0 : 0 ≤ x) (h : x < 100) : Field (padLeft 2 (intToDec x)) 2 x.toNat := by
  have := field_two x.toNat (by omega)
  rwa [Int.toNat_of_nonneg h0] at this

theorem field_four' (x : Int) (h0 : 1000 ≤ x) (h : x < 10000) : Field (intToDec x) 4 x.toNat := by
  have := field_four x.toNat (by omega)
  rwa [Int.toNat_of_nonneg (by omega)] at this

/-- One field of the broken-down time taken from another. -/
def Tm.set (tm tm0 : Tm) : Conv → Tm
  | .Y => { tm with year := tm0.year }
  | .m => { tm with mon := tm0.mon }
  | .d => { tm with mday := tm0.mday }
  | .H => { tm with hour := tm0.hour }
  | .M => { tm with min := tm0.min }
  | .S => { tm with sec := tm0.sec }
  | .percent => tm

theorem digit_not_space {c : Char} (h : '0' ≤ c ∧ c ≤ '9') : isSpace c = false := by
  have h1 : 48 ≤ c.toNat := h.1
  unfold isSpace
  simp only [Bool.or_eq_false_iff, beq_eq_false_iff_ne, Bool.and_eq_false_iff, decide_eq_false_iff_not]
  constructor
  · rintro rfl; exact absurd h1 (by decide)
  · right
    intro hc
    have : c.toNat ≤ '\r'.toNat := hc
    have : '\r'.toNat = 13 := rfl
    omega

theorem field_cons {s : Str} {w n : Nat} (h : Field s w n) (hw : 0 < w) :
    ∃ c r, s = c :: r ∧ isSpace c = false := by
  cases s with
  | nil => have := h.2.1; simp at this; omega
  | cons c r => exact ⟨c, r, rfl, digit_not_space (h.1 c (by simp))⟩

/-- Every conversion prints something that does not start with white space. -/
theorem putConv_cons (tm : Tm) (h : tm.Good) (c : Conv) :
    ∃ a r, putConv tm c = a :: r ∧ isSpace a = false := by
  obtain ⟨h1, h2, h3, h4, h5, h6, h7, h8, h9, h10, h11, h12⟩ := h
  cases c
  · exact field_cons (field_four' (tm.year + 1900) (by omega) (by omega)) (by omega)
  · exact field_cons (field_two' (tm.mon + 1) (by omega) (by omega)) (by omega)
  · exact field_cons (field_two' tm.mday (by omega) (by omega)) (by omega)
  · exact field_cons (field_two' tm.hour (by omega) (by omega)) (by omega)
  · exact field_cons (field_two' tm.min (by omega) (by omega)) (by omega)
  · exact field_cons (field_two' tm.sec (by omega) (by omega)) (by omega)
  · exact ⟨_, _, rfl, by decide⟩

/-- What a conversion prints it reads back, whatever follows. -/
theorem getConv_putConv (tm tm0 : Tm) (h : tm0.Good) (c : Conv) (rest : Str) :
    getConv tm (putConv tm0 c ++ rest) c = some (tm.set tm0 c, rest) := by
  have hp := putConv_cons tm0 h c
  obtain ⟨h1, h2, h3, h4, h5, h6, h7, h8, h9, h10, h11, h12⟩ := h
  cases c
  · have := extractNum_field (field_four' (tm0.year + 1900) (by omega) (by omega)) (by omega) 0 9999
      (by omega) (by omega) rest
    simp only [getConv, putConv, this, Option.map_some, Tm.set]
    congr 3; omega
  · have := extractNum_field (field_two' (tm0.mon + 1) (by omega) (by omega)) (by omega) 1 12
      (by omega) (by omega) rest
    simp only [getConv, putConv, this, Option.map_some, Tm.set]
    congr 3; omega
  · have := extractNum_field (field_two' tm0.mday (by omega) (by omega)) (by omega) 1 31
      (by omega) (by omega) rest
    obtain ⟨a, r, hp, hs⟩ := hp
    have e : getConv.skipOne (putConv tm0 .d ++ rest) = putConv tm0 .d ++ rest := by
      rw [hp]; simp [getConv.skipOne, hs]
    simp only [getConv, e]
    simp only [putConv, this, Option.map_some, Tm.set]
    congr 3; omega
  · have := extractNum_field (field_two' tm0.hour (by omega) (by omega)) (by omega) 0 23
      (by omega) (by omega) rest
    simp only [getConv, putConv, this, Option.map_some, Tm.set]
    congr 3; omega
  · have := extractNum_field (field_two' tm0.min (by omega) (by omega)) (by omega) 0 59
      (by omega) (by omega) rest
    simp only [getConv, putConv, this, Option.map_some, Tm.set]
    congr 3; omega
  · have := extractNum_field (field_two' tm0.sec (by omega) (by omega)) (by omega) 0 60
      (by omega) (by omega) rest
    simp only [getConv, putConv, this, Option.map_some, Tm.set]
    congr 3; omega
  · rfl

/-- The fields a format mentions. -/
def upd (tm tm0 : Tm) : List Item → Tm
  | [] => tm
  | .conv c :: is => upd (tm.set tm0 c) tm0 is
  | .lit _ :: is => upd tm tm0 is

theorem upd_dropWhile (tm tm0 : Tm) (is : List Item) :
    upd tm tm0 (is.dropWhile Item.isSpace) = upd tm tm0 is := by
  induction is with
  | nil => rfl
  | cons i is ih =>
    cases i with
    | conv c => rfl
    | lit c =>
      by_cases hc : isSpace c = true
      · rw [List.dropWhile_cons_of_pos (by exact hc), ih]; rfl
      · rw [List.dropWhile_cons_of_neg (by exact hc)]

theorem put_dropWhile (tm : Tm) (h : tm.Good) (is : List Item) :
    (putTime tm is).dropWhile isSpace = putTime tm (is.dropWhile Item.isSpace) := by
  induction is with
  | nil => rfl
  | cons i is ih =>
    cases i with
    | conv c =>
      obtain ⟨a, r, hp, hs⟩ := putConv_cons tm h c
      rw [List.dropWhile_cons_of_neg (by simp [Item.isSpace])]
      simp only [putTime, hp, List.cons_append]
      rw [List.dropWhile_cons_of_neg (by simp [hs])]
    | lit c =>
      by_cases hc : isSpace c = true
      · rw [List.dropWhile_cons_of_pos (by exact hc)]
        simp only [putTime]
        rw [List.dropWhile_cons_of_pos hc, ih]
      · rw [List.dropWhile_cons_of_neg (by exact hc)]
        simp only [putTime]
        rw [List.dropWhile_cons_of_neg hc]

theorem put_nil (tm : Tm) (h : tm.Good) {is : List Item} (e : putTime tm is = []) : is = [] := by
  cases is with
  | nil => rfl
  | cons i is =>
    cases i with
    | conv c =>
      obtain ⟨a, r, hp, -⟩ := putConv_cons tm h c
      simp [putTime, hp] at e
    | lit c => simp [putTime] at e

theorem dropWhile_idem {α : Type} (p : α → Bool) (l : List α) :
    (l.dropWhile p).dropWhile p = l.dropWhile p := by
  induction l with
  | nil => rfl
  | cons a l ih =>
    by_cases h : p a = true
    · rw [List.dropWhile_cons_of_pos h, ih]
    · rw [List.dropWhile_cons_of_neg h, List.dropWhile_cons_of_neg h]

/-- A text printed with a format is read with the same format. -/
theorem get_put (tm0 : Tm) (h : tm0.Good) (k : Nat) : ∀ (tm : Tm) (is : List Item), is.length ≤ k →
    getTime tm is (putTime tm0 is) = some (upd tm tm0 is) := by
  induction k with
  | zero =>
    intro tm is hk
    cases is with
    | nil => unfold getTime; rfl
    | cons i is => simp at hk
  | succ k ih =>
    intro tm is hk
    cases is with
    | nil => unfold getTime; rfl
    | cons i is =>
      simp only [List.length_cons, Nat.succ_le_succ_iff] at hk
      cases i with
      | conv c =>
        obtain ⟨a, r, hp, -⟩ := putConv_cons tm0 h c
        have hg := getConv_putConv tm tm0 h c (putTime tm0 is)
        have he : putTime tm0 (.conv c :: is) = a :: (r ++ putTime tm0 is) := by
          simp only [putTime, hp, List.cons_append]
        have he' : putConv tm0 c ++ putTime tm0 is = a :: (r ++ putTime tm0 is) := by
          simp only [hp, List.cons_append]
        rw [he'] at hg
        rw [he]
        unfold getTime
        simp only [hg, upd]
        cases hr : putTime tm0 is with
        | nil => rw [put_nil tm0 h hr]; rfl
        | cons x xs => simp only; rw [← hr]; exact ih _ is hk
      | lit c =>
        simp only [putTime, upd]
        unfold getTime
        simp only
        by_cases hc : isSpace c = true
        · rw [if_pos hc, List.dropWhile_cons_of_pos hc, put_dropWhile tm0 h,
            ih _ _ (Nat.le_trans (List.dropWhile_sublist _).length_le hk), upd_dropWhile]
        · rw [if_neg hc, if_pos trivial, ih _ is hk]

/-- The same when the extraction has skipped the leading white space. -/
theorem get_put_skip (tm0 : Tm) (h : tm0.Good) (tm : Tm) (is : List Item)
    (hne : (putTime tm0 is).dropWhile isSpace ≠ []) :
    getTime tm is ((putTime tm0 is).dropWhile isSpace) = some (upd tm tm0 is) := by
  cases is with
  | nil => exact absurd rfl hne
  | cons i is =>
    cases i with
    | conv c =>
      rw [put_dropWhile tm0 h, List.dropWhile_cons_of_neg (by simp [Item.isSpace])]
      exact get_put tm0 h _ tm _ (Nat.le_refl _)
    | lit c =>
      by_cases hc : isSpace c = true
      · have e : (putTime tm0 (.lit c :: is)).dropWhile isSpace = (putTime tm0 is).dropWhile isSpace := by
          simp only [putTime]; rw [List.dropWhile_cons_of_pos hc]
        rw [e] at hne ⊢
        obtain ⟨a, r, hr⟩ := List.exists_cons_of_ne_nil hne
        rw [hr]
        unfold getTime
        rw [if_pos hc, ← hr, dropWhile_idem, put_dropWhile tm0 h,
          get_put tm0 h _ tm _ (Nat.le_refl _), upd_dropWhile]
        rfl
      · rw [put_dropWhile tm0 h, List.dropWhile_cons_of_neg (by exact hc)]
        exact get_put tm0 h _ tm _ (Nat.le_refl _)

/-! ### Timestamps -/

theorem tmFor_good (d : Date) (t : Time) (hd : d.Valid) (ht : t.Valid)
    (hy : 1000 ≤ d.year ∧ d.year < 10000) : (tmFor d t).Good := by
  obtain ⟨d1, d2, d3, d4⟩ := hd
  obtain ⟨t1, t2, t3⟩ := ht
  have := monthLength_pos d.year d.month
  unfold Tm.Good tmFor
  simp only
  omega

/-- Seconds that fit in a timestamp: the years 1677 to 2262. -/
theorem year_range (t : Int) (h : -9223372036 ≤ t ∧ t ≤ 9223372036) :
    1677 ≤ (dateOf (t / 86400)).year ∧ (dateOf (t / 86400)).year ≤ 2262 := by
  have e : (dateOf (t / 86400)).year = yearOf (t / 86400) := rfl
  rw [e]
  obtain ⟨h1, h2⟩ := yearOf_spec (t / 86400)
  generalize yearOf (t / 86400) = y at *
  have e1 : yearStart 1677 ≤ -107000 := by decide
  have e2 : 107000 ≤ yearStart 2263 := by decide
  constructor
  · by_cases hc : y + 1 ≤ 1677
    · have := yearStart_mono hc; omega
    · omega
  · by_cases hc : 2263 ≤ y
    · have := yearStart_mono hc; omega
    · omega

/-- The time of day of a second. -/
def timeOf (t : Int) : Time :=
  ⟨(t % 86400 / 3600).toNat, (t % 86400 % 3600 / 60).toNat, (t % 86400 % 60).toNat⟩

theorem timeOf_valid (t : Int) : (timeOf t).Valid := by
  unfold timeOf Time.Valid; simp only; omega

theorem timeOf_seconds (t : Int) : t / 86400 * 86400 + (timeOf t).seconds = t := by
  unfold timeOf Time.seconds; simp only; omega

theorem gmtime_range (t : Int) (h : -9223372036 ≤ t ∧ t ≤ 9223372036) :
    gmtime t = some (tmFor (dateOf (t / 86400)) (timeOf t)) ∧
      (tmFor (dateOf (t / 86400)) (timeOf t)).Good := by
  have hy := year_range t h
  refine ⟨?_, tmFor_good _ _ (dateOf_valid _) (timeOf_valid _) (by omega)⟩
  rw [gmtime_some, tmOf_eq]
  · rfl
  · rw [tmOf_eq]; simp only [tmFor]; unfold int32; omega

theorem timegm_range (t : Int) (h : -9223372036 ≤ t ∧ t ≤ 9223372036) :
    timegm (tmFor (dateOf (t / 86400)) (timeOf t)) = t := by
  have hs : secondsOf (tmFor (dateOf (t / 86400)) (timeOf t)) = t := by
    rw [secondsOf_tmFor _ _ (dateOf_valid _), dayOf_dateOf, timeOf_seconds]
  rw [timegm_eq, hs]
  rw [hs]
  have := year_range t h
  rw [tmOf_eq]; simp only [tmFor]; unfold int32; omega

theorem toTimeT_range {ns : Int} (h : int64 ns) : -9223372036 ≤ toTimeT ns ∧ toTimeT ns ≤ 9223372036 := by
  unfold int64 at h
  unfold toTimeT
  by_cases h0 : 0 ≤ ns
  · rw [Int.tdiv_eq_ediv_of_nonneg h0]; omega
  · rw [show ns = -(-ns) by omega, Int.neg_tdiv, Int.tdiv_eq_ediv_of_nonneg (by omega)]; omega

theorem putTime_default (d : Date) (t : Time) (hd : d.Valid) (ht : t.Valid)
    (hy : 1000 ≤ d.year ∧ d.year < 10000) :
    IsText (putTime (tmFor d t) defaultFormat) d.year.toNat d.month d.day t.hour t.minute t.second := by
  have hm := monthLength_pos d.year d.month
  obtain ⟨d1, d2, d3, d4⟩ := hd
  obtain ⟨t1, t2, t3⟩ := ht
  refine ⟨putConv (tmFor d t) .Y, putConv (tmFor d t) .m, putConv (tmFor d t) .d,
    putConv (tmFor d t) .H, putConv (tmFor d t) .M, putConv (tmFor d t) .S, ?_, ?_, ?_, ?_, ?_, ?_, ?_⟩
  · have := field_four' d.year hy.1 hy.2
    simpa only [putConv, tmFor, Int.sub_add_cancel] using this
  · have := field_two d.month (by omega)
    simpa only [putConv, tmFor, Int.sub_add_cancel] using this
  · exact field_two d.day (by omega)
  · exact field_two t.hour (by omega)
  · exact field_two t.minute (by omega)
  · exact field_two t.second (by omega)
  · simp only [putTime, defaultFormat, List.append_nil]

theorem tdiv_mul_nine (t : Int) : toTimeT (t * 10^9) = t := by
  unfold toTimeT; exact Int.mul_tdiv_cancel t (by decide)

/-- C77.  Printing the timestamp of a date gives the date back. -/
theorem C77_print (year month day hour minute second : Nat) (hy : year < 2^32)
    (hd : Date.Valid ⟨year, month, day⟩) (ht : Time.Valid ⟨hour, minute, second⟩) (ns : Int)
    (h : dateToTimestamp year month day hour minute second = .ok ns) :
    ∃ text, timestampToString ns defaultFormat = .ok text ∧
      IsText text year month day hour minute second := by
  have hD := C77_date year month day hour minute second hy hd ht _ ((dayNo_iff _ hd _).2 rfl)
  by_cases hi : int64 (nanoseconds (dayOf ⟨year, month, day⟩) ⟨hour, minute, second⟩)
  · have e := hD.1 hi
    rw [h] at e
    injection e with e
    have hr := toTimeT_range hi
    have hg := gmtime_range _ hr
    have hyr := year_range _ hr
    have hT : toTimeT (nanoseconds (dayOf ⟨year, month, day⟩) ⟨hour, minute, second⟩)
        = dayOf ⟨year, month, day⟩ * 86400 + (⟨hour, minute, second⟩ : Time).seconds := tdiv_mul_nine _
    have hS : (⟨hour, minute, second⟩ : Time).seconds < 86400 := by
      obtain ⟨t1, t2, t3⟩ := ht
      simp only at t1 t2 t3
      unfold Time.seconds; simp only; omega
    have hq : (dayOf ⟨year, month, day⟩ * 86400 + ((⟨hour, minute, second⟩ : Time).seconds : Int)) / 86400
        = dayOf ⟨year, month, day⟩ := by omega
    have hy2 := hyr
    rw [hT, hq, dateOf_dayOf _ hd] at hy2
    simp only at hy2
    have hg2 : gmtime (toTimeT ns) = some (tmFor ⟨year, month, day⟩ ⟨hour, minute, second⟩) := by
      rw [e, hg.1]
      have h1 := tmOf_eq (toTimeT (nanoseconds (dayOf ⟨year, month, day⟩) ⟨hour, minute, second⟩))
      have h2 := tmOf_seconds ⟨year, month, day⟩ ⟨hour, minute, second⟩ hd ht
      rw [← hT] at h2
      rw [h1] at h2
      rw [← h2]; rfl
    refine ⟨putTime (tmFor ⟨year, month, day⟩ ⟨hour, minute, second⟩) defaultFormat, ?_, ?_⟩
    · unfold timestampToString
      simp only [normalize, hg2]
    · have := putTime_default ⟨year, month, day⟩ ⟨hour, minute, second⟩ hd ht (by simp only; omega)
      simpa using this
  · rw [hD.2 hi] at h; cases h

theorem text_unique {s s' : Str} {Y M D h m sec : Nat} (a : IsText s Y M D h m sec)
    (b : IsText s' Y M D h m sec) : s = s' := by
  obtain ⟨_, _, _, _, _, _, a1, a2, a3, a4, a5, a6, rfl⟩ := a
  obtain ⟨_, _, _, _, _, _, b1, b2, b3, b4, b5, b6, rfl⟩ := b
  rw [field_unique a1 b1, field_unique a2 b2, field_unique a3 b3, field_unique a4 b4,
    field_unique a5 b5, field_unique a6 b6]

/-- The text is that of the date. -/
example : timestampToString 1709209815000000000 defaultFormat = .ok c!"2024-02-29_12-30-15" := by
  obtain ⟨text, h, ht⟩ := C77_print 2024 2 29 12 30 15 (by decide) (by decide) (by decide)
    1709209815000000000 (by decide)
  rw [h, text_unique ht text_2024]

/-! ### Reading a text back -/

theorem upd_fields (tm tm0 : Tm) (is : List Item) :
    upd tm tm0 is =
      { year := if .conv .Y ∈ is then tm0.year else tm.year
        mon := if .conv .m ∈ is then tm0.mon else tm.mon
        mday := if .conv .d ∈ is then tm0.mday else tm.mday
        hour := if .conv .H ∈ is then tm0.hour else tm.hour
        min := if .conv .M ∈ is then tm0.min else tm.min
        sec := if .conv .S ∈ is then tm0.sec else tm.sec } := by
  induction is generalizing tm with
  | nil => simp [upd]
  | cons i is ih =>
    cases i with
    | lit c => simp [upd, ih]
    | conv c => cases c <;> simp [upd, ih, Tm.set]

/-- A format that shows the whole date. -/
def Complete (fmt : List Item) : Prop :=
  ∀ c : Conv, c ≠ .percent → Item.conv c ∈ fmt

theorem upd_complete (tm tm0 : Tm) (fmt : List Item) (h : Complete fmt) : upd tm tm0 fmt = tm0 := by
  rw [upd_fields, if_pos (h _ (by decide)), if_pos (h _ (by decide)), if_pos (h _ (by decide)),
    if_pos (h _ (by decide)), if_pos (h _ (by decide)), if_pos (h _ (by decide))]

theorem text_ne_nil (tm : Tm) (h : tm.Good) {fmt : List Item} {c : Conv} (hc : .conv c ∈ fmt) :
    (putTime tm fmt).dropWhile isSpace ≠ [] := by
  rw [put_dropWhile tm h]
  intro e
  have hn := put_nil tm h e
  have : ∀ {is : List Item}, .conv c ∈ is → is.dropWhile Item.isSpace ≠ [] := by
    intro is
    induction is with
    | nil => simp
    | cons i is ih =>
      intro hm
      by_cases hi : i.isSpace = true
      · rw [List.dropWhile_cons_of_pos hi]
        apply ih
        cases hm with
        | head => simp [Item.isSpace] at hi
        | tail _ hm => exact hm
      · rw [List.dropWhile_cons_of_neg hi]; simp
  exact this hc hn

/-- `string_to_timestamp` when the extraction succeeds. -/
theorem string_of_get {text : Str} {fmt : List Item} {tm : Tm}
    (hne : text.dropWhile isSpace ≠ []) (h : getTime .zero fmt (text.dropWhile isSpace) = some tm) :
    stringToTimestamp text fmt
      = if timegm tm = -1 then .throw .valueNotAllowed else fromTimeT (timegm tm) := by
  unfold stringToTimestamp
  obtain ⟨a, r, hr⟩ := List.exists_cons_of_ne_nil hne
  rw [hr] at h ⊢
  simp only [h]

theorem string_of_fail {text : Str} {fmt : List Item}
    (h : getTime .zero fmt (text.dropWhile isSpace) = none) :
    stringToTimestamp text fmt = .throw .preconditionNotMet := by
  unfold stringToTimestamp
  cases hr : text.dropWhile isSpace with
  | nil => rfl
  | cons a r => rw [hr] at h; simp only [h]

/-- C77 for the timestamps outside the last second but one before 1970 (missing: those, which
`string_to_timestamp` refuses, see `C77_negation_text`).  In every format that shows the whole
date, the text of a timestamp is read back as the timestamp without its fraction of a second. -/
theorem C77_text_partial (ns : Int) (h : int64 ns) (hm : ¬ (-2000000000 < ns ∧ ns ≤ -1000000000))
    (fmt : List Item) (hf : Complete fmt) :
    ∃ text, timestampToString ns fmt = .ok text ∧
      stringToTimestamp text fmt = .ok (ns.tdiv 1000000000 * 1000000000) := by
  have hr := toTimeT_range h
  obtain ⟨hg, hgood⟩ := gmtime_range _ hr
  have ht := timegm_range _ hr
  refine ⟨putTime (tmFor (dateOf (toTimeT ns / 86400)) (timeOf (toTimeT ns))) fmt, ?_, ?_⟩
  · unfold timestampToString; simp only [normalize, hg]
  · have hne := text_ne_nil _ hgood (hf .Y (by decide))
    rw [string_of_get hne (get_put_skip _ hgood _ fmt hne), upd_complete _ _ fmt hf, ht]
    have hn1 : toTimeT ns ≠ -1 := by
      unfold toTimeT
      by_cases h0 : 0 ≤ ns
      · rw [Int.tdiv_eq_ediv_of_nonneg h0]; omega
      · rw [show ns = -(-ns) by omega, Int.neg_tdiv, Int.tdiv_eq_ediv_of_nonneg (by omega)]; omega
    rw [if_neg hn1]
    exact fromTimeT_ok (by unfold int64; omega)

example : Complete defaultFormat := by
  intro c hc; cases c <;> simp_all [defaultFormat]

example : ∃ text, timestampToString 1709209815123456789 defaultFormat = .ok text ∧
    stringToTimestamp text defaultFormat = .ok 1709209815000000000 :=
  C77_text_partial 1709209815123456789 (by decide) (by decide) defaultFormat
    (by intro c hc; cases c <;> simp_all [defaultFormat])

/-! ### Texts in the default format -/

theorem get_conv {tm tm' : Tm} {c : Conv} {is : List Item} {s r : Str} (hs : s ≠ [])
    (h : getConv tm s c = some (tm', r)) :
    getTime tm (.conv c :: is) s = if r = [] then some tm' else getTime tm' is r := by
  obtain ⟨a, s, rfl⟩ := List.exists_cons_of_ne_nil hs
  conv => lhs; unfold getTime
  simp only [h]
  cases r <;> simp

theorem get_conv_fail {tm : Tm} {c : Conv} {is : List Item} {s : Str} (hs : s ≠ [])
    (h : getConv tm s c = none) : getTime tm (.conv c :: is) s = none := by
  obtain ⟨a, s, rfl⟩ := List.exists_cons_of_ne_nil hs
  conv => lhs; unfold getTime
  simp only [h]

theorem get_lit {tm : Tm} {c : Char} {is : List Item} {s : Str} (hc : isSpace c = false) :
    getTime tm (.lit c :: is) (c :: s) = getTime tm is s := by
  conv => lhs; unfold getTime
  simp [hc]

theorem field_ne {s : Str} {w n : Nat} (h : Field s w n) (hw : 0 < w) (rest : Str) : s ++ rest ≠ [] := by
  obtain ⟨c, r, rfl, -⟩ := field_cons h hw; simp

theorem skipOne_field {s : Str} {w n : Nat} (h : Field s w n) (hw : 0 < w) (rest : Str) :
    getConv.skipOne (s ++ rest) = s ++ rest := by
  obtain ⟨c, r, rfl, hs⟩ := field_cons h hw; simp [getConv.skipOne, hs]

theorem dropWhile_field {s : Str} {w n : Nat} (h : Field s w n) (hw : 0 < w) (rest : Str) :
    (s ++ rest).dropWhile isSpace = s ++ rest := by
  obtain ⟨c, r, rfl, hs⟩ := field_cons h hw
  rw [List.cons_append, List.dropWhile_cons_of_neg (by simp [hs])]

theorem year_le {s : Str} {Y : Nat} (h : Field s 4 Y) : Y ≤ 9999 := by
  obtain ⟨h1, h2, h3⟩ := h
  have := decValue_lt s h1
  rw [h2, h3] at this
  omega

/-- The whole default format over six fields, some of them out of range. -/
theorem get_default {Y M D h m s : Nat} {text : Str} (ht : IsText text Y M D h m s) (rest : Str) :
    getTime .zero defaultFormat ((text ++ rest).dropWhile isSpace) =
      if 1 ≤ M ∧ M ≤ 12 ∧ 1 ≤ D ∧ D ≤ 31 ∧ h ≤ 23 ∧ m ≤ 59 ∧ s ≤ 60
      then some { year := (Y : Int) - 1900, mon := (M : Int) - 1, mday := D, hour := h, min := m, sec := s }
      else none := by
  obtain ⟨sY, sM, sD, sh, sm, ss, fY, fM, fD, fh, fm, fs, rfl⟩ := ht
  have hY : Y ≤ 9999 := year_le fY
  have assoc : (sY ++ '-' :: (sM ++ '-' :: (sD ++ '_' :: (sh ++ '-' :: (sm ++ '-' :: ss))))) ++ rest
      = sY ++ '-' :: (sM ++ '-' :: (sD ++ '_' :: (sh ++ '-' :: (sm ++ '-' :: (ss ++ rest))))) := by
    simp only [List.append_assoc, List.cons_append]
  rw [assoc, dropWhile_field fY (by omega)]
  unfold defaultFormat
  have gY (tm : Tm) (r : Str) : getConv tm (sY ++ r) .Y
      = some ({ tm with year := (Y : Int) - 1900 }, r) := by
    simp only [getConv, extractNum_field fY (by omega) 0 9999 (by omega) hY r, Option.map_some]
  rw [get_conv (field_ne fY (by omega) _) (gY _ _), if_neg (by simp), get_lit (by decide)]
  by_cases cM : 1 ≤ M ∧ M ≤ 12
  · have gM (tm : Tm) (r : Str) : getConv tm (sM ++ r) .m
        = some ({ tm with mon := (M : Int) - 1 }, r) := by
      simp only [getConv, extractNum_field fM (by omega) 1 12 cM.1 cM.2 r, Option.map_some]
    rw [get_conv (field_ne fM (by omega) _) (gM _ _), if_neg (by simp), get_lit (by decide)]
    by_cases cD : 1 ≤ D ∧ D ≤ 31
    · have gD (tm : Tm) (r : Str) : getConv tm (sD ++ r) .d = some ({ tm with mday := D }, r) := by
        simp only [getConv, skipOne_field fD (by omega),
          extractNum_field fD (by omega) 1 31 cD.1 cD.2 r, Option.map_some]
      rw [get_conv (field_ne fD (by omega) _) (gD _ _), if_neg (by simp), get_lit (by decide)]
      by_cases ch : h ≤ 23
      · have gh (tm : Tm) (r : Str) : getConv tm (sh ++ r) .H
            = some ({ tm with hour := h }, r) := by
          simp only [getConv, extractNum_field fh (by omega) 0 23 (by omega) ch r, Option.map_some]
        rw [get_conv (field_ne fh (by omega) _) (gh _ _), if_neg (by simp), get_lit (by decide)]
        by_cases cm : m ≤ 59
        · have gm (tm : Tm) (r : Str) : getConv tm (sm ++ r) .M
              = some ({ tm with min := m }, r) := by
            simp only [getConv, extractNum_field fm (by omega) 0 59 (by omega) cm r, Option.map_some]
          rw [get_conv (field_ne fm (by omega) _) (gm _ _), if_neg (by simp), get_lit (by decide)]
          by_cases cs : s ≤ 60
          · have gs (tm : Tm) (r : Str) : getConv tm (ss ++ r) .S
                = some ({ tm with sec := s }, r) := by
              simp only [getConv, extractNum_field fs (by omega) 0 60 (by omega) cs r, Option.map_some]
            rw [get_conv (field_ne fs (by omega) _) (gs _ _)]
            have hend : ∀ tm, getTime tm [] rest = some tm := by intro tm; unfold getTime; rfl
            simp only [hend, ite_self]
            rw [if_pos ⟨cM.1, cM.2, cD.1, cD.2, ch, cm, cs⟩]
          · rw [get_conv_fail (field_ne fs (by omega) _), if_neg (by omega)]
            simp only [getConv, extractNum_bad fs 0 60 (by omega) (by omega), Option.map_none]
        · rw [get_conv_fail (field_ne fm (by omega) _), if_neg (by omega)]
          simp only [getConv, extractNum_bad fm 0 59 (by omega) (by omega), Option.map_none]
      · rw [get_conv_fail (field_ne fh (by omega) _), if_neg (by omega)]
        simp only [getConv, extractNum_bad fh 0 23 (by omega) (by omega), Option.map_none]
    · rw [get_conv_fail (field_ne fD (by omega) _), if_neg (by omega)]
      simp only [getConv, skipOne_field fD (by omega), extractNum_bad fD 1 31 (by omega) (by omega),
        Option.map_none]
  · rw [get_conv_fail (field_ne fM (by omega) _), if_neg (by omega)]
    simp only [getConv, extractNum_bad fM 1 12 (by omega) (by omega), Option.map_none]

/-- C97.  What `string_to_timestamp` does with six numbers in the default format, whatever
follows them: it refuses numbers outside the ranges of their fields; otherwise it counts the
day from the first of the month, so that days beyond the end of the month run into the next
one. -/
theorem C97_fields {Y M D h m s : Nat} {text : Str} (ht : IsText text Y M D h m s) (rest : Str) :
    (¬ (1 ≤ M ∧ M ≤ 12 ∧ 1 ≤ D ∧ D ≤ 31 ∧ h ≤ 23 ∧ m ≤ 59 ∧ s ≤ 60) →
      stringToTimestamp (text ++ rest) defaultFormat = .throw .preconditionNotMet) ∧
    (1 ≤ M ∧ M ≤ 12 ∧ 1 ≤ D ∧ D ≤ 31 ∧ h ≤ 23 ∧ m ≤ 59 ∧ s ≤ 60 →
      ∀ n, DayNo ⟨Y, M, 1⟩ n → ∀ t : Int,
        t = (n + ((D : Int) - 1)) * 86400 + h * 3600 + m * 60 + s →
      stringToTimestamp (text ++ rest) defaultFormat =
        if t = -1 then .throw .valueNotAllowed
        else if -9223372036 ≤ t ∧ t ≤ 9223372036 then .ok (t * 1000000000) else .ub) := by
  have hg := get_default ht rest
  constructor
  · intro hb
    rw [if_neg hb] at hg
    exact string_of_fail hg
  · intro hb n hn t et
    rw [if_pos hb] at hg
    have hne : (text ++ rest).dropWhile isSpace ≠ [] := by
      obtain ⟨sY, sM, sD, sh, sm, ss, fY, fM, fD, fh, fm, fs, rfl⟩ := ht
      rw [List.append_assoc, dropWhile_field fY (by omega)]
      exact field_ne fY (by omega) _
    have hv : Date.Valid ⟨Y, M, 1⟩ := by
      have := monthLength_pos Y M
      exact ⟨hb.1, hb.2.1, Nat.le_refl _, by simp only; omega⟩
    have hn := (dayNo_iff _ hv n).1 hn
    have hs := secondsOf_fields Y M ⟨hb.1, hb.2.1⟩ D h m s
    rw [← hn, ← et] at hs
    have hY : Y ≤ 9999 := by
      obtain ⟨sY, _, _, _, _, _, fY, _⟩ := ht
      exact year_le fY
    have hsmall : -6000000000000 ≤ t ∧ t ≤ 6000000000000 := by
      have hb' := dayOf_bounds _ hv
      simp only [← hn] at hb'
      have h1 := yearStart_mono (a := 0) (b := Y) (by omega)
      have h2 := yearStart_mono (a := (Y : Int) + 1) (b := 10000) (by omega)
      have e1 : -1000000 ≤ yearStart 0 := by decide
      have e2 : yearStart 10000 ≤ 3000000 := by decide
      omega
    have htg : timegm (Tm.mk ((Y : Int) - 1900) ((M : Int) - 1) D h m s) = t := by
      rw [timegm_eq, hs]
      rw [hs]
      have := year_small t hsmall
      unfold int32; omega
    rw [string_of_get hne hg, htg]
    by_cases h1 : t = -1
    · rw [if_pos h1, if_pos h1]
    · rw [if_neg h1, if_neg h1]
      by_cases h2 : -9223372036 ≤ t ∧ t ≤ 9223372036
      · rw [if_pos h2]; exact fromTimeT_ok (by unfold int64; omega)
      · rw [if_neg h2]; exact fromTimeT_ub (by unfold int64; omega)

theorem text_of {a b c d e f : Str} {Y M D h m s : Nat} (h1 : Field a 4 Y) (h2 : Field b 2 M)
    (h3 : Field c 2 D) (h4 : Field d 2 h) (h5 : Field e 2 m) (h6 : Field f 2 s) :
    IsText (a ++ '-' :: (b ++ '-' :: (c ++ '_' :: (d ++ '-' :: (e ++ '-' :: f))))) Y M D h m s :=
  ⟨a, b, c, d, e, f, h1, h2, h3, h4, h5, h6, rfl⟩

/-- 60 seconds are accepted and belong to the next minute; 61 are not accepted. -/
example : stringToTimestamp c!"1970-01-01_00-00-60" defaultFormat = .ok 60000000000 :=
  (C97_fields (rest := []) (text_of (a := c!"1970") (b := c!"01") (c := c!"01") (d := c!"00")
    (e := c!"00") (f := c!"60") ⟨by decide, rfl, rfl⟩ ⟨by decide, rfl, rfl⟩ ⟨by decide, rfl, rfl⟩
    ⟨by decide, rfl, rfl⟩ ⟨by decide, rfl, rfl⟩ ⟨by decide, rfl, rfl⟩)).2 (by decide) 0 .epoch 60
    (by decide)

/-- C77, the full statement fails: the text of a date that exists is refused, because its
number of seconds is the error value of `timegm`. -/
theorem C77_negation_text :
    dateToTimestamp 1969 12 31 23 59 59 = .ok (-1000000000) ∧
    timestampToString (-1000000000) defaultFormat = .ok c!"1969-12-31_23-59-59" ∧
    stringToTimestamp c!"1969-12-31_23-59-59" defaultFormat = .throw .valueNotAllowed := by
  have ht : IsText c!"1969-12-31_23-59-59" 1969 12 31 23 59 59 :=
    text_of (a := c!"1969") (b := c!"12") (c := c!"31") (d := c!"23") (e := c!"59") (f := c!"59")
      ⟨by decide, rfl, rfl⟩ ⟨by decide, rfl, rfl⟩ ⟨by decide, rfl, rfl⟩ ⟨by decide, rfl, rfl⟩
      ⟨by decide, rfl, rfl⟩ ⟨by decide, rfl, rfl⟩
  have hd : dateToTimestamp 1969 12 31 23 59 59 = .ok (-1000000000) := by decide
  refine ⟨hd, ?_, ?_⟩
  · obtain ⟨text, h, hx⟩ := C77_print 1969 12 31 23 59 59 (by decide) (by decide) (by decide) _ hd
    rw [h, text_unique hx ht]
  · exact (C97_fields ht []).2 (by decide) (-31) ((dayNo_iff _ (by decide) _).2 (by decide)) (-1)
      (by decide)

/-- C77.  The text of every date that exists and fits in a timestamp, except the second before
1970, is read as the timestamp of that date. -/
theorem C77_parse_partial {Y M D h m s : Nat} {text : Str} (ht : IsText text Y M D h m s)
    (hd : Date.Valid ⟨Y, M, D⟩) (hv : Time.Valid ⟨h, m, s⟩) (ns : Int)
    (hns : dateToTimestamp Y M D h m s = .ok ns) (hne : ns ≠ -1000000000) :
    stringToTimestamp text defaultFormat = .ok ns := by
  have hY : Y ≤ 9999 := by
    obtain ⟨sY, _, _, _, _, _, fY, _⟩ := ht
    exact year_le fY
  have hm := monthLength_pos Y M
  obtain ⟨d1, d2, d3, d4⟩ := id hd
  obtain ⟨t1, t2, t3⟩ := id hv
  simp only at d1 d2 d3 d4 t1 t2 t3
  have hD := C77_date Y M D h m s (by omega) hd hv _ ((dayNo_iff _ hd _).2 rfl)
  have hi : int64 (nanoseconds (dayOf ⟨Y, M, D⟩) ⟨h, m, s⟩) := by
    apply Classical.byContradiction
    intro hc
    rw [hD.2 hc] at hns; cases hns
  have e := hD.1 hi
  rw [hns] at e
  injection e with e
  have hv1 : Date.Valid ⟨Y, M, 1⟩ := ⟨d1, d2, Nat.le_refl _, by simp only; omega⟩
  have h2 := (C97_fields ht []).2 ⟨d1, d2, d3, by omega, by omega, by omega, by omega⟩ _
    ((dayNo_iff _ hv1 _).2 rfl) _ rfl
  rw [List.append_nil] at h2
  have e2 : (dayOf ⟨Y, M, 1⟩ + ((D : Int) - 1)) * 86400 + h * 3600 + m * 60 + s
      = dayOf ⟨Y, M, D⟩ * 86400 + (⟨h, m, s⟩ : Time).seconds := by
    unfold dayOf Time.seconds; simp only; omega
  have e3 : ns = (dayOf ⟨Y, M, D⟩ * 86400 + (⟨h, m, s⟩ : Time).seconds) * 1000000000 := e
  rw [h2, e2, if_neg (by omega), if_pos, e3]
  rw [← e] at hi
  unfold int64 at hi
  omega

example : stringToTimestamp c!"2024-02-29_12-30-15" defaultFormat = .ok 1709209815000000000 :=
  C77_parse_partial text_2024 (by decide) (by decide) _ (by decide) (by decide)

/-! ### C97: texts that are not dates -/

/-- C97, the full statement fails: a day that does not exist is read as another day. -/
theorem C97_negation_day :
    ¬ Date.Valid ⟨2023, 2, 31⟩ ∧
    stringToTimestamp c!"2023-02-31_00-00-00" defaultFormat = dateToTimestamp 2023 3 3 0 0 0 := by
  refine ⟨by decide, ?_⟩
  have := (C97_fields (rest := []) (text_of (a := c!"2023") (b := c!"02") (c := c!"31") (d := c!"00")
    (e := c!"00") (f := c!"00") ⟨by decide, rfl, rfl⟩ ⟨by decide, rfl, rfl⟩ ⟨by decide, rfl, rfl⟩
    ⟨by decide, rfl, rfl⟩ ⟨by decide, rfl, rfl⟩ ⟨by decide, rfl, rfl⟩)).2 (by decide) 19389
    ((dayNo_iff _ (by decide) _).2 (by decide)) 1677801600 (by decide)
  exact this.trans (by decide)

/-- C97, the full statement fails: a year alone is read as the last day of the year before. -/
theorem C97_negation_short :
    stringToTimestamp c!"2023" defaultFormat = dateToTimestamp 2022 12 31 0 0 0 := by
  have hf : Field c!"2023" 4 2023 := ⟨by decide, rfl, rfl⟩
  have he := extractNum_field hf (by omega) 0 9999 (by omega) (by omega) []
  have hg : getTime .zero defaultFormat (List.dropWhile isSpace c!"2023")
      = some { Tm.zero with year := 123 } := by
    have : getConv .zero c!"2023" .Y = some ({ Tm.zero with year := 123 }, []) := by
      rw [List.append_nil] at he
      simp only [getConv, he, Option.map_some]
      rfl
    exact (get_conv (by decide) this).trans (if_pos rfl)
  rw [string_of_get (by decide) hg]
  decide

/-- C97, the full statement fails: what follows the date is ignored. -/
theorem C97_negation_trailing (rest : Str) :
    stringToTimestamp (c!"2024-02-29_12-30-15" ++ rest) defaultFormat = .ok 1709209815000000000 :=
  (C97_fields text_2024 rest).2 (by decide) 19754 ((dayNo_iff _ (by decide) _).2 (by decide))
    1709209815 (by decide)

/-- C97 for six numbers of the right width (missing: shorter texts, days 29 to 31 of shorter
months, text after the date): if one of them is outside the range of its field the text is
refused. -/
theorem C97_rejects_partial {Y M D h m s : Nat} {text : Str} (ht : IsText text Y M D h m s)
    (hb : M = 0 ∨ 12 < M ∨ D = 0 ∨ 31 < D ∨ 24 ≤ h ∨ 60 ≤ m ∨ 61 ≤ s) (rest : Str) :
    stringToTimestamp (text ++ rest) defaultFormat = .throw .preconditionNotMet :=
  (C97_fields ht rest).1 (by omega)

example : stringToTimestamp c!"2024-13-29_12-30-15" defaultFormat = .throw .preconditionNotMet :=
  C97_rejects_partial (rest := []) (text_of (a := c!"2024") (b := c!"13") (c := c!"29") (d := c!"12")
    (e := c!"30") (f := c!"15") ⟨by decide, rfl, rfl⟩ ⟨by decide, rfl, rfl⟩ ⟨by decide, rfl, rfl⟩
    ⟨by decide, rfl, rfl⟩ ⟨by decide, rfl, rfl⟩ ⟨by decide, rfl, rfl⟩) (by decide)

/-! ### C98: `time_to_timestamp` -/

/-- C98.  With a clock between 1970 and the day before the last that fits, the result is the
given time on the day the clock shows. -/
theorem C98_today (now : Int) (h0 : 0 ≤ now) (h1 : now < 9223286400 * 1000000000)
    (hour minute second : Nat) (ht : Time.Valid ⟨hour, minute, second⟩) :
    ∃ day : Int, day * (86400 * 1000000000) ≤ now ∧ now < (day + 1) * (86400 * 1000000000) ∧
      timeToTimestamp now hour minute second
        = .ok ((day * 86400 + hour * 3600 + minute * 60 + second) * 1000000000) := by
  have hT : toTimeT now = now / 1000000000 := Int.tdiv_eq_ediv_of_nonneg h0
  have hr : -9223372036 ≤ toTimeT now ∧ toTimeT now ≤ 9223372036 := by rw [hT]; omega
  obtain ⟨hg, -⟩ := gmtime_range _ hr
  have hq : 0 ≤ toTimeT now / 86400 ∧ toTimeT now / 86400 ≤ 106750 := by rw [hT]; omega
  obtain ⟨t1, t2, t3⟩ := id ht
  simp only at t1 t2 t3
  refine ⟨toTimeT now / 86400, by rw [hT]; omega, by rw [hT]; omega, ?_⟩
  unfold timeToTimestamp
  simp only [normalize, hg]
  have hS : ((⟨hour, minute, second⟩ : Time).seconds : Int) = hour * 3600 + minute * 60 + second := by
    unfold Time.seconds; simp only; omega
  have e : { tmFor (dateOf (toTimeT now / 86400)) (timeOf (toTimeT now)) with
      sec := toInt second, min := toInt minute, hour := toInt hour }
      = tmFor (dateOf (toTimeT now / 86400)) ⟨hour, minute, second⟩ := by
    rw [toInt_small (n := second) (by omega), toInt_small (n := minute) (by omega),
      toInt_small (n := hour) (by omega)]
    rfl
  rw [e]
  have hs := secondsOf_tmFor (dateOf (toTimeT now / 86400)) ⟨hour, minute, second⟩ (dateOf_valid _)
  rw [dayOf_dateOf] at hs
  have hyr := year_small (toTimeT now / 86400 * 86400 + (⟨hour, minute, second⟩ : Time).seconds)
    (by omega)
  rw [timegm_eq _ (by rw [hs]; unfold int32; omega), hs, fromTimeT_ok (by unfold int64; omega), hS]
  congr 1
  omega

example : timeToTimestamp 1709209815123456789 23 59 59 = .ok 1709251199000000000 := by decide

/-! ### C99: `normalize` -/

/-- The seconds a platform accepts. -/
def Accepts : Platform → Int → Prop
  | .linux, _ => True
  | .win64, t => 0 ≤ t ∧ t ≤ 32535215999
  | .win32, t => 0 ≤ t ∧ t ≤ 2147483647

/-- C99.  The result is accepted by the platform, and no accepted value is nearer to the
argument. -/
theorem C99_nearest (p : Platform) (t : Int) :
    Accepts p (normalize p t) ∧ ∀ u, Accepts p u → (normalize p t - t).natAbs ≤ (u - t).natAbs := by
  cases p
  · exact ⟨trivial, fun u _ => by simp [normalize]⟩
  all_goals
    simp only [Accepts, normalize, normalize.clamp]
    split
    · refine ⟨by omega, fun u hu => by omega⟩
    · refine ⟨by omega, fun u hu => by omega⟩

/-- C99.  Accepted values are left alone; normalizing twice changes nothing. -/
theorem C99_idempotent (p : Platform) (t : Int) :
    (Accepts p t → normalize p t = t) ∧ normalize p (normalize p t) = normalize p t := by
  have key : ∀ t, Accepts p t → normalize p t = t := by
    intro t h
    have := (C99_nearest p t).2 t h
    omega
  exact ⟨key t, key _ (C99_nearest p t).1⟩

example : normalize .win64 (-5) = 0 ∧ normalize .win32 3000000000 = 2147483647 ∧
    normalize .linux (-5) = -5 := by decide

/-! ### C100: the second shown -/

/-- C100, the full statement fails: half a second before 1970 is shown as 1970. -/
theorem C100_negation :
    timestampToString (-500000000) defaultFormat = timestampToString 0 defaultFormat := rfl

/-- C100 from 1970 on (missing: earlier timestamps with a fraction of a second, which are
shown as the next second).  The date shown is that of the second in which the timestamp
lies. -/
theorem C100_second_partial (ns : Int) (h0 : 0 ≤ ns) (h : int64 ns) :
    ∃ (d : Date) (t : Time) (n : Int) (text : Str), d.Valid ∧ t.Valid ∧ DayNo d n ∧
      (n * 86400 + t.hour * 3600 + t.minute * 60 + t.second) * 1000000000 ≤ ns ∧
      ns < (n * 86400 + t.hour * 3600 + t.minute * 60 + t.second + 1) * 1000000000 ∧
      timestampToString ns defaultFormat = .ok text ∧
      IsText text d.year.toNat d.month d.day t.hour t.minute t.second := by
  have hT : toTimeT ns = ns / 1000000000 := Int.tdiv_eq_ediv_of_nonneg h0
  have hr := toTimeT_range h
  obtain ⟨hg, -⟩ := gmtime_range _ hr
  have hy := year_range _ hr
  have hs := timeOf_seconds (toTimeT ns)
  have hS : ((timeOf (toTimeT ns)).seconds : Int) = (timeOf (toTimeT ns)).hour * 3600
      + (timeOf (toTimeT ns)).minute * 60 + (timeOf (toTimeT ns)).second := by
    unfold Time.seconds; omega
  refine ⟨dateOf (toTimeT ns / 86400), timeOf (toTimeT ns), toTimeT ns / 86400,
    putTime (tmFor (dateOf (toTimeT ns / 86400)) (timeOf (toTimeT ns))) defaultFormat,
    dateOf_valid _, timeOf_valid _, dayNo_dateOf _, by omega, by omega, ?_,
    putTime_default _ _ (dateOf_valid _) (timeOf_valid _) (by omega)⟩
  unfold timestampToString
  simp only [normalize, hg]

example : int64 1709209815999999999 := by decide

end Verif.TimeUtils
