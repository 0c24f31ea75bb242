import Verif.Model.TimeUtils
import Verif.Spec.Calendar
/-!
Calendar arithmetic for C77.
-/
namespace Verif.TimeUtils
open Verif.Spec.Calendar

theorem isLeap_iff (y : Int) : isLeap y = true ↔ Leap y := by
  simp only [isLeap, Leap, Bool.and_eq_true, Bool.or_eq_true, beq_iff_eq, bne_iff_ne, ne_eq]
  omega

theorem yearStart_succ (y : Int) :
    yearStart (y + 1) = yearStart y + 365 + if isLeap y then 1 else 0 := by
  have h := isLeap_iff y
  unfold Leap at h
  have e : yearStart (y + 1) = 365 * (y + 1 - 1970) + y / 4 - y / 100 + y / 400 - 477 := by
    unfold yearStart; rw [Int.add_sub_cancel]
  rw [e]
  unfold yearStart
  have a4 : y / 4 = (y - 1) / 4 + if (4 : Int) ∣ y then 1 else 0 := by split <;> omega
  have a100 : y / 100 = (y - 1) / 100 + if (100 : Int) ∣ y then 1 else 0 := by split <;> omega
  have a400 : y / 400 = (y - 1) / 400 + if (400 : Int) ∣ y then 1 else 0 := by split <;> omega
  rw [a4, a100, a400]
  generalize (y - 1) / 4 = p, (y - 1) / 100 = q, (y - 1) / 400 = r
  have d1 : (400 : Int) ∣ y → (100 : Int) ∣ y := fun _ => by omega
  have d2 : (100 : Int) ∣ y → (4 : Int) ∣ y := fun _ => by omega
  clear a4 a100 a400 e
  by_cases hA : (4 : Int) ∣ y <;> by_cases hB : (100 : Int) ∣ y <;>
    by_cases hC : (400 : Int) ∣ y <;> by_cases hl : isLeap y = true <;>
    simp only [hA, hB, hC, hl, if_true, if_false, true_and, false_and, not_true, not_false_iff,
      or_true, true_or, or_false, false_or, iff_true, iff_false, true_iff, false_iff, and_true,
      and_false, Bool.false_eq_true, forall_const, imp_false, reduceCtorEq] at * <;> omega

theorem yearStart_mono {a b : Int} (h : a ≤ b) : yearStart a + 365 * (b - a) ≤ yearStart b := by
  unfold yearStart; omega

theorem yearOf_spec (n : Int) : yearStart (yearOf n) ≤ n ∧ n < yearStart (yearOf n + 1) := by
  unfold yearOf
  simp only
  split
  · rename_i h
    refine ⟨?_, by simpa using h⟩
    unfold yearStart at *; omega
  · rename_i h
    split
    · rename_i h2
      refine ⟨h2, ?_⟩
      unfold yearStart at *; omega
    · rename_i h2
      exact ⟨Int.not_lt.1 h, Int.not_le.1 h2⟩

theorem yearOf_unique {n y : Int} (h1 : yearStart y ≤ n) (h2 : n < yearStart (y + 1)) :
    yearOf n = y := by
  obtain ⟨h3, h4⟩ := yearOf_spec n
  by_cases a : yearOf n < y
  · have := yearStart_mono (a := yearOf n + 1) (b := y) (by omega); omega
  · by_cases b : y < yearOf n
    · have := yearStart_mono (a := y + 1) (b := yearOf n) (by omega); omega
    · omega

theorem monthStartIn_zero (y : Int) : monthStartIn y 0 = 0 := by simp [monthStartIn, monthStart]

theorem monthStartIn_succ (y : Int) (m : Nat) (h : m < 11) :
    monthStartIn y (m + 1) = monthStartIn y m + monthLength y (m + 1) := by
  have hl := isLeap_iff y
  by_cases hy : isLeap y = true
  · have := hl.1 hy
    unfold monthStartIn monthLength
    simp only [hy, this, if_true]
    revert m; decide
  · have : ¬ Leap y := fun x => hy (hl.2 x)
    unfold monthStartIn monthLength
    simp only [hy, this, if_false]
    revert m; decide

theorem monthStartIn_year (y : Int) :
    (monthStartIn y 11 : Int) + 31 = 365 + if isLeap y then 1 else 0 := by
  unfold monthStartIn
  by_cases hy : isLeap y = true <;> simp [hy, monthStart]

theorem monthLength_pos (y : Int) (m : Nat) : 28 ≤ monthLength y m ∧ monthLength y m ≤ 31 := by
  unfold monthLength; repeat' split
  all_goals omega

theorem monthStartIn_lt (y : Int) {a b : Nat} (h : a < b) (hb : b < 12) :
    monthStartIn y a + monthLength y (a + 1) ≤ monthStartIn y b := by
  induction b with
  | zero => omega
  | succ b ih =>
    rw [monthStartIn_succ y b (by omega)]
    by_cases hab : a = b
    · subst hab; exact Nat.le_refl _
    · have := ih (by omega) (by omega); omega

theorem monthOf_spec (y yday : Int) (h0 : 0 ≤ yday) (k : Nat) :
    monthOf y yday k ≤ k ∧ (monthStartIn y (monthOf y yday k) : Int) ≤ yday ∧
      (monthOf y yday k = k ∨ yday < monthStartIn y (monthOf y yday k + 1)) := by
  induction k with
  | zero => simp [monthOf, monthStartIn_zero, h0]
  | succ k ih =>
    unfold monthOf
    split
    · rename_i h; exact ⟨Nat.le_refl _, h, .inl rfl⟩
    · rename_i h
      obtain ⟨h1, h2, h3⟩ := ih
      refine ⟨by omega, h2, .inr ?_⟩
      rcases h3 with h3 | h3
      · rw [h3]; omega
      · exact h3

theorem monthOf_unique (y yday : Int) (m : Nat) (hm : m < 12)
    (h1 : (monthStartIn y m : Int) ≤ yday) (h2 : yday < monthStartIn y m + monthLength y (m + 1)) :
    monthOf y yday 11 = m := by
  obtain ⟨a, b, c⟩ := monthOf_spec y yday (by omega) 11
  generalize monthOf y yday 11 = k at *
  by_cases hk : k < m
  · have := monthStartIn_lt y hk hm
    have := monthStartIn_succ y k (by omega)
    omega
  · by_cases hk2 : m < k
    · have := monthStartIn_lt y hk2 (by omega); omega
    · omega

/-- Day number of a date, in the terms of the model. -/
def dayOf (d : Date) : Int := yearStart d.year + monthStartIn d.year (d.month - 1) + (d.day - 1)

/-- The date of a day, in the terms of the model. -/
def dateOf (n : Int) : Date :=
  let y := yearOf n
  let m := monthOf y (n - yearStart y) 11
  ⟨y, m + 1, (n - yearStart y - monthStartIn y m + 1).toNat⟩

theorem dayOf_bounds (d : Date) (h : d.Valid) :
    yearStart d.year ≤ dayOf d ∧ dayOf d < yearStart (d.year + 1) := by
  obtain ⟨h1, h2, h3, h4⟩ := h
  rw [yearStart_succ]
  have h5 := monthStartIn_year d.year
  unfold dayOf
  by_cases hm : d.month = 12
  · have : monthLength d.year d.month = 31 := by simp [monthLength, hm]
    rw [this] at h4
    simp only [hm, show 12 - 1 = 11 from rfl]
    omega
  · have h6 := monthStartIn_lt d.year (a := d.month - 1) (b := 11) (by omega) (by omega)
    rw [show d.month - 1 + 1 = d.month by omega] at h6
    omega

theorem dateOf_dayOf (d : Date) (h : d.Valid) : dateOf (dayOf d) = d := by
  have hb := dayOf_bounds d h
  have hy := yearOf_unique hb.1 hb.2
  obtain ⟨h1, h2, h3, h4⟩ := h
  have hm : monthOf d.year (dayOf d - yearStart d.year) 11 = d.month - 1 := by
    apply monthOf_unique _ _ _ (by omega)
    · unfold dayOf; omega
    · rw [show d.month - 1 + 1 = d.month by omega]; unfold dayOf; omega
  unfold dateOf
  simp only [hy, hm]
  unfold dayOf
  cases d
  simp only [Date.mk.injEq, true_and] at *
  omega

theorem dateOf_valid (n : Int) : (dateOf n).Valid := by
  obtain ⟨h1, h2⟩ := yearOf_spec n
  rw [yearStart_succ] at h2
  obtain ⟨a, b, c⟩ := monthOf_spec (yearOf n) (n - yearStart (yearOf n)) (by omega) 11
  have h5 := monthStartIn_year (yearOf n)
  unfold dateOf Date.Valid
  simp only
  generalize monthOf (yearOf n) (n - yearStart (yearOf n)) 11 = m at *
  refine ⟨by omega, by omega, by omega, ?_⟩
  rcases c with c | c
  · subst c
    have : monthLength (yearOf n) (11 + 1) = 31 := by simp [monthLength]
    omega
  · by_cases hm : m = 11
    · subst hm
      have : monthLength (yearOf n) (11 + 1) = 31 := by simp [monthLength]
      omega
    · rw [monthStartIn_succ _ _ (by omega)] at c
      omega

theorem dayOf_dateOf (n : Int) : dayOf (dateOf n) = n := by
  obtain ⟨h1, h2⟩ := yearOf_spec n
  obtain ⟨a, b, c⟩ := monthOf_spec (yearOf n) (n - yearStart (yearOf n)) (by omega) 11
  unfold dayOf dateOf
  simp only [Nat.add_one_sub_one]
  omega

theorem next_valid (d : Date) (h : d.Valid) : d.next.Valid := by
  obtain ⟨h1, h2, h3, h4⟩ := h
  unfold Date.next
  split
  · exact ⟨h1, h2, by simp, by simpa using ‹_›⟩
  · split
    · have := monthLength_pos d.year (d.month + 1)
      exact ⟨by simp, by simp only; omega, by simp, by simp only; omega⟩
    · have := monthLength_pos (d.year + 1) 1
      exact ⟨by simp, by simp, by simp, by simp only; omega⟩

theorem dayOf_next (d : Date) (h : d.Valid) : dayOf d.next = dayOf d + 1 := by
  obtain ⟨h1, h2, h3, h4⟩ := h
  unfold Date.next
  split
  · unfold dayOf; simp only; omega
  · split
    · have := monthStartIn_succ d.year (d.month - 1) (by omega)
      rw [show d.month - 1 + 1 = d.month by omega] at this
      unfold dayOf; simp only [Nat.add_one_sub_one]; omega
    · have hm : d.month = 12 := by omega
      have h5 := monthStartIn_year d.year
      have : monthLength d.year d.month = 31 := by simp [monthLength, hm]
      unfold dayOf
      simp only [hm, yearStart_succ, monthStartIn_zero, Nat.sub_self, show 12 - 1 = 11 from rfl]
      omega

theorem dayOf_inj {d d' : Date} (h : d.Valid) (h' : d'.Valid) (e : dayOf d = dayOf d') : d = d' := by
  rw [← dateOf_dayOf d h, ← dateOf_dayOf d' h', e]

theorem dateOf_succ (n : Int) : dateOf (n + 1) = (dateOf n).next := by
  apply dayOf_inj (dateOf_valid _) (next_valid _ (dateOf_valid _))
  rw [dayOf_dateOf, dayOf_next _ (dateOf_valid _), dayOf_dateOf]

theorem dateOf_zero : dateOf 0 = ⟨1970, 1, 1⟩ := by decide

theorem dayNo_dateOf (n : Int) : DayNo (dateOf n) n := by
  have hp : ∀ k : Nat, DayNo (dateOf k) k := by
    intro k
    induction k with
    | zero => have := DayNo.epoch; rwa [← dateOf_zero] at this
    | succ k ih => have := ih.after; rw [← dateOf_succ] at this; exact_mod_cast this
  have hn : ∀ k : Nat, DayNo (dateOf (-(k : Int))) (-(k : Int)) := by
    intro k
    induction k with
    | zero => have := DayNo.epoch; rwa [← dateOf_zero] at this
    | succ k ih =>
      have e : (-(k : Int)) = -((k + 1 : Nat) : Int) + 1 := by omega
      rw [e, dateOf_succ] at ih
      exact .before (dateOf_valid _) ih
  by_cases h : 0 ≤ n
  · have := hp n.toNat; rwa [Int.toNat_of_nonneg h] at this
  · have := hn (-n).toNat; rwa [Int.toNat_of_nonneg (by omega), Int.neg_neg] at this

theorem next_inj {d d' : Date} (h : d.Valid) (h' : d'.Valid) (e : d.next = d'.next) : d = d' := by
  apply dayOf_inj h h'
  have h1 := dayOf_next d h
  have h2 := dayOf_next d' h'
  rw [e] at h1; omega

theorem dayNo_iff (d : Date) (h : d.Valid) (n : Int) : DayNo d n ↔ n = dayOf d := by
  constructor
  · intro hd
    have : ∀ {d n}, DayNo d n → d.Valid ∧ n = dayOf d := by
      intro d n hd
      induction hd with
      | epoch => exact ⟨by decide, by decide⟩
      | after _ ih => exact ⟨next_valid _ ih.1, by rw [dayOf_next _ ih.1, ih.2]⟩
      | before hv _ ih =>
        have := ih.2
        rw [dayOf_next _ hv] at this
        exact ⟨hv, by omega⟩
    exact (this hd).2
  · rintro rfl
    have := dayNo_dateOf (dayOf d)
    rwa [dateOf_dayOf d h] at this

end Verif.TimeUtils
