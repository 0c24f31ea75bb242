import Verif.Lemmas.TimeUtils
import Verif.Props.NumFormat
/-!
C77 dates and timestamps, C97 texts that are not dates, C98 `time_to_timestamp`,
C99 `normalize`.
-/
namespace Verif.TimeUtils
open Verif Verif.Spec.Calendar

/-! ### Seconds of a date -/

/-- The broken-down time of a date. -/
def tmFor (d : Date) (t : Time) : Tm :=
  { year := d.year - 1900, mon := d.month - 1, mday := d.day, hour := t.hour, min := t.minute,
    sec := t.second }

theorem secondsOf_fields (y : Int) (m : Nat) (hm : 1 ≤ m ∧ m ≤ 12) (day h mi s : Int) :
    secondsOf { year := y - 1900, mon := (m : Int) - 1, mday := day, hour := h, min := mi, sec := s }
      = (dayOf ⟨y, m, 1⟩ + (day - 1)) * 86400 + h * 3600 + mi * 60 + s := by
  have h1 : ((m : Int) - 1) / 12 = 0 := by omega
  have h2 : (((m : Int) - 1) % 12).toNat = m - 1 := by omega
  have h3 : 1900 + (y - 1900) + 0 = y := by omega
  simp only [secondsOf, h1, h2, h3, dayOf]
  omega

theorem secondsOf_tmFor (d : Date) (t : Time) (h : d.Valid) :
    secondsOf (tmFor d t) = dayOf d * 86400 + t.seconds := by
  unfold tmFor
  rw [secondsOf_fields _ _ ⟨h.1, h.2.1⟩]
  unfold dayOf Time.seconds
  simp only
  omega

theorem tmOf_eq (t : Int) :
    tmOf t = tmFor (dateOf (t / 86400))
      ⟨(t % 86400 / 3600).toNat, (t % 86400 % 3600 / 60).toNat, (t % 86400 % 60).toNat⟩ := by
  have hv := dateOf_valid (t / 86400)
  have hd := dayOf_dateOf (t / 86400)
  unfold tmOf tmFor
  simp only [Tm.mk.injEq]
  refine ⟨rfl, ?_, ?_, by omega, by omega, by omega⟩
  · simp [dateOf]
  · have := hv.2.2.1
    unfold dateOf at this ⊢
    simp only at this ⊢
    omega

theorem tmOf_seconds (d : Date) (t : Time) (h : d.Valid) (ht : t.Valid) :
    tmOf (dayOf d * 86400 + t.seconds) = tmFor d t := by
  obtain ⟨h1, h2, h3⟩ := ht
  have hs : (t.seconds : Int) = t.hour * 3600 + t.minute * 60 + t.second := by
    unfold Time.seconds; omega
  have e1 : (dayOf d * 86400 + t.seconds) / 86400 = dayOf d := by omega
  have e2 : (dayOf d * 86400 + (t.seconds : Int)) % 86400 = t.hour * 3600 + t.minute * 60 + t.second := by
    omega
  rw [tmOf_eq, e1, dateOf_dayOf d h, e2]
  cases t
  simp only [tmFor, Tm.mk.injEq, true_and] at *
  omega

/-- Seconds whose year fits in an `int`. -/
theorem gmtime_some (t : Int) (h : int32 (tmOf t).year) : gmtime t = some (tmOf t) := if_pos h

theorem timegm_eq (tm : Tm) (h : int32 (tmOf (secondsOf tm)).year) : timegm tm = secondsOf tm := by
  unfold timegm; rw [gmtime_some _ h]; rfl

/-- Seconds between the years −200 000 and 200 000. -/
theorem year_small (t : Int) (h : -6000000000000 ≤ t ∧ t ≤ 6000000000000) :
    -200000 ≤ (tmOf t).year ∧ (tmOf t).year ≤ 200000 := by
  obtain ⟨h1, h2⟩ := yearOf_spec (t / 86400)
  have : (tmOf t).year = yearOf (t / 86400) - 1900 := rfl
  rw [this]
  generalize yearOf (t / 86400) = y at *
  have h3 : -69444445 ≤ t / 86400 ∧ t / 86400 ≤ 69444445 := by omega
  generalize t / 86400 = n at *
  constructor
  · by_cases hc : y + 1 ≤ -190000
    · have := yearStart_mono hc
      have : yearStart (-190000) ≤ -70115000 := by decide
      omega
    · omega
  · by_cases hc : 200000 ≤ y
    · have := yearStart_mono hc
      have : 72328000 ≤ yearStart 200000 := by decide
      omega
    · omega

/-! ### `date_to_timestamp` -/

theorem toInt_small {n : Nat} (h : n < 2^31) : toInt n = n := if_pos h

/-- Nanoseconds since 1970-01-01 of a date whose day number is `n`. -/
def nanoseconds (n : Int) (t : Time) : Int := (n * 86400 + t.seconds) * 10^9

theorem year_of_day (d : Date) (h : d.Valid) :
    365 * (d.year - 1970) - 20 + (d.year - 1970) / 5 ≤ dayOf d ∨ d.year < 1970 := by
  by_cases hy : d.year < 1970
  · exact .inr hy
  · left
    have := (dayOf_bounds d h).1
    unfold yearStart at this
    omega

theorem fromTimeT_ok {t : Int} (h : int64 (t * 10^9)) : fromTimeT t = .ok (t * 10^9) := if_pos h

theorem fromTimeT_ub {t : Int} (h : ¬ int64 (t * 10^9)) : fromTimeT t = .ub := if_neg h

/-- Years after the conversion to `int` of a year beyond `2^31`: far before the range. -/
theorem timegm_wrapped (Y : Int) (hY : int32 (Y - 1900)) (hneg : Y < 0) (month day : Nat) (t : Time)
    (hm : 1 ≤ month ∧ month ≤ 12) (hd : 1 ≤ day ∧ day ≤ 31) (ht : t.Valid) :
    timegm (tmFor ⟨Y, month, day⟩ t) ≤ -10^10 := by
  have hb := dayOf_bounds ⟨Y, month, 1⟩
    ⟨hm.1, hm.2, by simp, by have := monthLength_pos Y month; simp only; omega⟩
  simp only at hb
  obtain ⟨t1, t2, t3⟩ := ht
  have hf : secondsOf (tmFor ⟨Y, month, day⟩ t) = (dayOf ⟨Y, month, 1⟩ + ((day : Int) - 1)) * 86400
      + t.hour * 3600 + t.minute * 60 + t.second := secondsOf_fields Y month hm day _ _ _
  have h1 : yearStart (Y + 1) ≤ yearStart 0 := by
    have := yearStart_mono (a := Y + 1) (b := 0) (by omega); omega
  have h0 : yearStart 0 = -719528 := by decide
  generalize dayOf ⟨Y, month, 1⟩ = k at *
  rw [timegm_eq]
  · rw [hf]; omega
  · have hy : (tmOf (secondsOf (tmFor ⟨Y, month, day⟩ t))).year
        = yearOf (secondsOf (tmFor ⟨Y, month, day⟩ t) / 86400) - 1900 := rfl
    rw [hy, hf, show ((k + ((day : Int) - 1)) * 86400 + t.hour * 3600 + t.minute * 60 + t.second) / 86400
      = k + ((day : Int) - 1) by omega]
    obtain ⟨a, b⟩ := yearOf_spec (k + ((day : Int) - 1))
    generalize yearOf (k + ((day : Int) - 1)) = z at *
    have z1 : Y ≤ z := by
      by_cases hc : z + 1 ≤ Y
      · have := yearStart_mono hc; omega
      · omega
    have z2 : z ≤ Y + 1 := by
      by_cases hc : Y + 1 + 1 ≤ z
      · have := yearStart_mono hc
        have := yearStart_succ (Y + 1)
        split at this <;> omega
      · omega
    unfold int32 at *; omega

/-- C77.  `date_to_timestamp` of a date that exists is the number of nanoseconds since
1970-01-01 counted day by day, if 64 bits can hold it; if they cannot the conversion
overflows, which is undefined. -/
theorem C77_date (year month day hour minute second : Nat) (hy : year < 2^32)
    (hd : Date.Valid ⟨year, month, day⟩) (ht : Time.Valid ⟨hour, minute, second⟩)
    (n : Int) (hn : DayNo ⟨year, month, day⟩ n) :
    (int64 (nanoseconds n ⟨hour, minute, second⟩) →
      dateToTimestamp year month day hour minute second
        = .ok (nanoseconds n ⟨hour, minute, second⟩)) ∧
    (¬ int64 (nanoseconds n ⟨hour, minute, second⟩) →
      dateToTimestamp year month day hour minute second = .ub) := by
  have hn := (dayNo_iff _ hd n).1 hn
  have hml := monthLength_pos year month
  obtain ⟨d1, d2, d3, d4⟩ := id hd
  obtain ⟨t1, t2, t3⟩ := id ht
  simp only at d1 d2 d3 d4 t1 t2 t3
  have i1 : int32 (toInt month - 1) := by rw [toInt_small (by omega)]; unfold int32; omega
  have hsec := secondsOf_tmFor ⟨year, month, day⟩ ⟨hour, minute, second⟩ hd
  have e : ∀ Y : Int, Tm.mk (Y - 1900) (toInt month - 1) (toInt day) (toInt hour) (toInt minute)
      (toInt second) = tmFor ⟨Y, month, day⟩ ⟨hour, minute, second⟩ := by
    intro Y
    rw [toInt_small (n := second) (by omega), toInt_small (n := minute) (by omega),
      toInt_small (n := hour) (by omega), toInt_small (n := day) (by omega),
      toInt_small (n := month) (by omega)]
    rfl
  unfold dateToTimestamp
  by_cases hy2 : year < 2^31
  · have i2 : int32 (toInt year - 1900) := by rw [toInt_small hy2]; unfold int32; omega
    have hg : timegm (tmFor ⟨year, month, day⟩ ⟨hour, minute, second⟩)
        = n * 86400 + (⟨hour, minute, second⟩ : Time).seconds := by
      rw [timegm_eq, hsec, hn]
      rw [hsec, tmOf_seconds _ _ hd ht]
      simp only [tmFor]; unfold int32; omega
    rw [if_neg (by simp only [i1, i2, not_true, or_self, not_false_iff]), e, toInt_small hy2, hg]
    exact ⟨fun h => fromTimeT_ok h, fun h => fromTimeT_ub h⟩
  · have hbig : ¬ int64 (nanoseconds n ⟨hour, minute, second⟩) := by
      have := year_of_day _ hd
      simp only at this
      unfold int64 nanoseconds
      rw [hn]
      omega
    refine ⟨fun h => absurd h hbig, fun _ => ?_⟩
    split
    · rfl
    · rename_i hc
      have hY : toInt year = (year : Int) - 2^32 := if_neg hy2
      have i2 : int32 (toInt year - 1900) := Classical.byContradiction fun x => hc (.inr x)
      have := timegm_wrapped (toInt year) i2 (by omega) month day ⟨hour, minute, second⟩ ⟨d1, d2⟩
        ⟨d3, by omega⟩ ht
      rw [e]
      apply fromTimeT_ub
      simp only [normalize]
      unfold int64; omega

/-- 2024-02-29 12:30:15 is day 19782. -/
example : dateToTimestamp 2024 2 29 12 30 15 = .ok (nanoseconds 19782 ⟨12, 30, 15⟩) := by
  refine (C77_date 2024 2 29 12 30 15 (by decide) (by decide) (by decide) 19782 ?_).1 (by decide)
  exact (dayNo_iff _ (by decide) _).2 (by decide)

/-- C77, the full statement fails: a date that exists and is not converted. -/
theorem C77_negation_range :
    Date.Valid ⟨2262, 4, 12⟩ ∧ dateToTimestamp 2262 4 12 0 0 0 = .ub := by decide

/-- C77 for the years 1678 to 2261 (missing: the other years, where 64 bits of nanoseconds
overflow): the conversion is defined and exact. -/
theorem C77_range_partial (year month day hour minute second : Nat)
    (hy : 1678 ≤ year ∧ year ≤ 2261)
    (hd : Date.Valid ⟨year, month, day⟩) (ht : Time.Valid ⟨hour, minute, second⟩)
    (n : Int) (hn : DayNo ⟨year, month, day⟩ n) :
    dateToTimestamp year month day hour minute second
      = .ok ((n * 86400 + hour * 3600 + minute * 60 + second) * 1000000000) := by
  have hS : ((⟨hour, minute, second⟩ : Time).seconds : Int) = hour * 3600 + minute * 60 + second := by
    unfold Time.seconds; simp only; omega
  have e : (n * 86400 + hour * 3600 + minute * 60 + second) * 1000000000
      = nanoseconds n ⟨hour, minute, second⟩ := by unfold nanoseconds; rw [hS]; omega
  rw [e]
  apply (C77_date _ _ _ _ _ _ (by omega) hd ht n hn).1
  have hn := (dayNo_iff _ hd n).1 hn
  have hb := dayOf_bounds _ hd
  simp only [← hn] at hb
  have h1 := yearStart_mono (a := 1678) (b := year) (by omega)
  have h2 := yearStart_mono (a := year + 1) (b := 2262) (by omega)
  have e1 : yearStart 1678 = -106650 := by decide
  have e2 : yearStart 2262 = 106650 + 1 := by decide
  rw [← e]
  obtain ⟨t1, t2, t3⟩ := ht
  simp only at t1 t2 t3
  unfold int64
  omega

example : dateToTimestamp 1959 7 20 6 39 42
    = .ok ((-3818 * 86400 + (6 : Nat) * 3600 + (39 : Nat) * 60 + (42 : Nat)) * 1000000000) :=
  C77_range_partial 1959 7 20 6 39 42 (by decide) (by decide) (by decide) (-3818)
    ((dayNo_iff _ (by decide) _).2 (by decide))

theorem dayOf_lt {d d' : Date} (h : d.Valid) (h' : d'.Valid)
    (hl : d.year < d'.year ∨ d.year = d'.year ∧ (d.month < d'.month ∨ d.month = d'.month ∧ d.day < d'.day)) :
    dayOf d < dayOf d' := by
  rcases hl with hl | ⟨e, hl⟩
  · have h1 := (dayOf_bounds d h).2
    have h2 := (dayOf_bounds d' h').1
    have := yearStart_mono (a := d.year + 1) (b := d'.year) (by omega)
    omega
  · obtain ⟨a1, a2, a3, a4⟩ := h
    obtain ⟨b1, b2, b3, b4⟩ := h'
    unfold dayOf
    rw [← e]
    rcases hl with hl | ⟨e2, hl⟩
    · have := monthStartIn_lt d.year (a := d.month - 1) (b := d'.month - 1) (by omega) (by omega)
      rw [show d.month - 1 + 1 = d.month by omega] at this
      omega
    · rw [← e2]; omega

/-- C77.  Later dates have later timestamps. -/
theorem C77_monotone (y m d h mi s y' m' d' h' mi' s' : Nat) (hy : y < 2^32) (hy' : y' < 2^32)
    (hd : Date.Valid ⟨y, m, d⟩) (ht : Time.Valid ⟨h, mi, s⟩)
    (hd' : Date.Valid ⟨y', m', d'⟩) (ht' : Time.Valid ⟨h', mi', s'⟩) (a b : Int)
    (ha : dateToTimestamp y m d h mi s = .ok a) (hb : dateToTimestamp y' m' d' h' mi' s' = .ok b) :
    Earlier ⟨y, m, d⟩ ⟨h, mi, s⟩ ⟨y', m', d'⟩ ⟨h', mi', s'⟩ ↔ a < b := by
  have key : ∀ {y m d h mi s : Nat} {a : Int}, y < 2^32 → Date.Valid ⟨y, m, d⟩ → Time.Valid ⟨h, mi, s⟩ →
      dateToTimestamp y m d h mi s = .ok a → a = nanoseconds (dayOf ⟨y, m, d⟩) ⟨h, mi, s⟩ := by
    intro y m d h mi s a hy hd ht he
    have := C77_date y m d h mi s hy hd ht _ ((dayNo_iff _ hd _).2 rfl)
    by_cases hi : int64 (nanoseconds (dayOf ⟨y, m, d⟩) ⟨h, mi, s⟩)
    · rw [this.1 hi] at he; injection he with he; exact he.symm
    · rw [this.2 hi] at he; cases he
  have ea := key hy hd ht ha
  have eb := key hy' hd' ht' hb
  have fwd : ∀ {y m d h mi s y' m' d' h' mi' s' : Nat}, Date.Valid ⟨y, m, d⟩ → Time.Valid ⟨h, mi, s⟩ →
      Date.Valid ⟨y', m', d'⟩ → Time.Valid ⟨h', mi', s'⟩ →
      Earlier ⟨y, m, d⟩ ⟨h, mi, s⟩ ⟨y', m', d'⟩ ⟨h', mi', s'⟩ →
      nanoseconds (dayOf ⟨y, m, d⟩) ⟨h, mi, s⟩ < nanoseconds (dayOf ⟨y', m', d'⟩) ⟨h', mi', s'⟩ := by
    intro y m d h mi s y' m' d' h' mi' s' hd ht hd' ht' he
    obtain ⟨t1, t2, t3⟩ := ht
    obtain ⟨u1, u2, u3⟩ := ht'
    unfold Earlier at he
    simp only at he t1 t2 t3 u1 u2 u3
    unfold nanoseconds Time.seconds
    simp only
    by_cases hl : (y : Int) < y' ∨ (y : Int) = y' ∧ (m < m' ∨ m = m' ∧ d < d')
    · have := dayOf_lt hd hd' hl; omega
    · have e : (⟨y, m, d⟩ : Date) = ⟨y', m', d'⟩ := by
        simp only [Date.mk.injEq]; omega
      rw [e]; simp only [Date.mk.injEq] at e; omega
  constructor
  · intro he; rw [ea, eb]; exact fwd hd ht hd' ht' he
  · intro hab
    apply Classical.byContradiction
    intro hne
    by_cases he : Earlier ⟨y', m', d'⟩ ⟨h', mi', s'⟩ ⟨y, m, d⟩ ⟨h, mi, s⟩
    · have := fwd hd' ht' hd ht he; omega
    · have e : y = y' ∧ m = m' ∧ d = d' ∧ h = h' ∧ mi = mi' ∧ s = s' := by
        unfold Earlier at he hne; simp only at he hne; omega
      obtain ⟨rfl, rfl, rfl, rfl, rfl, rfl⟩ := e
      omega

example : ∃ a b, dateToTimestamp 1999 12 31 23 59 59 = .ok a ∧ dateToTimestamp 2000 1 1 0 0 0 = .ok b
    ∧ a < b := ⟨946684799000000000, 946684800000000000, by decide, by decide, by decide⟩

end Verif.TimeUtils
