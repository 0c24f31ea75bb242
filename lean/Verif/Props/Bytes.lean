import Verif.Lemmas.Bytes
/-!
C16: `to_bytes`.
-/
namespace Verif.Bytes
open Verif.Double Verif.NumFormat

/-! ### `std::stod` -/

theorem stod_fl {q x : ℚ} (hq : 0 ≤ q) (h : stod q = some x) : x = fl q := by
  unfold stod at h
  split at h
  · rename_i h0; rw [h0, fl_zero]; exact (Option.some.inj h).symm
  · split at h
    · simp at h
    · split at h
      · rename_i hlt
        split at h
        · rename_i hd
          obtain rfl := Option.some.inj h
          refine (fl_exact ⟨(q * 2 ^ 1074).num.toNat, -1074, ?_, ?_⟩).symm
          all_goals
            have hn : 0 ≤ (q * 2 ^ 1074).num := Rat.num_nonneg.2 (by positivity)
            have he : (((q * 2 ^ 1074).num.toNat : ℤ)) = (q * 2 ^ 1074).num := by omega
            have he' : (((q * 2 ^ 1074).num.toNat : ℚ)) = q * 2 ^ 1074 := by
              have h1 : (((q * 2 ^ 1074).num.toNat : ℚ)) = ((q * 2 ^ 1074).num : ℚ) := by exact_mod_cast he
              rw [h1]
              conv_rhs => rw [← Rat.num_div_den (q * 2 ^ 1074), hd]
              simp
          · have h2 : q * 2 ^ 1074 < 2 ^ 53 := by
              have h3 : q * 2 ^ 1074 < 1 / 2 ^ 1022 * 2 ^ 1074 := mul_lt_mul_of_pos_right hlt (by positivity)
              have h4 : (1 : ℚ) / 2 ^ 1022 * 2 ^ 1074 = 2 ^ 52 := by
                rw [show (1074 : ℕ) = 1022 + 52 from rfl, pow_add, ← mul_assoc, one_div,
                  inv_mul_cancel₀ (by positivity), one_mul]
              rw [h4] at h3
              exact lt_trans h3 (by norm_num)
            rw [← he'] at h2
            exact_mod_cast h2
          · rw [he', mul_assoc, show ((2 : ℚ) ^ (-1074 : ℤ)) = (2 ^ 1074)⁻¹ from by
              rw [zpow_neg]; rfl, mul_inv_cancel₀ (by positivity), mul_one]
        · simp at h
      · exact (Option.some.inj h).symm

theorem stod_some {q : ℚ} (h : q = 0 ∨ (1 / 2 ^ 1022 ≤ q ∧ q < 2 ^ 1024 - 2 ^ 970)) :
    stod q = some (fl q) := by
  unfold stod
  rcases h with rfl | ⟨h1, h2⟩
  · rw [if_pos rfl, fl_zero]
  · have h0 : q ≠ 0 := (lt_of_lt_of_le (by positivity) h1).ne'
    rw [if_neg h0, if_neg (not_le.2 h2), if_neg (not_lt.2 h1)]

theorem stod_none {q : ℚ} (h : stod q = none) : 2 ^ 1024 - 2 ^ 970 ≤ q ∨ (0 < q ∧ q < 1 / 2 ^ 1022) ∨ q < 0 := by
  by_contra hc
  push Not at hc
  obtain ⟨h1, h2, h3⟩ := hc
  have : stod q = some (fl q) := stod_some (by
    rcases h3.lt_or_eq with h4 | h4
    · exact .inr ⟨h2 h4, h1⟩
    · exact .inl h4.symm)
  rw [this] at h; simp at h

theorem not_huge {q : ℚ} (h : q ≤ 2 ^ 70) : q < 2 ^ 1024 - 2 ^ 970 := by
  have h1 : (2 : ℚ) ^ 1024 = 2 ^ 970 * 2 ^ 54 := by rw [← pow_add]
  have h2 : (2 : ℚ) ^ 70 ≤ 2 ^ 970 := pow_le_pow_right₀ (by norm_num) (by norm_num)
  have h3 : (0 : ℚ) < 2 ^ 70 := by positivity
  rw [h1]
  clear h1
  generalize (2 : ℚ) ^ 970 = P at *
  norm_num at h h2 h3 ⊢
  linarith

theorem not_tiny {q : ℚ} (h : 1 ≤ q) : 1 / 2 ^ 1022 ≤ q := by
  refine le_trans ?_ h
  rw [div_le_one (by positivity)]
  exact one_le_pow₀ (by norm_num)

/-! ### Reading -/

theorem toBytes_written {s i f u : Str} (h : Written s i f u) :
    toBytes s = match stod (value i f) with
      | none => .throw .outOfRange
      | some number =>
        match units.lookup (u.map upper) with
        | none => .throw .invalidArgument
        | some unit => scale number unit := by
  unfold toBytes
  rw [(parse_iff ..).2 h, ← numberOf_eq]
  rfl

theorem toBytes_unit {s i f u : Str} {n : ℕ} (h : Written s i f u) (hu : UnitOf u n) :
    (stod (value i f) = none ∧ toBytes s = .throw .outOfRange) ∨
    (stod (value i f) = some (fl (value i f)) ∧ toBytes s = scale (fl (value i f)) n) := by
  rw [toBytes_written h, (lookup_iff u n).2 hu]
  cases hs : stod (value i f) with
  | none => exact .inl ⟨rfl, rfl⟩
  | some x =>
    obtain rfl := stod_fl (value_nonneg i f) hs
    exact .inr ⟨rfl, rfl⟩

/-- C16: a text that is not a number followed by letters is refused. -/
theorem C16_malformed (s : Str) (h : ∀ i f u, ¬ Written s i f u) : toBytes s = .throw .invalidArgument := by
  unfold toBytes
  cases hp : parse s with
  | none => rfl
  | some x =>
    obtain ⟨i, f, u⟩ := x
    exact absurd ((parse_iff ..).1 hp) (h i f u)

theorem written_parse {s : Str} (h : parse s = none) : ∀ i f u, ¬ Written s i f u := by
  intro i f u hw
  rw [(parse_iff ..).2 hw] at h
  simp at h

example : ∀ i f u, ¬ Written c!"1.MB" i f u := written_parse (by decide)
example : ∀ i f u, ¬ Written c!"-1MB" i f u := written_parse (by decide)
example : ∀ i f u, ¬ Written c!"10 MB " i f u := written_parse (by decide)

/-- C16: a number with letters that name no unit is refused. -/
theorem C16_unknown_unit (s i f u : Str) (h : Written s i f u) (hu : ∀ n, ¬ UnitOf u n) :
    ∃ e, toBytes s = .throw e := by
  rw [toBytes_written h]
  cases stod (value i f) with
  | none => exact ⟨_, rfl⟩
  | some x =>
    cases hl : units.lookup (u.map upper) with
    | none => exact ⟨_, rfl⟩
    | some n => exact absurd ((lookup_iff u n).1 hl) (hu n)

example : Written c!"10 mbs" c!"10" [] c!"mbs" ∧ ∀ n, ¬ UnitOf c!"mbs" n := by
  refine ⟨(parse_iff ..).1 (by decide), fun n h => ?_⟩
  have h1 := (lookup_iff _ n).2 h
  have h2 : units.lookup (c!"mbs".map upper) = none := by decide
  rw [h2] at h1; simp at h1

/-- C16: the case of the unit and the space before it do not matter. -/
theorem C16_case (s s' i f u u' : Str) (h : Written s i f u) (h' : Written s' i f u')
    (hu : u.map lower = u'.map lower) : toBytes s = toBytes s' := by
  rw [toBytes_written h, toBytes_written h']
  have : u.map upper = u'.map upper := by
    have h1 := congrArg (List.map upper) hu
    rw [List.map_map, List.map_map] at h1
    have h2 : ∀ l : Str, l.map (upper ∘ lower) = l.map upper := fun l =>
      List.map_congr_left fun c _ => upper_lower c
    rwa [h2, h2] at h1
  rw [this]

example : Written c!"10.5MiB" c!"10" c!"5" c!"MiB" ∧ Written c!"10.5 \tmIB" c!"10" c!"5" c!"mIB" ∧
    c!"MiB".map lower = c!"mIB".map lower :=
  ⟨(parse_iff ..).1 (by decide), (parse_iff ..).1 (by decide), by decide⟩

/-! ### Scaling -/

theorem unit_pos {u : Str} {n : ℕ} (h : UnitOf u n) : 1 ≤ n ∧ n ≤ 2 ^ 50 := by
  have := unit_cases h
  simp only [List.mem_cons, List.not_mem_nil, or_false] at this
  omega

theorem fl_unit {u : Str} {n : ℕ} (h : UnitOf u n) : fl n = n :=
  fl_natCast (lt_of_le_of_lt (unit_pos h).2 (by norm_num))

/-- Double precision numbers whose product by the unit passes the guard of line 171 and does
not fit in 64 bits: one for each of the three small units. -/
theorem scale_ub {u : Str} {n : ℕ} (hu : UnitOf u n) {q : ℚ} (hq : 0 ≤ q) :
    scale (fl q) n = .ub ↔ (n = 1 ∧ fl q = 2 ^ 64) ∨ (n = 1000 ∧ fl q = 18446744073709552) ∨
      (n = 1024 ∧ fl q = 2 ^ 54) := by
  have hx := fl_nonneg q hq
  have hu' : fl n = n := fl_unit hu
  have key : ∀ y : ℚ, 0 ≤ y → (fl y < 2 ^ 64 ↔ y < 2 ^ 64 - 1024) := by
    intro y hy
    have := le_fl (m := 2 ^ 53) (e := 11) (by norm_num) (by norm_num) (by norm_num) hy
    norm_num at this
    rw [← not_le, ← not_le]
    norm_num
    rw [← not_le, ← not_le]
    exact not_congr this
  have eq : scale (fl q) n = .ub ↔
      fl q ≤ fl ((2 ^ 64 - 1) / n : ℕ) ∧ (2 : ℚ) ^ 64 - 1024 ≤ fl q * n := by
    unfold scale
    rw [hu']
    have := key (fl q * n) (by positivity)
    split
    · rename_i h
      constructor
      · intro h'; simp at h'
      · intro h'; exact absurd h'.1 (not_le.2 h)
    · rename_i h
      split
      · rename_i h'
        constructor
        · intro h''; simp at h''
        · intro h''; exact absurd h''.2 (not_le.2 (this.1 h'))
      · rename_i h'
        refine ⟨fun _ => ⟨not_lt.1 h, not_lt.1 fun hc => h' (this.2 hc)⟩, fun _ => rfl⟩
  rw [eq]
  have := unit_cases hu
  clear eq key hu' hu
  have big : ∀ F : ℕ, F < 2 ^ 53 → F * n < 2 ^ 64 - 1024 → (2 ^ 64 - 1) / n = F →
      ¬ (fl q ≤ fl ((2 ^ 64 - 1) / n : ℕ) ∧ (2 : ℚ) ^ 64 - 1024 ≤ fl q * n) := by
    rintro F h1 h2 h3 ⟨h4, h5⟩
    rw [h3, fl_natCast h1] at h4
    have h6 : fl q * n ≤ F * n := mul_le_mul_of_nonneg_right h4 (by positivity)
    have h7 : ((F * n : ℕ) : ℚ) < ((2 ^ 64 - 1024 : ℕ) : ℚ) := by exact_mod_cast h2
    push_cast at h7
    norm_num at h5 h7
    linarith
  simp only [List.mem_cons, List.not_mem_nil, or_false] at this
  rcases this with rfl | rfl | h | h | h | h | rfl | h | h | h | h
  · have hF : fl (((2 ^ 64 - 1) / 1 : ℕ)) = 2 ^ 64 := by
      apply le_antisymm
      · have := (fl_le (m := 2 ^ 52) (e := 12) (x := ((2 ^ 64 - 1) / 1 : ℕ)) (by norm_num) (by norm_num) (by norm_num) (by positivity)).2 (by norm_num)
        norm_num at this ⊢; exact this
      · have := (le_fl (m := 2 ^ 53) (e := 11) (x := ((2 ^ 64 - 1) / 1 : ℕ)) (by norm_num) (by norm_num) (by norm_num) (by positivity)).2 (by norm_num)
        norm_num at this ⊢; exact this
    rw [hF]
    have gap := fl_gap (m := 2 ^ 53) (e := 11) (by norm_num) (by norm_num) hq
    norm_num at gap ⊢
    constructor
    · rintro ⟨h1, h2⟩
      by_contra hne
      have := gap (lt_of_le_of_ne h1 hne)
      linarith
    · intro h; rw [h]; norm_num
  · have hF : fl (((2 ^ 64 - 1) / 1000 : ℕ)) = 18446744073709552 := by
      apply le_antisymm
      · have := (fl_le (m := 4611686018427388) (e := 2) (x := ((2 ^ 64 - 1) / 1000 : ℕ)) (by norm_num) (by norm_num) (by norm_num) (by positivity)).2 (by norm_num)
        norm_num at this ⊢; exact this
      · have := (le_fl (m := 4611686018427388) (e := 2) (x := ((2 ^ 64 - 1) / 1000 : ℕ)) (by norm_num) (by norm_num) (by norm_num) (by positivity)).2 (by norm_num)
        norm_num at this ⊢; exact this
    rw [hF]
    have gap := fl_gap (m := 4611686018427388) (e := 2) (by norm_num) (by norm_num) hq
    norm_num at gap ⊢
    constructor
    · rintro ⟨h1, h2⟩
      by_contra hne
      have := gap (lt_of_le_of_ne h1 hne)
      linarith
    · intro h; rw [h]; norm_num
  · subst h; exact iff_of_false (big 18446744073709 (by norm_num) (by norm_num) (by norm_num)) (by norm_num)
  · subst h; exact iff_of_false (big 18446744073 (by norm_num) (by norm_num) (by norm_num)) (by norm_num)
  · subst h; exact iff_of_false (big 18446744 (by norm_num) (by norm_num) (by norm_num)) (by norm_num)
  · subst h; exact iff_of_false (big 18446 (by norm_num) (by norm_num) (by norm_num)) (by norm_num)
  · have hF : fl (((2 ^ 64 - 1) / 1024 : ℕ)) = 2 ^ 54 := by
      apply le_antisymm
      · have := (fl_le (m := 2 ^ 52) (e := 2) (x := ((2 ^ 64 - 1) / 1024 : ℕ)) (by norm_num) (by norm_num) (by norm_num) (by positivity)).2 (by norm_num)
        norm_num at this ⊢; exact this
      · have := (le_fl (m := 2 ^ 53) (e := 1) (x := ((2 ^ 64 - 1) / 1024 : ℕ)) (by norm_num) (by norm_num) (by norm_num) (by positivity)).2 (by norm_num)
        norm_num at this ⊢; exact this
    rw [hF]
    have gap := fl_gap (m := 2 ^ 53) (e := 1) (by norm_num) (by norm_num) hq
    norm_num at gap ⊢
    constructor
    · rintro ⟨h1, h2⟩
      by_contra hne
      have := gap (lt_of_le_of_ne h1 hne)
      linarith
    · intro h; rw [h]; norm_num
  · subst h; exact iff_of_false (big (2 ^ 44 - 1) (by norm_num) (by norm_num) (by norm_num)) (by norm_num)
  · subst h; exact iff_of_false (big (2 ^ 34 - 1) (by norm_num) (by norm_num) (by norm_num)) (by norm_num)
  · subst h; exact iff_of_false (big (2 ^ 24 - 1) (by norm_num) (by norm_num) (by norm_num)) (by norm_num)
  · subst h; exact iff_of_false (big (2 ^ 14 - 1) (by norm_num) (by norm_num) (by norm_num)) (by norm_num)

/-- The quantities the guard of line 171 lets through although they are rounded to 2^64
bytes or more. -/
def Band (n : ℕ) (q : ℚ) : Prop :=
  (n = 1 ∧ 2 ^ 64 - 1024 ≤ q ∧ q ≤ 2 ^ 64 + 2048) ∨
  (n = 1000 ∧ 18446744073709550 ≤ q ∧ q ≤ 18446744073709554) ∨
  (n = 1024 ∧ 2 ^ 54 - 1 ≤ q ∧ q ≤ 2 ^ 54 + 2)

theorem band_iff {q : ℚ} (hq : 0 ≤ q) (n : ℕ) :
    (n = 1 ∧ fl q = 2 ^ 64) ∨ (n = 1000 ∧ fl q = 18446744073709552) ∨ (n = 1024 ∧ fl q = 2 ^ 54) ↔
      Band n q := by
  unfold Band
  have a1 := le_fl (m := 2 ^ 53) (e := 11) (by norm_num) (by norm_num) (by norm_num) hq
  have a2 := fl_le (m := 2 ^ 52) (e := 12) (by norm_num) (by norm_num) (by norm_num) hq
  have b1 := le_fl (m := 4611686018427388) (e := 2) (by norm_num) (by norm_num) (by norm_num) hq
  have b2 := fl_le (m := 4611686018427388) (e := 2) (by norm_num) (by norm_num) (by norm_num) hq
  have c1 := le_fl (m := 2 ^ 53) (e := 1) (by norm_num) (by norm_num) (by norm_num) hq
  have c2 := fl_le (m := 2 ^ 52) (e := 2) (by norm_num) (by norm_num) (by norm_num) hq
  have e1 : fl q = 2 ^ 64 ↔ 2 ^ 64 - 1024 ≤ q ∧ q ≤ 2 ^ 64 + 2048 := by
    norm_num at a1 a2 ⊢
    rw [← a1, ← a2]
    exact ⟨fun h => ⟨h.ge, h.le⟩, fun h => le_antisymm h.2 h.1⟩
  have e2 : fl q = 18446744073709552 ↔ 18446744073709550 ≤ q ∧ q ≤ 18446744073709554 := by
    norm_num at b1 b2 ⊢
    rw [← b1, ← b2]
    exact ⟨fun h => ⟨h.ge, h.le⟩, fun h => le_antisymm h.2 h.1⟩
  have e3 : fl q = 2 ^ 54 ↔ 2 ^ 54 - 1 ≤ q ∧ q ≤ 2 ^ 54 + 2 := by
    norm_num at c1 c2 ⊢
    rw [← c1, ← c2]
    exact ⟨fun h => ⟨h.ge, h.le⟩, fun h => le_antisymm h.2 h.1⟩
  rw [e1, e2, e3]

/-- C16: exactly when the conversion is undefined: a quantity in bytes, KB or KiB within a few
rounding steps of 2^64 bytes. -/
theorem C16_ub_iff (s i f u : Str) (n : ℕ) (h : Written s i f u) (hu : UnitOf u n) :
    toBytes s = .ub ↔ Band n (value i f) := by
  have hq := value_nonneg i f
  rw [← band_iff hq, ← scale_ub hu hq]
  rcases toBytes_unit h hu with ⟨h1, h2⟩ | ⟨-, h2⟩
  · rw [h2, scale_ub hu hq, band_iff hq]
    refine iff_of_false (by simp) fun hb => ?_
    have hr : (1 : ℚ) ≤ value i f ∧ value i f ≤ 2 ^ 70 := by
      rcases hb with ⟨-, a, b⟩ | ⟨-, a, b⟩ | ⟨-, a, b⟩ <;> constructor <;> norm_num at a b ⊢ <;> linarith
    rcases stod_none h1 with h3 | h3 | h3
    · exact absurd (not_huge hr.2) (not_lt.2 h3)
    · exact absurd h3.2 (not_lt.2 (not_tiny hr.1))
    · exact absurd h3 (not_lt.2 hq)
  · rw [h2]

/-- C16, undefined behaviour: 2^64 bytes pass the guard. -/
theorem C16_negation_ub : toBytes c!"18446744073709551616B" = .ub :=
  (C16_ub_iff _ c!"18446744073709551616" [] c!"B" 1 ((parse_iff ..).1 (by decide)) (.inl ⟨by decide, rfl⟩)).2
    (.inl ⟨rfl, by
      have : decValue c!"18446744073709551616" = 2 ^ 64 := by decide
      simp only [value, this]; constructor <;> norm_num [decValue]⟩)

/-- C16: a quantity that does not fit in 64 bits is refused, or (in the band) undefined.
Missing: inside the band nothing is refused. -/
theorem C16_too_large_partial (s i f u : Str) (n : ℕ) (h : Written s i f u) (hu : UnitOf u n)
    (hb : ¬ Band n (value i f)) (hl : 2 ^ 64 ≤ value i f * n) : ∃ e, toBytes s = .throw e := by
  have hq := value_nonneg i f
  rcases toBytes_unit h hu with ⟨-, h2⟩ | ⟨-, h2⟩
  · exact ⟨_, h2⟩
  rw [h2]
  unfold scale
  suffices hF : fl ((2 ^ 64 - 1) / n : ℕ) < fl (value i f) from ⟨_, if_pos hF⟩
  generalize value i f = q at *
  clear h2 h
  have big : ∀ F : ℕ, 16 * F + 1 < 2 ^ 53 → (2 ^ 64 - 1) / n = F → ((F : ℚ) + 1 / 16) * n ≤ 2 ^ 64 →
      fl ((2 ^ 64 - 1) / n : ℕ) < fl q := by
    intro F h1 h2 h3
    have hn : (0 : ℚ) < n := by exact_mod_cast (unit_pos hu).1
    rw [h2, fl_natCast (by omega)]
    have h4 : (F : ℚ) + 1 / 16 ≤ q := by
      have := le_trans h3 hl
      exact le_of_mul_le_mul_right this hn
    have h5 := fl_mono (by positivity) h4
    rw [fl_exact (x := (F : ℚ) + 1 / 16) ⟨16 * F + 1, -4, h1, by push_cast; norm_num; ring⟩] at h5
    linarith
  have small : ∀ X : ℚ, (fl ((2 ^ 64 - 1) / n : ℕ) ≤ X) → X < fl q → fl ((2 ^ 64 - 1) / n : ℕ) < fl q :=
    fun X h1 h2 => lt_of_le_of_lt h1 h2
  have hc := unit_cases hu
  simp only [List.mem_cons, List.not_mem_nil, or_false] at hc
  rcases hc with rfl | rfl | h | h | h | h | rfl | h | h | h | h
  · have hF := (fl_le (m := 2 ^ 52) (e := 12) (x := ((2 ^ 64 - 1) / 1 : ℕ)) (by norm_num) (by norm_num) (by norm_num) (by positivity)).2 (by norm_num)
    refine small _ hF (not_le.1 fun hc => hb (.inl ⟨rfl, ?_, ?_⟩))
    · norm_num at hl ⊢; linarith
    · have := (fl_le (by norm_num) (by norm_num) (by norm_num) hq).1 hc
      norm_num at this ⊢; exact this
  · have hF := (fl_le (m := 4611686018427388) (e := 2) (x := ((2 ^ 64 - 1) / 1000 : ℕ)) (by norm_num) (by norm_num) (by norm_num) (by positivity)).2 (by norm_num)
    refine small _ hF (not_le.1 fun hc => hb (.inr (.inl ⟨rfl, ?_, ?_⟩)))
    · norm_num at hl ⊢; linarith
    · have := (fl_le (by norm_num) (by norm_num) (by norm_num) hq).1 hc
      norm_num at this ⊢; exact this
  · subst h; exact big 18446744073709 (by norm_num) (by norm_num) (by norm_num)
  · subst h; exact big 18446744073 (by norm_num) (by norm_num) (by norm_num)
  · subst h; exact big 18446744 (by norm_num) (by norm_num) (by norm_num)
  · subst h; exact big 18446 (by norm_num) (by norm_num) (by norm_num)
  · have hF := (fl_le (m := 2 ^ 52) (e := 2) (x := ((2 ^ 64 - 1) / 1024 : ℕ)) (by norm_num) (by norm_num) (by norm_num) (by positivity)).2 (by norm_num)
    refine small _ hF (not_le.1 fun hc => hb (.inr (.inr ⟨rfl, ?_, ?_⟩)))
    · norm_num at hl ⊢; linarith
    · have := (fl_le (by norm_num) (by norm_num) (by norm_num) hq).1 hc
      norm_num at this ⊢; exact this
  · subst h; exact big (2 ^ 44 - 1) (by norm_num) (by norm_num) (by norm_num)
  · subst h; exact big (2 ^ 34 - 1) (by norm_num) (by norm_num) (by norm_num)
  · subst h; exact big (2 ^ 24 - 1) (by norm_num) (by norm_num) (by norm_num)
  · subst h; exact big (2 ^ 14 - 1) (by norm_num) (by norm_num) (by norm_num)

example : Written c!"16384PiB" c!"16384" [] c!"PiB" ∧ UnitOf c!"PiB" (1024 ^ 5) ∧
    ¬ Band (1024 ^ 5) (value c!"16384" []) ∧ 2 ^ 64 ≤ value c!"16384" [] * (1024 ^ 5 : ℕ) := by
  have hv : value c!"16384" [] = 16384 := by
    have : decValue c!"16384" = 16384 := by decide
    simp only [value, this]; norm_num [decValue]
  refine ⟨(parse_iff ..).1 (by decide), .inr ⟨5, 'p', by simp, .inr ⟨by decide, rfl⟩⟩, ?_, ?_⟩
  · unfold Band; norm_num
  · rw [hv]; norm_num

/-- C16: a number of units that fits, rounded down to whole units, is accepted.  Missing:
numbers with a fraction beyond the last whole unit that fits (`C16_negation_rejected`), and
numbers too small for a normal double, which `std::stod` may refuse. -/
theorem C16_accepts_partial (s i f u : Str) (n : ℕ) (h : Written s i f u) (hu : UnitOf u n)
    (hb : ¬ Band n (value i f)) (hl : value i f ≤ ((2 ^ 64 - 1) / n : ℕ))
    (ht : value i f = 0 ∨ 1 / 2 ^ 1022 ≤ value i f) : ∃ b, toBytes s = .ok b := by
  have hq := value_nonneg i f
  have hub := (C16_ub_iff s i f u n h hu).not.2 hb
  have hmax : value i f < 2 ^ 1024 - 2 ^ 970 := by
    have h1 : ((2 ^ 64 - 1) / n : ℕ) ≤ 2 ^ 64 := le_trans (Nat.div_le_self ..) (by norm_num)
    have h2 : ((((2 ^ 64 - 1) / n : ℕ)) : ℚ) ≤ 2 ^ 64 := by exact_mod_cast h1
    exact not_huge (le_trans hl (le_trans h2 (by norm_num)))
  have hs : stod (value i f) = some (fl (value i f)) := stod_some (ht.imp_right fun a => ⟨a, hmax⟩)
  rcases toBytes_unit h hu with ⟨h1, -⟩ | ⟨-, h2⟩
  · rw [hs] at h1; simp at h1
  · rw [h2] at hub ⊢
    unfold scale at hub ⊢
    rw [if_neg (not_lt.2 (fl_mono hq hl))] at hub ⊢
    split
    · exact ⟨_, rfl⟩
    · rename_i hc
      rw [if_neg hc] at hub
      exact absurd rfl hub

example : Written c!"18446 PB" c!"18446" [] c!"PB" ∧ UnitOf c!"PB" (1000 ^ 5) ∧
    ¬ Band (1000 ^ 5) (value c!"18446" []) ∧ value c!"18446" [] ≤ ((2 ^ 64 - 1) / 1000 ^ 5 : ℕ) ∧
    1 / 2 ^ 1022 ≤ value c!"18446" [] := by
  have hv : value c!"18446" [] = 18446 := by
    have : decValue c!"18446" = 18446 := by decide
    simp only [value, this]; norm_num [decValue]
  refine ⟨(parse_iff ..).1 (by decide), .inr ⟨5, 'p', by simp, .inl ⟨by decide, rfl⟩⟩, ?_, ?_, ?_⟩
  · unfold Band; norm_num
  · rw [hv]; norm_num
  · exact not_tiny (by rw [hv]; norm_num)

/-- C16: 18446.5 PB fit in 64 bits and are refused: the guard divides integers. -/
theorem C16_negation_rejected : toBytes c!"18446.5PB" = .throw .invalidArgument ∧
    value c!"18446" c!"5" * 1000 ^ 5 < 2 ^ 64 := by
  have hv : value c!"18446" c!"5" = 18446 + 1 / 2 := by
    have : decValue c!"18446" = 18446 := by decide
    have h5 : decValue c!"5" = 5 := by decide
    simp only [value, this, h5]; norm_num
  refine ⟨?_, by rw [hv]; norm_num⟩
  have hu : UnitOf c!"PB" (1000 ^ 5) := .inr ⟨5, 'p', by simp, .inl ⟨by decide, rfl⟩⟩
  have hs : stod (value c!"18446" c!"5") = some (fl (value c!"18446" c!"5")) :=
    stod_some (.inr ⟨not_tiny (by rw [hv]; norm_num), not_huge (by rw [hv]; norm_num)⟩)
  rcases toBytes_unit (s := c!"18446.5PB") (i := c!"18446") (f := c!"5") ((parse_iff ..).1 (by decide)) hu with ⟨h1, -⟩ | ⟨-, h2⟩
  · rw [hs] at h1; simp at h1
  · rw [h2]
    unfold scale
    rw [if_pos]
    rw [hv, fl_exact (x := 18446 + 1 / 2) ⟨36893, -1, by norm_num, by norm_num⟩,
      show (2 ^ 64 - 1) / 1000 ^ 5 = 18446 by norm_num, fl_natCast (by norm_num)]
    norm_num

/-- C16: a whole number of units is converted exactly while the result is below 2^53. -/
theorem C16_exact (s i u : Str) (n : ℕ) (h : Written s i [] u) (hu : UnitOf u n)
    (hl : decValue i * n < 2 ^ 53) : toBytes s = .ok (decValue i * n) := by
  have hn := unit_pos hu
  have hi : decValue i < 2 ^ 53 := lt_of_le_of_lt (Nat.le_mul_of_pos_right _ hn.1) hl
  have hv : value i [] = decValue i := by simp [value, decValue]
  have hfl : fl (value i []) = decValue i := by rw [hv, fl_natCast hi]
  have hs : stod (value i []) = some (fl (value i [])) := by
    apply stod_some
    rcases Nat.eq_zero_or_pos (decValue i) with h0 | h0
    · left; rw [hv, h0]; simp
    · right
      have h1 : (1 : ℚ) ≤ decValue i := by exact_mod_cast h0
      have h2 : (decValue i : ℚ) < 2 ^ 53 := by exact_mod_cast hi
      rw [hv]
      exact ⟨not_tiny h1, not_huge (le_trans h2.le (by norm_num))⟩
  rcases toBytes_unit h hu with ⟨h1, -⟩ | ⟨-, h2⟩
  · rw [hs] at h1; simp at h1
  · rw [h2]
    unfold scale
    have hm : fl (fl (value i []) * fl n) = ((decValue i * n : ℕ) : ℚ) := by
      rw [hfl, fl_unit hu, ← Nat.cast_mul, fl_natCast hl]
    have hle : decValue i ≤ (2 ^ 64 - 1) / n :=
      (Nat.le_div_iff_mul_le hn.1).2 (le_trans hl.le (by norm_num))
    have hg : fl (value i []) ≤ fl ((2 ^ 64 - 1) / n : ℕ) := by
      apply fl_mono (value_nonneg ..)
      rw [hv]; exact_mod_cast hle
    rw [if_neg (not_lt.2 hg), hm, if_pos]
    · rw [Int.floor_natCast]; rfl
    · have : decValue i * n < 2 ^ 64 := lt_trans hl (by norm_num)
      exact_mod_cast this

example : Written c!"10 MiB" c!"10" [] c!"MiB" ∧ UnitOf c!"MiB" (1024 ^ 2) ∧
    decValue c!"10" * 1024 ^ 2 < 2 ^ 53 :=
  ⟨(parse_iff ..).1 (by decide), .inr ⟨2, 'm', by simp, .inr ⟨by decide, rfl⟩⟩, by decide⟩

/-- C16: whatever is returned is the quantity written, cut to whole bytes, but for a relative
error of 2^-51. -/
theorem C16_close (s i f u : Str) (n b : ℕ) (h : Written s i f u) (hu : UnitOf u n)
    (hb : toBytes s = .ok b) : b < 2 ^ 64 ∧
      |(b : ℚ) - value i f * n| < 1 + value i f * n / 2 ^ 51 := by
  have hq := value_nonneg i f
  have hn : (0 : ℚ) < n := by exact_mod_cast (unit_pos hu).1
  rcases toBytes_unit h hu with ⟨-, h2⟩ | ⟨-, h2⟩
  · rw [h2] at hb; simp at hb
  · rw [h2] at hb
    unfold scale at hb
    rw [fl_unit hu] at hb
    split at hb
    · simp at hb
    split at hb
    · rename_i hlt
      obtain rfl : _ = b := by simpa using hb
      generalize value i f = q at *
      have hx := fl_nonneg q hq
      have e1 := abs_le.1 (fl_error hq)
      have e2 := abs_le.1 (fl_error (x := fl q * n) (by positivity))
      have hy := fl_nonneg (fl q * n) (by positivity)
      have hf0 : 0 ≤ ⌊fl (fl q * n)⌋ := Int.floor_nonneg.2 hy
      have f1 := Int.floor_le (fl (fl q * n))
      have f2 := Int.lt_floor_add_one (fl (fl q * n))
      have hc : ((⌊fl (fl q * n)⌋.toNat : ℚ)) = ⌊fl (fl q * n)⌋ := by
        have : ((⌊fl (fl q * n)⌋.toNat : ℤ)) = ⌊fl (fl q * n)⌋ := by omega
        exact_mod_cast this
      constructor
      · have h3 : (⌊fl (fl q * n)⌋.toNat : ℚ) < 2 ^ 64 := by rw [hc]; linarith
        exact_mod_cast h3
      · rw [hc]
        have g1 : fl q * n ≤ q * n + q * n / 2 ^ 53 := by
          have : fl q ≤ q + q / 2 ^ 53 := by linarith [e1.2]
          calc fl q * n ≤ (q + q / 2 ^ 53) * n := mul_le_mul_of_nonneg_right this hn.le
            _ = _ := by ring
        have g2 : q * n - q * n / 2 ^ 53 ≤ fl q * n := by
          have : q - q / 2 ^ 53 ≤ fl q := by linarith [e1.1]
          calc _ = (q - q / 2 ^ 53) * n := by ring
            _ ≤ _ := mul_le_mul_of_nonneg_right this hn.le
        have hqn : 0 ≤ q * n := by positivity
        generalize q * n = z at *
        generalize fl q * n = y at *
        generalize fl y = w at *
        obtain ⟨e3, e4⟩ := e2
        clear e1 h2 hb hlt h hc
        rw [abs_lt]
        norm_num at e3 e4 g1 g2 ⊢
        constructor <;> linarith
    · simp at hb

/-- A fraction that is not a double can lose a whole byte: 1.005 KB are 1004 bytes. -/
theorem C16_negation_fraction : toBytes c!"1.005KB" = .ok 1004 := by
  have hv : value c!"1" c!"005" = 1005 / 1000 := by
    have : decValue c!"1" = 1 := by decide
    have h5 : decValue c!"005" = 5 := by decide
    simp only [value, this, h5]; norm_num
  have hu : UnitOf c!"KB" 1000 := .inr ⟨1, 'k', by simp, .inl ⟨by decide, rfl⟩⟩
  have hs : stod (value c!"1" c!"005") = some (fl (value c!"1" c!"005")) :=
    stod_some (.inr ⟨not_tiny (by rw [hv]; norm_num), not_huge (by rw [hv]; norm_num)⟩)
  rcases toBytes_unit (s := c!"1.005KB") (i := c!"1") (f := c!"005") ((parse_iff ..).1 (by decide)) hu with ⟨h1, -⟩ | ⟨-, h2⟩
  · rw [hs] at h1; simp at h1
  · rw [h2, hv]
    have h3 : fl (1005 / 1000) = 4526117625507348 * 2 ^ (-52 : ℤ) := by
      have := fl_eq (x := 1005 / 1000) 4526117625507348 (-52) (by norm_num) (by norm_num)
        (by rw [abs_lt]; constructor <;> norm_num)
      exact_mod_cast this
    have h4 : fl (4526117625507348 * 2 ^ (-52 : ℤ) * 1000) = 8840073487319039 * 2 ^ (-43 : ℤ) := by
      have := fl_eq (x := 4526117625507348 * 2 ^ (-52 : ℤ) * 1000) 8840073487319039 (-43) (by norm_num) (by norm_num)
        (by rw [abs_lt]; constructor <;> norm_num)
      exact_mod_cast this
    unfold scale
    rw [fl_unit hu, h3, show ((1000 : ℕ) : ℚ) = 1000 from rfl, h4, if_neg, if_pos]
    · congr 1
      norm_num
      rfl
    · norm_num
    · rw [not_lt]
      refine le_trans ?_ (fl_mono (x := 2) (by norm_num) (by norm_num))
      rw [fl_exact (x := 2) ⟨2, 0, by norm_num, by norm_num⟩]
      norm_num

/-- It is within the bound of `C16_close`. -/
example : ∃ n b, Written c!"1.005KB" c!"1" c!"005" c!"KB" ∧ UnitOf c!"KB" n ∧ toBytes c!"1.005KB" = .ok b :=
  ⟨1000, 1004, (parse_iff ..).1 (by decide), .inr ⟨1, 'k', by simp, .inl ⟨by decide, rfl⟩⟩,
    C16_negation_fraction⟩

end Verif.Bytes
