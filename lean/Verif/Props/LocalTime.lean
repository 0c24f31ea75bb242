import Verif.Model.LocalTime
import Verif.Props.TimeFormat
/-!
C123: texts of timestamps in local time.
-/
namespace Verif.LocalTime
open Verif Verif.TimeUtils Verif.Spec.Calendar

/-- Specification: a time zone is never more than a day away from UTC. -/
def Zone.Near (z : Zone) : Prop := ∀ t, -86400 ≤ z.offset t ∧ z.offset t ≤ 86400

/-- Specification: a timestamp more than two days away from the ends of the range of timestamps. -/
def Inner (ns : Int) : Prop := -2^63 + 172801000000000 ≤ ns ∧ ns < 2^63 - 172801000000000

theorem inner_sec {ns : Int} (h : Inner ns) : -9223199236 ≤ toTimeT ns ∧ toTimeT ns ≤ 9223199236 := by
  unfold Inner at h
  unfold toTimeT
  by_cases h0 : 0 ≤ ns
  · rw [Int.tdiv_eq_ediv_of_nonneg h0]; omega
  · rw [show ns = -(-ns) by omega, Int.neg_tdiv, Int.tdiv_eq_ediv_of_nonneg (by omega)]; omega

theorem string_of_get {z : Zone} {text : Str} {fmt : List Item} {tm : Tm}
    (hne : text.dropWhile isSpace ≠ []) (h : getTime .zero fmt (text.dropWhile isSpace) = some tm) :
    stringToTimestamp z text fmt
      = if mktime z tm = -1 then .throw .valueNotAllowed else fromTimeT (mktime z tm) := by
  unfold stringToTimestamp
  obtain ⟨a, r, hr⟩ := List.exists_cons_of_ne_nil hne
  rw [hr] at h ⊢
  simp only [h]

/-- The broken-down time shown at wall second `w`. -/
def shown (w : Int) : Tm := tmFor (dateOf (w / 86400)) (timeOf w)

theorem print_eq {z : Zone} {ns : Int} (fmt : List Item)
    (hw : -9223372036 ≤ z.wall (toTimeT ns) ∧ z.wall (toTimeT ns) ≤ 9223372036) :
    timestampToString z ns fmt = .ok (putTime (shown (z.wall (toTimeT ns))) fmt) := by
  unfold timestampToString localtime
  simp only [normalize, (gmtime_range _ hw).1, shown]

theorem read_eq {z : Zone} {w : Int} {fmt : List Item} (hf : Complete fmt)
    (hw : -9223372036 ≤ w ∧ w ≤ 9223372036) :
    stringToTimestamp z (putTime (shown w) fmt) fmt
      = if z.pick w = -1 then .throw .valueNotAllowed else fromTimeT (z.pick w) := by
  obtain ⟨hg, hgood⟩ := gmtime_range _ hw
  have hs : secondsOf (shown w) = w := by
    unfold shown
    rw [secondsOf_tmFor _ _ (dateOf_valid _), dayOf_dateOf, timeOf_seconds]
  have hm : mktime z (shown w) = z.pick w := by
    unfold mktime
    rw [hs, hg]; rfl
  have hne := text_ne_nil _ hgood (hf .Y (by decide))
  have := string_of_get (z := z) hne (get_put_skip _ hgood .zero fmt hne)
  rw [upd_complete _ _ fmt hf] at this
  rw [← hm]
  exact this

theorem wall_range {z : Zone} (hz : z.Near) {ns : Int} (h : Inner ns) :
    -9223372036 ≤ z.wall (toTimeT ns) ∧ z.wall (toTimeT ns) ≤ 9223372036 := by
  have := inner_sec h
  have := hz (toTimeT ns)
  unfold Zone.wall
  omega

/-- C123.  In the default format the text shows the date and the time of day that are `offset` seconds later
than UTC. -/
theorem C123_print (z : Zone) (hz : z.Near) (ns : Int) (h : Inner ns) :
    ∃ (text : Str) (d : Date) (t : Time) (n : Int), timestampToString z ns defaultFormat = .ok text ∧
      IsText text d.year.toNat d.month d.day t.hour t.minute t.second ∧ d.Valid ∧ t.Valid ∧
      DayNo d n ∧ n * 86400 + t.seconds = ns.tdiv 1000000000 + z.offset (ns.tdiv 1000000000) := by
  have hw := wall_range hz h
  have hy := year_range _ hw
  exact ⟨_, _, _, _, print_eq _ hw,
    putTime_default _ _ (dateOf_valid _) (timeOf_valid _) (by omega), dateOf_valid _, timeOf_valid _,
    (dayNo_iff _ (dateOf_valid _) _).2 rfl, by rw [dayOf_dateOf]; exact timeOf_seconds _⟩

/-- C123.  Whatever the zone does, a text that is read is read as a timestamp with the same text. -/
theorem C123_same_text (z : Zone) (hg : z.Good) (hz : z.Near) (ns : Int) (h : Inner ns) (fmt : List Item)
    (hf : Complete fmt) :
    ∃ text, timestampToString z ns fmt = .ok text ∧
      (stringToTimestamp z text fmt = .throw .valueNotAllowed ∨
        ∃ ns', stringToTimestamp z text fmt = .ok ns' ∧ timestampToString z ns' fmt = .ok text) := by
  have hw := wall_range hz h
  have hs := inner_sec h
  have e := hg (toTimeT ns)
  refine ⟨_, print_eq fmt hw, ?_⟩
  rw [read_eq hf hw]
  by_cases h1 : z.pick (z.wall (toTimeT ns)) = -1
  · exact .inl (if_pos h1)
  · right
    rw [if_neg h1]
    have a := hz (toTimeT ns)
    have b := hz (z.pick (z.wall (toTimeT ns)))
    generalize hp : z.pick (z.wall (toTimeT ns)) = p at *
    have e' : p + z.offset p = toTimeT ns + z.offset (toTimeT ns) := e
    refine ⟨_, fromTimeT_ok (by unfold int64; omega), ?_⟩
    rw [print_eq fmt (by rw [tdiv_mul_nine, e]; exact hw), tdiv_mul_nine, e]

/-- C123 for the timestamps whose local time no other second has, outside the last second but one before 1970
(missing: those, see `C123_negation_overlap` and `C123_negation_refused`).  The text is read back as the
timestamp without its fraction of a second. -/
theorem C123_text_partial (z : Zone) (hg : z.Good) (hz : z.Near) (ns : Int) (h : Inner ns)
    (hm : ¬ (-2000000000 < ns ∧ ns ≤ -1000000000))
    (hu : ∀ t, t + z.offset t = ns.tdiv 1000000000 + z.offset (ns.tdiv 1000000000) → t = ns.tdiv 1000000000)
    (fmt : List Item) (hf : Complete fmt) :
    ∃ text, timestampToString z ns fmt = .ok text ∧
      stringToTimestamp z text fmt = .ok (ns.tdiv 1000000000 * 1000000000) := by
  have hw := wall_range hz h
  have hs := inner_sec h
  refine ⟨_, print_eq fmt hw, ?_⟩
  have e : z.pick (z.wall (toTimeT ns)) = toTimeT ns := hu _ (hg (toTimeT ns))
  have hn1 : toTimeT ns ≠ -1 := by
    unfold toTimeT
    by_cases h0 : 0 ≤ ns
    · rw [Int.tdiv_eq_ediv_of_nonneg h0]; omega
    · rw [show ns = -(-ns) by omega, Int.neg_tdiv, Int.tdiv_eq_ediv_of_nonneg (by omega)]; omega
  rw [read_eq hf hw, e, if_neg hn1]
  exact fromTimeT_ok (by unfold int64; omega)

/-- C123 is false when clocks are put back: of two seconds with the same local time at most one is read back,
whichever `mktime` takes. -/
theorem C123_negation_overlap (z : Zone) (hz : z.Near) (t t' : Int) (hne : t ≠ t')
    (he : t + z.offset t = t' + z.offset t') (h : Inner (t * 1000000000)) (h' : Inner (t' * 1000000000))
    (fmt : List Item) (hf : Complete fmt) :
    ¬ ∀ u ∈ [t, t'], ∃ text, timestampToString z (u * 1000000000) fmt = .ok text ∧
      stringToTimestamp z text fmt = .ok (u * 1000000000) := by
  intro H
  obtain ⟨x, hx, hx'⟩ := H t (by simp)
  obtain ⟨y, hy, hy'⟩ := H t' (by simp)
  have e1 : toTimeT (t * 1000000000) = t := tdiv_mul_nine t
  have e2 : toTimeT (t' * 1000000000) = t' := tdiv_mul_nine t'
  rw [print_eq fmt (wall_range hz h), e1] at hx
  rw [print_eq fmt (wall_range hz h'), e2, show z.wall t' = z.wall t from he.symm] at hy
  have : x = y := by injection hx with hx; injection hy with hy; rw [← hx, hy]
  subst this
  rw [hx'] at hy'
  injection hy' with hy'
  omega

/-- C123 is false for the second before 1970: it is refused, being the value with which `mktime` reports a
failure. -/
theorem C123_negation_refused (z : Zone) (hg : z.Good) (hz : z.Near)
    (hu : ∀ t, t + z.offset t = -1 + z.offset (-1) → t = -1) (fmt : List Item) (hf : Complete fmt) :
    ∃ text, timestampToString z (-1000000000) fmt = .ok text ∧
      stringToTimestamp z text fmt = .throw .valueNotAllowed := by
  have h : Inner (-1000000000) := by unfold Inner; omega
  have e1 : toTimeT (-1000000000) = -1 := by decide
  have hw := wall_range hz h
  refine ⟨_, print_eq fmt hw, ?_⟩
  rw [read_eq hf hw, e1, show z.pick (z.wall (-1)) = -1 from hu _ (hg (-1)), if_pos rfl]

/-- C123.  With `mktime` inverse to a zone that is UTC, both functions are those in UTC. -/
theorem C123_utc (z : Zone) (h0 : ∀ t, z.offset t = 0) (hp : ∀ t, z.pick t = t) (ns : Int) (text : Str)
    (fmt : List Item) :
    timestampToString z ns fmt = TimeUtils.timestampToString ns fmt ∧
      stringToTimestamp z text fmt = TimeUtils.stringToTimestamp text fmt := by
  have hw : ∀ t, z.wall t = t := fun t => by unfold Zone.wall; rw [h0]; omega
  have hm : ∀ tm, mktime z tm = timegm tm := fun tm => by unfold mktime timegm; rw [hp]
  constructor
  · unfold timestampToString TimeUtils.timestampToString localtime; rw [hw]
    cases gmtime (normalize .linux (toTimeT ns)) <;> rfl
  · unfold stringToTimestamp TimeUtils.stringToTimestamp; simp only [hm]
    cases text.dropWhile isSpace with
    | nil => rfl
    | cons a r => cases h : getTime .zero fmt (a :: r) <;> simp only [h]

/-! ### A zone that puts its clocks back: two hours ahead, from second 1729990800 one hour ahead -/

def autumn : Zone where
  offset t := if t < 1729990800 then 7200 else 3600
  pick w := if w - 7200 < 1729990800 then w - 7200 else w - 3600

theorem autumn_good : autumn.Good := by
  intro t
  unfold Zone.wall autumn
  simp only
  repeat' split
  all_goals omega

theorem autumn_near : autumn.Near := by
  intro t
  unfold autumn
  simp only
  split <;> omega

theorem default_complete : Complete defaultFormat := by
  intro c hc; cases c <;> simp_all [defaultFormat]

example : ∃ text, timestampToString autumn 1709209815123456789 defaultFormat = .ok text ∧
    stringToTimestamp autumn text defaultFormat = .ok 1709209815000000000 :=
  C123_text_partial autumn autumn_good autumn_near _ (by unfold Inner; omega) (by decide)
    (by intro t h; unfold autumn at h; simp only at h; revert h
        rw [show Int.tdiv 1709209815123456789 1000000000 = 1709209815 by decide]
        repeat' split
        all_goals omega)
    _ default_complete

/-- 02:30 occurs twice in the night the clocks are put back. -/
example : ¬ ∀ u ∈ [1729989000, 1729992600], ∃ text,
    timestampToString autumn (u * 1000000000) defaultFormat = .ok text ∧
      stringToTimestamp autumn text defaultFormat = .ok (u * 1000000000) :=
  C123_negation_overlap autumn autumn_near 1729989000 1729992600 (by decide) (by decide)
    (by unfold Inner; omega) (by unfold Inner; omega) _ default_complete

example : ∃ text, timestampToString autumn (-1000000000) defaultFormat = .ok text ∧
    stringToTimestamp autumn text defaultFormat = .throw .valueNotAllowed :=
  C123_negation_refused autumn autumn_good autumn_near
    (by intro t h; unfold autumn at h; simp only at h; revert h
        repeat' split
        all_goals omega) _ default_complete

example : ∃ (text : Str) (d : Date) (t : Time) (n : Int), timestampToString autumn 1709209815000000000 defaultFormat = .ok text ∧
    IsText text d.year.toNat d.month d.day t.hour t.minute t.second ∧ d.Valid ∧ t.Valid ∧
    DayNo d n ∧ n * 86400 + t.seconds = 1709217015 :=
  C123_print autumn autumn_near 1709209815000000000 (by unfold Inner; omega)

example (fmt : List Item) (hf : Complete fmt) : ∃ text, timestampToString autumn 1729992600000000000 fmt = .ok text ∧
    (stringToTimestamp autumn text fmt = .throw .valueNotAllowed ∨
      ∃ ns', stringToTimestamp autumn text fmt = .ok ns' ∧ timestampToString autumn ns' fmt = .ok text) :=
  C123_same_text autumn autumn_good autumn_near _ (by unfold Inner; omega) fmt hf

example (text : Str) : stringToTimestamp ⟨fun _ => 0, id⟩ text defaultFormat
    = TimeUtils.stringToTimestamp text defaultFormat :=
  (C123_utc ⟨fun _ => 0, id⟩ (fun _ => rfl) (fun _ => rfl) 0 text _).2

end Verif.LocalTime
