/-!
The Gregorian calendar, told by its rules: how long a month is and which date comes
after which.  Written without reference to the models.
-/
namespace Verif.Spec.Calendar

structure Date where
  year : Int
  month : Nat
  day : Nat
deriving DecidableEq, Repr

/-- Every fourth year is a leap year, except the centuries that 400 does not divide. -/
def Leap (y : Int) : Prop := (4 : Int) ∣ y ∧ (¬ (100 : Int) ∣ y ∨ (400 : Int) ∣ y)

instance (y : Int) : Decidable (Leap y) := inferInstanceAs (Decidable (_ ∧ _))

/-- Length of a month. -/
def monthLength (y : Int) (m : Nat) : Nat :=
  if m = 2 then (if Leap y then 29 else 28)
  else if m = 4 ∨ m = 6 ∨ m = 9 ∨ m = 11 then 30 else 31

/-- A date that exists. -/
def Date.Valid (d : Date) : Prop :=
  1 ≤ d.month ∧ d.month ≤ 12 ∧ 1 ≤ d.day ∧ d.day ≤ monthLength d.year d.month

instance (d : Date) : Decidable d.Valid := inferInstanceAs (Decidable (_ ∧ _ ∧ _ ∧ _))

/-- The day after. -/
def Date.next (d : Date) : Date :=
  if d.day < monthLength d.year d.month then { d with day := d.day + 1 }
  else if d.month < 12 then { d with month := d.month + 1, day := 1 }
  else { year := d.year + 1, month := 1, day := 1 }

/-- `DayNo d n`: counting one day at a time from 1970-01-01, forwards or backwards, `d` is
day `n`. -/
inductive DayNo : Date → Int → Prop
  | epoch : DayNo ⟨1970, 1, 1⟩ 0
  | after {d n} : DayNo d n → DayNo d.next (n + 1)
  | before {d n} : d.Valid → DayNo d.next (n + 1) → DayNo d n

/-- A moment of a day; no leap seconds. -/
structure Time where
  hour : Nat
  minute : Nat
  second : Nat
deriving DecidableEq, Repr

def Time.Valid (t : Time) : Prop := t.hour < 24 ∧ t.minute < 60 ∧ t.second < 60

instance (t : Time) : Decidable t.Valid := inferInstanceAs (Decidable (_ ∧ _ ∧ _))

/-- Seconds since midnight. -/
def Time.seconds (t : Time) : Nat := t.hour * 3600 + t.minute * 60 + t.second

/-- `d, t` is earlier than `d', t'`: year, month, day, hour, minute, second compared in this
order. -/
def Earlier (d : Date) (t : Time) (d' : Date) (t' : Time) : Prop :=
  d.year < d'.year ∨ d.year = d'.year ∧
  (d.month < d'.month ∨ d.month = d'.month ∧
  (d.day < d'.day ∨ d.day = d'.day ∧
  (t.hour < t'.hour ∨ t.hour = t'.hour ∧
  (t.minute < t'.minute ∨ t.minute = t'.minute ∧ t.second < t'.second))))

example : (⟨2024, 2, 28⟩ : Date).next = ⟨2024, 2, 29⟩ := by decide
example : (⟨1900, 2, 28⟩ : Date).next = ⟨1900, 3, 1⟩ := by decide
example : (⟨2024, 12, 31⟩ : Date).next = ⟨2025, 1, 1⟩ := by decide

end Verif.Spec.Calendar
