import Verif.Model.Value
/-!
# The civil calendar and time zones

The proleptic Gregorian calendar as POSIX has it ("Seconds Since the Epoch"), and what `localtime_r` and `mktime` of a C library do in a
time zone. Nothing here is part of fastrpc.
-/
namespace Frpc
namespace Spec.Civil

/-- A leap year. -/
def leap (y : Int) : Bool := y % 4 = 0 && (y % 100 ≠ 0 || y % 400 = 0)

/-- The days of a month, 1 to 12. -/
def monthLength (y m : Int) : Int :=
  if m = 2 then (if leap y then 29 else 28) else if m = 4 ∨ m = 6 ∨ m = 9 ∨ m = 11 then 30 else 31

/-- The days from 1 January of year 1 to 1 January of the year. -/
def daysBeforeYear (y : Int) : Int := 365 * (y - 1) + (y - 1) / 4 - (y - 1) / 100 + (y - 1) / 400

/-- The days of the year before the month. -/
def daysBeforeMonth (y m : Int) : Int :=
  (if m ≤ 1 then 0 else if m = 2 then 31 else if m = 3 then 59 else if m = 4 then 90 else if m = 5 then 120 else if m = 6 then 151 else
   if m = 7 then 181 else if m = 8 then 212 else if m = 9 then 243 else if m = 10 then 273 else if m = 11 then 304 else 334) +
  if m > 2 ∧ leap y then 1 else 0

/-- The number of a day, 1 January 1970 being day 0. A month beyond 12 or below 1 is in another year, a day beyond the end of its month in
the next one. -/
def dayNumber (y m d : Int) : Int :=
  let y' := y + (m - 1) / 12
  let m' := (m - 1) % 12 + 1
  daysBeforeYear y' + daysBeforeMonth y' m' + (d - 1) - 719162

/-- The seconds from the beginning of 1970 that a clock showing these fields has gone. -/
def seconds (y m d h mi s : Int) : Int := dayNumber y m d * 86400 + h * 3600 + mi * 60 + s

/-- The day of the week, 0 for Sunday. -/
def weekDay (n : Int) : Int := (n + 4) % 7

/-- A day of the calendar and a time of the clock. -/
structure Valid (y m d h mi s : Int) : Prop where
  month : 1 ≤ m ∧ m ≤ 12
  day : 1 ≤ d ∧ d ≤ monthLength y m
  hour : 0 ≤ h ∧ h ≤ 23
  minute : 0 ≤ mi ∧ mi ≤ 59
  sec : 0 ≤ s ∧ s ≤ 59

/-! That `dayNumber` counts days: the epoch is day 0, the day after a day has the next number. -/

theorem epoch : dayNumber 1970 1 1 = 0 := by decide

theorem nextYear (y : Int) : daysBeforeYear (y + 1) = daysBeforeYear y + 365 + if leap y then 1 else 0 := by
  unfold daysBeforeYear leap
  by_cases h4 : y % 4 = 0 <;> by_cases h1 : y % 100 = 0 <;> by_cases h400 : y % 400 = 0 <;> simp [h4, h1, h400] <;> omega

theorem nextMonth (y m : Int) (h : 1 ≤ m ∧ m ≤ 12) : (if m = 12 then daysBeforeYear (y + 1) else daysBeforeYear y + daysBeforeMonth y (m + 1)) =
    daysBeforeYear y + daysBeforeMonth y m + monthLength y m := by
  have hm : m = 1 ∨ m = 2 ∨ m = 3 ∨ m = 4 ∨ m = 5 ∨ m = 6 ∨ m = 7 ∨ m = 8 ∨ m = 9 ∨ m = 10 ∨ m = 11 ∨ m = 12 := by omega
  have := nextYear y
  rcases hm with rfl | rfl | rfl | rfl | rfl | rfl | rfl | rfl | rfl | rfl | rfl | rfl <;>
    simp [daysBeforeMonth, monthLength, this] <;> (cases leap y <;> simp <;> omega)

/-- The number of the day after. -/
theorem dayNumber_next (y m d : Int) (hm : 1 ≤ m ∧ m ≤ 12) :
    dayNumber y m (d + 1) = dayNumber y m d + 1 ∧ dayNumber y (m + 1) 1 = dayNumber y m (monthLength y m) + 1 := by
  constructor
  · unfold dayNumber; simp only; omega
  · have h := nextMonth y m hm
    unfold dayNumber
    simp only [Int.add_sub_cancel]
    have h1 : (m - 1) / 12 = 0 := by omega
    have h2 : (m - 1) % 12 + 1 = m := by omega
    rw [h1, h2]
    by_cases h12 : m = 12
    · subst h12
      simp only [if_true] at h
      have : daysBeforeMonth (y + 12 / 12) (12 % 12 + 1) = 0 := by simp [daysBeforeMonth]
      have e : (12 : Int) / 12 = 1 := by decide
      rw [this, e]
      simp only [Int.add_zero]
      omega
    · rw [if_neg h12] at h
      have h3 : m / 12 = 0 := by omega
      have h4 : m % 12 + 1 = m + 1 := by omega
      rw [h3, h4, Int.add_zero]
      omega

/-- Fields of a broken down time, with the year and month as people count them. -/
structure Fields where
  year : Int
  month : Int
  day : Int
  hour : Int
  minute : Int
  sec : Int
deriving DecidableEq

/-- The seconds that a clock showing them has gone. -/
def Fields.seconds (f : Fields) : Int := Civil.seconds f.year f.month f.day f.hour f.minute f.sec

/-- They are a day of the calendar and a time of the clock. -/
def Fields.Valid (f : Fields) : Prop := Civil.Valid f.year f.month f.day f.hour f.minute f.sec

end Spec.Civil
end Frpc
