import Verif.Common.Basic

/-!
# The Gregorian calendar of Go's `time` package, in UTC

An instant is a number of nanoseconds since 1 January of year 1, a day a number of days since then; years may be zero or negative. The
functions say what `Year`, `Month`, `Day`, `YearDay`, `Weekday`, `ISOWeek`, `Hour`, `Minute`, `Second`, `Nanosecond`, `Date` and `AddDate`
compute. The expression functions that use them are in data/ExpressionTree.go L1546-1750.
-/

namespace Verif.Calendar

/-- Nanoseconds of a second, a minute, an hour, a day. (package time, as used in data/ExpressionTree.go L1545-1745) -/
def second : Int := 1000000000
/-- package time, as used in data/ExpressionTree.go L1545-1745 -/
def minute : Int := 60000000000
/-- package time, as used in data/ExpressionTree.go L1545-1745 -/
def hour : Int := 3600000000000
/-- package time, as used in data/ExpressionTree.go L1545-1745 -/
def day : Int := 86400000000000

/-- package time, as used in data/ExpressionTree.go L1545-1745 -/
def Leap (y : Int) : Prop := y % 4 = 0 ∧ (y % 100 ≠ 0 ∨ y % 400 = 0)

instance (y : Int) : Decidable (Leap y) := by unfold Leap; infer_instance

/-- 29 February counted as one. (package time, as used in data/ExpressionTree.go L1545-1745) -/
def leapDay (y : Int) : Int := if Leap y then 1 else 0

/-- The days from 1 January of year 1 to 1 January of a year. (package time, as used in data/ExpressionTree.go L1545-1745) -/
def daysBeforeYear (y : Int) : Int := 365 * (y - 1) + (y - 1) / 4 - (y - 1) / 100 + (y - 1) / 400

/-- The days of a year before a month (1 to 12), `l` being the leap day. (package time, as used in data/ExpressionTree.go L1545-1745) -/
def daysBeforeMonth (l m : Int) : Int :=
  if m ≤ 1 then 0 else if m = 2 then 31 else if m = 3 then 59 + l else if m = 4 then 90 + l else if m = 5 then 120 + l
  else if m = 6 then 151 + l else if m = 7 then 181 + l else if m = 8 then 212 + l else if m = 9 then 243 + l
  else if m = 10 then 273 + l else if m = 11 then 304 + l else if m = 12 then 334 + l else 365 + l

/-- The day of a date as `time.Date` takes it: a month outside 1 to 12 moves the year, a day outside the month moves on.
(package time, as used in data/ExpressionTree.go L1545-1745) -/
def dayNumber (y m d : Int) : Int :=
  daysBeforeYear (y + (m - 1) / 12) + daysBeforeMonth (leapDay (y + (m - 1) / 12)) ((m - 1) % 12 + 1) + (d - 1)

/-- The year of a day. (package time, as used in data/ExpressionTree.go L1545-1745) -/
def yearOf (n : Int) : Int :=
  let q := n / 146097
  let r := n % 146097
  let c := min (r / 36524) 3
  let r2 := r - 36524 * c
  let k := r2 / 1461
  let r3 := r2 - 1461 * k
  400 * q + 100 * c + 4 * k + min (r3 / 365) 3 + 1

/-- The days of its year before a day. (package time, as used in data/ExpressionTree.go L1545-1745) -/
def yearDay (n : Int) : Int := n - daysBeforeYear (yearOf n)

/-- The month of the day with `d` days of its year before it. (package time, as used in data/ExpressionTree.go L1545-1745) -/
def monthAt (l d : Int) : Int :=
  if d < 31 then 1 else if d < 59 + l then 2 else if d < 90 + l then 3 else if d < 120 + l then 4 else if d < 151 + l then 5
  else if d < 181 + l then 6 else if d < 212 + l then 7 else if d < 243 + l then 8 else if d < 273 + l then 9
  else if d < 304 + l then 10 else if d < 334 + l then 11 else 12

/-- The month of a day. (package time, as used in data/ExpressionTree.go L1545-1745) -/
def monthOf (n : Int) : Int := monthAt (leapDay (yearOf n)) (yearDay n)

/-- The day of the month. (package time, as used in data/ExpressionTree.go L1545-1745) -/
def dayOf (n : Int) : Int := yearDay n - daysBeforeMonth (leapDay (yearOf n)) (monthOf n) + 1

/-- `Weekday`: Sunday is 0. The first day is a Monday. (data/ExpressionTree.go L1735) -/
def weekday (n : Int) : Int := (n + 1) % 7

/-- `ISOWeek`: the week of the year of the Thursday of the same week. (data/ExpressionTree.go L1737) -/
def isoWeek (n : Int) : Int := yearDay (n - n % 7 + 3) / 7 + 1

/-- The length of a month. (package time, as used in data/ExpressionTree.go L1545-1745) -/
def monthLength (y m : Int) : Int := daysBeforeMonth (leapDay y) (m + 1) - daysBeforeMonth (leapDay y) m

/-- A date that exists. (package time, as used in data/ExpressionTree.go L1545-1745) -/
def IsDate (y m d : Int) : Prop := 1 ≤ m ∧ m ≤ 12 ∧ 1 ≤ d ∧ d ≤ monthLength y m

instance (y m d : Int) : Decidable (IsDate y m d) := by unfold IsDate; infer_instance

theorem leapDay_cases (y : Int) : leapDay y = 0 ∨ leapDay y = 1 := by
  unfold leapDay
  split <;> simp

/-- The length of a year. -/
theorem year_length (y : Int) : daysBeforeYear (y + 1) = daysBeforeYear y + 365 + leapDay y := by
  unfold leapDay
  by_cases h : Leap y
  · rw [if_pos h]
    unfold Leap at h
    unfold daysBeforeYear
    omega
  · rw [if_neg h]
    unfold Leap at h
    unfold daysBeforeYear
    omega

theorem daysBeforeYear_mono {a b : Int} (h : a ≤ b) : daysBeforeYear a + 365 * (b - a) ≤ daysBeforeYear b := by
  unfold daysBeforeYear
  omega

/-- The year of a day is the one it lies in. -/
theorem yearOf_spec (n : Int) : daysBeforeYear (yearOf n) ≤ n ∧ n < daysBeforeYear (yearOf n + 1) := by
  unfold yearOf
  dsimp only
  generalize hq : n / 146097 = q
  generalize hr : n % 146097 = r
  generalize hc : min (r / 36524) 3 = c
  generalize hk : (r - 36524 * c) / 1461 = k
  generalize hj : min ((r - 36524 * c - 1461 * k) / 365) 3 = j
  have hn : n = 146097 * q + r := by omega
  have hr0 : 0 ≤ r ∧ r < 146097 := by omega
  have hc0 : 0 ≤ c ∧ c ≤ 3 ∧ 36524 * c ≤ r ∧ (r < 36524 * c + 36524 ∨ c = 3) := by omega
  have hk0 : 0 ≤ k ∧ k ≤ 24 ∧ 1461 * k ≤ r - 36524 * c ∧ r - 36524 * c < 1461 * k + 1461 := by omega
  have hj0 : 0 ≤ j ∧ j ≤ 3 ∧ 365 * j ≤ r - 36524 * c - 1461 * k ∧ (r - 36524 * c - 1461 * k < 365 * j + 365 ∨ j = 3) := by omega
  clear hq hr hc hk hj
  unfold daysBeforeYear
  have e1 : (400 * q + 100 * c + 4 * k + j + 1 - 1) / 4 = 100 * q + 25 * c + k := by omega
  have e2 : (400 * q + 100 * c + 4 * k + j + 1 - 1) / 100 = 4 * q + c := by omega
  have e3 : (400 * q + 100 * c + 4 * k + j + 1 - 1) / 400 = q := by omega
  constructor
  · rw [e1, e2, e3]
    omega
  · have f1 : (400 * q + 100 * c + 4 * k + j + 1 + 1 - 1) / 4 = 100 * q + 25 * c + k + (if j = 3 then 1 else 0) := by split <;> omega
    have f2 : (400 * q + 100 * c + 4 * k + j + 1 + 1 - 1) / 100 = 4 * q + c + (if k = 24 ∧ j = 3 then 1 else 0) := by split <;> omega
    have f3 : (400 * q + 100 * c + 4 * k + j + 1 + 1 - 1) / 400 = q + (if c = 3 ∧ k = 24 ∧ j = 3 then 1 else 0) := by split <;> omega
    rw [f1, f2, f3]
    split <;> split <;> split <;> omega

/-- And there is only one. -/
theorem yearOf_unique {n y : Int} (h1 : daysBeforeYear y ≤ n) (h2 : n < daysBeforeYear (y + 1)) : yearOf n = y := by
  obtain ⟨h3, h4⟩ := yearOf_spec n
  rcases Int.lt_trichotomy (yearOf n) y with h | h | h
  · have := daysBeforeYear_mono (a := yearOf n + 1) (b := y) (by omega)
    omega
  · exact h
  · have := daysBeforeYear_mono (a := y + 1) (b := yearOf n) (by omega)
    omega

theorem yearDay_range (n : Int) : 0 ≤ yearDay n ∧ yearDay n < 365 + leapDay (yearOf n) := by
  have := yearOf_spec n
  have := year_length (yearOf n)
  unfold yearDay
  omega

/-- The month of a day of the year is the one it lies in. -/
theorem monthAt_spec {l d : Int} (h0 : 0 ≤ d) (h1 : d < 365 + l) :
    1 ≤ monthAt l d ∧ monthAt l d ≤ 12 ∧ daysBeforeMonth l (monthAt l d) ≤ d ∧ d < daysBeforeMonth l (monthAt l d + 1) := by
  unfold monthAt
  repeat' split
  all_goals (simp [daysBeforeMonth]; omega)

theorem monthAt_unique {l d m : Int} (hl : l = 0 ∨ l = 1) (hm : 1 ≤ m ∧ m ≤ 12) (h0 : daysBeforeMonth l m ≤ d)
    (h1 : d < daysBeforeMonth l (m + 1)) : monthAt l d = m := by
  obtain ⟨hm1, hm2⟩ := hm
  have : m = 1 ∨ m = 2 ∨ m = 3 ∨ m = 4 ∨ m = 5 ∨ m = 6 ∨ m = 7 ∨ m = 8 ∨ m = 9 ∨ m = 10 ∨ m = 11 ∨ m = 12 := by omega
  rcases this with rfl | rfl | rfl | rfl | rfl | rfl | rfl | rfl | rfl | rfl | rfl | rfl <;>
    (simp [daysBeforeMonth] at h0 h1
     unfold monthAt
     repeat (first | rw [if_neg (by omega)] | rw [if_pos (by omega)]))

theorem daysBeforeMonth_range {l m : Int} (hl : l = 0 ∨ l = 1) (h : 1 ≤ m ∧ m ≤ 12) :
    0 ≤ daysBeforeMonth l m ∧ daysBeforeMonth l m < daysBeforeMonth l (m + 1) ∧ daysBeforeMonth l (m + 1) ≤ 365 + l := by
  obtain ⟨h1, h2⟩ := h
  have : m = 1 ∨ m = 2 ∨ m = 3 ∨ m = 4 ∨ m = 5 ∨ m = 6 ∨ m = 7 ∨ m = 8 ∨ m = 9 ∨ m = 10 ∨ m = 11 ∨ m = 12 := by omega
  rcases this with rfl | rfl | rfl | rfl | rfl | rfl | rfl | rfl | rfl | rfl | rfl | rfl <;> (simp [daysBeforeMonth]; omega)

theorem dayNumber_date {y m : Int} (d : Int) (h : 1 ≤ m ∧ m ≤ 12) :
    dayNumber y m d = daysBeforeYear y + daysBeforeMonth (leapDay y) m + (d - 1) := by
  unfold dayNumber
  rw [show (m - 1) / 12 = 0 by omega, show (m - 1) % 12 + 1 = m by omega, Int.add_zero]

/-- The parts of a date that exists. -/
theorem parts {y m d : Int} (h : IsDate y m d) : yearOf (dayNumber y m d) = y ∧ monthOf (dayNumber y m d) = m ∧
    dayOf (dayNumber y m d) = d ∧ yearDay (dayNumber y m d) = daysBeforeMonth (leapDay y) m + (d - 1) := by
  obtain ⟨h1, h2, h3, h4⟩ := h
  unfold monthLength at h4
  have hr := daysBeforeMonth_range (leapDay_cases y) ⟨h1, h2⟩
  have hy := year_length y
  have hn := dayNumber_date (y := y) d ⟨h1, h2⟩
  have e1 : yearOf (dayNumber y m d) = y := yearOf_unique (by omega) (by omega)
  have e4 : yearDay (dayNumber y m d) = daysBeforeMonth (leapDay y) m + (d - 1) := by
    unfold yearDay
    rw [e1]
    omega
  have e2 : monthOf (dayNumber y m d) = m := by
    unfold monthOf
    rw [e1, e4]
    exact monthAt_unique (leapDay_cases y) ⟨h1, h2⟩ (by omega) (by omega)
  refine ⟨e1, e2, ?_, e4⟩
  unfold dayOf
  rw [e1, e2, e4]
  omega

/-- Every day has a date, and the date is that day's. -/
theorem date_of (n : Int) : IsDate (yearOf n) (monthOf n) (dayOf n) ∧ dayNumber (yearOf n) (monthOf n) (dayOf n) = n := by
  have hr := yearDay_range n
  have hm := monthAt_spec hr.1 hr.2
  change 1 ≤ monthOf n ∧ monthOf n ≤ 12 ∧ daysBeforeMonth (leapDay (yearOf n)) (monthOf n) ≤ yearDay n ∧
    yearDay n < daysBeforeMonth (leapDay (yearOf n)) (monthOf n + 1) at hm
  have hd : dayOf n = yearDay n - daysBeforeMonth (leapDay (yearOf n)) (monthOf n) + 1 := rfl
  refine ⟨⟨hm.1, hm.2.1, by omega, by unfold monthLength; omega⟩, ?_⟩
  rw [dayNumber_date _ ⟨hm.1, hm.2.1⟩, hd]
  unfold yearDay
  omega

example : IsDate 2024 2 29 ∧ ¬ IsDate 2023 2 29 ∧ ¬ IsDate 1900 2 29 ∧ IsDate 2000 2 29 := by decide
example : dayNumber 1970 1 1 = 719162 ∧ weekday (dayNumber 2026 11 15) = 0 ∧ isoWeek (dayNumber 2021 1 3) = 53 := by decide

end Verif.Calendar
