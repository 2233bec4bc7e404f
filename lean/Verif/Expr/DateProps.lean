import Verif.Expr.NumProps

/-!
# C77, C78, C79: DatePart, DateAdd, DateDiff

C77, full statement: DatePart gives the year, month, day, day of the year, ISO week, day of the week (Sunday is 1), hour, minute, second
and millisecond of a date; the name of the interval is read letter case and surrounding white space aside, any other name and a text
that is no date are refused.

C78, full statement: DateAdd moves a date by exactly the given number of intervals: of hours, minutes, seconds and milliseconds as
elapsed time, of days and weeks as days, of months and years to the same day of the month that many months on.

C79, full statement: DateDiff is the number of whole intervals between two dates, negative when the second is earlier, and undoes
DateAdd.

Dates are in UTC: what `time.Time` does in another time zone is not modelled.
-/

namespace Verif.Expr

variable {P : Prim}

open Val Calendar

/-- What is assumed of Go's `time` package: instants are counted in nanoseconds since 1 January of year 1, in UTC, and its functions are
those of the calendar. The bounds keep clear of the overflows of its own arithmetic. -/
structure Clock (P : Prim) where
  ns : P.Time → Int
  year : ∀ t, P.timeYear t = yearOf (ns t / day)
  month : ∀ t, P.timeMonth t = monthOf (ns t / day)
  yearDay : ∀ t, P.timeYearDay t = Calendar.yearDay (ns t / day) + 1
  day_ : ∀ t, P.timeDay t = dayOf (ns t / day)
  weekday : ∀ t, P.timeWeekday t = Calendar.weekday (ns t / day)
  week : ∀ t, P.timeISOWeek t = isoWeek (ns t / day)
  hour : ∀ t, P.timeHour t = ns t % day / Calendar.hour
  minute : ∀ t, P.timeMinute t = ns t % Calendar.hour / Calendar.minute
  second : ∀ t, P.timeSecond t = ns t % Calendar.minute / Calendar.second
  nano : ∀ t, P.timeNano t = ns t % Calendar.second
  addDate : ∀ t y m d, -2 ^ 80 < ns t → ns t < 2 ^ 80 → -2 ^ 34 ≤ y → y ≤ 2 ^ 34 → -2 ^ 34 ≤ m → m ≤ 2 ^ 34 → -2 ^ 34 ≤ d → d ≤ 2 ^ 34 →
    ns (P.timeAddDate t y m d) =
      dayNumber (yearOf (ns t / day) + y) (monthOf (ns t / day) + m) (dayOf (ns t / day) + d) * day + ns t % day
  addDur : ∀ t d, -2 ^ 80 < ns t → ns t < 2 ^ 80 → ns (P.timeAddDur t d) = ns t + d.toInt
  sub : ∀ a b, (P.timeSub a b).toInt = max (-2 ^ 63) (min (2 ^ 63 - 1) (ns a - ns b))

/-- The calendar itself meets the assumptions. -/
def toyClock : Clock Toy.prim where
  ns := fun t => t
  year := fun _ => rfl
  month := fun _ => rfl
  yearDay := fun _ => rfl
  day_ := fun _ => rfl
  weekday := fun _ => rfl
  week := fun _ => rfl
  hour := fun _ => rfl
  minute := fun _ => rfl
  second := fun _ => rfl
  nano := fun _ => rfl
  addDate := fun _ _ _ _ _ _ _ _ _ _ _ _ => rfl
  addDur := fun _ _ _ _ => rfl
  sub := fun a b => by
    have key : ∀ x : Int, (BitVec.ofInt 64 (Toy.clamp x)).toInt = max (-2 ^ 63) (min (2 ^ 63 - 1) x) := by
      intro x
      rw [BitVec.toInt_ofInt, Int.bmod_def]
      unfold Toy.clamp
      split <;> omega
    exact key _

/-- The name of an interval. -/
def Interval.name : Interval → String
  | .year => "YEAR" | .month => "MONTH" | .dayOfYear => "DAYOFYEAR" | .day => "DAY" | .week => "WEEK" | .weekDay => "WEEKDAY"
  | .hour => "HOUR" | .minute => "MINUTE" | .second => "SECOND" | .millisecond => "MILLISECOND"

/-- A text names an interval, letter case and surrounding white space aside. -/
def Names (P : Prim) (n : Str) (i : Interval) : Prop := P.upper (Utf8.trimSpace n) = lit i.name

example : Names Toy.prim (lit " dayOfYear ") .dayOfYear := by
  unfold Names
  decide

theorem parseInterval_names {n : Str} {i : Interval} (h : Names P n i) : parseInterval P n = .ok i := by
  unfold Names at h
  unfold parseInterval
  dsimp only
  rw [h]
  cases i <;> rfl

theorem parseInterval_other {n : Str} (h : ∀ i, ¬ Names P n i) : parseInterval P n = .err := by
  unfold parseInterval
  dsimp only
  have h1 := h .year
  have h2 := h .month
  have h3 := h .dayOfYear
  have h4 := h .day
  have h5 := h .week
  have h6 := h .weekDay
  have h7 := h .hour
  have h8 := h .minute
  have h9 := h .second
  have h10 := h .millisecond
  simp only [Names, Interval.name] at h1 h2 h3 h4 h5 h6 h7 h8 h9 h10
  simp only [h1, h2, h3, h4, h5, h6, h7, h8, h9, h10, if_false]

/-- A value that gives a date: a date, or a text as the date parser reads it. -/
inductive Gives : Val P → P.Time → Prop where
  | date (t : P.Time) : Gives (.dateTime t) t
  | text (s : Str) : Gives (.string s) (P.timeParse s).1

theorem datePart_eq {v : Val P} {t : P.Time} (h : Gives v t) {n : Str} {i : Interval} (hn : Names P n i) :
    call .datePart [v, .string n] = .ok (.int32 (timePart t i)) := by
  have hp := parseInterval_names hn
  cases h <;>
    (show (parseInterval P n >>= fun i => Res.ok (Val.int32 (timePart _ i))) = _
     rw [hp]
     rfl)

theorem dateAdd_eq {v a : Val P} {t : P.Time} {k : BitVec 64} (h : Gives v t) (ha : IsInt a k) {n : Str} {i : Interval} (hn : Names P n i) :
    call .dateAdd [v, a, .string n] = .ok (.dateTime (timeAdd t k i)) := by
  have hp := parseInterval_names hn
  cases h <;> cases ha <;>
    (show (parseInterval P n >>= fun i => Res.ok (Val.dateTime (timeAdd _ _ i))) = _
     rw [hp]
     rfl)

theorem dateDiff_eq {v w : Val P} {t u : P.Time} (h : Gives v t) (h' : Gives w u) {n : Str} {i : Interval} (hn : Names P n i) :
    call .dateDiff [v, w, .string n] = .ok (.int32 (timeDiff t u i)) := by
  have hp := parseInterval_names hn
  cases h <;> cases h' <;>
    (show (parseInterval P n >>= fun i => Res.ok (Val.int32 (timeDiff _ _ i))) = _
     rw [hp]
     rfl)

theorem small_toInt32 {x : Int} (h1 : -2 ^ 31 ≤ x) (h2 : x < 2 ^ 31) : (BitVec.ofInt 32 x).toInt = x := by
  rw [BitVec.toInt_ofInt, Int.bmod_def]
  split <;> omega

/-! ## C77: DatePart -/

/-- The instant of a date and a time of day; `f` is what is left of the millisecond. -/
def instant (y m d h mi s ms f : Int) : Int :=
  dayNumber y m d * day + h * Calendar.hour + mi * Calendar.minute + s * Calendar.second + ms * 1000000 + f

/-- A time of day. -/
def IsTime (h mi s ms f : Int) : Prop :=
  0 ≤ h ∧ h < 24 ∧ 0 ≤ mi ∧ mi < 60 ∧ 0 ≤ s ∧ s < 60 ∧ 0 ≤ ms ∧ ms < 1000 ∧ 0 ≤ f ∧ f < 1000000

instance (h mi s ms f : Int) : Decidable (IsTime h mi s ms f) := by unfold IsTime; infer_instance

theorem instant_day {y m d h mi s ms f : Int} (ht : IsTime h mi s ms f) : instant y m d h mi s ms f / day = dayNumber y m d := by
  unfold IsTime at ht
  unfold instant day Calendar.hour Calendar.minute Calendar.second
  generalize dayNumber y m d = n
  omega

/-- The parts of a date are what it was made of. Days of the year count from 1. -/
theorem C77_parts_partial (C : Clock P) {v : Val P} {t : P.Time} (hv : Gives v t) {y m d h mi s ms f : Int} (hd : IsDate y m d)
    (ht : IsTime h mi s ms f) (hy : -2 ^ 31 ≤ y ∧ y < 2 ^ 31) (e : C.ns t = instant y m d h mi s ms f) {n : Str} {i : Interval}
    (hn : Names P n i) : ∃ r : BitVec 32, call .datePart [v, .string n] = .ok (.int32 r) ∧
      (i = .year → r.toInt = y) ∧ (i = .month → r.toInt = m) ∧ (i = .day → r.toInt = d) ∧
      (i = .dayOfYear → r.toInt = (dayNumber y m d - dayNumber y 1 1) + 1) ∧ (i = .hour → r.toInt = h) ∧ (i = .minute → r.toInt = mi) ∧
      (i = .second → r.toInt = s) ∧ (i = .millisecond → r.toInt = ms) := by
  refine ⟨_, datePart_eq hv hn, ?_⟩
  obtain ⟨p1, p2, p3, p4⟩ := parts hd
  have hday := instant_day (y := y) (m := m) (d := d) ht
  have ht' := ht
  unfold IsTime at ht'
  have hd' := hd
  unfold IsDate at hd'
  have hr := daysBeforeMonth_range (leapDay_cases y) ⟨hd'.1, hd'.2.1⟩
  have hl := leapDay_cases y
  have hml : d ≤ 366 := by
    have := hd'.2.2.2
    unfold monthLength at this
    omega
  have hyd : dayNumber y m d - dayNumber y 1 1 = daysBeforeMonth (leapDay y) m + (d - 1) := by
    rw [dayNumber_date d ⟨hd'.1, hd'.2.1⟩, dayNumber_date 1 ⟨by decide, by decide⟩]
    simp [daysBeforeMonth]
    omega
  have hyd2 : daysBeforeMonth (leapDay y) m + (d - 1) < 366 := by
    have := hd'.2.2.2
    unfold monthLength at this
    omega
  refine ⟨?_, ?_, ?_, ?_, ?_, ?_, ?_, ?_⟩ <;> rintro rfl
  · show (BitVec.ofInt 32 (P.timeYear t)).toInt = y
    rw [C.year, e, hday, p1, small_toInt32 hy.1 hy.2]
  · show (BitVec.ofInt 32 (P.timeMonth t)).toInt = m
    rw [C.month, e, hday, p2, small_toInt32 (by omega) (by omega)]
  · show (BitVec.ofInt 32 (P.timeDay t)).toInt = d
    rw [C.day_, e, hday, p3, small_toInt32 (by omega) (by omega)]
  · show (BitVec.ofInt 32 (P.timeYearDay t)).toInt = _
    rw [C.yearDay, e, hday, p4, hyd, small_toInt32 (by omega) (by omega)]
  · show (BitVec.ofInt 32 (P.timeHour t)).toInt = h
    have : instant y m d h mi s ms f % day / Calendar.hour = h := by
      unfold instant day Calendar.hour Calendar.minute Calendar.second
      generalize dayNumber y m d = n
      omega
    rw [C.hour, e, this, small_toInt32 (by omega) (by omega)]
  · show (BitVec.ofInt 32 (P.timeMinute t)).toInt = mi
    have : instant y m d h mi s ms f % Calendar.hour / Calendar.minute = mi := by
      unfold instant day Calendar.hour Calendar.minute Calendar.second
      generalize dayNumber y m d = n
      omega
    rw [C.minute, e, this, small_toInt32 (by omega) (by omega)]
  · show (BitVec.ofInt 32 (P.timeSecond t)).toInt = s
    have : instant y m d h mi s ms f % Calendar.minute / Calendar.second = s := by
      unfold instant day Calendar.hour Calendar.minute Calendar.second
      generalize dayNumber y m d = n
      omega
    rw [C.second, e, this, small_toInt32 (by omega) (by omega)]
  · show (BitVec.ofInt 32 (P.timeNano t / 1000000)).toInt = ms
    have : instant y m d h mi s ms f % Calendar.second / 1000000 = ms := by
      unfold instant day Calendar.hour Calendar.minute Calendar.second
      generalize dayNumber y m d = n
      omega
    rw [C.nano, e, this, small_toInt32 (by omega) (by omega)]

/-- 29 February 2024, 23:59:58.123. -/
example : IsDate 2024 2 29 ∧ IsTime 23 59 58 123 0 ∧
    call (P := Toy.prim) .datePart [.dateTime (instant 2024 2 29 23 59 58 123 0), .string (lit "dayofyear")] = .ok (.int32 60) := by
  refine ⟨by decide, by decide, ?_⟩
  refine (datePart_eq (P := Toy.prim) (.date _) (i := .dayOfYear) (by unfold Names; decide)).trans ?_
  show Res.ok (Val.int32 (BitVec.ofInt 32 (Calendar.yearDay (instant 2024 2 29 23 59 58 123 0 / day) + 1))) = _
  rw [show BitVec.ofInt 32 (Calendar.yearDay (instant 2024 2 29 23 59 58 123 0 / day) + 1) = 60#32 by decide]
  rfl

/-- Every instant is that of a date and a time of day, so that the theorem above covers all of them. -/
theorem C77_every_instant (x : Int) : ∃ y m d h mi s ms f, IsDate y m d ∧ IsTime h mi s ms f ∧ x = instant y m d h mi s ms f := by
  obtain ⟨h1, h2⟩ := date_of (x / day)
  refine ⟨yearOf (x / day), monthOf (x / day), dayOf (x / day), x % day / Calendar.hour, x % Calendar.hour / Calendar.minute,
    x % Calendar.minute / Calendar.second, x % Calendar.second / 1000000, x % 1000000, h1, ?_, ?_⟩
  · unfold IsTime day Calendar.hour Calendar.minute Calendar.second
    omega
  · unfold instant
    rw [h2]
    unfold day Calendar.hour Calendar.minute Calendar.second
    omega

/-- The day of the week: 1 to 7, Sunday is 1, and the days follow each other. The first of January 2000 was a Saturday. -/
theorem C77_weekday (C : Clock P) {v : Val P} {t : P.Time} (hv : Gives v t) {n : Str} (hn : Names P n .weekDay) :
    ∃ r : BitVec 32, call .datePart [v, .string n] = .ok (.int32 r) ∧ 1 ≤ r.toInt ∧ r.toInt ≤ 7 ∧
      (r.toInt - 7) % 7 = (C.ns t / day - dayNumber 2000 1 1) % 7 := by
  refine ⟨_, datePart_eq hv hn, ?_⟩
  show 1 ≤ (BitVec.ofInt 32 (P.timeWeekday t + 1)).toInt ∧ (BitVec.ofInt 32 (P.timeWeekday t + 1)).toInt ≤ 7 ∧
    ((BitVec.ofInt 32 (P.timeWeekday t + 1)).toInt - 7) % 7 = _
  have e : dayNumber 2000 1 1 = 730119 := by decide
  rw [C.weekday, e]
  unfold Calendar.weekday
  generalize C.ns t / day = k
  rw [small_toInt32 (by omega) (by omega)]
  omega

/-- The Monday of the week a day lies in. -/
def monday (n : Int) : Int := n - n % 7

theorem isoWeek_spec (n : Int) : ∃ y, monday (dayNumber y 1 4) + 7 * (isoWeek n - 1) ≤ n ∧ n < monday (dayNumber y 1 4) + 7 * isoWeek n ∧
    n < monday (dayNumber (y + 1) 1 4) ∧ 1 ≤ isoWeek n ∧ isoWeek n ≤ 53 := by
  refine ⟨yearOf (n - n % 7 + 3), ?_⟩
  have hs := yearOf_spec (n - n % 7 + 3)
  have hr := yearDay_range (n - n % 7 + 3)
  have hl := leapDay_cases (yearOf (n - n % 7 + 3))
  have hj := dayNumber_date (y := yearOf (n - n % 7 + 3)) (m := 1) 4 ⟨by decide, by decide⟩
  have hj2 := dayNumber_date (y := yearOf (n - n % 7 + 3) + 1) (m := 1) 4 ⟨by decide, by decide⟩
  simp only [daysBeforeMonth, Int.le_refl, if_true] at hj hj2
  unfold isoWeek
  unfold Calendar.yearDay at hr ⊢
  unfold monday
  rw [hj, hj2]
  generalize hy : daysBeforeYear (yearOf (n - n % 7 + 3)) = a at *
  generalize hy2 : daysBeforeYear (yearOf (n - n % 7 + 3) + 1) = b at *
  generalize leapDay (yearOf (n - n % 7 + 3)) = l at *
  clear hy hy2 hj hj2
  refine ⟨?_, ?_, ?_, ?_, ?_⟩ <;> omega

/-- The week: weeks start on Monday, the first of a year is the one with 4 January in it, and the last days of a year may lie in the
first week of the next. -/
theorem C77_week (C : Clock P) {v : Val P} {t : P.Time} (hv : Gives v t) {n : Str} (hn : Names P n .week) :
    ∃ (r : BitVec 32) (y : Int), call .datePart [v, .string n] = .ok (.int32 r) ∧ 1 ≤ r.toInt ∧ r.toInt ≤ 53 ∧
      monday (dayNumber y 1 4) + 7 * (r.toInt - 1) ≤ C.ns t / day ∧ C.ns t / day < monday (dayNumber y 1 4) + 7 * r.toInt ∧
      C.ns t / day < monday (dayNumber (y + 1) 1 4) := by
  obtain ⟨y, h1, h2, h3, h4, h5⟩ := isoWeek_spec (C.ns t / day)
  refine ⟨_, y, datePart_eq hv hn, ?_⟩
  have : (timePart t .week).toInt = isoWeek (C.ns t / day) := by
    show (BitVec.ofInt 32 (P.timeISOWeek t)).toInt = _
    rw [C.week, small_toInt32 (by omega) (by omega)]
  rw [this]
  exact ⟨h4, h5, h1, h2, h3⟩

/-- A name that is not that of an interval is refused by all three functions. -/
theorem C77_unknown_interval {v w a : Val P} {t u : P.Time} {k : BitVec 64} (hv : Gives v t) (hw : Gives w u) (ha : IsInt a k) {n : Str}
    (hn : ∀ i, ¬ Names P n i) : call .datePart [v, .string n] = .err ∧ call .dateAdd [v, a, .string n] = .err ∧
      call .dateDiff [v, w, .string n] = .err := by
  have hp := parseInterval_other hn
  refine ⟨?_, ?_, ?_⟩
  · cases hv <;> (show (parseInterval P n >>= fun i => Res.ok (Val.int32 (timePart _ i))) = _; rw [hp]; rfl)
  · cases hv <;> cases ha <;> (show (parseInterval P n >>= fun i => Res.ok (Val.dateTime (timeAdd _ _ i))) = _; rw [hp]; rfl)
  · cases hv <;> cases hw <;> (show (parseInterval P n >>= fun i => Res.ok (Val.int32 (timeDiff _ _ i))) = _; rw [hp]; rfl)

example : ∀ i, ¬ Names Toy.prim (lit "decade") i := by
  intro i
  unfold Names
  cases i <;> decide

/-- Refuted: a text that is no date is not refused; the function works on with what the parser returns beside its error, which is the
date 1 January of year 1. -/
theorem C77_text_false {s : Str} (_hbad : (P.timeParse s).2 = false) (hzero : (P.timeParse s).1 = P.timeZero) {n : Str} {i : Interval}
    (hn : Names P n i) {a : Val P} {k : BitVec 64} (ha : IsInt a k) :
    call (P := P) .datePart [.string s, .string n] = call .datePart [.dateTime P.timeZero, .string n] ∧
    (∃ r, call (P := P) .datePart [.string s, .string n] = .ok (.int32 r)) ∧
    call .dateAdd [.string s, a, .string n] = call .dateAdd [.dateTime P.timeZero, a, .string n] := by
  rw [datePart_eq (.text s) hn, datePart_eq (.date _) hn, dateAdd_eq (.text s) ha hn, dateAdd_eq (.date _) ha hn, hzero]
  exact ⟨rfl, ⟨_, rfl⟩, rfl⟩

example : (Toy.prim.timeParse (lit "no date")).2 = false ∧ (Toy.prim.timeParse (lit "no date")).1 = Toy.prim.timeZero :=
  ⟨by decide, rfl⟩

/-! ## C78: DateAdd -/

/-- The length of an interval that is one. -/
def lengthOf : Interval → Option Int
  | .hour => some Calendar.hour
  | .minute => some Calendar.minute
  | .second => some Calendar.second
  | .millisecond => some 1000000
  | .day => some day
  | .dayOfYear => some day
  | .weekDay => some day
  | .week => some (7 * day)
  | .year => none
  | .month => none

theorem mul_fits {c k : BitVec 64} {m : Int} (hc : c.toInt = m) (h1 : -2 ^ 63 ≤ k.toInt * m) (h2 : k.toInt * m < 2 ^ 63) :
    (c * k).toInt = k.toInt * m := by
  rw [BitVec.toInt_mul, hc, Int.mul_comm m, Int.bmod_def]
  generalize k.toInt * m = x at *
  split <;> omega

theorem dayNumber_add (y m d k : Int) : dayNumber y m (d + k) = dayNumber y m d + k := by
  unfold dayNumber
  omega

theorem addDays (C : Clock P) {t : P.Time} (h1 : -2 ^ 80 < C.ns t) (h2 : C.ns t < 2 ^ 80) {k : Int} (h3 : -2 ^ 34 ≤ k) (h4 : k ≤ 2 ^ 34) :
    C.ns (P.timeAddDate t 0 0 k) = C.ns t + k * day := by
  rw [C.addDate t 0 0 k h1 h2 (by decide) (by decide) (by decide) (by decide) h3 h4, Int.add_zero, Int.add_zero, dayNumber_add,
    (date_of (C.ns t / day)).2]
  unfold day
  omega

/-- Partial: DateAdd of hours, minutes, seconds, milliseconds, days and weeks moves a date by exactly that time, as long as the amount
fits: up to 2^31 days or weeks, and for the units below a day less than 2^63 nanoseconds (292 years) altogether. Missing: larger
amounts, see `C78_overflow_false`. -/
theorem C78_elapsed_partial (C : Clock P) {v a : Val P} {t : P.Time} {k : BitVec 64} (hv : Gives v t) (ha : IsInt a k)
    (h1 : -2 ^ 80 < C.ns t) (h2 : C.ns t < 2 ^ 80) {n : Str} {i : Interval} (hn : Names P n i) {len : Int} (hi : lengthOf i = some len)
    (h3 : -2 ^ 31 ≤ k.toInt) (h4 : k.toInt < 2 ^ 31) (h5 : len < day → -2 ^ 63 ≤ k.toInt * len ∧ k.toInt * len < 2 ^ 63) :
    ∃ u, call .dateAdd [v, a, .string n] = .ok (.dateTime u) ∧ C.ns u = C.ns t + k.toInt * len := by
  refine ⟨_, dateAdd_eq hv ha hn, ?_⟩
  cases i <;> simp only [lengthOf, reduceCtorEq, Option.some.injEq] at hi <;> subst hi
  · exact addDays C h1 h2 (by omega) (by omega)
  · exact addDays C h1 h2 (by omega) (by omega)
  · have hw : (k * 7).toInt = k.toInt * 7 := by
      rw [BitVec.mul_comm]
      exact mul_fits (by decide) (by omega) (by omega)
    show C.ns (P.timeAddDate t 0 0 (k * 7).toInt) = _
    rw [hw, addDays C h1 h2 (by omega) (by omega), Int.mul_assoc]
  · exact addDays C h1 h2 (by omega) (by omega)
  · obtain ⟨h5, h6⟩ := h5 (by decide)
    show C.ns (P.timeAddDur t (3600000000000#64 * k)) = _
    rw [C.addDur _ _ h1 h2, mul_fits (m := Calendar.hour) (by decide) h5 h6]
  · obtain ⟨h5, h6⟩ := h5 (by decide)
    show C.ns (P.timeAddDur t (60000000000#64 * k)) = _
    rw [C.addDur _ _ h1 h2, mul_fits (m := Calendar.minute) (by decide) h5 h6]
  · obtain ⟨h5, h6⟩ := h5 (by decide)
    show C.ns (P.timeAddDur t (1000000000#64 * k)) = _
    rw [C.addDur _ _ h1 h2, mul_fits (m := Calendar.second) (by decide) h5 h6]
  · obtain ⟨h5, h6⟩ := h5 (by decide)
    show C.ns (P.timeAddDur t (1000000#64 * k)) = _
    rw [C.addDur _ _ h1 h2, mul_fits (m := 1000000) (by decide) h5 h6]

example : -2 ^ 80 < toyClock.ns (instant 2024 2 29 23 59 58 123 0) ∧ toyClock.ns (instant 2024 2 29 23 59 58 123 0) < 2 ^ 80 ∧
    lengthOf .hour = some Calendar.hour ∧ -2 ^ 63 ≤ (BitVec.ofInt 64 (-5)).toInt * Calendar.hour := by
  refine ⟨by decide, by decide, by decide, by decide⟩

/-- Adding the opposite number of intervals of a fixed length leads back. -/
theorem C78_undo (C : Clock P) {v a b : Val P} {t : P.Time} {k k' : BitVec 64} (hv : Gives v t) (ha : IsInt a k) (hb : IsInt b k')
    (hk : k'.toInt = -k.toInt) (h1 : -2 ^ 78 < C.ns t) (h2 : C.ns t < 2 ^ 78) {n : Str} {i : Interval} (hn : Names P n i) {len : Int}
    (hi : lengthOf i = some len) (h3 : -2 ^ 29 < k.toInt) (h4 : k.toInt < 2 ^ 29)
    (h5 : len < day → -2 ^ 63 < k.toInt * len ∧ k.toInt * len < 2 ^ 63) :
    ∃ u, (call .dateAdd [v, a, .string n] >>= fun w => call .dateAdd [w, b, .string n]) = .ok (.dateTime u) ∧ C.ns u = C.ns t := by
  obtain ⟨u, hu, hns⟩ := C78_elapsed_partial C hv ha (by omega) (by omega) hn hi (by omega) (by omega)
    (fun h => ⟨by have := (h5 h).1; omega, (h5 h).2⟩)
  have hneg : k'.toInt * len = -(k.toInt * len) := by rw [hk, Int.neg_mul]
  have hlen : 0 < len ∧ len ≤ 7 * day := by
    cases i <;> simp only [lengthOf, reduceCtorEq, Option.some.injEq] at hi <;> subst hi <;> decide
  have hb2 : -2 ^ 29 * (7 * day) ≤ k.toInt * len ∧ k.toInt * len ≤ 2 ^ 29 * (7 * day) := by
    have hd : (0 : Int) ≤ 7 * day := by decide
    constructor
    · have e1 : -2 ^ 29 * len ≤ k.toInt * len := Int.mul_le_mul_of_nonneg_right (by omega) (by omega)
      have e2 : (-2 ^ 29 : Int) * (7 * day) ≤ -2 ^ 29 * len := Int.mul_le_mul_of_nonpos_left (by decide) hlen.2
      omega
    · have e1 : k.toInt * len ≤ 2 ^ 29 * len := Int.mul_le_mul_of_nonneg_right (by omega) (by omega)
      have e2 : (2 ^ 29 : Int) * len ≤ 2 ^ 29 * (7 * day) := Int.mul_le_mul_of_nonneg_left hlen.2 (by decide)
      omega
  have hd : day = 86400000000000 := rfl
  obtain ⟨w, hw, hns'⟩ := C78_elapsed_partial C (Gives.date u) hb (by omega) (by omega) hn hi (by omega) (by omega)
    (fun h => by have := h5 h; omega)
  refine ⟨w, ?_, by omega⟩
  rw [hu]
  exact hw

/-- Refuted: three million hours are more nanoseconds than a `time.Duration` holds. The date goes back by about 242 years instead of
forward by 342. -/
theorem C78_overflow_false (C : Clock P) {v : Val P} {t : P.Time} (hv : Gives v t) (h1 : -2 ^ 80 < C.ns t) (h2 : C.ns t < 2 ^ 80) {n : Str}
    (hn : Names P n .hour) : ∃ u, call .dateAdd [v, .int32 3000000, .string n] = .ok (.dateTime u) ∧
      C.ns u = C.ns t - 7646744073709551616 ∧ C.ns u < C.ns t := by
  refine ⟨_, dateAdd_eq hv (.int32 3000000) hn, ?_⟩
  have : C.ns (timeAdd t (BitVec.signExtend 64 (3000000 : BitVec 32)) .hour) = C.ns t - 7646744073709551616 := by
    show C.ns (P.timeAddDur t (3600000000000#64 * BitVec.signExtend 64 3000000#32)) = _
    rw [C.addDur _ _ h1 h2, show (3600000000000#64 * BitVec.signExtend 64 3000000#32).toInt = -7646744073709551616 by decide]
    omega
  exact ⟨this, by omega⟩

/-- The month `k` months after another, and its year. -/
def monthsOn (y m k : Int) : Int × Int := (y + (m + k - 1) / 12, (m + k - 1) % 12 + 1)

theorem addMonths (C : Clock P) {t : P.Time} (h1 : -2 ^ 80 < C.ns t) (h2 : C.ns t < 2 ^ 80) {y m d k j : Int} {f : Int} (hd : IsDate y m d)
    (hf : 0 ≤ f ∧ f < day) (e : C.ns t = dayNumber y m d * day + f) (h3 : -2 ^ 34 ≤ j ∧ j ≤ 2 ^ 34) (h4 : -2 ^ 34 ≤ k ∧ k ≤ 2 ^ 34) :
    C.ns (P.timeAddDate t j k 0) = dayNumber (y + j) (m + k) d * day + f := by
  have e1 : C.ns t / day = dayNumber y m d := by
    rw [e]
    unfold day at *
    omega
  have e2 : C.ns t % day = f := by
    rw [e]
    unfold day at *
    omega
  obtain ⟨p1, p2, p3, _⟩ := parts hd
  rw [C.addDate t j k 0 h1 h2 h3.1 h3.2 h4.1 h4.2 (by decide) (by decide), e1, e2, p1, p2, p3, Int.add_zero]

theorem dayNumber_months (y m k d : Int) : dayNumber y (m + k) d = dayNumber (monthsOn y m k).1 (monthsOn y m k).2 d := by
  have hr : 1 ≤ (m + k - 1) % 12 + 1 ∧ (m + k - 1) % 12 + 1 ≤ 12 := by omega
  unfold monthsOn
  dsimp only
  rw [dayNumber_date d hr]
  unfold dayNumber
  omega

/-- Partial: DateAdd of months gives the same day of the month and time of day that many months on, and of years in the same month that
many years on, if that month has the day. Missing: when it does not, see the next theorems. -/
theorem C78_months_partial (C : Clock P) {v a : Val P} {t : P.Time} {k : BitVec 64} (hv : Gives v t) (ha : IsInt a k)
    (h1 : -2 ^ 80 < C.ns t) (h2 : C.ns t < 2 ^ 80) (h3 : -2 ^ 31 ≤ k.toInt ∧ k.toInt < 2 ^ 31) {y m d f : Int} (hd : IsDate y m d)
    (hf : 0 ≤ f ∧ f < day) (e : C.ns t = dayNumber y m d * day + f) {n : Str} :
    (Names P n .month → ∃ u, call .dateAdd [v, a, .string n] = .ok (.dateTime u) ∧
      (IsDate (monthsOn y m k.toInt).1 (monthsOn y m k.toInt).2 d → P.timeYear u = (monthsOn y m k.toInt).1 ∧
        P.timeMonth u = (monthsOn y m k.toInt).2 ∧ P.timeDay u = d ∧ C.ns u % day = f)) ∧
    (Names P n .year → ∃ u, call .dateAdd [v, a, .string n] = .ok (.dateTime u) ∧
      (IsDate (y + k.toInt) m d → P.timeYear u = y + k.toInt ∧ P.timeMonth u = m ∧ P.timeDay u = d ∧ C.ns u % day = f)) := by
  have fin : ∀ u y' m', C.ns u = dayNumber y' m' d * day + f → IsDate y' m' d →
      P.timeYear u = y' ∧ P.timeMonth u = m' ∧ P.timeDay u = d ∧ C.ns u % day = f := by
    intro u y' m' hu hdate
    have e1 : C.ns u / day = dayNumber y' m' d := by
      rw [hu]
      unfold day at *
      omega
    obtain ⟨p1, p2, p3, _⟩ := parts hdate
    rw [C.year, C.month, C.day_, e1]
    refine ⟨p1, p2, p3, ?_⟩
    rw [hu]
    unfold day at *
    omega
  constructor
  · intro hn
    refine ⟨_, dateAdd_eq hv ha hn, fun hdate => ?_⟩
    apply fin _ _ _ _ hdate
    show C.ns (P.timeAddDate t 0 k.toInt 0) = _
    rw [addMonths C h1 h2 hd hf e (by decide) (by omega), Int.add_zero, dayNumber_months]
  · intro hn
    refine ⟨_, dateAdd_eq hv ha hn, fun hdate => ?_⟩
    apply fin _ _ _ _ hdate
    show C.ns (P.timeAddDate t k.toInt 0 0) = _
    rw [addMonths C h1 h2 hd hf e (by omega) (by decide), Int.add_zero]

/-- 15 December 2023 and two months on. -/
example : IsDate 2023 12 15 ∧ monthsOn 2023 12 2 = (2024, 2) ∧ IsDate 2024 2 15 := by decide

/-- Refuted: a month after 31 January is in March. -/
theorem C78_months_false (C : Clock P) {v : Val P} {t : P.Time} (hv : Gives v t) (h1 : -2 ^ 80 < C.ns t) (h2 : C.ns t < 2 ^ 80) {y f : Int}
    (hf : 0 ≤ f ∧ f < day) (e : C.ns t = dayNumber y 1 31 * day + f) {n : Str} (hn : Names P n .month) :
    ∃ u, call .dateAdd [v, .int32 1, .string n] = .ok (.dateTime u) ∧ P.timeYear u = y ∧ P.timeMonth u = 3 ∧
      P.timeDay u = 3 - leapDay y := by
  refine ⟨_, dateAdd_eq hv (.int32 1) hn, ?_⟩
  have hdate : IsDate y 1 31 := ⟨by decide, by decide, by decide, by simp [monthLength, daysBeforeMonth]⟩
  generalize hu : timeAdd t (BitVec.signExtend 64 (1 : BitVec 32)) .month = u
  have hns : C.ns u = dayNumber y 3 (3 - leapDay y) * day + f := by
    subst hu
    show C.ns (P.timeAddDate t 0 (BitVec.signExtend 64 1#32).toInt 0) = _
    rw [show (BitVec.signExtend 64 1#32).toInt = 1 by decide, addMonths C h1 h2 hdate hf e (by decide) (by decide), Int.add_zero,
      dayNumber_date 31 ⟨by decide, by decide⟩, dayNumber_date _ ⟨by decide, by decide⟩]
    simp [daysBeforeMonth]
    omega
  have hl := leapDay_cases y
  have hdate3 : IsDate y 3 (3 - leapDay y) := ⟨by decide, by decide, by omega, by simp [monthLength, daysBeforeMonth]; omega⟩
  have e1 : C.ns u / day = dayNumber y 3 (3 - leapDay y) := by
    rw [hns]
    unfold day at *
    omega
  obtain ⟨p1, p2, p3, _⟩ := parts hdate3
  rw [C.year, C.month, C.day_, e1]
  exact ⟨p1, p2, p3⟩

/-- 31 January 2023 and 2024. -/
example : IsDate 2023 1 31 ∧ leapDay 2023 = 0 ∧ leapDay 2024 = 1 := by decide

/-- Refuted: a year after 29 February is 1 March, and going back a year from there does not lead back. -/
theorem C78_leap_false (C : Clock P) {v : Val P} {t : P.Time} (hv : Gives v t) (h1 : -2 ^ 79 < C.ns t) (h2 : C.ns t < 2 ^ 79) {y f : Int}
    (hy : Leap y) (hf : 0 ≤ f ∧ f < day) (e : C.ns t = dayNumber y 2 29 * day + f) {n : Str} (hn : Names P n .year) :
    ∃ u w, call .dateAdd [v, .int32 1, .string n] = .ok (.dateTime u) ∧ C.ns u = dayNumber (y + 1) 3 1 * day + f ∧
      call .dateAdd [.dateTime u, .int32 (-1), .string n] = .ok (.dateTime w) ∧ C.ns w = dayNumber y 3 1 * day + f := by
  have hl : leapDay y = 1 := if_pos hy
  have hl2 : leapDay (y + 1) = 0 := by
    apply if_neg
    unfold Leap at *
    omega
  have hdate : IsDate y 2 29 := ⟨by decide, by decide, by decide, by simp [monthLength, daysBeforeMonth, hl]⟩
  have hdate3 : IsDate (y + 1) 3 1 := ⟨by decide, by decide, by decide, by simp [monthLength, daysBeforeMonth]⟩
  generalize hu : timeAdd t (BitVec.signExtend 64 (1 : BitVec 32)) .year = u
  have hns : C.ns u = dayNumber (y + 1) 3 1 * day + f := by
    subst hu
    show C.ns (P.timeAddDate t (BitVec.signExtend 64 1#32).toInt 0 0) = _
    rw [show (BitVec.signExtend 64 1#32).toInt = 1 by decide,
      addMonths C (by omega) (by omega) hdate hf e (by decide) (by decide), Int.add_zero,
      dayNumber_date 29 ⟨by decide, by decide⟩, dayNumber_date 1 ⟨by decide, by decide⟩]
    simp [daysBeforeMonth, hl2]
    left
    omega
  have hdiff : dayNumber (y + 1) 3 1 = dayNumber y 2 29 + 366 := by
    rw [dayNumber_date 29 ⟨by decide, by decide⟩, dayNumber_date 1 ⟨by decide, by decide⟩, year_length]
    simp [daysBeforeMonth, hl, hl2]
    omega
  refine ⟨u, _, hu ▸ dateAdd_eq hv (.int32 1) hn, hns, dateAdd_eq (.date _) (.int32 (-1)) hn, ?_⟩
  have hd : day = 86400000000000 := rfl
  rw [hdiff, Int.add_mul] at hns
  have hb : -2 ^ 80 < C.ns u ∧ C.ns u < 2 ^ 80 := by omega
  rw [← Int.add_mul, ← hdiff] at hns
  show C.ns (P.timeAddDate u (BitVec.signExtend 64 (-1 : BitVec 32)).toInt 0 0) = _
  rw [show (BitVec.signExtend 64 (-1 : BitVec 32)).toInt = -1 by decide,
    addMonths C hb.1 hb.2 hdate3 hf hns (by decide) (by decide), Int.add_zero]
  congr 3
  omega

example : Leap 2024 ∧ IsDate 2024 2 29 ∧ toyClock.ns (instant 2024 2 29 12 0 0 0 0) = dayNumber 2024 2 29 * day + 12 * Calendar.hour := by
  refine ⟨by decide, by decide, by decide⟩

/-! ## C79: DateDiff -/

/-- What is assumed of the floating point numbers durations are told in: a whole number of hours, minutes or seconds is told exactly,
quotients by 24 and by 7 that come out even are exact, and whole numbers convert to integers as they are. -/
structure DurationLaws (P : Prim) : Prop where
  hours : ∀ (d : BitVec 64) (k : Int), d.toInt = k * Calendar.hour → P.durHours d = P.fltOfInt k
  minutes : ∀ (d : BitVec 64) (k : Int), d.toInt = k * Calendar.minute → P.durMinutes d = P.fltOfInt k
  seconds : ∀ (d : BitVec 64) (k : Int), d.toInt = k * Calendar.second → P.durSeconds d = P.fltOfInt k
  div : ∀ k c : Int, c = 24 ∨ c = 7 → -2 ^ 53 ≤ k * c → k * c ≤ 2 ^ 53 → P.fltDiv (P.fltOfInt (k * c)) (P.fltOfInt c) = P.fltOfInt k
  toInt32 : ∀ k : Int, -2 ^ 31 ≤ k → k < 2 ^ 31 → P.fltToInt32 (P.fltOfInt k) = BitVec.ofInt 32 k

theorem toyDurations : DurationLaws Toy.prim where
  hours := fun d k h => by
    show some (d.toInt.tdiv Calendar.hour) = some k
    rw [h, Int.mul_tdiv_cancel _ (by decide)]
  minutes := fun d k h => by
    show some (d.toInt.tdiv Calendar.minute) = some k
    rw [h, Int.mul_tdiv_cancel _ (by decide)]
  seconds := fun d k h => by
    show some (d.toInt.tdiv Calendar.second) = some k
    rw [h, Int.mul_tdiv_cancel _ (by decide)]
  div := fun k c hc _ _ => by
    show (if some c = some 0 then none else some ((k * c).tdiv c)) = some k
    rw [if_neg (by rw [Option.some.injEq]; omega), Int.mul_tdiv_cancel _ (by omega)]
  toInt32 := fun _ _ _ => rfl

theorem sub_toInt (C : Clock P) {t u : P.Time} (h1 : -2 ^ 63 ≤ C.ns u - C.ns t) (h2 : C.ns u - C.ns t < 2 ^ 63) :
    (P.timeSub u t).toInt = C.ns u - C.ns t := by
  rw [C.sub]
  omega

theorem millis (x : BitVec 64) : (x.sdiv 1000000#64).truncate 32 = BitVec.ofInt 32 (x.toInt.tdiv 1000000) := by
  have key : ∀ z : BitVec 64, z.truncate 32 = BitVec.ofInt 32 z.toInt := by
    intro z
    apply BitVec.eq_of_toNat_eq
    rw [BitVec.truncate_eq_setWidth, BitVec.toNat_setWidth, BitVec.toNat_ofInt, BitVec.toInt_eq_toNat_cond]
    have := z.isLt
    split <;> omega
  rw [key, BitVec.toInt_sdiv_of_ne_or_ne _ _ (.inr (by decide))]
  rfl

/-- Partial: of two dates a whole number of hours, minutes, seconds, milliseconds, days or weeks apart, by less than 292 years, DateDiff
gives that number, negative when the second is earlier. Missing: dates that are not a whole number apart, where what comes out rests on
floating point division, and dates further apart, see `C79_saturates_false`. -/
theorem C79_whole_partial (C : Clock P) (D : DurationLaws P) {v w : Val P} {t u : P.Time} (hv : Gives v t) (hw : Gives w u) {n : Str}
    {i : Interval} (hn : Names P n i) {len k : Int} (hi : lengthOf i = some len) (hk1 : -2 ^ 31 ≤ k) (hk2 : k < 2 ^ 31)
    (e : C.ns u - C.ns t = k * len) (h1 : -2 ^ 63 ≤ k * len) (h2 : k * len < 2 ^ 63) :
    call .dateDiff [v, w, .string n] = .ok (.int32 (BitVec.ofInt 32 k)) := by
  rw [dateDiff_eq hv hw hn]
  have hs := sub_toInt C (t := t) (u := u) (by omega) (by omega)
  rw [e] at hs
  have days : ∀ k : Int, -2 ^ 31 ≤ k → k < 2 ^ 31 → (P.timeSub u t).toInt = k * day →
      P.fltDiv (P.durHours (P.timeSub u t)) (P.fltOfInt 24) = P.fltOfInt k := by
    intro k h1 h2 h
    rw [D.hours _ (k * 24) (by rw [h]; unfold day Calendar.hour; omega), D.div _ _ (.inl rfl) (by omega) (by omega)]
  suffices timeDiff t u i = BitVec.ofInt 32 k by rw [this]
  cases i <;> simp only [lengthOf, reduceCtorEq, Option.some.injEq] at hi <;> subst hi
  · show P.fltToInt32 (P.fltDiv (P.durHours (P.timeSub u t)) (P.fltOfInt 24)) = _
    rw [days k hk1 hk2 hs, D.toInt32 _ hk1 hk2]
  · show P.fltToInt32 (P.fltDiv (P.durHours (P.timeSub u t)) (P.fltOfInt 24)) = _
    rw [days k hk1 hk2 hs, D.toInt32 _ hk1 hk2]
  · show P.fltToInt32 (P.fltDiv (P.fltDiv (P.durHours (P.timeSub u t)) (P.fltOfInt 24)) (P.fltOfInt 7)) = _
    have hd : day = 86400000000000 := rfl
    have e7 : k * (7 * day) = k * 7 * day := (Int.mul_assoc _ _ _).symm
    have hb : -2 ^ 31 ≤ k * 7 ∧ k * 7 < 2 ^ 31 := by
      rw [e7, hd] at h1 h2
      omega
    rw [days (k * 7) hb.1 hb.2 (by rw [hs, e7]), D.div _ _ (.inr rfl) (by omega) (by omega), D.toInt32 _ hk1 hk2]
  · show P.fltToInt32 (P.fltDiv (P.durHours (P.timeSub u t)) (P.fltOfInt 24)) = _
    rw [days k hk1 hk2 hs, D.toInt32 _ hk1 hk2]
  · show P.fltToInt32 (P.durHours (P.timeSub u t)) = _
    rw [D.hours _ _ hs, D.toInt32 _ hk1 hk2]
  · show P.fltToInt32 (P.durMinutes (P.timeSub u t)) = _
    rw [D.minutes _ _ hs, D.toInt32 _ hk1 hk2]
  · show P.fltToInt32 (P.durSeconds (P.timeSub u t)) = _
    rw [D.seconds _ _ hs, D.toInt32 _ hk1 hk2]
  · show ((P.timeSub u t).sdiv 1000000#64).truncate 32 = _
    rw [millis, hs, Int.mul_tdiv_cancel _ (by decide)]

/-- 29 February 2024 and five weeks earlier. -/
example : toyClock.ns (instant 2024 1 25 0 0 0 0 0) - toyClock.ns (instant 2024 2 29 0 0 0 0 0) = (-5) * (7 * day) := by decide

/-- DateDiff undoes DateAdd, for the intervals of fixed length and amounts below 292 years. -/
theorem C79_undo (C : Clock P) (D : DurationLaws P) {v a : Val P} {t : P.Time} {k : BitVec 64} (hv : Gives v t) (ha : IsInt a k)
    (h1 : -2 ^ 80 < C.ns t) (h2 : C.ns t < 2 ^ 80) {n : Str} {i : Interval} (hn : Names P n i) {len : Int} (hi : lengthOf i = some len)
    (h3 : -2 ^ 31 ≤ k.toInt) (h4 : k.toInt < 2 ^ 31) (h5 : -2 ^ 63 ≤ k.toInt * len) (h6 : k.toInt * len < 2 ^ 63) :
    (call .dateAdd [v, a, .string n] >>= fun w => call .dateDiff [v, w, .string n]) = .ok (.int32 (BitVec.ofInt 32 k.toInt)) := by
  obtain ⟨u, hu, hns⟩ := C78_elapsed_partial C hv ha h1 h2 hn hi h3 h4 (fun _ => ⟨h5, h6⟩)
  rw [hu]
  exact C79_whole_partial C D hv (.date u) hn hi h3 h4 (by omega) h5 h6

/-- The number of years or months is the difference of the years and of the months, whatever the days. -/
theorem C79_calendar (C : Clock P) {v w : Val P} {t u : P.Time} (hv : Gives v t) (hw : Gives w u) {y m d f y' m' d' f' : Int}
    (hd : IsDate y m d) (hd' : IsDate y' m' d') (hf : 0 ≤ f ∧ f < day) (hf' : 0 ≤ f' ∧ f' < day) (e : C.ns t = dayNumber y m d * day + f)
    (e' : C.ns u = dayNumber y' m' d' * day + f') (hy : -2 ^ 26 ≤ y ∧ y < 2 ^ 26) (hy' : -2 ^ 26 ≤ y' ∧ y' < 2 ^ 26) {n : Str} :
    (Names P n .year → ∃ r, call .dateDiff [v, w, .string n] = .ok (.int32 r) ∧ r.toInt = y' - y) ∧
    (Names P n .month → ∃ r, call .dateDiff [v, w, .string n] = .ok (.int32 r) ∧ r.toInt = (12 * y' + m') - (12 * y + m)) := by
  have e1 : C.ns t / day = dayNumber y m d := by
    rw [e]
    unfold day at *
    omega
  have e2 : C.ns u / day = dayNumber y' m' d' := by
    rw [e']
    unfold day at *
    omega
  obtain ⟨p1, p2, _, _⟩ := parts hd
  obtain ⟨q1, q2, _, _⟩ := parts hd'
  unfold IsDate at hd hd'
  constructor
  · intro hn
    refine ⟨_, dateDiff_eq hv hw hn, ?_⟩
    show (BitVec.ofInt 32 (P.timeYear u - P.timeYear t)).toInt = _
    rw [C.year, C.year, e1, e2, p1, q1, small_toInt32 (by omega) (by omega)]
  · intro hn
    refine ⟨_, dateDiff_eq hv hw hn, ?_⟩
    show (BitVec.ofInt 32 ((P.timeYear u - P.timeYear t) * 12 + (P.timeMonth u - P.timeMonth t))).toInt = _
    rw [C.year, C.year, C.month, C.month, e1, e2, p1, q1, p2, q2, small_toInt32 (by omega) (by omega)]
    omega

/-- DateDiff in months undoes DateAdd of months, if the month has the day. -/
theorem C79_undo_months (C : Clock P) {v a : Val P} {t : P.Time} {k : BitVec 64} (hv : Gives v t) (ha : IsInt a k)
    (h1 : -2 ^ 80 < C.ns t) (h2 : C.ns t < 2 ^ 80) (h3 : -2 ^ 31 ≤ k.toInt ∧ k.toInt < 2 ^ 31) {y m d f : Int} (hd : IsDate y m d)
    (hf : 0 ≤ f ∧ f < day) (e : C.ns t = dayNumber y m d * day + f) {n : Str} (hn : Names P n .month)
    (hdate : IsDate (monthsOn y m k.toInt).1 (monthsOn y m k.toInt).2 d) :
    (call .dateAdd [v, a, .string n] >>= fun w => call .dateDiff [v, w, .string n]) = .ok (.int32 (BitVec.ofInt 32 k.toInt)) := by
  obtain ⟨u, hu, hp⟩ := (C78_months_partial C hv ha h1 h2 h3 hd hf e).1 hn
  obtain ⟨p1, p2, _, _⟩ := hp hdate
  have e1 : C.ns t / day = dayNumber y m d := by
    rw [e]
    unfold day at *
    omega
  obtain ⟨q1, q2, _, _⟩ := parts hd
  rw [hu]
  show call .dateDiff [v, .dateTime u, .string n] = _
  rw [dateDiff_eq hv (.date u) hn]
  suffices timeDiff t u .month = BitVec.ofInt 32 k.toInt by rw [this]
  show BitVec.ofInt 32 ((P.timeYear u - P.timeYear t) * 12 + (P.timeMonth u - P.timeMonth t)) = _
  rw [p1, p2, C.year, C.month, e1, q1, q2]
  congr 1
  unfold monthsOn
  dsimp only
  omega

/-- Refuted: one month after 31 January is two months away. -/
theorem C79_undo_months_false (C : Clock P) {v : Val P} {t : P.Time} (hv : Gives v t) (h1 : -2 ^ 80 < C.ns t) (h2 : C.ns t < 2 ^ 80)
    {y f : Int} (hf : 0 ≤ f ∧ f < day) (e : C.ns t = dayNumber y 1 31 * day + f) {n : Str} (hn : Names P n .month) :
    (call .dateAdd [v, .int32 1, .string n] >>= fun w => call .dateDiff [v, w, .string n]) = .ok (.int32 2) := by
  obtain ⟨u, hu, p1, p2, _⟩ := C78_months_false C hv h1 h2 hf e hn
  have hdate : IsDate y 1 31 := ⟨by decide, by decide, by decide, by simp [monthLength, daysBeforeMonth]⟩
  have e1 : C.ns t / day = dayNumber y 1 31 := by
    rw [e]
    unfold day at *
    omega
  obtain ⟨q1, q2, _, _⟩ := parts hdate
  rw [hu]
  show call .dateDiff [v, .dateTime u, .string n] = _
  rw [dateDiff_eq hv (.date u) hn]
  suffices timeDiff t u .month = 2#32 by rw [this]; rfl
  show BitVec.ofInt 32 ((P.timeYear u - P.timeYear t) * 12 + (P.timeMonth u - P.timeMonth t)) = _
  rw [p1, p2, C.year, C.month, e1, q1, q2, Int.sub_self]
  rfl

/-- Refuted: years and months are not counted as they pass: from the last day of a year to the first of the next it is one year, as it
is from the first to the last day of the next. -/
theorem C79_elapsed_false (C : Clock P) {t u w : P.Time} {y : Int} (hy : -2 ^ 26 ≤ y ∧ y < 2 ^ 26 - 1)
    (ht : C.ns t = dayNumber y 12 31 * day + 0) (hu : C.ns u = dayNumber (y + 1) 1 1 * day + 0)
    (hw : C.ns w = dayNumber (y + 1) 12 31 * day + 0) {n : Str} (hn : Names P n .year) :
    C.ns u - C.ns t = day ∧ ∃ r r', call .dateDiff [.dateTime t, .dateTime u, .string n] = .ok (.int32 r) ∧ r.toInt = 1 ∧
      call .dateDiff [.dateTime t, .dateTime w, .string n] = .ok (.int32 r') ∧ r'.toInt = 1 := by
  have d1 : ∀ y, IsDate y 12 31 := fun y => ⟨by decide, by decide, by decide, by simp [monthLength, daysBeforeMonth]⟩
  have d2 : IsDate (y + 1) 1 1 := ⟨by decide, by decide, by decide, by simp [monthLength, daysBeforeMonth]⟩
  have hz : (0 : Int) ≤ 0 ∧ 0 < day := by decide
  obtain ⟨r, hr, er⟩ := (C79_calendar C (.date t) (.date u) (d1 y) d2 hz hz ht hu (by omega) (by omega)).1 hn
  obtain ⟨r', hr', er'⟩ := (C79_calendar C (.date t) (.date w) (d1 y) (d1 (y + 1)) hz hz ht hw (by omega) (by omega)).1 hn
  refine ⟨?_, r, r', hr, by omega, hr', by omega⟩
  have hd : day = 86400000000000 := rfl
  rw [ht, hu, dayNumber_date _ ⟨by decide, by decide⟩, dayNumber_date _ ⟨by decide, by decide⟩, year_length]
  simp [daysBeforeMonth]
  rw [hd]
  omega

example : toyClock.ns (instant 2023 12 31 0 0 0 0 0) = dayNumber 2023 12 31 * day + 0 := by decide

/-- Milliseconds between dates less than 24 days apart, rounded towards zero. -/
theorem C79_milliseconds_partial (C : Clock P) {v w : Val P} {t u : P.Time} (hv : Gives v t) (hw : Gives w u) {n : Str}
    (hn : Names P n .millisecond) (h1 : -2 ^ 31 * 1000000 ≤ C.ns u - C.ns t) (h2 : C.ns u - C.ns t < 2 ^ 31 * 1000000) :
    ∃ r, call .dateDiff [v, w, .string n] = .ok (.int32 r) ∧ r.toInt = (C.ns u - C.ns t).tdiv 1000000 := by
  refine ⟨_, dateDiff_eq hv hw hn, ?_⟩
  show (((P.timeSub u t).sdiv 1000000#64).truncate 32).toInt = _
  rw [millis, sub_toInt C (by omega) (by omega)]
  generalize C.ns u - C.ns t = x at *
  have hb : -2 ^ 31 ≤ x.tdiv 1000000 ∧ x.tdiv 1000000 < 2 ^ 31 := by
    rcases Int.le_total 0 x with hx | hx
    · rw [Int.tdiv_eq_ediv_of_nonneg hx]
      omega
    · obtain ⟨z, rfl⟩ : ∃ z, x = -z := ⟨-x, by omega⟩
      rw [Int.neg_tdiv, Int.tdiv_eq_ediv_of_nonneg (by omega)]
      omega
  exact small_toInt32 hb.1 hb.2

/-- Refuted: thirty days come out as a negative number of milliseconds. -/
theorem C79_milliseconds_false (C : Clock P) {v w : Val P} {t u : P.Time} (hv : Gives v t) (hw : Gives w u) {n : Str}
    (hn : Names P n .millisecond) (e : C.ns u - C.ns t = 30 * day) :
    ∃ r, call .dateDiff [v, w, .string n] = .ok (.int32 r) ∧ r.toInt = -1702967296 := by
  refine ⟨_, dateDiff_eq hv hw hn, ?_⟩
  show (((P.timeSub u t).sdiv 1000000#64).truncate 32).toInt = _
  rw [millis, sub_toInt C (by rw [e]; decide) (by rw [e]; decide), e]
  decide

/-- Refuted: from dates more than 292 years before another, the differences are all the same, in every interval but years and months. -/
theorem C79_saturates_false (C : Clock P) {v v' w : Val P} {t t' u : P.Time} (hv : Gives v t) (hv' : Gives v' t') (hw : Gives w u) {n : Str}
    {i : Interval} (hn : Names P n i) {len : Int} (hi : lengthOf i = some len) (h1 : 2 ^ 63 ≤ C.ns u - C.ns t)
    (h2 : 2 ^ 63 ≤ C.ns u - C.ns t') : call .dateDiff [v, w, .string n] = call .dateDiff [v', w, .string n] := by
  rw [dateDiff_eq hv hw hn, dateDiff_eq hv' hw hn]
  have hs : P.timeSub u t = P.timeSub u t' := by
    apply BitVec.eq_of_toInt_eq
    rw [C.sub, C.sub]
    omega
  have : timeDiff t u i = timeDiff t' u i := by
    cases i <;> simp only [lengthOf, reduceCtorEq, Option.some.injEq] at hi <;> simp only [timeDiff, hs]
  rw [this]

/-- From the years 1500 and 1600 to 2000. -/
example : 2 ^ 63 ≤ toyClock.ns (instant 2000 1 1 0 0 0 0 0) - toyClock.ns (instant 1500 1 1 0 0 0 0 0) ∧
    2 ^ 63 ≤ toyClock.ns (instant 2000 1 1 0 0 0 0 0) - toyClock.ns (instant 1600 1 1 0 0 0 0 0) := by decide

end Verif.Expr
