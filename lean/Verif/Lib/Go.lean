import Verif.Lib.DecimalText
import Verif.Expr.DateProps
import Verif.Expr.ConvertProps
import Verif.Table.OrderProps
import Verif.Guid.Text
import Verif.Data.Number
import Verif.Format.Float
import Verif.Lib.TimeText

/-!
# The libraries as they are

`Verif.Expr.Prim` leaves the functions of Go and its libraries open. Here most of them are written out: `float64`, `float32`, decimals, dates in UTC,
durations, UUIDs and the texts of numbers. What stays open is `Rest`: Unicode case mapping, regular expressions, reading dates, powers of
floats, the clock, conversions of floats out of range (which the Go specification leaves to the implementation) and the shortest digits of a float.
-/

namespace Verif.Lib

open Verif.Expr (Str Prim)

/-- What is left open. The calls are cited at the fields of `Verif.Expr.Prim` of the same names. (data/ExpressionTree.go L1380-3350) -/
structure Rest where
  /-- `decimal.NewFromFloat` of a finite number -/
  decOfFlt : Double → Decimal
  /-- `Decimal.Pow` -/
  decPow : Decimal → Decimal → Option Decimal
  /-- `math.Pow` -/
  fltPow : Double → Double → Double
  /-- a conversion to an integer of `w` bits, signed or not, of a number out of its range -/
  wild : Bool → (w : Nat) → Double → BitVec w
  /-- `strconv.ParseFloat` of a text that is not a plain decimal number -/
  fltParse : Str → Double × Bool
  /-- `strconv.ParseFloat(s, 32)` of a text that is not a plain decimal number -/
  sglParse : Str → Single
  timeParse : Str → Int × Bool
  now : Int
  utcNow : Int
  upper : Str → Str
  lower : Str → Str
  equalFold : Str → Str → Bool
  regexFind : Str → Str → Option (Option (Nat × Nat))
  foldMatches : Str → Str → Option (List (Nat × Nat))
  wordRune : Str → Option Nat

/-- The conversion of a float to a signed integer drops the fraction. (data/ValueExpression.go L513-516, data/ExpressionTree.go L1677-1685, data/DataRow.go L325-332) -/
def toSigned (R : Rest) (w : Nat) (f : Double) : BitVec w :=
  if f.Finite ∧ -2 ^ w ≤ 2 * Bin.truncRat f.val ∧ 2 * Bin.truncRat f.val < 2 ^ w then BitVec.ofInt w (Bin.truncRat f.val) else R.wild true w f

/-- The conversion of a float to an unsigned integer drops the fraction. (data/DataRow.go L333-340) -/
def toUnsigned (R : Rest) (w : Nat) (f : Double) : BitVec w :=
  if f.Finite ∧ 0 ≤ Bin.truncRat f.val ∧ Bin.truncRat f.val < 2 ^ w then BitVec.ofInt w (Bin.truncRat f.val) else R.wild false w f

/-- A digit. (`strconv.ParseFloat`, data/FilterExpressionParser.go L1077) -/
def isDigit (b : Byte) : Bool := 48 ≤ b.toNat && b.toNat ≤ 57

/-- The letter of an exponent. (`strconv.ParseFloat`, data/FilterExpressionParser.go L1077) -/
def isExp (b : Byte) : Bool := b == 69#8 || b == 101#8

/-- A decimal number as `strconv.ParseFloat` takes it: an optional sign, digits with at most one point, and an optional exponent of up to 99999. (data/FilterExpressionParser.go L1077, L1111) -/
def plain (s : Str) : Bool :=
  let t := (Text.sign s).2
  let mant := t.takeWhile fun b => !isExp b
  let rest := t.dropWhile fun b => !isExp b
  let x := (Text.sign rest.tail).2
  mant.all (fun b => isDigit b || b == 46#8) && mant.any isDigit && mant.count 46#8 ≤ 1 &&
    (rest.isEmpty || (!x.isEmpty && x.all isDigit && Format.readDecimal x < 100000))

/-- `strconv.ParseFloat(s, 64)`: the nearest number; one out of range is infinite, with an error. (data/ValueExpression.go L551, data/FilterExpressionParser.go L1077, L1111) -/
def parseFloat (R : Rest) (s : Str) : Double × Bool :=
  if plain s then
    match Decimal.parse s with
    | some d => (Bin.ofRat (Text.sign s).1 d.val, decide (Bin.ofRat (Text.sign s).1 d.val : Double).Finite)
    | none => R.fltParse s
  else R.fltParse s

/-- The number `strconv.ParseInt(s, 0, w)` reads, if there is no error. (data/DataRow.go L369-378, data/ExpressionTree.go L1894) -/
def parseInt (w : Nat) (s : Str) : Option Int :=
  match Data.parseUint0 w (Text.sign s).2 with
  | .value n =>
    if (Text.sign s).1 then (if 2 * n ≤ 2 ^ w then some (-(n : Int)) else none) else if 2 * n < 2 ^ w then some (n : Int) else none
  | _ => none

/-- The texts `strconv.ParseBool` takes for true. (data/ValueExpression.go L537) -/
def truths : List String := ["1", "t", "T", "TRUE", "true", "True"]
/-- The texts `strconv.ParseBool` takes for false. (data/ValueExpression.go L537) -/
def falsehoods : List String := ["0", "f", "F", "FALSE", "false", "False"]

/-- `Hours`, `Minutes` and `Seconds` of a `time.Duration`: the whole part and the rest, each as a float, added. (data/ExpressionTree.go L1677-1685) -/
def durIn (unit : Int) (d : BitVec 64) : Double :=
  Bin.add (Bin.ofInt (d.toInt.tdiv unit)) (Bin.div (Bin.ofInt (d.toInt.tmod unit)) (Bin.ofInt unit))

/-- A number bounded by those of a `time.Duration`. (time.Time.Sub, data/ExpressionTree.go L1669) -/
def clamp (i : Int) : Int := max (-9223372036854775808) (min 9223372036854775807 i)

/-- The libraries. Dates are nanoseconds since 1 January of year 1, in UTC. (the calls are cited at the fields of `Verif.Expr.Prim`)
(data/ExpressionTree.go L1380-3350) -/
@[reducible] def go (R : Rest) : Prim where
  Dec := Decimal
  Flt := Double
  Sgl := Single
  Time := Int
  decOfInt := Decimal.ofInt
  decAdd := Decimal.add
  decSub := Decimal.sub
  decMul := Decimal.mul
  decDiv := Decimal.div
  decMod := Decimal.mod
  decPow := R.decPow
  decCmp := Decimal.cmp
  decAbs := Decimal.abs
  decCeil := Decimal.ceil
  decFloor := Decimal.floor
  decRound := Decimal.round
  decIntPart := Decimal.intPart
  decToFlt := Decimal.toDouble
  decOfFlt := fun f => if f.Finite then some (R.decOfFlt f) else none
  decStr := Decimal.str
  decParse := Decimal.parse
  fltOfInt := Bin.ofInt
  fltAdd := Bin.add
  fltSub := Bin.sub
  fltMul := Bin.mul
  fltDiv := Bin.div
  fltMod := Bin.mod
  fltPow := R.fltPow
  fltNeg := Bin.neg_
  fltAbs := Bin.abs
  fltCeil := Bin.ceil
  fltFloor := Bin.floor
  fltRound := Bin.round
  fltSqrt := Bin.sqrt
  fltLt := Bin.lt_
  fltEq := Bin.eq_
  fltToInt32 := toSigned R 32
  fltToInt64 := toSigned R 64
  fltStr := fun f => Format.formatFloat (Double.bits f) 6
  fltParse := parseFloat R
  fltToSInt := toSigned R
  fltToUInt := toUnsigned R
  sglOfInt := Bin.ofInt
  sglOfFlt := Bin.convert
  sglToFlt := Bin.convert
  sglLt := Bin.lt_
  sglEq := Bin.eq_
  sglStr := fun f => Format.formatFloat (Double.bits (Bin.convert f)) 6
  timeBefore := fun a b => decide (a < b)
  timeEqual := fun a b => decide (a = b)
  timeUnix := fun t => BitVec.ofInt 64 (t / Calendar.second - 62135596800)
  timeZero := 0
  timeStr := TimeText.xsd
  timeParse := R.timeParse
  timeAddDate := fun t y m d => Calendar.dayNumber (Calendar.yearOf (t / Calendar.day) + y) (Calendar.monthOf (t / Calendar.day) + m)
    (Calendar.dayOf (t / Calendar.day) + d) * Calendar.day + t % Calendar.day
  timeAddDur := fun t d => t + d.toInt
  timeSub := fun a b => BitVec.ofInt 64 (clamp (a - b))
  timeYear := fun t => Calendar.yearOf (t / Calendar.day)
  timeMonth := fun t => Calendar.monthOf (t / Calendar.day)
  timeYearDay := fun t => Calendar.yearDay (t / Calendar.day) + 1
  timeDay := fun t => Calendar.dayOf (t / Calendar.day)
  timeWeekday := fun t => Calendar.weekday (t / Calendar.day)
  timeISOWeek := fun t => Calendar.isoWeek (t / Calendar.day)
  timeHour := fun t => t % Calendar.day / Calendar.hour
  timeMinute := fun t => t % Calendar.hour / Calendar.minute
  timeSecond := fun t => t % Calendar.minute / Calendar.second
  timeNano := fun t => t % Calendar.second
  durHours := durIn Calendar.hour
  durMinutes := durIn Calendar.minute
  durSeconds := durIn Calendar.second
  now := R.now
  utcNow := R.utcNow
  upper := R.upper
  lower := R.lower
  equalFold := R.equalFold
  boolParse := fun s => s ∈ truths.map Expr.lit
  isBool := fun s => s ∈ truths.map Expr.lit ∨ s ∈ falsehoods.map Expr.lit
  isInt := fun s => (parseInt 64 s).isSome
  intParse := fun w s => (parseInt w s).map (BitVec.ofInt w)
  uintParse := fun w s => match Data.parseUint0 w s with
    | .value n => some (BitVec.ofNat w n)
    | _ => none
  guidParse := Guid.parse
  guidStr := Guid.toString
  regexFind := R.regexFind
  foldMatches := R.foldMatches
  wordRune := R.wordRune

/-- An ASCII choice of what is open, for examples. (data/ExpressionTree.go L1380-3350) -/
def sample : Rest where
  decOfFlt := fun f => ⟨Bin.roundAway (f.val * 1000000), -6⟩
  decPow := fun _ _ => none
  fltPow := fun _ _ => Bin.nan
  wild := fun _ _ _ => 0
  fltParse := fun _ => (Bin.zero false, false)
  sglParse := fun _ => Bin.zero false
  timeParse := fun _ => (0, false)
  now := 0
  utcNow := 0
  upper := Expr.Toy.upper
  lower := Expr.Toy.lower
  equalFold := fun a b => Expr.Toy.upper a == Expr.Toy.upper b
  regexFind := fun r t => some ((Expr.index? t r).map fun i => (i, i + r.length))
  foldMatches := fun s t => some (Expr.Toy.matches_ (Expr.Toy.upper s) (Expr.Toy.upper t) s.length 0)
  wordRune := fun _ => none

variable (R : Rest)

/-! ## The laws assumed elsewhere hold -/

theorem eq_self {m w : Nat} (f : Bin m w) : f.eq_ f = true ↔ ¬ f.IsNaN := by
  unfold Bin.eq_
  simp

theorem lt_iff {m w : Nat} (f g : Bin m w) : f.lt_ g = true ↔ ¬ f.IsNaN ∧ ¬ g.IsNaN ∧ f.key < g.key := by
  unfold Bin.lt_
  simp [and_assoc]

theorem lt_asymm_ {m w : Nat} (f g : Bin m w) (h : f.lt_ g = true) : g.lt_ f = false := by
  rw [lt_iff] at h
  rw [Bool.eq_false_iff, Ne, lt_iff]
  omega

theorem lt_trans_ {m w : Nat} (a b c : Bin m w) (ha : a.eq_ a = true) (hb : b.eq_ b = true) (hc : c.eq_ c = true) (h1 : b.lt_ a = false)
    (h2 : c.lt_ b = false) : c.lt_ a = false := by
  rw [eq_self] at ha hb hc
  rw [Bool.eq_false_iff, Ne, lt_iff] at h1 h2 ⊢
  simp only [ha, hb, hc, not_false_eq_true, true_and] at h1 h2 ⊢
  omega

/-- Decimals, floats and dates are ordered as their values are. -/
theorem go_orders : Table.OrderLaws (go R) where
  decAnti := fun a b => by
    show Decimal.cmp a b < 0 ↔ Decimal.cmp b a > 0
    rw [Decimal.cmp_neg, Decimal.cmp_pos]
  decTrans := fun a b c h1 h2 => by
    have h1' : Decimal.cmp a b ≤ 0 := h1
    have h2' : Decimal.cmp b c ≤ 0 := h2
    rw [Decimal.cmp_le] at h1' h2'
    exact (Decimal.cmp_le a c).mpr (le_trans h1' h2')
  fltAsymm := lt_asymm_
  fltTrans := lt_trans_
  sglAsymm := lt_asymm_
  sglTrans := lt_trans_
  timeAsymm := fun a b h => by
    have h' : a < b := of_decide_eq_true h
    exact decide_eq_false (not_lt.mpr (le_of_lt h'))
  timeTrans := fun a b c h1 h2 => by
    have h1' := of_decide_eq_false h1
    have h2' := of_decide_eq_false h2
    exact decide_eq_false (not_lt.mpr (le_trans (not_lt.mp h1') (not_lt.mp h2')))

theorem ofInt_val (i : Int) (h : i.natAbs ≤ 2 ^ 53) : (Bin.ofInt i : Double).Finite ∧ (Bin.ofInt i : Double).val = i :=
  Bin.whole_exact false i h

theorem toSigned_ofInt (w : Nat) (i : Int) (h : i.natAbs ≤ 2 ^ 53) (h1 : -2 ^ w ≤ 2 * i) (h2 : 2 * i < 2 ^ w) :
    toSigned R w (Bin.ofInt i) = BitVec.ofInt w i := by
  obtain ⟨hf, hv⟩ := ofInt_val i h
  unfold toSigned
  rw [hv, Decimal.truncRat_int, if_pos ⟨hf, h1, h2⟩]

/-- Decimals hold every integer and doubles those up to 2^53. -/
theorem go_numbers : Expr.NumberLaws (go R) where
  dec := fun i _ _ => by
    show Decimal.intPart (Decimal.ofInt i) = _
    rw [Decimal.intPart_eq, Decimal.val_ofInt, Decimal.truncRat_int]
  decZero := fun i => by
    show Decimal.cmp (Decimal.ofInt i) (Decimal.ofInt 0) = 0 ↔ i = 0
    rw [(Decimal.cmp_spec _ _).2.1, Decimal.val_ofInt, Decimal.val_ofInt, Int.cast_inj]
  flt32 := fun i h1 h2 => by
    show toSigned R 32 (Bin.ofInt i) = BitVec.ofInt 32 i
    exact toSigned_ofInt R 32 i (by omega) (by omega) (by omega)
  flt64 := fun i h1 h2 => by
    show toSigned R 64 (Bin.ofInt i) = BitVec.ofInt 64 i
    exact toSigned_ofInt R 64 i (by omega) (by omega) (by omega)
  fltZero := fun i h1 h2 => by
    show Bin.eq_ (Bin.ofInt i : Double) (Bin.ofInt 0) = true ↔ i = 0
    obtain ⟨hf, hv⟩ := ofInt_val i (by omega)
    obtain ⟨hf0, hv0⟩ := ofInt_val 0 (by decide)
    unfold Bin.eq_
    have n1 := ((Bin.finite_iff _).mp hf).1
    have n2 := ((Bin.finite_iff _).mp hf0).1
    rw [decide_eq_false n1, decide_eq_false n2]
    simp only [Bool.not_false, Bool.true_and, decide_eq_true_eq]
    rw [Bin.key_eq_iff, hv, hv0, Int.cast_inj]

/-- Dates are those of the calendar. (data/ExpressionTree.go L1380-3350) -/
def goClock : Expr.Clock (go R) where
  ns := fun t => t
  year := fun _ => rfl
  month := fun _ => rfl
  yearDay := fun _ => rfl
  day_ := fun _ => rfl
  weekday := fun _ => rfl
  week := fun _ => rfl
  hour := fun _ => rfl
  minute := fun _ => rfl
  second := fun _ => rfl
  nano := fun _ => rfl
  addDate := fun _ _ _ _ _ _ _ _ _ _ _ _ => rfl
  addDur := fun _ _ _ _ => rfl
  sub := fun a b => by
    show (BitVec.ofInt 64 (clamp (a - b))).toInt = max (-2 ^ 63) (min (2 ^ 63 - 1) (a - b))
    change Int at a b
    have h : -9223372036854775808 ≤ clamp (a - b) ∧ clamp (a - b) ≤ 9223372036854775807 := by
      unfold clamp
      omega
    rw [BitVec.toInt_ofInt, Int.bmod_def]
    have e : clamp (a - b) = max (-2 ^ 63) (min (2 ^ 63 - 1) (a - b)) := by
      unfold clamp
      norm_num
    rw [← e]
    split <;> omega

theorem zero_div (u : Int) (h0 : u ≠ 0) (h : u.natAbs ≤ 2 ^ 53) :
    ∃ z : Double, Bin.div (Bin.ofInt 0 : Double) (Bin.ofInt u) = z ∧ z.Finite ∧ z.val = 0 := by
  obtain ⟨f1, v1⟩ := ofInt_val 0 (by decide)
  obtain ⟨f2, v2⟩ := ofInt_val u h
  have n1 := (Bin.finite_iff _).mp f1
  have n2 := (Bin.finite_iff _).mp f2
  refine ⟨_, rfl, ?_⟩
  unfold Bin.div
  rw [if_neg (by rintro (h | h); exacts [n1.1 h, n2.1 h]), if_neg n1.2, if_neg n2.2, if_neg (by
    intro hz
    rw [← Bin.val_eq_zero_iff, v2] at hz
    exact h0 (by exact_mod_cast hz)), v1]
  have := Bin.whole_exact (m := 52) (w := 11) ((Bin.ofInt 0 : Double).neg != (Bin.ofInt u : Double).neg) 0 (by decide)
  have e : ((0 : Int) : ℚ) / (Bin.ofInt u : Double).val = ((0 : Int) : ℚ) := by simp
  rw [e]
  exact ⟨this.1, by rw [this.2]; rfl⟩

theorem ofInt_zero : (Bin.ofInt 0 : Double).neg = false := rfl

/-- A whole number is added to zero. -/
theorem durIn_whole (u k : Int) (hu : 0 < u) (hu2 : u.natAbs ≤ 2 ^ 53) (hk : k.natAbs ≤ 2 ^ 53) (d : BitVec 64) (h : d.toInt = k * u) :
    durIn u d = Bin.ofInt k := by
  unfold durIn
  rw [h, Int.mul_tdiv_cancel _ (ne_of_gt hu), Int.mul_tmod_left]
  obtain ⟨z, hz, zf, zv⟩ := zero_div u (ne_of_gt hu) hu2
  rw [hz]
  obtain ⟨f1, v1⟩ := ofInt_val k hk
  have n1 := (Bin.finite_iff _).mp f1
  have n2 := (Bin.finite_iff _).mp zf
  unfold Bin.add
  rw [if_neg (by rintro (h | h); exacts [n1.1 h, n2.1 h]), if_neg n1.2, if_neg n2.2, zv, v1, add_zero]
  by_cases hk0 : k = 0
  · subst hk0
    rw [ofInt_zero]
    rfl
  · have hkq : (k : ℚ) ≠ 0 := by exact_mod_cast hk0
    apply Bin.ext'
    · show (if (k : ℚ) = 0 then _ else decide ((k : ℚ) < 0)) = if (k : ℚ) = 0 then _ else decide ((k : ℚ) < 0)
      rw [if_neg hkq, if_neg hkq]
    · rfl

theorem div_whole (k c : Int) (hc : 0 < c) (h1 : (k * c).natAbs ≤ 2 ^ 53) (h2 : c.natAbs ≤ 2 ^ 53) :
    Bin.div (Bin.ofInt (k * c) : Double) (Bin.ofInt c) = Bin.ofInt k := by
  obtain ⟨f1, v1⟩ := ofInt_val (k * c) h1
  obtain ⟨f2, v2⟩ := ofInt_val c h2
  have n1 := (Bin.finite_iff _).mp f1
  have n2 := (Bin.finite_iff _).mp f2
  have hcq : (c : ℚ) ≠ 0 := by exact_mod_cast (ne_of_gt hc)
  unfold Bin.div
  rw [if_neg (by rintro (h | h); exacts [n1.1 h, n2.1 h]), if_neg n1.2, if_neg n2.2, if_neg (by
    intro hz
    rw [← Bin.val_eq_zero_iff, v2] at hz
    exact hcq hz), v1, v2]
  have e : ((k * c : Int) : ℚ) / c = k := by
    push_cast
    field_simp
  rw [e]
  by_cases hk0 : k = 0
  · subst hk0
    have hn : (Bin.ofInt c : Double).neg = false := by
      show (if (c : ℚ) = 0 then false else decide ((c : ℚ) < 0)) = false
      rw [if_neg hcq, decide_eq_false_iff_not, not_lt]
      exact_mod_cast le_of_lt hc
    rw [Int.zero_mul, ofInt_zero, hn]
    rfl
  · have hkq : (k : ℚ) ≠ 0 := by exact_mod_cast hk0
    apply Bin.ext'
    · show (if (k : ℚ) = 0 then _ else decide ((k : ℚ) < 0)) = if (k : ℚ) = 0 then _ else decide ((k : ℚ) < 0)
      rw [if_neg hkq, if_neg hkq]
    · rfl

theorem durIn_hours (d : BitVec 64) (k : Int) (h : d.toInt = k * Calendar.hour) : durIn Calendar.hour d = Bin.ofInt k := by
  have := BitVec.le_toInt d
  have := BitVec.toInt_lt (x := d)
  have hk : k.natAbs ≤ 2 ^ 53 := by
    unfold Calendar.hour at h
    omega
  exact durIn_whole Calendar.hour k (by unfold Calendar.hour; norm_num) (by unfold Calendar.hour; norm_num) hk d h

theorem durIn_minutes (d : BitVec 64) (k : Int) (h : d.toInt = k * Calendar.minute) : durIn Calendar.minute d = Bin.ofInt k := by
  have := BitVec.le_toInt d
  have := BitVec.toInt_lt (x := d)
  have hk : k.natAbs ≤ 2 ^ 53 := by
    unfold Calendar.minute at h
    omega
  exact durIn_whole Calendar.minute k (by unfold Calendar.minute; norm_num) (by unfold Calendar.minute; norm_num) hk d h

theorem durIn_seconds (d : BitVec 64) (k : Int) (h : d.toInt = k * Calendar.second) : durIn Calendar.second d = Bin.ofInt k := by
  have := BitVec.le_toInt d
  have := BitVec.toInt_lt (x := d)
  have hk : k.natAbs ≤ 2 ^ 53 := by
    unfold Calendar.second at h
    omega
  exact durIn_whole Calendar.second k (by unfold Calendar.second; norm_num) (by unfold Calendar.second; norm_num) hk d h

theorem div_weeks (k c : Int) (hc : c = 24 ∨ c = 7) (h1 : -2 ^ 53 ≤ k * c) (h2 : k * c ≤ 2 ^ 53) :
    Bin.div (Bin.ofInt (k * c) : Double) (Bin.ofInt c) = Bin.ofInt k := by
  have h3 : (k * c).natAbs ≤ 2 ^ 53 := by
    generalize k * c = x at *
    omega
  rcases hc with rfl | rfl
  · exact div_whole k 24 (by norm_num) h3 (by norm_num)
  · exact div_whole k 7 (by norm_num) h3 (by norm_num)

/-- Durations of whole hours, minutes and seconds are told exactly. -/
theorem go_durations : Expr.DurationLaws (go R) where
  hours := durIn_hours
  minutes := durIn_minutes
  seconds := durIn_seconds
  div := div_weeks
  toInt32 := (go_numbers R).flt32

end Verif.Lib
