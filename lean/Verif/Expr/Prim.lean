import Verif.Common.Basic
import Verif.Guid.Model

/-!
# The parts of Go and its libraries the expression engine builds on

Decimals (`shopspring/decimal`), `float64`, `time.Time`, Unicode case mapping, number, date and UUID parsing and regular
expressions are parameters: the theorems hold for every choice of these functions, and where they need a law of one of them
(such as "the order of decimals is total") it is a hypothesis. Byte strings and integers are concrete.
-/

namespace Verif.Expr

/-- Go `string`. (data/ExpressionTree.go L1380-3350) -/
abbrev Str := List Byte

/-- `TimeInterval` (data/Constants.go L587-619). -/
inductive Interval where
  | year | month | dayOfYear | day | week | weekDay | hour | minute | second | millisecond
  deriving DecidableEq, Repr

/-- Library functions. (data/ExpressionTree.go L1380-3350) -/
structure Prim where
  /-- `decimal.Decimal` -/
  Dec : Type
  /-- `float64` -/
  Flt : Type
  /-- `float32` -/
  Sgl : Type
  /-- `time.Time` -/
  Time : Type
  decOfInt : Int → Dec
  decAdd : Dec → Dec → Dec
  decSub : Dec → Dec → Dec
  decMul : Dec → Dec → Dec
  /-- `Div`, for a divisor other than zero -/
  decDiv : Dec → Dec → Dec
  /-- `Mod`, for a divisor other than zero -/
  decMod : Dec → Dec → Dec
  /-- `Pow`: `none` when it panics -/
  decPow : Dec → Dec → Option Dec
  /-- `Cmp`; `Equal` is `Cmp = 0` -/
  decCmp : Dec → Dec → Int
  decAbs : Dec → Dec
  decCeil : Dec → Dec
  decFloor : Dec → Dec
  decRound : Dec → Dec
  decIntPart : Dec → BitVec 64
  decToFlt : Dec → Flt
  /-- `decimal.NewFromFloat`: `none` for NaN and infinities, which panic -/
  decOfFlt : Flt → Option Dec
  decStr : Dec → Str
  /-- `decimal.NewFromString`: `none` on an error -/
  decParse : Str → Option Dec
  /-- `float64(i)` -/
  fltOfInt : Int → Flt
  fltAdd : Flt → Flt → Flt
  fltSub : Flt → Flt → Flt
  fltMul : Flt → Flt → Flt
  fltDiv : Flt → Flt → Flt
  fltMod : Flt → Flt → Flt
  fltPow : Flt → Flt → Flt
  fltNeg : Flt → Flt
  fltAbs : Flt → Flt
  fltCeil : Flt → Flt
  fltFloor : Flt → Flt
  fltRound : Flt → Flt
  fltSqrt : Flt → Flt
  /-- `<`; `>` is `<` turned round, `<=` is `<` or `==` -/
  fltLt : Flt → Flt → Bool
  /-- `==` -/
  fltEq : Flt → Flt → Bool
  fltToInt32 : Flt → BitVec 32
  fltToInt64 : Flt → BitVec 64
  /-- `strconv.FormatFloat(v, 'f', 6, 64)` -/
  fltStr : Flt → Str
  /-- `strconv.ParseFloat`: the value and whether there was no error -/
  fltParse : Str → Flt × Bool
  /-- `int8(f)` and `int16(f)` -/
  fltToSInt : (w : Nat) → Flt → BitVec w
  /-- `uint8(f)` to `uint64(f)` -/
  fltToUInt : (w : Nat) → Flt → BitVec w
  /-- `float32(i)` -/
  sglOfInt : Int → Sgl
  /-- `float32(f)` -/
  sglOfFlt : Flt → Sgl
  /-- `float64(s)` -/
  sglToFlt : Sgl → Flt
  sglLt : Sgl → Sgl → Bool
  /-- `==` -/
  sglEq : Sgl → Sgl → Bool
  /-- `strconv.FormatFloat(float64(v), 'f', 6, 32)` -/
  sglStr : Sgl → Str
  /-- `Before`; `After` is `Before` turned round -/
  timeBefore : Time → Time → Bool
  timeEqual : Time → Time → Bool
  timeUnix : Time → BitVec 64
  /-- `time.Time{}` -/
  timeZero : Time
  /-- `Format(DateTimeFormat)` -/
  timeStr : Time → Str
  /-- `dateparse.ParseAny`, in UTC, and whether there was no error -/
  timeParse : Str → Time × Bool
  /-- `AddDate`: years, months, days -/
  timeAddDate : Time → Int → Int → Int → Time
  /-- `Add` of a `time.Duration` -/
  timeAddDur : Time → BitVec 64 → Time
  /-- `Sub` -/
  timeSub : Time → Time → BitVec 64
  timeYear : Time → Int
  timeMonth : Time → Int
  timeYearDay : Time → Int
  timeDay : Time → Int
  /-- `Weekday`, Sunday is 0 -/
  timeWeekday : Time → Int
  /-- the week of `ISOWeek` -/
  timeISOWeek : Time → Int
  timeHour : Time → Int
  timeMinute : Time → Int
  timeSecond : Time → Int
  timeNano : Time → Int
  /-- `Duration.Hours` -/
  durHours : BitVec 64 → Flt
  /-- `Duration.Minutes` -/
  durMinutes : BitVec 64 → Flt
  /-- `Duration.Seconds` -/
  durSeconds : BitVec 64 → Flt
  now : Time
  utcNow : Time
  /-- `strings.ToUpper` -/
  upper : Str → Str
  /-- `strings.ToLower` -/
  lower : Str → Str
  /-- `strings.EqualFold` -/
  equalFold : Str → Str → Bool
  /-- `strconv.ParseBool`, false on an error -/
  boolParse : Str → Bool
  /-- `strconv.ParseBool` gives no error -/
  isBool : Str → Bool
  /-- `strconv.ParseInt(s, 0, 64)` gives no error -/
  isInt : Str → Bool
  /-- `strconv.ParseInt(s, 0, w)`: `none` on an error -/
  intParse : (w : Nat) → Str → Option (BitVec w)
  /-- `strconv.ParseUint(s, 0, w)`: `none` on an error -/
  uintParse : (w : Nat) → Str → Option (BitVec w)
  /-- `guid.Parse`: the value and whether there was no error -/
  guidParse : Str → Guid.Guid × Bool
  guidStr : Guid.Guid → Str
  /-- `regexp.Compile` and `FindStringIndex`: outer `none` when the pattern does not compile -/
  regexFind : Str → Str → Option (Option (Nat × Nat))
  /-- where a text matches another one letter case aside, from left to right without overlaps: the regular expression `(?i)` with the
  quoted text, `FindAllStringIndex` less the empty matches that `ReplaceAllString` passes over; `none` when the expression does not compile (a text that is not UTF-8, or
one beyond the size `regexp` accepts) -/
  foldMatches : Str → Str → Option (List (Nat × Nat))
  /-- the width of a letter or digit beyond ASCII at the start of a text (`unicode.IsLetter`, `unicode.IsDigit`) -/
  wordRune : Str → Option Nat

/-- The ASCII text of a Go string literal. (data/ExpressionTree.go L1380-3350) -/
def lit (s : String) : Str := s.toList.map fun c => BitVec.ofNat 8 c.toNat

end Verif.Expr
