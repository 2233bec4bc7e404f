import Verif.Format.Float
import Verif.Common.Calendar

/-!
# `time.Time.Format` as used

The layouts that /repo uses: `TimeFormat` and `ShortTimeFormat` (ticks/Ticks.go L77-80) and `DateTimeFormat` (data/DataSet.go L46). An instant is a
number of nanoseconds since 1 January of year 1, in UTC. Written from the documentation of package time: numbers are padded with zeros, a
fraction given by nines is cut (not rounded) and loses its trailing zeros, and its point with the last of them; `-07:00` is `+00:00` in UTC.
-/

namespace Verif.Lib.TimeText

open Verif.Calendar Verif.Format

/-- A number with at least `w` digits. (`time.Time.Format`, ticks/Ticks.go L153-160, data/DataRow.go L617) -/
def pad (w n : Nat) : List Byte := if n < 10 ^ w then lastDigits w n else decimal n

/-- A year: at least four digits, after a minus if it is negative. (`time.Time.Format`, ticks/Ticks.go L153-155, data/DataRow.go L617) -/
def year (y : Int) : List Byte := (if y < 0 then [45#8] else []) ++ pad 4 y.natAbs

/-- `2006-01-02` of a day. (ticks/Ticks.go L77, data/DataSet.go L46) -/
def date (n : Int) : List Byte := year (yearOf n) ++ 45#8 :: pad 2 (monthOf n).toNat ++ 45#8 :: pad 2 (dayOf n).toNat

/-- `15:04:05` of an instant. (ticks/Ticks.go L77-80, data/DataSet.go L46) -/
def clock (t : Int) : List Byte :=
  pad 2 (t % day / hour).toNat ++ 58#8 :: pad 2 (t % hour / minute).toNat ++ 58#8 :: pad 2 (t % minute / second).toNat

/-- Without trailing zeros. (`time.Time.Format`, ticks/Ticks.go L77-80, data/DataSet.go L46) -/
def trimZeros : List Byte → List Byte
  | [] => []
  | b :: l => if b = 48#8 ∧ trimZeros l = [] then [] else b :: trimZeros l

/-- `.99` with `k` nines. (ticks/Ticks.go L77-80, data/DataSet.go L46) -/
def fraction (k : Nat) (t : Int) : List Byte :=
  match trimZeros ((lastDigits 9 (t % second).toNat).take k) with
  | [] => []
  | l => 46#8 :: l

/-- `Format(TimeFormat)` (ticks/Ticks.go L77, L153-155). -/
def long (t : Int) : List Byte := date (t / day) ++ 32#8 :: clock t ++ fraction 9 t

/-- `Format(ShortTimeFormat)` (ticks/Ticks.go L80, L158-160). -/
def short (t : Int) : List Byte := clock t ++ fraction 3 t

/-- `Format(DateTimeFormat)` (data/DataSet.go L46, data/DataRow.go L441, L617, data/ValueExpression.go L141). -/
def xsd (t : Int) : List Byte := date (t / day) ++ 84#8 :: clock t ++ fraction 2 t ++ [43#8, 48#8, 48#8, 58#8, 48#8, 48#8]

end Verif.Lib.TimeText
