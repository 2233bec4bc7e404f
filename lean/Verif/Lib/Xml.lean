import Verif.Lib.Go
import Verif.Lib.TimeRead
import Verif.Data.Load

/-!
# The values of a document, read as they are

What `Verif.Data.XmlLib` leaves open of reading the values of fields (data/DataSet.go L267-330), written out. The texts are those of a writer that loses
nothing: the exact decimal expansion of a float, the digits of a decimal as it is, dates to the nanosecond.
-/

namespace Verif.Lib

open Verif.Expr (Str)
open Format (decimal lastDigits formatFloat)

/-- `float32` of `strconv.ParseFloat(s, 32)`: the nearest number, infinite out of range; the error is dropped. (data/DataSet.go L301) -/
def parseSingle (R : Rest) (s : Str) : Single :=
  if plain s then
    match Decimal.parse s with
    | some d => Bin.ofRat (Text.sign s).1 d.val
    | none => R.sglParse s
  else R.sglParse s

/-- The digits of a decimal, as many after the point as its exponent says (the inverse of `decimal.NewFromString`, data/DataSet.go L307). -/
def decimalText (d : Decimal) : Str :=
  (if d.value < 0 then [45#8] else []) ++ decimal (d.value.natAbs / 10 ^ d.exp.natAbs) ++ 46#8 :: lastDigits d.exp.natAbs d.value.natAbs

/-- A date to the nanosecond, in UTC (the inverse of `time.Parse(DateTimeFormat, s)`, data/DataSet.go L298). -/
def dateText (t : Int) : Str :=
  TimeText.date (t / Calendar.day) ++ 84#8 :: TimeText.clock t ++ TimeText.fraction 9 t ++ [43#8, 48#8, 48#8, 58#8, 48#8, 48#8]

/-- Reading the values of fields (data/DataSet.go L267-330): the error of each reader is dropped, leaving the zero value. -/
def xml (R : Rest) (parse : List Table.Column → Str → Option (Expr.Tree (go R))) : Data.XmlLib (go R) where
  time := fun s => (TimeRead.instant s).getD 0
  single := parseSingle R
  decimal := fun s => (Decimal.parse s).getD (Decimal.ofInt 0)
  timeText := dateText
  singleText := fun f => formatFloat (Double.bits (Bin.convert f)) 1074
  doubleText := fun f => formatFloat (Double.bits f) 1074
  decimalText := decimalText
  parse := parse

end Verif.Lib
