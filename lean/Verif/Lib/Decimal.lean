import Verif.Lib.Double
import Verif.Format.Props
import Verif.Common.Text
import Mathlib.Algebra.Order.Field.Power

/-!
# Decimals

`github.com/shopspring/decimal` v1.3.1 (decimal.go), which the expression engine uses for numbers of type Decimal (go.mod L10): a whole number
times a power of ten. Exponents are Go `int32`; they are integers here, as no operation modelled leaves that range on numbers whose digits fit
in memory other than by exponents that were written out as such. `big.Int` is `Int`.
-/

namespace Verif.Lib

/-- `Decimal`: value and exponent. (go.mod L10, data/Constants.go L93) -/
structure Decimal where
  value : Int
  exp : Int
  deriving DecidableEq, Repr

namespace Decimal

/-- The number meant. (go.mod L10) -/
def val (d : Decimal) : ℚ := d.value * (10 : ℚ) ^ d.exp

/-- `NewFromInt` (data/ValueExpression.go L417, L442, L467) -/
def ofInt (i : Int) : Decimal := ⟨i, 0⟩

/-- A power of ten. (`rescale` of go.mod L10) -/
def pow10 (e : Int) : Int := 10 ^ e.toNat

/-- `rescale`: to a lower exponent by multiplying, to a higher one by a division that drops digits. (go.mod L10) -/
def rescale (d : Decimal) (e : Int) : Decimal :=
  if d.exp < e then ⟨d.value.tdiv (pow10 (e - d.exp)), e⟩ else ⟨d.value * pow10 (d.exp - e), e⟩

/-- `RescalePair`: the values at the lower one of the exponents. (go.mod L10) -/
def pair (a b : Decimal) : Int × Int × Int :=
  ((a.rescale (min a.exp b.exp)).value, (b.rescale (min a.exp b.exp)).value, min a.exp b.exp)

/-- `Add` (data/ExpressionTree.go L2724) -/
def add (a b : Decimal) : Decimal := ⟨(pair a b).1 + (pair a b).2.1, (pair a b).2.2⟩
/-- `Sub` (data/ExpressionTree.go L2758) -/
def sub (a b : Decimal) : Decimal := ⟨(pair a b).1 - (pair a b).2.1, (pair a b).2.2⟩
/-- `Mul` (data/ExpressionTree.go L2620, data/UnaryExpression.go L113) -/
def mul (a b : Decimal) : Decimal := ⟨a.value * b.value, a.exp + b.exp⟩
/-- `Abs` (data/ExpressionTree.go L1398) -/
def abs (a : Decimal) : Decimal := ⟨a.value.natAbs, a.exp⟩

/-- `Cmp` (data/ValueExpression.go L486, the comparisons of data/ExpressionTree.go L2975-3185) -/
def cmp (a b : Decimal) : Int :=
  if (pair a b).1 < (pair a b).2.1 then -1 else if (pair a b).1 = (pair a b).2.1 then 0 else 1

/-- `QuoRem`: the quotient to `p` places and the rest; not for a divisor 0. (go.mod L10, within `Div`) -/
def quoRem (a b : Decimal) (p : Int) : Decimal × Decimal :=
  let e := a.exp - b.exp + p
  if e < 0 then
    (⟨a.value.tdiv (b.value * pow10 (-e)), -p⟩, ⟨a.value.tmod (b.value * pow10 (-e)), a.exp⟩)
  else
    (⟨(a.value * pow10 e).tdiv b.value, -p⟩, ⟨(a.value * pow10 e).tmod b.value, -p + b.exp⟩)

/-- `DivRound`: the quotient to `p` places, halves away from zero. (go.mod L10, within `Div`) -/
def divRound (a b : Decimal) (p : Int) : Decimal :=
  let q := (quoRem a b p).1
  let r := (quoRem a b p).2
  if cmp ⟨r.value.natAbs * 2, r.exp + p⟩ b.abs < 0 then q
  else if a.value.sign * b.value.sign < 0 then q.sub ⟨1, -p⟩
  else q.add ⟨1, -p⟩

/-- `Div`: to 16 places (`DivisionPrecision`). (data/ExpressionTree.go L2654) -/
def div (a b : Decimal) : Decimal := divRound a b 16

/-- `Truncate(0)` (go.mod L10, within `Mod`) -/
def truncate (d : Decimal) : Decimal := if d.exp < 0 then d.rescale 0 else d

/-- `Mod` (data/ExpressionTree.go L2688) -/
def mod (a b : Decimal) : Decimal := a.sub (b.mul (a.div b).truncate)

/-- `Floor` (data/ExpressionTree.go L1799) -/
def floor (d : Decimal) : Decimal := if 0 ≤ d.exp then d else ⟨d.value / pow10 (-d.exp), 0⟩

/-- `Ceil`; `DivMod` is Euclidean. (data/ExpressionTree.go L1422) -/
def ceil (d : Decimal) : Decimal :=
  if 0 ≤ d.exp then d
  else ⟨d.value / pow10 (-d.exp) + (if d.value % pow10 (-d.exp) = 0 then 0 else 1), 0⟩

/-- `Round(0)`: cut after one place, half added, the last digit dropped towards zero. (data/ExpressionTree.go L2305) -/
def round (d : Decimal) : Decimal :=
  if d.exp = 0 then d
  else
    let v := (d.rescale (-1)).value
    let v := if v < 0 then v - 5 else v + 5
    ⟨if v / 10 < 0 ∧ v % 10 ≠ 0 then v / 10 + 1 else v / 10, 0⟩

/-- `IntPart`: the lowest 64 bits of the whole part. (data/ValueExpression.go L488-490) -/
def intPart (d : Decimal) : BitVec 64 := BitVec.ofInt 64 (d.rescale 0).value

/-- `Pow`, with a bound on the depth of the recursion, which is as deep as the whole part of the exponent has binary digits: `none` when it panics. (data/ExpressionTree.go L2159-2167) -/
def powAux (d : Decimal) : Nat → Decimal → Option Decimal
  | 0, _ => none
  | n + 1, e =>
    if (intPart e).toInt = 0 then some ⟨1, 0⟩
    else do
      let t ← powAux d n (e.div ⟨2, 0⟩)
      if (intPart e).toInt.tmod 2 = 0 then some (t.mul t)
      else if 0 < (intPart e).toInt then some ((t.mul t).mul d)
      else if d.value = 0 then none
      else some ((t.mul t).div d)

/-- `Float64`, by way of `big.Rat`. (data/ValueExpression.go L494) -/
def toDouble (d : Decimal) : Double := Bin.ofRat false d.val

open Format (decimal)

/-- Trailing zeros dropped. (go.mod L10, within `String`) -/
def dropZeros (s : List Byte) : List Byte := (s.reverse.dropWhile (· = 48#8)).reverse

/-- `String` (data/DataRow.go L275, data/ValueExpression.go L496) -/
def str (d : Decimal) : List Byte :=
  if 0 ≤ d.exp then
    (if (d.rescale 0).value < 0 then [45#8] else []) ++ decimal (d.rescale 0).value.natAbs
  else
    let s := decimal d.value.natAbs
    let n := (-d.exp).toNat
    let whole := if n < s.length then s.take (s.length - n) else [48#8]
    let places := dropZeros (if n < s.length then s.drop (s.length - n) else List.replicate (n - s.length) 48#8 ++ s)
    (if d.value < 0 then [45#8] else []) ++ whole ++ (if places = [] then [] else 46#8 :: places)

/-- An optional sign and at least one digit, as `strconv.ParseInt` and `big.Int.SetString` read it with base 10. (`strconv.ParseInt` in data/DataRow.go L369-378, `NewFromString`) -/
def readInt (s : List Byte) : Option Int :=
  let (neg, t) := Text.sign s
  if t = [] ∨ ¬ ∀ b ∈ t, 48 ≤ b.toNat ∧ b.toNat ≤ 57 then none
  else some (if neg then -(Format.readDecimal t : Int) else Format.readDecimal t)

/-- The text before the exponent and the exponent: `none` for an exponent that is no number or too large. (go.mod L10, within `NewFromString`) -/
def cutExponent (s : List Byte) : Option (List Byte × Int) :=
  match s.findIdx? (fun b => b = 69#8 ∨ b = 101#8) with
  | none => some (s, 0)
  | some i =>
    match readInt (s.drop (i + 1)) with
    | none => none
    | some e => if e < -2147483648 ∨ 2147483647 < e then none else some (s.take i, e)

/-- The text without its decimal point and the number of places: `none` with two points. (go.mod L10, within `NewFromString`) -/
def cutPoint (s : List Byte) : Option (List Byte × Nat) :=
  match s.findIdx? (· = 46#8) with
  | none => some (s, 0)
  | some i => if 46#8 ∈ s.drop (i + 1) then none else some (s.take i ++ s.drop (i + 1), (s.drop (i + 1)).length)

/-- `NewFromString` (data/DataRow.go L365, data/DataSet.go L307, data/ExpressionTree.go L1947, data/FilterExpressionParser.go L1067, L1107, data/ValueExpression.go L540) -/
def parse (s : List Byte) : Option Decimal := do
  let (t, e) ← cutExponent s
  let (u, n) ← cutPoint t
  let v ← readInt u
  if e - n < -2147483648 ∨ 2147483647 < e - n then none else some ⟨v, e - n⟩

end Decimal

end Verif.Lib
