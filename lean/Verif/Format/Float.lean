import Verif.Format.Props
import Verif.Common.Text

/-!
# Model of `sttp/format/Float.go`

A `float64` is its 64 bits. `strconv.FormatFloat(f, 'f', prec, 64)` is written out for precisions that are not negative: the library
turns the exact value into decimal digits and rounds them, halves to even.
-/

namespace Verif.Format

/-- The sign bit of a `float64`. (format/Float.go L40-60) -/
def negBit (f : BitVec 64) : Bool := f.getLsbD 63

/-- The biased exponent of a `float64`. (format/Float.go L40-60) -/
def expBits (f : BitVec 64) : Nat := f.toNat / 2 ^ 52 % 2 ^ 11

/-- The fraction bits of a `float64`. (format/Float.go L40-60) -/
def fracBits (f : BitVec 64) : Nat := f.toNat % 2 ^ 52

/-- format/Float.go L40-60 -/
def Finite (f : BitVec 64) : Prop := expBits f ≠ 2047

instance (f : BitVec 64) : Decidable (Finite f) := inferInstanceAs (Decidable (_ ≠ _))

/-- The integer mantissa of a finite `float64`: with the hidden bit unless subnormal. (format/Float.go L40-60) -/
def mantissa (f : BitVec 64) : Nat := if expBits f = 0 then fracBits f else 2 ^ 52 + fracBits f

/-- The exponent that goes with `mantissa`, plus 1075: the value is `mantissa · 2 ^ (scale - 1075)`. (format/Float.go L40-60) -/
def scale (f : BitVec 64) : Nat := if expBits f = 0 then 1 else expBits f

/-- The quotient `num / den` rounded to the nearest integer, halves to even. (format/Float.go L40-60) -/
def roundEven (num den : Nat) : Nat :=
  let q := num / den
  let r := num % den
  if 2 * r < den then q else if den < 2 * r then q + 1 else q + q % 2

/-- The value without its sign, in units of the last of `prec` decimal places, rounded. (format/Float.go L40-60) -/
def scaled (f : BitVec 64) (prec : Nat) : Nat := roundEven (mantissa f * 2 ^ scale f * 10 ^ prec) (2 ^ 1075)

/-- The last `n` decimal digits of a number, with leading zeros. (format/Float.go L40-60) -/
def lastDigits : Nat → Nat → List Byte
  | 0, _ => []
  | n + 1, v => lastDigits n (v / 10) ++ [BitVec.ofNat 8 (48 + v % 10)]

/-- `strconv.FormatFloat(f, 'f', prec, 64)` for `prec ≥ 0` (format/Float.go L40-60) -/
def formatFloat (f : BitVec 64) (prec : Nat) : List Byte :=
  if expBits f = 2047 then
    if fracBits f ≠ 0 then [78#8, 97#8, 78#8]
    else (if negBit f then 45#8 else 43#8) :: [73#8, 110#8, 102#8]
  else
    (if negBit f then [45#8] else []) ++ decimal (scaled f prec / 10 ^ prec) ++
      (if prec = 0 then [] else 46#8 :: lastDigits prec (scaled f prec))

/-- Go's `f < 0`: false for both zeros and for NaN. (format/Float.go L40-60) -/
def isNegative (f : BitVec 64) : Bool :=
  negBit f && !(decide (expBits f = 2047) && decide (fracBits f ≠ 0)) && !(decide (expBits f = 0) && decide (fracBits f = 0))

/-- `strings.Replace(s, old, new, 1)` for texts of one byte (format/Float.go L40-60) -/
def replaceFirst (old new : Byte) : List Byte → List Byte
  | [] => []
  | b :: s => if b = old then new :: s else b :: replaceFirst old new s

/-- The text cut at the decimal symbol (format/Float.go L46-52). -/
def cutFraction (decSymbol : Byte) (inp : List Byte) : List Byte × List Byte :=
  match Text.split decSymbol inp with
  | p :: q :: _ => (p, decSymbol :: q)
  | _ => (inp, [])

/-- `FloatWith` (format/Float.go L38-70) for `prec ≥ 0`. `digits` can be 0 or -1 in Go; the division then is 0 as here. -/
def floatWith (f : BitVec 64) (prec : Nat) (decSymbol group : Byte) : Res (List Byte) :=
  let inp := formatFloat f prec
  let inp := if decSymbol ≠ 46#8 then replaceFirst 46#8 decSymbol inp else inp
  let (inp, fraction) := cutFraction decSymbol inp
  let digits := if isNegative f then inp.length - 1 else inp.length
  let commas := (digits - 1) / 3
  let out := List.replicate (inp.length + commas) 0#8
  if isNegative f then
    match inp with
    | [] => .panic
    | _ :: rest => do
      let out ← setAt out 1 45#8
      let text ← formatNumber rest out group
      .ok (text ++ fraction)
  else do
    let text ← formatNumber inp out group
    .ok (text ++ fraction)

/-- `Float` (format/Float.go L32-34) -/
def float (f : BitVec 64) (prec : Nat) : Res (List Byte) := floatWith f prec 46#8 44#8

end Verif.Format
