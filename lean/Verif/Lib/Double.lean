import Verif.Lib.Round
import Mathlib.Data.Nat.Sqrt

/-!
# Go's `float64` and `float32`

IEEE 754 numbers with `m` fraction bits and `w` exponent bits: `float64` is `Bin 52 11`, `float32` is `Bin 23 8`. Operations give the exact result
rounded to nearest, halves to even, as the Go specification and the `math` package promise (`Floor`, `Ceil`, `Round`, `Mod` are exact, `Sqrt` is
correctly rounded). The bits of NaNs are not told apart.
-/

namespace Verif.Lib

/-- A number: its sign and the other bits. (`float64`, `float32`: data/Constants.go L95, data/DataType.go L39-42) -/
structure Bin (m w : Nat) where
  neg : Bool
  mag : Nat
  lt : mag < 2 ^ (m + w)
  deriving DecidableEq

namespace Bin

variable {m w : Nat}

/-- The bits of infinity. (IEEE 754; data/ExpressionTree.go L2622-2760) -/
def infMag (m w : Nat) : Nat := (2 ^ w - 1) * 2 ^ m

/-- The smallest positive number. (IEEE 754; data/ExpressionTree.go L2622-2760) -/
def unit (m w : Nat) : ℚ := 1 / 2 ^ (2 ^ (w - 1) - 2 + m)

theorem infMag_lt (m w : Nat) : infMag m w < 2 ^ (m + w) := by
  unfold infMag
  rw [Nat.sub_mul, Nat.add_comm m w, Nat.pow_add]
  have h1 : 1 * 2 ^ m ≤ 2 ^ w * 2 ^ m := Nat.mul_le_mul_right _ Nat.one_le_two_pow
  have h2 : 0 < 2 ^ m := Nat.two_pow_pos m
  omega

/-- Not a number. (IEEE 754; data/ExpressionTree.go L2622-2760) -/
def IsNaN (f : Bin m w) : Prop := infMag m w < f.mag
/-- An infinity. (IEEE 754; data/ExpressionTree.go L2622-2760) -/
def IsInf (f : Bin m w) : Prop := f.mag = infMag m w
/-- A finite number. (IEEE 754; data/ExpressionTree.go L2622-2760) -/
def Finite (f : Bin m w) : Prop := f.mag < infMag m w
/-- Zero, of either sign. (IEEE 754; data/ExpressionTree.go L2622-2760) -/
def IsZero (f : Bin m w) : Prop := f.mag = 0

instance (f : Bin m w) : Decidable f.IsNaN := inferInstanceAs (Decidable (_ < _))
instance (f : Bin m w) : Decidable f.IsInf := inferInstanceAs (Decidable (_ = _))
instance (f : Bin m w) : Decidable f.Finite := inferInstanceAs (Decidable (_ < _))
instance (f : Bin m w) : Decidable f.IsZero := inferInstanceAs (Decidable (_ = _))

/-- The value of a finite number. (IEEE 754; data/ExpressionTree.go L2622-2760) -/
def val (f : Bin m w) : ℚ := (if f.neg then -1 else 1) * (units m f.mag * unit m w)

/-- The result of an operation that has none (data/ExpressionTree.go L2654-2656, L2373-2382). -/
def nan : Bin m w := ⟨false, 2 ^ (m + w) - 1, Nat.sub_lt (Nat.two_pow_pos _) Nat.one_pos⟩
/-- Infinity, beyond the range (data/ExpressionTree.go L2622-2656). -/
def inf (neg : Bool) : Bin m w := ⟨neg, infMag m w, infMag_lt m w⟩
/-- Zero with its sign (data/UnaryExpression.go L117-130). -/
def zero (neg : Bool) : Bin m w := ⟨neg, 0, Nat.two_pow_pos _⟩

/-- The nearest number, or an infinity beyond the range; `z` is the sign if it is 0. (the arithmetic of data/ExpressionTree.go L2622-2760) -/
def ofRat (z : Bool) (x : ℚ) : Bin m w :=
  ⟨if x = 0 then z else decide (x < 0), min (Lib.round m (x / unit m w)) (infMag m w), by
    have := infMag_lt m w
    omega⟩

/-- `-x` (data/UnaryExpression.go L117-130) -/
def neg_ (f : Bin m w) : Bin m w := { f with neg := !f.neg }
/-- `math.Abs` (data/ExpressionTree.go L1400) -/
def abs (f : Bin m w) : Bin m w := { f with neg := false }

/-- `x + y` (data/ExpressionTree.go L2726) -/
def add (f g : Bin m w) : Bin m w :=
  if f.IsNaN ∨ g.IsNaN then nan
  else if f.IsInf then (if g.IsInf ∧ f.neg ≠ g.neg then nan else f)
  else if g.IsInf then g
  else ofRat (f.neg && g.neg) (f.val + g.val)

/-- `x - y` (data/ExpressionTree.go L2760) -/
def sub (f g : Bin m w) : Bin m w := add f g.neg_

/-- `x * y` (data/ExpressionTree.go L2622) -/
def mul (f g : Bin m w) : Bin m w :=
  if f.IsNaN ∨ g.IsNaN then nan
  else if f.IsInf ∨ g.IsInf then (if f.IsZero ∨ g.IsZero then nan else inf (f.neg != g.neg))
  else ofRat (f.neg != g.neg) (f.val * g.val)

/-- `x / y` (data/ExpressionTree.go L2656, L1677-1679) -/
def div (f g : Bin m w) : Bin m w :=
  if f.IsNaN ∨ g.IsNaN then nan
  else if f.IsInf then (if g.IsInf then nan else inf (f.neg != g.neg))
  else if g.IsInf then zero (f.neg != g.neg)
  else if g.IsZero then (if f.IsZero then nan else inf (f.neg != g.neg))
  else ofRat (f.neg != g.neg) (f.val / g.val)

/-- The integer part of a quotient. (data/ValueExpression.go L513-516) -/
def truncRat (x : ℚ) : Int := x.num.tdiv x.den

/-- `math.Mod` (data/ExpressionTree.go L2690) -/
def mod (f g : Bin m w) : Bin m w :=
  if f.IsNaN ∨ g.IsNaN ∨ f.IsInf ∨ g.IsZero then nan
  else if g.IsInf then f
  else ofRat f.neg (f.val - truncRat (f.val / g.val) * g.val)

/-- An integer nearby, with the sign of the number if it is 0. (data/ExpressionTree.go L1424, L1801, L2307) -/
def toWhole (r : ℚ → Int) (f : Bin m w) : Bin m w := if f.Finite then ofRat f.neg (r f.val) else f

/-- `math.Floor` (data/ExpressionTree.go L1801) -/
def floor (f : Bin m w) : Bin m w := toWhole Rat.floor f
/-- `math.Ceil` (data/ExpressionTree.go L1424) -/
def ceil (f : Bin m w) : Bin m w := toWhole Rat.ceil f
/-- To the nearest integer, halves away from zero. (data/ExpressionTree.go L2307) -/
def roundAway (x : ℚ) : Int := if 0 ≤ x then Rat.floor (x + 1 / 2) else Rat.ceil (x - 1 / 2)
/-- `math.Round` (data/ExpressionTree.go L2307) -/
def round (f : Bin m w) : Bin m w := toWhole roundAway f

/-- `math.Sqrt`: of a finite positive number, the root of its size in units of `2 ^ -e` is that of `n = size * 2 ^ e` in those units; the whole
part of it and whether there is more decide the rounding. (data/ExpressionTree.go L2373-2382) -/
def sqrt (f : Bin m w) : Bin m w :=
  if f.IsNaN then nan
  else if f.IsZero then f
  else if f.neg then nan
  else if f.IsInf then f
  else
    let n := units m f.mag * 2 ^ (2 ^ (w - 1) - 2 + m)
    ofRat false ((Nat.sqrt n + (if Nat.sqrt n * Nat.sqrt n = n then 0 else 1 / 2)) * unit m w)

/-- The order of numbers is that of these integers. (data/ExpressionTree.go L2975-3185) -/
def key (f : Bin m w) : Int := if f.neg then -(f.mag : Int) else f.mag

/-- `x < y` (data/ExpressionTree.go L2975-3005, data/DataRow.go L1490-1500) -/
def lt_ (f g : Bin m w) : Bool := !decide f.IsNaN && !decide g.IsNaN && decide (f.key < g.key)
/-- `x == y` (data/ExpressionTree.go L3115-3185) -/
def eq_ (f g : Bin m w) : Bool := !decide f.IsNaN && !decide g.IsNaN && decide (f.key = g.key)

/-- `float64(i)`, `float32(i)` (data/ValueExpression.go L419, L444, L469) -/
def ofInt (i : Int) : Bin m w := ofRat false i

/-- `float32(f)`, `float64(f)` (data/DataRow.go L163-165, L319-321) -/
def convert {m' w' : Nat} (f : Bin m w) : Bin m' w' :=
  if f.IsNaN then nan else if f.IsInf then inf f.neg else ofRat f.neg f.val

end Bin

/-- `float64` (data/Constants.go ExpressionValueType.Double) (data/Constants.go L95) -/
abbrev Double := Bin 52 11
/-- `float32` (data/DataType.go L39) -/
abbrev Single := Bin 23 8

namespace Double

/-- `math.Float64bits` (transport/CompactMeasurement.go L271) -/
def bits (f : Double) : BitVec 64 := BitVec.ofNat 64 ((if f.neg then 2 ^ 63 else 0) + f.mag)
/-- `math.Float64frombits` (transport/CompactMeasurement.go L271, transport/tssc/Decoder.go L252) -/
def ofBits (b : BitVec 64) : Double := ⟨decide (2 ^ 63 ≤ b.toNat), b.toNat % 2 ^ 63, Nat.mod_lt _ (by decide)⟩

end Double

namespace Single

/-- `math.Float32bits` (transport/tssc/Decoder.go L252) -/
def bits (f : Single) : BitVec 32 := BitVec.ofNat 32 ((if f.neg then 2 ^ 31 else 0) + f.mag)
/-- `math.Float32frombits` (transport/tssc/Decoder.go L252) -/
def ofBits (b : BitVec 32) : Single := ⟨decide (2 ^ 31 ≤ b.toNat), b.toNat % 2 ^ 31, Nat.mod_lt _ (by decide)⟩

end Single

end Verif.Lib
