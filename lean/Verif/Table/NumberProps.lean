import Verif.Table.RowProps

/-!
# The numbers of columns (data/DataRow.go L196-269, data/ExpressionTree.go L247-344)
-/

namespace Verif.Table

open Verif.Expr

variable {P : Prim}

/-- The number an integer column holds. -/
def Cell.number : Cell P → Option Int
  | .int8 v => some v.toInt
  | .int16 v => some v.toInt
  | .int32 v => some v.toInt
  | .int64 v => some v.toInt
  | .uint8 v => some v.toNat
  | .uint16 v => some v.toNat
  | .uint32 v => some v.toNat
  | .uint64 v => some v.toNat
  | _ => none

/-- The number an integer value is. -/
def whole : Val P → Option Int
  | .int32 v => some v.toInt
  | .int64 v => some v.toInt
  | _ => none

/-- The size of an integer type. -/
def DT.bits : DT → Option Nat
  | .int8 | .uint8 => some 8
  | .int16 | .uint16 => some 16
  | .int32 | .uint32 => some 32
  | .int64 | .uint64 => some 64
  | _ => none

theorem zeroExtend_toInt {a b : Nat} (v : BitVec a) (h : a < b) : (v.zeroExtend b).toInt = v.toNat := by
  have h1 : v.toNat < 2 ^ a := v.isLt
  have h2 : 2 ^ a ≤ 2 ^ (b - 1) := Nat.pow_le_pow_right (by omega) (by omega)
  have h3 : 2 ^ b = 2 * 2 ^ (b - 1) := by rw [← Nat.pow_succ']; congr 1; omega
  rw [BitVec.toInt_eq_toNat_cond, BitVec.toNat_setWidth, Nat.mod_eq_of_lt (by omega), if_pos (by omega)]

/-- **A column's number is the number an expression computes with**, of the type Int32 or Int64 of its column, but for the unsigned
numbers of 2⁶³ and above, which are taken as floating-point numbers. -/
theorem C55_numbers (c : Cell P) {z : Int} (h : c.number = some z) :
    (z < 2 ^ 63 ∧ ∃ v, c.toVal = .ok v ∧ whole v = some z ∧ v.type = c.type.exprType) ∨
      (2 ^ 63 ≤ z ∧ c.type = .uint64 ∧ c.toVal = .ok (.double (P.fltOfInt z))) := by
  cases c with
  | int8 v =>
    obtain rfl : v.toInt = z := by simpa [Cell.number] using h
    refine .inl ⟨by have := v.toInt_lt; omega, _, rfl, ?_, rfl⟩
    exact congrArg some (BitVec.toInt_signExtend_of_le (by decide))
  | int16 v =>
    obtain rfl : v.toInt = z := by simpa [Cell.number] using h
    refine .inl ⟨by have := v.toInt_lt; omega, _, rfl, ?_, rfl⟩
    exact congrArg some (BitVec.toInt_signExtend_of_le (by decide))
  | int32 v =>
    obtain rfl : v.toInt = z := by simpa [Cell.number] using h
    exact .inl ⟨by have := v.toInt_lt; omega, _, rfl, rfl, rfl⟩
  | int64 v =>
    obtain rfl : v.toInt = z := by simpa [Cell.number] using h
    exact .inl ⟨by have := v.toInt_lt; omega, _, rfl, rfl, rfl⟩
  | uint8 v =>
    obtain rfl : (v.toNat : Int) = z := by simpa [Cell.number] using h
    refine .inl ⟨by have := v.isLt; omega, _, rfl, ?_, rfl⟩
    exact congrArg some (zeroExtend_toInt v (by decide))
  | uint16 v =>
    obtain rfl : (v.toNat : Int) = z := by simpa [Cell.number] using h
    refine .inl ⟨by have := v.isLt; omega, _, rfl, ?_, rfl⟩
    exact congrArg some (zeroExtend_toInt v (by decide))
  | uint32 v =>
    obtain rfl : (v.toNat : Int) = z := by simpa [Cell.number] using h
    refine .inl ⟨by have := v.isLt; omega, _, rfl, ?_, rfl⟩
    exact congrArg some (zeroExtend_toInt v (by decide))
  | uint64 v =>
    obtain rfl : (v.toNat : Int) = z := by simpa [Cell.number] using h
    by_cases hv : v.toNat > 2 ^ 63 - 1
    · refine .inr ⟨by omega, rfl, ?_⟩
      show Res.ok (if _ then _ else _) = _
      rw [if_pos hv]
    · refine .inl ⟨by omega, .int64 v, ?_, ?_, rfl⟩
      · show Res.ok (if _ then _ else _) = _
        rw [if_neg hv]
      · show some v.toInt = _
        rw [BitVec.toInt_eq_toNat_cond, if_pos (by omega)]
  | _ => cases h

example : (Cell.int8 (P := Toy.prim) (-3)).number = some (-3) ∧ (Cell.uint64 (P := Toy.prim) 9223372036854775808#64).number = some (2 ^ 63) := ⟨rfl, rfl⟩

/-- **Null in a column is null of its type.** -/
theorem C55_null {col : Nat → Res (Val P)} {t : Table P} (hp : Positions t) {r : Row P} {n : Nat} {c : Column} (hc : t.columns[n]? = some c)
    (ht : c.type ≠ .undefined) (hcomp : c.computed = false) (hv : r.values[n]? = some none) :
    r.evaluateColumn col t n = .ok (.null c.type.exprType) := by
  have hi : c.index = n := hp n c hc
  have hg : r.get col t c.type c.index = .ok none := by
    have hcol : t.column c.index = some c := by
      rw [hi]
      unfold Table.column
      rw [if_neg (by have := (List.getElem?_eq_some_iff.1 hc).1; omega)]
      exact hc
    rw [get_stored r hcol hcomp, hi, value?_of (v := none) (by omega) (by simpa using hv)]
    rfl
  simp only [Row.evaluateColumn, hc, ht, if_false, hg, Res.bind_ok]
  rfl

theorem toInt_mod {w : Nat} (x : BitVec w) : x.toInt % 2 ^ w = x.toNat := by
  have h : (x.toNat : Int) < 2 ^ w := by exact_mod_cast x.isLt
  rw [BitVec.toInt_eq_toNat_cond]
  split
  · exact Int.emod_eq_of_lt (by omega) h
  · have : ((2 ^ w : Nat) : Int) = 2 ^ w := by push_cast; rfl
    rw [this, Int.sub_emod_right]
    exact Int.emod_eq_of_lt (by omega) h

theorem toNat_mod {w : Nat} (x : BitVec w) : (x.toNat : Int) % 2 ^ w = x.toInt % 2 ^ w := by
  rw [toInt_mod]
  exact Int.emod_eq_of_lt (by omega) (by exact_mod_cast x.isLt)

theorem truncate_nat {a b : Nat} (x : BitVec a) (h : b ≤ a) : ((x.truncate b).toNat : Int) % 2 ^ b = x.toInt % 2 ^ b := by
  have h1 : (2 ^ b : Int) ∣ 2 ^ a := pow_dvd_pow 2 h
  have h2 := toInt_mod x
  rw [BitVec.toNat_setWidth]
  push_cast
  rw [Int.emod_emod_of_dvd _ (dvd_refl _), ← h2, Int.emod_emod_of_dvd _ h1]

theorem truncate_int {a b : Nat} (x : BitVec a) (h : b ≤ a) : (x.truncate b).toInt % 2 ^ b = x.toInt % 2 ^ b := by
  rw [← toNat_mod, truncate_nat x h]

theorem signExtend_nat {a b : Nat} (x : BitVec a) (h : a ≤ b) : ((x.signExtend b).toNat : Int) % 2 ^ b = x.toInt % 2 ^ b := by
  rw [toNat_mod, BitVec.toInt_signExtend_of_le h]

/-- **A computed integer is stored modulo the size of its column**: the column has the given type and a number congruent to the result,
which are one value only. -/
theorem C55_wrap {v : Val P} {z : Int} (h : whole v = some z) {dt : DT} {w : Nat} (hw : dt.bits = some w) :
    ∃ c y, convertResult v dt = .ok c ∧ c.type = dt ∧ c.number = some y ∧ y % 2 ^ w = z % 2 ^ w := by
  cases v with
  | int32 v =>
    obtain rfl : v.toInt = z := by simpa [whole] using h
    cases dt <;> cases hw
    · exact ⟨.int8 (v.truncate 8), _, rfl, rfl, rfl, truncate_int v (by decide)⟩
    · exact ⟨.int16 (v.truncate 16), _, rfl, rfl, rfl, truncate_int v (by decide)⟩
    · exact ⟨.int32 v, _, rfl, rfl, rfl, rfl⟩
    · exact ⟨.int64 (v.signExtend 64), _, rfl, rfl, rfl, by rw [BitVec.toInt_signExtend_of_le (by decide)]⟩
    · exact ⟨.uint8 (v.truncate 8), _, rfl, rfl, rfl, truncate_nat v (by decide)⟩
    · exact ⟨.uint16 (v.truncate 16), _, rfl, rfl, rfl, truncate_nat v (by decide)⟩
    · exact ⟨.uint32 v, _, rfl, rfl, rfl, toNat_mod v⟩
    · exact ⟨.uint64 (v.signExtend 64), _, rfl, rfl, rfl, signExtend_nat v (by decide)⟩
  | int64 v =>
    obtain rfl : v.toInt = z := by simpa [whole] using h
    cases dt <;> cases hw
    · exact ⟨.int8 (v.truncate 8), _, rfl, rfl, rfl, truncate_int v (by decide)⟩
    · exact ⟨.int16 (v.truncate 16), _, rfl, rfl, rfl, truncate_int v (by decide)⟩
    · exact ⟨.int32 (v.truncate 32), _, rfl, rfl, rfl, truncate_int v (by decide)⟩
    · exact ⟨.int64 v, _, rfl, rfl, rfl, rfl⟩
    · exact ⟨.uint8 (v.truncate 8), _, rfl, rfl, rfl, truncate_nat v (by decide)⟩
    · exact ⟨.uint16 (v.truncate 16), _, rfl, rfl, rfl, truncate_nat v (by decide)⟩
    · exact ⟨.uint32 (v.truncate 32), _, rfl, rfl, rfl, truncate_nat v (by decide)⟩
    · exact ⟨.uint64 v, _, rfl, rfl, rfl, toNat_mod v⟩
  | _ => cases h

/-- 300 in a byte. -/
example : convertResult (P := Toy.prim) (.int32 300) .uint8 = .ok (.uint8 44) := rfl

end Verif.Table
