import Verif.Expr.Toy
import Verif.Expr.ArithProps

/-!
# C57: conversion of values

Full statement: converting to a wider numeric type and back is the identity, null converts to null of the target type, conversion
to the same type is the identity, and every supported conversion gives a value of the requested type without panicking.
-/

namespace Verif.Expr

variable {P : Prim}

/-- Null converts to null of the target type. -/
theorem C57_null (t u : VT) : Val.convert (Val.null (P := P) u) t = .ok (.null t) := rfl

example : Val.convert (Val.null (P := P) .guid) .double = .ok (.null .double) := rfl

/-- Conversion of a value to its own type is the identity. -/
theorem C57_same_type (v : Val P) : v.convert v.type = .ok v := by
  cases v <;> rfl

example : Val.convert (P := P) (.int32 5) .int32 = .ok (.int32 5) := rfl

/-- The pairs of types a conversion exists for, as the expression language documents them: everything to text and from text,
    numbers among themselves, dates to numbers, and each type to itself. -/
def Convertible (a b : VT) : Prop :=
  a ≠ .undefined ∧ b ≠ .undefined ∧
  (a = b ∨ a = .string ∨ b = .string ∨ (b.isNumeric = true ∧ (a.isNumeric = true ∨ a = .dateTime)))

/-- The two conversions that panic. -/
inductive ConvertPanics : Val P → VT → Prop where
  | boolean (b : Bool) : ConvertPanics (.boolean b) .int32
  | notFinite (f : P.Flt) (h : P.decOfFlt f = none) : ConvertPanics (.double f) .decimal

/-- Which conversions are refused: exactly the unsupported pairs. -/
theorem C57_error_iff (v : Val P) (t : VT) (hn : v.isNull = false) : v.convert t = .err ↔ ¬ Convertible v.type t := by
  cases v <;> first | (cases hn; done) | skip
  all_goals cases t <;>
    simp [Val.convert, Val.type, Convertible, VT.isNumeric, Val.convertFromBoolean, Val.convertFromInt32, Val.convertFromInt64,
      Val.convertFromDecimal, Val.convertFromDouble, Val.convertFromString, Val.convertFromGuid, Val.convertFromDateTime]
  split <;> simp

example : Val.convert (P := P) (.int32 5) .guid = .err := rfl
example : ¬ Convertible .int32 .guid := by simp [Convertible, VT.isNumeric]
example : Convertible .dateTime .double := by simp [Convertible, VT.isNumeric]

/-- Which conversions panic. -/
theorem C57_panic_iff (v : Val P) (t : VT) : v.convert t = .panic ↔ ConvertPanics v t := by
  constructor
  · intro h
    cases v <;> cases t <;> first | (cases h; done) | exact .boolean _ | skip
    rename_i f
    refine .notFinite f ?_
    cases hd : P.decOfFlt f with
    | none => rfl
    | some d =>
      simp [Val.convert, Val.convertFromDouble, hd] at h
  · rintro (⟨b⟩ | ⟨f, h⟩)
    · rfl
    · simp [Val.convert, Val.convertFromDouble, h]

/-- Partial: every supported conversion gives a non-null value of the requested type, except for the two that panic. Missing:
    those two, see `C57_boolean_false`. -/
theorem C57_supported_partial (v : Val P) (t : VT) (hn : v.isNull = false) (hs : Convertible v.type t) (hp : ¬ ConvertPanics v t) :
    ∃ w, v.convert t = .ok w ∧ w.type = t ∧ w.isNull = false := by
  cases hc : v.convert t with
  | err => exact absurd hs ((C57_error_iff v t hn).mp hc)
  | panic => exact absurd ((C57_panic_iff v t).mp hc) hp
  | ok w =>
    refine ⟨w, rfl, ?_⟩
    cases v <;> cases t <;> first | (cases hn; done) | (cases hc; done) | (cases hc; exact ⟨rfl, rfl⟩) | skip
    rename_i f
    cases hd : P.decOfFlt f with
    | none => simp [Val.convert, Val.convertFromDouble, hd] at hc
    | some d =>
      simp [Val.convert, Val.convertFromDouble, hd] at hc
      subst hc
      exact ⟨rfl, rfl⟩

example : ∃ w, Val.convert (P := P) (.string (lit "12")) .int64 = .ok w ∧ w.type = .int64 ∧ w.isNull = false :=
  C57_supported_partial _ _ rfl (by simp [Convertible, Val.type]) (by intro h; cases h)

/-- Converting a Boolean to Int32 panics, though Boolean to Int64, Decimal and Double works. -/
theorem C57_boolean_false (b : Bool) : Convertible .boolean .int32 ∧ Val.convert (P := P) (.boolean b) .int32 = .panic ∧
    Val.convert (P := P) (.boolean b) .int64 = .ok (.int64 (if b then 1 else 0)) :=
  ⟨by simp [Convertible, VT.isNumeric], rfl, rfl⟩

/-! ### To a wider type and back -/

/-- Integers through wider integers: no library is involved. -/
theorem C57_integer_round_trip (a : BitVec 32) (b : Bool) :
    (Val.convert (P := P) (.int32 a) .int64 >>= fun w => w.convert .int32) = .ok (.int32 a) ∧
    (Val.convert (P := P) (.boolean b) .int64 >>= fun w => w.convert .boolean) = .ok (.boolean b) := by
  constructor
  · show Res.ok (Val.int32 ((a.signExtend 64).truncate 32)) = _
    congr 2
    apply BitVec.eq_of_toInt_eq
    have h : (a.signExtend 64).toInt = a.toInt := BitVec.toInt_signExtend_of_le (by decide)
    rw [trunc_toInt (by rw [h]; exact (int32_range a).1) (by rw [h]; exact (int32_range a).2), h]
  · cases b <;> rfl

example : (Val.convert (P := P) (.int32 (-7)) .int64 >>= fun w => w.convert .int32) = .ok (.int32 (-7)) := rfl

/-- What the round trips through Decimal and Double need of the libraries: a decimal holds every integer, a float64 every integer
    up to 2^53 in size, and zero is told from the others. -/
structure NumberLaws (P : Prim) : Prop where
  dec : ∀ i : Int, -2 ^ 63 ≤ i → i < 2 ^ 63 → P.decIntPart (P.decOfInt i) = BitVec.ofInt 64 i
  decZero : ∀ i : Int, P.decCmp (P.decOfInt i) (P.decOfInt 0) = 0 ↔ i = 0
  flt32 : ∀ i : Int, -2 ^ 31 ≤ i → i < 2 ^ 31 → P.fltToInt32 (P.fltOfInt i) = BitVec.ofInt 32 i
  flt64 : ∀ i : Int, -2 ^ 53 ≤ i → i ≤ 2 ^ 53 → P.fltToInt64 (P.fltOfInt i) = BitVec.ofInt 64 i
  fltZero : ∀ i : Int, -2 ^ 53 ≤ i → i ≤ 2 ^ 53 → (P.fltEq (P.fltOfInt i) (P.fltOfInt 0) = true ↔ i = 0)

theorem toy_numbers : NumberLaws Toy.prim where
  dec := fun _ _ _ => rfl
  decZero := fun i => by
    change Int at i
    show (if i < 0 then (-1 : Int) else if i = 0 then 0 else 1) = 0 ↔ i = 0
    split
    · constructor <;> intro h <;> omega
    · split <;> simp [*]
  flt32 := fun _ _ _ => rfl
  flt64 := fun _ _ _ => rfl
  fltZero := fun i _ _ => by
    show decide (i = 0) = true ↔ i = 0
    simp

/-- Integers and Booleans through Decimal. -/
theorem C57_decimal_round_trip (N : NumberLaws P) (a : BitVec 32) (b : Bool) (c : BitVec 64) :
    (Val.convert (P := P) (.int32 a) .decimal >>= fun w => w.convert .int32) = .ok (.int32 a) ∧
    (Val.convert (P := P) (.boolean b) .decimal >>= fun w => w.convert .boolean) = .ok (.boolean b) ∧
    (Val.convert (P := P) (.int64 c) .decimal >>= fun w => w.convert .int64) = .ok (.int64 c) := by
  have hr := int32_range a
  refine ⟨?_, ?_, ?_⟩
  · show Res.ok (Val.int32 ((P.decIntPart (P.decOfInt a.toInt)).truncate 32)) = _
    rw [N.dec _ (by omega) (by omega)]
    congr 2
    apply BitVec.eq_of_toInt_eq
    have h : (BitVec.ofInt 64 a.toInt).toInt = a.toInt := by
      rw [BitVec.toInt_ofInt, Int.bmod_def]
      split <;> omega
    rw [trunc_toInt (by omega) (by omega), h]
  · cases b
    · show Res.ok (Val.boolean (P.decCmp (P.decOfInt 0) (P.decOfInt 0) != 0)) = _
      rw [(N.decZero 0).mpr rfl]
      rfl
    · show Res.ok (Val.boolean (P.decCmp (P.decOfInt 1) (P.decOfInt 0) != 0)) = _
      have : P.decCmp (P.decOfInt 1) (P.decOfInt 0) ≠ 0 := fun h => by
        have := (N.decZero 1).mp h
        omega
      congr 2
      exact bne_iff_ne.mpr this
  · show Res.ok (Val.int64 (P.decIntPart (P.decOfInt c.toInt))) = _
    rw [N.dec _ (BitVec.le_toInt c) BitVec.toInt_lt, BitVec.ofInt_toInt]

example : (Val.convert (P := Toy.prim) (.int64 (-7)) .decimal >>= fun w => w.convert .int64) = .ok (.int64 (-7)) :=
  (C57_decimal_round_trip toy_numbers 0 true (-7)).2.2

/-- Partial: Int32, Booleans and Int64 up to 2^53 in size through Double. Missing: larger Int64, see `C57_double_false`. -/
theorem C57_double_round_trip_partial (N : NumberLaws P) (a : BitVec 32) (b : Bool) (c : BitVec 64) (h1 : -2 ^ 53 ≤ c.toInt)
    (h2 : c.toInt ≤ 2 ^ 53) :
    (Val.convert (P := P) (.int32 a) .double >>= fun w => w.convert .int32) = .ok (.int32 a) ∧
    (Val.convert (P := P) (.boolean b) .double >>= fun w => w.convert .boolean) = .ok (.boolean b) ∧
    (Val.convert (P := P) (.int64 c) .double >>= fun w => w.convert .int64) = .ok (.int64 c) := by
  refine ⟨?_, ?_, ?_⟩
  · show Res.ok (Val.int32 (P.fltToInt32 (P.fltOfInt a.toInt))) = _
    rw [N.flt32 _ (int32_range a).1 (int32_range a).2, BitVec.ofInt_toInt]
  · cases b
    · show Res.ok (Val.boolean (!P.fltEq (P.fltOfInt 0) (P.fltOfInt 0))) = _
      rw [(N.fltZero 0 (by decide) (by decide)).mpr rfl]
      rfl
    · show Res.ok (Val.boolean (!P.fltEq (P.fltOfInt 1) (P.fltOfInt 0))) = _
      have : P.fltEq (P.fltOfInt 1) (P.fltOfInt 0) = false := by
        rw [Bool.eq_false_iff]
        intro h
        have := (N.fltZero 1 (by decide) (by decide)).mp h
        omega
      rw [this]
      rfl
  · show Res.ok (Val.int64 (P.fltToInt64 (P.fltOfInt c.toInt))) = _
    rw [N.flt64 _ h1 h2, BitVec.ofInt_toInt]

example : (Val.convert (P := Toy.prim) (.int64 (-7)) .double >>= fun w => w.convert .int64) = .ok (.int64 (-7)) :=
  (C57_double_round_trip_partial toy_numbers 0 true (-7) (by decide) (by decide)).2.2

/-- Two Int64 that round to one float64 (such as 2^53 and 2^53 + 1) do not both survive the trip through Double. -/
theorem C57_double_false (a b : BitVec 64) (hne : a ≠ b) (hf : P.fltOfInt a.toInt = P.fltOfInt b.toInt) :
    ¬ ((Val.convert (P := P) (.int64 a) .double >>= fun w => w.convert .int64) = .ok (.int64 a) ∧
       (Val.convert (P := P) (.int64 b) .double >>= fun w => w.convert .int64) = .ok (.int64 b)) := by
  rintro ⟨h1, h2⟩
  have e1 : P.fltToInt64 (P.fltOfInt a.toInt) = a := by
    have : Res.ok (Val.int64 (P := P) (P.fltToInt64 (P.fltOfInt a.toInt))) = .ok (.int64 a) := h1
    injection this with this
    injection this
  have e2 : P.fltToInt64 (P.fltOfInt b.toInt) = b := by
    have : Res.ok (Val.int64 (P := P) (P.fltToInt64 (P.fltOfInt b.toInt))) = .ok (.int64 b) := h2
    injection this with this
    injection this
  exact hne (by rw [← e1, ← e2, hf])

/-- A float type that keeps only multiples of four. -/
example : ({ Toy.prim with fltOfInt := fun i => some (i / 4 * 4) } : Prim).fltOfInt (8 : BitVec 64).toInt =
    ({ Toy.prim with fltOfInt := fun i => some (i / 4 * 4) } : Prim).fltOfInt (9 : BitVec 64).toInt := rfl

/-- An Int64 written as text and read back, when the decimal library reads back what Go writes for that number. -/
theorem C57_text_round_trip (N : NumberLaws P) (c : BitVec 64)
    (hp : P.decParse (Val.intStr c.toInt) = some (P.decOfInt c.toInt)) :
    (Val.convert (P := P) (.int64 c) .string >>= fun w => w.convert .int64) = .ok (.int64 c) := by
  show Res.ok (Val.int64 (P.decIntPart ((P.decParse (Val.intStr c.toInt)).getD (P.decOfInt 0)))) = _
  rw [hp, Option.getD_some, N.dec _ (BitVec.le_toInt c) BitVec.toInt_lt, BitVec.ofInt_toInt]

example : Toy.prim.decParse (Val.intStr (42 : BitVec 64).toInt) = some (Toy.prim.decOfInt (42 : BitVec 64).toInt) := by
  show Toy.parseInt (Val.intStr 42) = some 42
  decide +kernel

end Verif.Expr
