import Verif.Lib.Go
import Verif.Expr.NumProps

/-!
# Arithmetic on decimals and doubles (properties C100, C101), rounding functions (C76, C102)

Specification: `number` is the rational number a value denotes; results are compared with those of rational arithmetic.
-/

namespace Verif.Lib

open Verif.Expr

variable {R : Rest}

/-- The number a value denotes, if it denotes one. -/
def number : Val (go R) → Option ℚ
  | .boolean b => some (if b then 1 else 0)
  | .int32 v => some v.toInt
  | .int64 v => some v.toInt
  | .decimal d => some (Decimal.val d)
  | .double f => if Bin.Finite f then some (Bin.val f) else none
  | _ => none

theorem number_double {f : Double} {x : ℚ} (h : number (R := R) (.double f) = some x) : f.Finite ∧ f.val = x := by
  have h' : (if f.Finite then some f.val else none) = some x := h
  split at h'
  · rename_i hf
    injection h' with h'
    exact ⟨hf, h'⟩
  · cases h'

/-- A decimal or an integer or truth value that is turned into one. -/
theorem to_decimal {v : Val (go R)} {x : ℚ} (h : number v = some x) (hd : v.type ≠ .double) :
    v.isNull = false ∧ ∃ d : Decimal, v.convert .decimal = .ok (.decimal d) ∧ d.val = x := by
  cases v with
  | boolean b =>
    injection h with h
    refine ⟨rfl, Decimal.ofInt (if b then 1 else 0), rfl, ?_⟩
    rw [Decimal.val_ofInt, ← h]
    cases b <;> simp
  | int32 v => injection h with h; exact ⟨rfl, Decimal.ofInt v.toInt, rfl, by rw [Decimal.val_ofInt, h]⟩
  | int64 v => injection h with h; exact ⟨rfl, Decimal.ofInt v.toInt, rfl, by rw [Decimal.val_ofInt, h]⟩
  | decimal d => injection h with h; exact ⟨rfl, d, rfl, h⟩
  | double f => exact absurd rfl hd
  | null t => cases h
  | string s => cases h
  | guid g => cases h
  | dateTime t => cases h

theorem derive_decimal {l r : Val (go R)} {x y : ℚ} (hl : number l = some x) (hr : number r = some y) (h1 : l.type ≠ .double)
    (h2 : r.type ≠ .double) (h3 : l.type = .decimal ∨ r.type = .decimal) (o : Op) :
    deriveArithmetic o l.type r.type = .ok .decimal := by
  cases l <;> cases r <;> first
    | (cases hl; done)
    | (cases hr; done)
    | exact absurd rfl h1
    | exact absurd rfl h2
    | (rcases h3 with h3 | h3 <;> cases h3; done)
    | rfl

/-- Addition, subtraction and multiplication of decimals, or of a decimal and an integer or truth value, are exact. -/
theorem C100_exact_partial {l r : Val (go R)} {x y : ℚ} (hl : number l = some x) (hr : number r = some y) (h1 : l.type ≠ .double) (h2 : r.type ≠ .double)
    (h3 : l.type = .decimal ∨ r.type = .decimal) :
    (∃ d : Decimal, applyOp .add l r = .ok (.decimal d) ∧ d.val = x + y) ∧
    (∃ d : Decimal, applyOp .subtract l r = .ok (.decimal d) ∧ d.val = x - y) ∧
    (∃ d : Decimal, applyOp .multiply l r = .ok (.decimal d) ∧ d.val = x * y) ∧
    (l.type = .decimal → ∃ d : Decimal, unaryOp .minus l = .ok (.decimal d) ∧ d.val = -x) := by
  obtain ⟨nl, a, ha, hax⟩ := to_decimal hl h1
  obtain ⟨nr, b, hb, hby⟩ := to_decimal hr h2
  have hor : (l.isNull || r.isNull) = false := by rw [nl, nr]; rfl
  refine ⟨⟨Decimal.add a b, ?_, by rw [Decimal.val_add, hax, hby]⟩, ⟨Decimal.sub a b, ?_, by rw [Decimal.val_sub, hax, hby]⟩,
    ⟨Decimal.mul a b, ?_, by rw [Decimal.val_mul, hax, hby]⟩, ?_⟩
  · have : deriveType .add l.type r.type = .ok .decimal := derive_decimal hl hr h1 h2 h3 .add
    simp only [applyOp, this, Res.bind_ok, addOp, hor, Bool.false_eq_true, if_false, convertOperands, ha, hb, Val.decimalValue, Res.pure_eq]
  · have : deriveType .subtract l.type r.type = .ok .decimal := derive_decimal hl hr h1 h2 h3 .subtract
    simp only [applyOp, this, Res.bind_ok, subtractOp, hor, Bool.false_eq_true, if_false, convertOperands, ha, hb, Val.decimalValue, Res.pure_eq]
  · have : deriveType .multiply l.type r.type = .ok .decimal := derive_decimal hl hr h1 h2 h3 .multiply
    simp only [applyOp, this, Res.bind_ok, multiplyOp, hor, Bool.false_eq_true, if_false, convertOperands, ha, hb, Val.decimalValue, Res.pure_eq]
  · intro ht
    cases l <;> first
      | (cases hl; done)
      | (cases ht; done)
      | skip
    rename_i d
    injection hl with hl
    refine ⟨Decimal.mul d (Decimal.ofInt (-1)), rfl, ?_⟩
    rw [Decimal.val_mul, Decimal.val_ofInt, hl]
    push_cast
    ring

/-- `a` is `q` rounded to 16 decimal places, halves away from zero. -/
def Rounded16 (a q : ℚ) : Prop := ∃ n : ℤ, a = n / 10 ^ 16 ∧ |(n : ℚ) - q * 10 ^ 16| ≤ 1 / 2 ∧ (|(n : ℚ) - q * 10 ^ 16| = 1 / 2 → |q * 10 ^ 16| < |(n : ℚ)|)

theorem not_zero {b : Decimal} {y : ℚ} (hb : b.val = y) (hy : y ≠ 0) : b.value ≠ 0 ∧ decZero (P := go R) b = false := by
  have h : b.val ≠ 0 := by rwa [hb]
  refine ⟨fun h0 => h ((Decimal.val_eq_zero b).mpr h0), ?_⟩
  show (Decimal.cmp b (Decimal.ofInt 0) == 0) = false
  rw [beq_eq_false_iff_ne, Ne, (Decimal.cmp_spec _ _).2.1, Decimal.val_ofInt]
  simpa using h

/-- The quotient is rounded to 16 decimal places. -/
theorem C100_quotient {l r : Val (go R)} {x y : ℚ} (hl : number l = some x) (hr : number r = some y) (h1 : l.type ≠ .double) (h2 : r.type ≠ .double)
    (h3 : l.type = .decimal ∨ r.type = .decimal) (hy : y ≠ 0) :
    ∃ d : Decimal, applyOp .divide l r = .ok (.decimal d) ∧ Rounded16 d.val (x / y) := by
  obtain ⟨nl, a, ha, hax⟩ := to_decimal hl h1
  obtain ⟨nr, b, hb, hby⟩ := to_decimal hr h2
  have hor : (l.isNull || r.isNull) = false := by rw [nl, nr]; rfl
  obtain ⟨hb0, hz⟩ := not_zero (R := R) hby hy
  refine ⟨Decimal.div a b, ?_, ?_⟩
  · have : deriveType .divide l.type r.type = .ok .decimal := derive_decimal hl hr h1 h2 h3 .divide
    simp only [applyOp, this, Res.bind_ok, divideOp, hor, Bool.false_eq_true, if_false, convertOperands, ha, hb, Val.decimalValue, Res.pure_eq, hz]
  · unfold Decimal.div
    rw [Decimal.divRound_val a b 16 hb0, hax, hby]
    have h16 : (10 : ℚ) ^ (16 : Int) = 10 ^ 16 := by norm_num
    rw [h16]
    obtain ⟨s1, s2⟩ := Bin.roundAway_spec (x / y * 10 ^ 16)
    refine ⟨_, ?_, s1, s2⟩
    rw [Decimal.val_mk, zpow_neg, h16]
    rfl

/-- The operator `%` and the bit operators refuse decimals and doubles. -/
theorem C100_remainder_refused {l r : Val (go R)} (h : l.type = .decimal ∨ l.type = .double ∨ r.type = .decimal ∨ r.type = .double) {o : Op}
    (ho : o ∈ [Op.modulus, .bitwiseAnd, .bitwiseOr, .bitwiseXor]) : applyOp o l r = .err := by
  have hd : deriveInteger l.type r.type = .err := by
    generalize l.type = a at *
    generalize r.type = b at *
    cases a <;> cases b <;> simp at h <;> rfl
  have : deriveType o l.type r.type = .err := by
    simp only [List.mem_cons, List.not_mem_nil, or_false] at ho
    rcases ho with rfl | rfl | rfl | rfl <;> exact hd
  rw [applyOp, this]
  rfl

example : number (R := R) (.decimal ⟨-75, -1⟩) = some (-(15 / 2)) ∧ number (R := R) (.int32 2) = some 2 := by
  refine ⟨?_, rfl⟩
  show some (Decimal.val ⟨-75, -1⟩) = _
  rw [Decimal.val_mk]
  norm_num

/-- 1 / 3 is 0.3333333333333333 -/
example : Decimal.div ⟨1, 0⟩ (Decimal.ofInt 3) = ⟨3333333333333333, -16⟩ := by decide +kernel

/-! ## C101: doubles -/

/-- `f` is the double nearest to `x`, of two equally near ones that with an even mantissa. -/
def Nearest (f : Double) (x : ℚ) : Prop :=
  f.Finite ∧ ∀ g : Double, g.Finite → |f.val - x| ≤ |g.val - x| ∧ (g.val ≠ f.val → |f.val - x| = |g.val - x| → f.mag % 2 = 0)

/-- The largest double. -/
def maxDouble : ℚ := (2 ^ 53 - 1) * 2 ^ 971

theorem max_units : (Lib.units 52 (Bin.infMag 52 11 - 1) : ℚ) * Bin.unit 52 11 = maxDouble := by
  rw [Bin.units_max (m := 52) (w := 11)]
  have e : Bin.unit 52 11 = 1 / 2 ^ 1074 := rfl
  have e2 : ((2 ^ (52 + 1) - 1) * 2 ^ (2 ^ 11 - 3) : Nat) = (2 ^ (52 + 1) - 1) * 2 ^ 971 * 2 ^ 1074 := by
    rw [show 2 ^ 11 - 3 = 971 + 1074 by norm_num, Nat.pow_add 2 971 1074, Nat.mul_assoc]
  rw [e, e2]
  unfold maxDouble
  push_cast
  rw [mul_one_div, mul_div_assoc, div_self (by positivity), mul_one]
  norm_num

theorem le_max {x : ℚ} (h : |x| ≤ 2 ^ 64) : |x| ≤ maxDouble := by
  refine le_trans h ?_
  unfold maxDouble
  have h1 : (2 : ℚ) ^ 12 ≤ 2 ^ 971 := pow_le_pow_right₀ (by norm_num) (by norm_num)
  generalize (2 : ℚ) ^ 971 = a at *
  norm_num at h1 ⊢
  linarith

/-- A number in range is rounded to the nearest double. -/
theorem nearest_ofRat (z : Bool) {x : ℚ} (h : |x| ≤ maxDouble) : Nearest (Bin.ofRat z x) x := by
  have hf : (Bin.ofRat z x : Double).Finite := by
    have hpos := Bin.infMag_pos (m := 52) (w := 11)
    exact Bin.ofRat_finite (by norm_num) z (k := Bin.infMag 52 11 - 1) (by omega) (by rw [max_units]; exact h)
  exact ⟨hf, fun g _ => ⟨Bin.ofRat_nearest (by norm_num) z x hf g, fun hne he => Bin.ofRat_even (by norm_num) z x hf g hne he⟩⟩

/-- A double is nearest to itself alone. -/
theorem nearest_self {f : Double} (hf : f.Finite) : Nearest f f.val :=
  ⟨hf, fun g _ => ⟨by rw [sub_self, abs_zero]; exact abs_nonneg _, fun hne he => by
    rw [sub_self, abs_zero, eq_comm, abs_eq_zero, sub_eq_zero] at he
    exact absurd he hne⟩⟩

theorem to_double {v : Val (go R)} {x : ℚ} (h : number v = some x) (hx : |x| ≤ maxDouble) :
    v.isNull = false ∧ ∃ f : Double, v.convert .double = .ok (.double f) ∧ Nearest f x := by
  cases v with
  | boolean b =>
    injection h with h
    refine ⟨rfl, Bin.ofInt (if b then 1 else 0), rfl, ?_⟩
    have e : x = ((if b then 1 else 0 : Int) : ℚ) := by rw [← h]; cases b <;> simp
    rw [e]
    exact nearest_ofRat false (by rw [← e]; exact hx)
  | int32 v => injection h with h; exact ⟨rfl, Bin.ofInt v.toInt, rfl, by rw [← h] at hx ⊢; exact nearest_ofRat false hx⟩
  | int64 v => injection h with h; exact ⟨rfl, Bin.ofInt v.toInt, rfl, by rw [← h] at hx ⊢; exact nearest_ofRat false hx⟩
  | decimal d => injection h with h; exact ⟨rfl, Decimal.toDouble d, rfl, by rw [← h] at hx ⊢; exact nearest_ofRat false hx⟩
  | double f =>
    obtain ⟨hf, h⟩ := number_double h
    exact ⟨rfl, f, rfl, by rw [← h]; exact nearest_self hf⟩
  | null t => cases h
  | string s => cases h
  | guid g => cases h
  | dateTime t => cases h

/-- The double a number is turned into is that nearest to it, up to the sign of zero. -/
theorem to_double' {v : Val (go R)} {x : ℚ} (h : number v = some x) (hx : |x| ≤ maxDouble) :
    v.isNull = false ∧ ∃ f : Double, v.convert .double = .ok (.double f) ∧ Nearest f x ∧ ∃ z, f.val = (Bin.ofRat z x : Double).val := by
  obtain ⟨n, f, hf, hn⟩ := to_double h hx
  refine ⟨n, f, hf, hn, false, ?_⟩
  cases v with
  | boolean b =>
    injection h with h
    injection hf with hf
    injection hf with hf
    have e : x = ((if b then 1 else 0 : Int) : ℚ) := by rw [← h]; cases b <;> simp
    rw [← hf, e]
    rfl
  | int32 v => injection h with h; injection hf with hf; injection hf with hf; rw [← hf, ← h]; rfl
  | int64 v => injection h with h; injection hf with hf; injection hf with hf; rw [← hf, ← h]; rfl
  | decimal d => injection h with h; injection hf with hf; injection hf with hf; rw [← hf, ← h]; rfl
  | double g =>
    obtain ⟨hg, h⟩ := number_double h
    injection hf with hf
    injection hf with hf
    rw [← hf, ← h, (Bin.ofRat_val' (by norm_num) g hg false).2]
  | null t => cases h
  | string s => cases h
  | guid g => cases h
  | dateTime t => cases h

/-- A double is at most the largest one. -/
theorem finite_le {f : Double} (hf : f.Finite) : |f.val| ≤ maxDouble := by
  rw [Bin.abs_val, ← max_units]
  have hu := Bin.unit_pos 52 11
  have hle : f.mag ≤ Bin.infMag 52 11 - 1 := by
    unfold Bin.Finite at hf
    omega
  have : Lib.units 52 f.mag ≤ Lib.units 52 (Bin.infMag 52 11 - 1) := units_le_iff.mpr hle
  have h2 : (Lib.units 52 f.mag : ℚ) ≤ Lib.units 52 (Bin.infMag 52 11 - 1) := by exact_mod_cast this
  exact mul_le_mul_of_nonneg_right h2 (le_of_lt hu)

theorem derive_double {l r : Val (go R)} {x y : ℚ} (hl : number l = some x) (hr : number r = some y)
    (h3 : l.type = .double ∨ r.type = .double) (o : Op) : deriveArithmetic o l.type r.type = .ok .double := by
  cases l <;> cases r <;> first
    | (cases hl; done)
    | (cases hr; done)
    | (rcases h3 with h3 | h3 <;> cases h3; done)
    | rfl

theorem add_finite {f g : Double} (hf : f.Finite) (hg : g.Finite) : Bin.add f g = Bin.ofRat (f.neg && g.neg) (f.val + g.val) := by
  have n1 := (Bin.finite_iff _).mp hf
  have n2 := (Bin.finite_iff _).mp hg
  unfold Bin.add
  rw [if_neg (by rintro (h | h); exacts [n1.1 h, n2.1 h]), if_neg n1.2, if_neg n2.2]

theorem mul_finite {f g : Double} (hf : f.Finite) (hg : g.Finite) : Bin.mul f g = Bin.ofRat (f.neg != g.neg) (f.val * g.val) := by
  have n1 := (Bin.finite_iff _).mp hf
  have n2 := (Bin.finite_iff _).mp hg
  unfold Bin.mul
  rw [if_neg (by rintro (h | h); exacts [n1.1 h, n2.1 h]), if_neg (by rintro (h | h); exacts [n1.2 h, n2.2 h])]

theorem div_finite {f g : Double} (hf : f.Finite) (hg : g.Finite) (h0 : g.val ≠ 0) :
    Bin.div f g = Bin.ofRat (f.neg != g.neg) (f.val / g.val) := by
  have n1 := (Bin.finite_iff _).mp hf
  have n2 := (Bin.finite_iff _).mp hg
  unfold Bin.div
  rw [if_neg (by rintro (h | h); exacts [n1.1 h, n2.1 h]), if_neg n1.2, if_neg n2.2, if_neg (by rwa [← Bin.val_eq_zero_iff])]

/-- With a double among the operands both are first taken to the nearest double, and the result is the double nearest to the sum, difference,
product or quotient of those. -/
theorem C101_nearest {l r : Val (go R)} {x y : ℚ} (hl : number l = some x) (hr : number r = some y) (hx : |x| ≤ maxDouble) (hy : |y| ≤ maxDouble)
    (h3 : l.type = .double ∨ r.type = .double) :
    ∃ f g : Double, Nearest f x ∧ Nearest g y ∧
      (|f.val + g.val| ≤ maxDouble → ∃ c, applyOp .add l r = .ok (.double c) ∧ Nearest c (f.val + g.val)) ∧
      (|f.val - g.val| ≤ maxDouble → ∃ c, applyOp .subtract l r = .ok (.double c) ∧ Nearest c (f.val - g.val)) ∧
      (|f.val * g.val| ≤ maxDouble → ∃ c, applyOp .multiply l r = .ok (.double c) ∧ Nearest c (f.val * g.val)) ∧
      (g.val ≠ 0 → |f.val / g.val| ≤ maxDouble → ∃ c, applyOp .divide l r = .ok (.double c) ∧ Nearest c (f.val / g.val)) := by
  obtain ⟨nl, f, hf, hfx⟩ := to_double hl hx
  obtain ⟨nr, g, hg, hgy⟩ := to_double hr hy
  have hor : (l.isNull || r.isNull) = false := by rw [nl, nr]; rfl
  refine ⟨f, g, hfx, hgy, fun h => ⟨Bin.add f g, ?_, ?_⟩, fun h => ⟨Bin.sub f g, ?_, ?_⟩, fun h => ⟨Bin.mul f g, ?_, ?_⟩,
    fun h0 h => ⟨Bin.div f g, ?_, ?_⟩⟩
  · have : deriveType .add l.type r.type = .ok .double := derive_double hl hr h3 .add
    simp only [applyOp, this, Res.bind_ok, addOp, hor, Bool.false_eq_true, if_false, convertOperands, hf, hg, Val.doubleValue, Res.pure_eq]
  · rw [add_finite hfx.1 hgy.1]
    exact nearest_ofRat _ h
  · have : deriveType .subtract l.type r.type = .ok .double := derive_double hl hr h3 .subtract
    simp only [applyOp, this, Res.bind_ok, subtractOp, hor, Bool.false_eq_true, if_false, convertOperands, hf, hg, Val.doubleValue, Res.pure_eq]
  · unfold Bin.sub
    rw [add_finite hfx.1 (show g.neg_.Finite from hgy.1), Bin.val_neg_, ← sub_eq_add_neg]
    exact nearest_ofRat _ h
  · have : deriveType .multiply l.type r.type = .ok .double := derive_double hl hr h3 .multiply
    simp only [applyOp, this, Res.bind_ok, multiplyOp, hor, Bool.false_eq_true, if_false, convertOperands, hf, hg, Val.doubleValue, Res.pure_eq]
  · rw [mul_finite hfx.1 hgy.1]
    exact nearest_ofRat _ h
  · have : deriveType .divide l.type r.type = .ok .double := derive_double hl hr h3 .divide
    simp only [applyOp, this, Res.bind_ok, divideOp, hor, Bool.false_eq_true, if_false, convertOperands, hf, hg, Val.doubleValue, Res.pure_eq]
  · rw [div_finite hfx.1 hgy.1 h0]
    exact nearest_ofRat _ h

/-- 1.5, the bits 3FF8000000000000 -/
def oneAndHalf : Double := Double.ofBits 0x3FF8000000000000#64

example : number (R := R) (.double oneAndHalf) = some (3 / 2) ∧ number (R := R) (.int64 3) = some 3 ∧ |(3 / 2 : ℚ)| ≤ maxDouble ∧ |(3 : ℚ)| ≤ maxDouble := by
  have e : Bin.val oneAndHalf = 3 / 2 := by decide +kernel
  refine ⟨?_, rfl, ?_, ?_⟩
  · show (if Bin.Finite oneAndHalf then some (Bin.val oneAndHalf) else none) = _
    rw [if_pos (by decide +kernel), e]
  · exact le_max (by rw [abs_of_nonneg (by norm_num)]; norm_num)
  · exact le_max (by rw [abs_of_nonneg (by norm_num)]; norm_num)

/-- The unary minus of a double is exact. -/
theorem C101_minus {f : Double} : ∃ c : Double, unaryOp .minus (.double (P := go R) f) = .ok (.double c) ∧ c.val = -f.val ∧ (c.Finite ↔ f.Finite) :=
  ⟨Bin.neg_ f, rfl, Bin.val_neg_ f, Iff.rfl⟩

/-- 0.1 + 0.2 in doubles is not the double nearest to 0.3. -/
theorem C101_decimal_fractions_false :
    applyOp .add (.double (P := go R) (Bin.ofRat false (1 / 10))) (.double (Bin.ofRat false (1 / 5))) =
      .ok (.double (Double.ofBits 0x3FD3333333333334#64)) ∧ (Bin.ofRat false (3 / 10) : Double) = Double.ofBits 0x3FD3333333333333#64 := by
  refine ⟨?_, by decide +kernel⟩
  have e : Bin.add (Bin.ofRat false (1 / 10) : Double) (Bin.ofRat false (1 / 5)) = Double.ofBits 0x3FD3333333333334#64 := by decide +kernel
  have h : ∀ f g : Double, applyOp .add (.double (P := go R) f) (.double g) = .ok (.double (Bin.add f g)) := fun _ _ => rfl
  rw [h, e]

/-! ## C76, C102: absolute values, rounding and roots -/

/-- Abs, Ceiling, Floor and Round of a decimal. -/
theorem C76_decimal (d : Decimal) :
    (∃ c : Decimal, call .abs [.decimal (P := go R) d] = .ok (.decimal c) ∧ c.val = |d.val|) ∧
    (∃ c : Decimal, call .ceiling [.decimal (P := go R) d] = .ok (.decimal c) ∧ c.val = (⌈d.val⌉ : ℤ)) ∧
    (∃ c : Decimal, call .floor [.decimal (P := go R) d] = .ok (.decimal c) ∧ c.val = (⌊d.val⌋ : ℤ)) ∧
    (∃ c : Decimal, call .round [.decimal (P := go R) d] = .ok (.decimal c) ∧
      ∃ n : ℤ, c.val = n ∧ |(n : ℚ) - d.val| ≤ 1 / 2 ∧ (|(n : ℚ) - d.val| = 1 / 2 → |d.val| < |(n : ℚ)|)) :=
  ⟨⟨Decimal.abs d, rfl, Decimal.val_abs d⟩, ⟨Decimal.ceil d, rfl, Decimal.val_ceil d⟩, ⟨Decimal.floor d, rfl, Decimal.val_floor d⟩,
    ⟨Decimal.round d, rfl, _, Decimal.val_round d, Bin.roundAway_spec d.val⟩⟩

/-- The same of a double: the results are doubles, whole numbers exactly. -/
theorem C76_double (f : Double) (hf : f.Finite) :
    (∃ c : Double, call .abs [.double (P := go R) f] = .ok (.double c) ∧ c.Finite ∧ c.val = |f.val|) ∧
    (∃ c : Double, call .ceiling [.double (P := go R) f] = .ok (.double c) ∧ c.Finite ∧ c.val = (⌈f.val⌉ : ℤ)) ∧
    (∃ c : Double, call .floor [.double (P := go R) f] = .ok (.double c) ∧ c.Finite ∧ c.val = (⌊f.val⌋ : ℤ)) ∧
    (∃ c : Double, call .round [.double (P := go R) f] = .ok (.double c) ∧ c.Finite ∧
      ∃ n : ℤ, c.val = n ∧ |(n : ℚ) - f.val| ≤ 1 / 2 ∧ (|(n : ℚ) - f.val| = 1 / 2 → |f.val| < |(n : ℚ)|)) := by
  refine ⟨⟨Bin.abs f, rfl, hf, ?_⟩, ⟨Bin.ceil f, rfl, Bin.ceil_val f hf⟩, ⟨Bin.floor f, rfl, Bin.floor_val f hf⟩,
    ⟨Bin.round f, rfl, (Bin.round_val f hf).1, _, (Bin.round_val f hf).2, Bin.roundAway_spec f.val⟩⟩
  rw [Bin.abs_val, Bin.val_pos (show (Bin.abs f).neg = false from rfl)]
  rfl

/-- -2.5 rounds to -3 -/
example : call .round [.decimal (P := go R) ⟨-25, -1⟩] = .ok (.decimal ⟨-3, 0⟩) := by
  show Res.ok (Val.decimal (P := go R) (Decimal.round ⟨-25, -1⟩)) = _
  rw [show Decimal.round ⟨-25, -1⟩ = ⟨-3, 0⟩ by decide +kernel]

/-- `f` is the double nearest to the square root of `x`: between it and any other double, the middle is on the other side of the root. -/
def NearestRoot (f : Double) (x : ℚ) : Prop :=
  f.Finite ∧ 0 ≤ f.val ∧ ∀ g : Double, g.Finite → 0 ≤ g.val →
    (g.val < f.val → ((g.val + f.val) / 2) ^ 2 ≤ x) ∧ (f.val < g.val → x ≤ ((g.val + f.val) / 2) ^ 2)

theorem sqrt_decimal {P : Expr.Prim} (d : P.Dec) : call .sqrt [.decimal (P := P) d] = .ok (.double (P.fltSqrt (P.decToFlt d))) := rfl

/-- Sqrt takes the root of the double nearest to its argument. -/
theorem sqrt_call {v : Val (go R)} {x : ℚ} (hv : number v = some x) (hx : |x| ≤ maxDouble) :
    ∃ f : Double, Nearest f x ∧ call .sqrt [v] = .ok (.double (Bin.sqrt f)) := by
  cases v with
  | boolean b =>
    injection hv with hv
    have e : x = ((if b then 1 else 0 : Int) : ℚ) := by rw [← hv]; cases b <;> simp
    have hn : Nearest (Bin.ofInt (if b then 1 else 0)) x := by rw [e]; exact nearest_ofRat false (by rw [← e]; exact hx)
    refine ⟨_, hn, ?_⟩
    have hb : (if b then (1 : BitVec 64) else 0).toInt = if b then 1 else 0 := by cases b <;> decide
    show Res.ok (Val.double (P := go R) (Bin.sqrt (Bin.ofInt (if b then (1 : BitVec 64) else 0).toInt))) = _
    rw [hb]
  | int32 v =>
    injection hv with hv
    have hn : Nearest (Bin.ofInt v.toInt) x := by rw [← hv] at hx ⊢; exact nearest_ofRat false hx
    exact ⟨Bin.ofInt v.toInt, hn, rfl⟩
  | int64 v =>
    injection hv with hv
    have hn : Nearest (Bin.ofInt v.toInt) x := by rw [← hv] at hx ⊢; exact nearest_ofRat false hx
    exact ⟨Bin.ofInt v.toInt, hn, rfl⟩
  | decimal d =>
    injection hv with hv
    have hn : Nearest (Decimal.toDouble d) x := by rw [← hv] at hx ⊢; exact nearest_ofRat false hx
    have h : (go R).fltSqrt ((go R).decToFlt d) = Bin.sqrt (Decimal.toDouble d) := by dsimp only [go]
    refine ⟨Decimal.toDouble d, hn, ?_⟩
    rw [sqrt_decimal (P := go R) d, h]
  | double f =>
    obtain ⟨hf, hv⟩ := number_double hv
    exact ⟨f, by rw [← hv]; exact nearest_self hf, rfl⟩
  | null t => cases hv
  | string s => cases hv
  | guid g => cases hv
  | dateTime t => cases hv

/-- Sqrt of a positive number is the double nearest to the root of the double nearest to it. -/
theorem C102_sqrt {v : Val (go R)} {x : ℚ} (hv : number v = some x) (hx : |x| ≤ maxDouble) :
    ∃ f : Double, Nearest f x ∧ (0 < f.val → ∃ c : Double, call .sqrt [v] = .ok (.double c) ∧ NearestRoot c f.val) := by
  have key : ∀ f : Double, f.Finite → 0 < f.val → NearestRoot (Bin.sqrt f) f.val := by
    intro f hf h0
    have hn : f.neg = false := by
      cases h : f.neg
      · rfl
      · have := Bin.val_neg h
        have hu := Bin.unit_pos 52 11
        have : (0 : ℚ) ≤ Lib.units 52 f.mag * Bin.unit 52 11 := by positivity
        linarith
    obtain ⟨h1, h2, h3⟩ := Bin.sqrt_nearest f hf hn (by rw [← Bin.val_eq_zero_iff]; exact ne_of_gt h0)
    exact ⟨h1, h2, fun g _ hg => h3 g hg⟩
  obtain ⟨f, hn, hc⟩ := sqrt_call hv hx
  exact ⟨f, hn, fun h0 => ⟨_, hc, key f hn.1 h0⟩⟩

/-- C102: the square root of a number whose nearest double is 0 is 0, that of one whose nearest double is negative is not a number. -/
theorem C102_edge {v : Val (go R)} {x : ℚ} (hv : number v = some x) (hx : |x| ≤ maxDouble) :
    ∃ f : Double, Nearest f x ∧ (f.val = 0 → ∃ c : Double, call .sqrt [v] = .ok (.double c) ∧ c.Finite ∧ c.val = 0) ∧
      (f.val < 0 → ∃ c : Double, call .sqrt [v] = .ok (.double c) ∧ c.IsNaN) := by
  obtain ⟨f, hn, hc⟩ := sqrt_call hv hx
  have hf := hn.1
  have h1 : ¬ f.IsNaN := fun h => absurd hf (by unfold Bin.Finite; exact not_lt.mpr (le_of_lt h))
  refine ⟨f, hn, fun h0 => ⟨_, hc, ?_⟩, fun h0 => ⟨_, hc, ?_⟩⟩
  · have : Bin.sqrt f = f := by
      unfold Bin.sqrt
      rw [if_neg h1, if_pos ((Bin.val_eq_zero_iff f).mp h0)]
    rw [this]
    exact ⟨hf, h0⟩
  · have h2 : ¬ f.IsZero := fun h => absurd ((Bin.val_eq_zero_iff f).mpr h) (ne_of_lt h0)
    have h3 : f.neg = true := by
      cases h : f.neg
      · have := Bin.val_pos h
        have hu := Bin.unit_pos 52 11
        have : (0 : ℚ) ≤ Lib.units 52 f.mag * Bin.unit 52 11 := by positivity
        linarith
      · rfl
    have : Bin.sqrt f = Bin.nan := by
      unfold Bin.sqrt
      rw [if_neg h1, if_neg h2, if_pos h3]
    rw [this]
    decide +kernel

example : number (R := R) (.int32 (-4)) = some (-4) ∧ |(-4 : ℚ)| ≤ maxDouble := by
  refine ⟨rfl, ?_⟩
  rw [abs_of_neg (by norm_num), neg_neg]
  have : (1 : ℚ) ≤ 2 ^ 971 := one_le_pow₀ (by norm_num)
  exact le_trans (by norm_num) (le_mul_of_one_le_right (show (0 : ℚ) ≤ 2 ^ 53 - 1 by norm_num) this)

/-- The root of a square of a whole number up to 2^53 is that number. -/
theorem sqrt_unique {f g : Double} {x : ℚ} (hf : NearestRoot f x) (hg : g.Finite) (h0 : 0 ≤ g.val) (he : g.val * g.val = x) : f.val = g.val := by
  obtain ⟨_, h1, h2⟩ := hf
  obtain ⟨h3, h4⟩ := h2 g hg h0
  rcases lt_trichotomy g.val f.val with h | h | h
  · have := h3 h
    nlinarith
  · exact h.symm
  · have := h4 h
    nlinarith

/-- The square root of a perfect square is exact. -/
theorem C102_perfect_square (n : Nat) (hn : n * n ≤ 2 ^ 53) (h0 : 0 < n) :
    ∃ c : Double, call .sqrt [.int64 (P := go R) (BitVec.ofNat 64 (n * n))] = .ok (.double c) ∧ c.Finite ∧ c.val = n := by
  have hi : (BitVec.ofNat 64 (n * n)).toInt = ((n * n : Nat) : Int) := by
    rw [BitVec.toInt_eq_toNat_of_lt] <;> rw [BitVec.toNat_ofNat, Nat.mod_eq_of_lt (by omega)]
    omega
  have hnum : number (R := R) (.int64 (BitVec.ofNat 64 (n * n))) = some (((n * n : Nat) : Int) : ℚ) := by
    show some (((BitVec.ofNat 64 (n * n)).toInt : Int) : ℚ) = _
    rw [hi]
  have hw := ofInt_val ((n * n : Nat) : Int) (by omega)
  have hle : n ≤ n * n := Nat.le_mul_self n
  have hwn := ofInt_val (n : Int) (by omega)
  have hc : call .sqrt [.int64 (P := go R) (BitVec.ofNat 64 (n * n))] = .ok (.double (Bin.sqrt (Bin.ofInt ((n * n : Nat) : Int)))) := by
    show Res.ok (Val.double (P := go R) (Bin.sqrt (Bin.ofInt (BitVec.ofNat 64 (n * n)).toInt))) = _
    rw [hi]
  have hpos : (0 : ℚ) < (Bin.ofInt ((n * n : Nat) : Int) : Double).val := by
    rw [hw.2]
    exact_mod_cast Nat.mul_pos h0 h0
  have hneg : (Bin.ofInt ((n * n : Nat) : Int) : Double).neg = false := by
    show (if (((n * n : Nat) : Int) : ℚ) = 0 then false else decide ((((n * n : Nat) : Int) : ℚ) < 0)) = false
    have : (0 : ℚ) < (((n * n : Nat) : Int) : ℚ) := by exact_mod_cast Nat.mul_pos h0 h0
    rw [if_neg (ne_of_gt this), decide_eq_false (not_lt.mpr (le_of_lt this))]
  obtain ⟨h1, h2, h3⟩ := Bin.sqrt_nearest _ hw.1 hneg (by rw [← Bin.val_eq_zero_iff]; exact ne_of_gt hpos)
  refine ⟨_, hc, h1, ?_⟩
  have := sqrt_unique (f := Bin.sqrt (Bin.ofInt ((n * n : Nat) : Int))) (g := Bin.ofInt (n : Int)) (x := (Bin.ofInt ((n * n : Nat) : Int) : Double).val)
    ⟨h1, h2, fun g _ hg => h3 g hg⟩ hwn.1 (by rw [hwn.2]; positivity) (by rw [hwn.2, hw.2]; push_cast; ring)
  rw [this, hwn.2]
  simp

example : (3 : Nat) * 3 ≤ 2 ^ 53 ∧ 0 < 3 := by decide

end Verif.Lib
