import Verif.Lib.NumberProps

/-!
# Arithmetic of all doubles: overflow, infinities, signed zeros and NaN (property C101)
-/

namespace Verif.Lib

open Verif.Expr

variable {R : Rest}

/-- From here on numbers are rounded to infinity: half a step above the largest double. -/
def overflow : ℚ := 2 ^ 1024 - 2 ^ 970

/-- `c` is `x` rounded: the nearest double, or an infinity from `overflow` on, with the sign of `x`; `z` is the sign if `x` is 0. -/
def Rounds (c : Double) (x : ℚ) (z : Bool) : Prop :=
  (|x| < overflow → Nearest c x) ∧ (overflow ≤ |x| → c.IsInf) ∧ c.neg = (if x = 0 then z else decide (x < 0))

theorem units_inf : units 52 (Bin.infMag 52 11) = 2 ^ 53 * 2 ^ 2045 := by
  rw [show Bin.infMag 52 11 = 2045 * 2 ^ 52 + 2 ^ 53 by decide]
  exact units_eq 52 2045 (2 ^ 53) (fun _ => by norm_num) (by norm_num)

theorem units_inf' : ((units 52 (Bin.infMag 52 11) : Nat) : ℚ) * Bin.unit 52 11 = 2 ^ 1024 := by
  have e : Bin.unit 52 11 = 1 / 2 ^ 1074 := rfl
  rw [units_inf, e, ← Nat.pow_add, show 53 + 2045 = 1024 + 1074 by norm_num, Nat.pow_add]
  push_cast
  rw [mul_one_div, mul_div_assoc, div_self (by positivity), mul_one]

/-- Twice the number from which on numbers are rounded to infinity. -/
theorem overflow_eq : 2 * overflow = maxDouble + 2 ^ 1024 := by
  unfold overflow maxDouble
  rw [show (1024 : Nat) = 54 + 970 by norm_num, show (971 : Nat) = 1 + 970 by norm_num, pow_add, pow_add]
  generalize (2 : ℚ) ^ 970 = a
  ring

theorem max_lt_overflow : maxDouble < overflow ∧ overflow < 2 ^ 1024 := by
  have h : (0 : ℚ) < 2 ^ 970 := by positivity
  have e := overflow_eq
  have e2 : overflow = 2 ^ 1024 - 2 ^ 970 := rfl
  generalize (2 : ℚ) ^ 1024 = b at *
  generalize (2 : ℚ) ^ 970 = a at *
  constructor <;> linarith

theorem farther {k a m i v : ℚ} (h1 : i ≤ k) (h2 : 2 * v = m + i) (h3 : a < v) (h4 : m < v) : ¬ |k - a| ≤ |m - a| := by
  intro h
  rw [abs_of_pos (by linarith : (0 : ℚ) < k - a)] at h
  rcases le_total a m with ha | ha
  · rw [abs_of_nonneg (by linarith : (0 : ℚ) ≤ m - a)] at h
    linarith
  · rw [abs_of_nonpos (by linarith : m - a ≤ 0)] at h
    linarith

theorem as_far {k a m i v : ℚ} (h1 : k ≤ m) (h2 : 2 * v = m + i) (h3 : v ≤ a) (h4 : m < v) (h : |k - a| ≤ |i - a|) : a = v ∧ k = m := by
  rw [abs_of_neg (by linarith : k - a < 0)] at h
  rcases le_total a i with ha | ha
  · rw [abs_of_nonneg (by linarith : (0 : ℚ) ≤ i - a)] at h
    constructor <;> linarith
  · rw [abs_of_nonpos (by linarith : i - a ≤ 0)] at h
    linarith

/-- Rounding gives the nearest double or infinity. -/
theorem rounds_ofRat (z : Bool) (x : ℚ) : Rounds (Bin.ofRat z x) x z := by
  have hr := round_isRounded 52 (x / Bin.unit 52 11) (by norm_num)
  have hu := Bin.unit_pos 52 11
  have hpos := Bin.infMag_pos (m := 52) (w := 11)
  have hx : |x / Bin.unit 52 11| * Bin.unit 52 11 = |x| := by
    rw [Bin.abs_div_unit, div_mul_cancel₀ _ (ne_of_gt hu)]
  have hM := max_units
  have hI := units_inf'
  have e := overflow_eq
  refine ⟨fun h => ?_, fun h => ?_, rfl⟩
  · have hf : (Bin.ofRat z x : Double).Finite := by
      show min (Lib.round 52 (x / Bin.unit 52 11)) (Bin.infMag 52 11) < Bin.infMag 52 11
      by_contra hc
      have hge : Bin.infMag 52 11 ≤ Lib.round 52 (x / Bin.unit 52 11) := by omega
      -- not as near as the largest double
      have hn := hr.near (Bin.infMag 52 11 - 1)
      have h1 : (units 52 (Bin.infMag 52 11) : ℚ) ≤ units 52 (Lib.round 52 (x / Bin.unit 52 11)) := by
        exact_mod_cast units_le_iff.mpr hge
      have h2 := mul_le_mul_of_nonneg_right h1 (le_of_lt hu)
      have hn' := mul_le_mul_of_nonneg_right hn (le_of_lt hu)
      rw [← abs_of_pos hu, ← abs_mul, ← abs_mul, abs_of_pos hu, sub_mul, sub_mul, hx, hM] at hn'
      rw [hI] at h2
      exact farther h2 e h max_lt_overflow.1 hn'
    exact ⟨hf, fun g _ => ⟨Bin.ofRat_nearest (by norm_num) z x hf g, fun hne he => Bin.ofRat_even (by norm_num) z x hf g hne he⟩⟩
  · show min (Lib.round 52 (x / Bin.unit 52 11)) (Bin.infMag 52 11) = Bin.infMag 52 11
    by_contra hc
    have hlt : Lib.round 52 (x / Bin.unit 52 11) < Bin.infMag 52 11 := by omega
    have hle : Lib.round 52 (x / Bin.unit 52 11) ≤ Bin.infMag 52 11 - 1 := by omega
    have hn := hr.near (Bin.infMag 52 11)
    have h1 : (units 52 (Lib.round 52 (x / Bin.unit 52 11)) : ℚ) ≤ units 52 (Bin.infMag 52 11 - 1) := by
      exact_mod_cast units_le_iff.mpr hle
    have h2 := mul_le_mul_of_nonneg_right h1 (le_of_lt hu)
    rw [hM] at h2
    have hn' := mul_le_mul_of_nonneg_right hn (le_of_lt hu)
    rw [← abs_of_pos hu, ← abs_mul, ← abs_mul, abs_of_pos hu, sub_mul, sub_mul, hx, hI] at hn'
    -- as near: the even one is infinity
    have hxo := as_far h2 e h max_lt_overflow.1 hn'
    have hk : Lib.round 52 (x / Bin.unit 52 11) = Bin.infMag 52 11 - 1 := by
      have : (units 52 (Lib.round 52 (x / Bin.unit 52 11)) : ℚ) = units 52 (Bin.infMag 52 11 - 1) :=
        mul_right_cancel₀ (ne_of_gt hu) (by rw [hxo.2, hM])
      exact units_inj.mp (by exact_mod_cast this)
    have hev := hr.even (Bin.infMag 52 11) (by omega) (by
      refine mul_right_cancel₀ (ne_of_gt hu) ?_
      have hlt' := max_lt_overflow
      rw [← abs_of_pos hu, ← abs_mul, ← abs_mul, abs_of_pos hu, sub_mul, sub_mul, hx, hI, hxo.2, hxo.1]
      clear hI hM hn' h2
      generalize (2 : ℚ) ^ 1024 = b at *
      rw [abs_of_neg (by linarith : maxDouble - overflow < 0), abs_of_pos (by linarith : 0 < b - overflow)]
      linarith)
    rw [hk] at hev
    exact absurd hev (by decide)

theorem nan_isNaN : (Bin.nan : Double).IsNaN := by decide

theorem inf_nn {f : Double} (h : f.IsInf) : ¬ f.IsNaN := fun h' => by unfold Bin.IsInf Bin.IsNaN at *; omega
theorem fin_nn {f : Double} (h : f.Finite) : ¬ f.IsNaN := fun h' => by unfold Bin.Finite Bin.IsNaN at *; omega
theorem fin_ni {f : Double} (h : f.Finite) : ¬ f.IsInf := fun h' => by unfold Bin.Finite Bin.IsInf at *; omega
theorem zero_fin {f : Double} (h : f.IsZero) : f.Finite := by
  have hpos := Bin.infMag_pos (m := 52) (w := 11)
  unfold Bin.Finite; unfold Bin.IsZero at h; omega

theorem neither {p q : Prop} (hp : ¬ p) (hq : ¬ q) : ¬ (p ∨ q) := fun h => h.elim hp hq

/-- The sum of any two doubles. -/
theorem C101_add (f g : Double) : ∃ c : Double, applyOp .add (.double (P := go R) f) (.double g) = .ok (.double c) ∧
    (f.IsNaN ∨ g.IsNaN → c.IsNaN) ∧
    (f.Finite → g.Finite → Rounds c (f.val + g.val) (f.neg && g.neg)) ∧
    (f.IsInf → g.IsInf → f.neg ≠ g.neg → c.IsNaN) ∧
    (f.IsInf → g.IsInf → f.neg = g.neg → c = f) ∧
    (f.IsInf → g.Finite → c = f) ∧ (f.Finite → g.IsInf → c = g) := by
  refine ⟨Bin.add f g, rfl, fun h => ?_, fun hf hg => ?_, fun hf hg hn => ?_, fun hf hg hn => ?_, fun hf hg => ?_, fun hf hg => ?_⟩
  · unfold Bin.add; rw [if_pos h]; exact nan_isNaN
  · rw [add_finite hf hg]; exact rounds_ofRat _ _
  · unfold Bin.add; rw [if_neg (neither (inf_nn hf) (inf_nn hg)), if_pos hf, if_pos ⟨hg, hn⟩]; exact nan_isNaN
  · unfold Bin.add; rw [if_neg (neither (inf_nn hf) (inf_nn hg)), if_pos hf, if_neg (fun h => h.2 hn)]
  · unfold Bin.add; rw [if_neg (neither (inf_nn hf) (fin_nn hg)), if_pos hf, if_neg (fun h => fin_ni hg h.1)]
  · unfold Bin.add; rw [if_neg (neither (fin_nn hf) (inf_nn hg)), if_neg (fin_ni hf), if_pos hg]

/-- The difference of any two doubles. -/
theorem C101_subtract (f g : Double) : ∃ c : Double, applyOp .subtract (.double (P := go R) f) (.double g) = .ok (.double c) ∧
    (f.IsNaN ∨ g.IsNaN → c.IsNaN) ∧
    (f.Finite → g.Finite → Rounds c (f.val - g.val) (f.neg && !g.neg)) ∧
    (f.IsInf → g.IsInf → f.neg = g.neg → c.IsNaN) ∧
    (f.IsInf → g.IsInf → f.neg ≠ g.neg → c = f) ∧
    (f.IsInf → g.Finite → c = f) ∧ (f.Finite → g.IsInf → c.IsInf ∧ c.neg = !g.neg) := by
  obtain ⟨c, h, h1, h2, h3, h4, h5, h6⟩ := C101_add (R := R) f g.neg_
  have hn : g.neg_.neg = !g.neg := rfl
  refine ⟨c, h, h1, fun hf hg => ?_, fun hf hg e => h3 hf hg (by rw [hn, e]; cases g.neg <;> decide), fun hf hg e => h4 hf hg ?_, h5,
    fun hf hg => ?_⟩
  · have := h2 hf hg
    rw [Bin.val_neg_, ← sub_eq_add_neg] at this
    exact this
  · rw [hn]
    revert e
    cases f.neg <;> cases g.neg <;> decide
  · rw [h6 hf hg]; exact ⟨hg, rfl⟩

/-- The product of any two doubles. -/
theorem C101_multiply (f g : Double) : ∃ c : Double, applyOp .multiply (.double (P := go R) f) (.double g) = .ok (.double c) ∧
    (f.IsNaN ∨ g.IsNaN → c.IsNaN) ∧
    (f.Finite → g.Finite → Rounds c (f.val * g.val) (f.neg != g.neg)) ∧
    (f.IsInf ∧ g.IsZero ∨ f.IsZero ∧ g.IsInf → c.IsNaN) ∧
    (¬ f.IsNaN → ¬ g.IsNaN → f.IsInf ∨ g.IsInf → ¬ f.IsZero → ¬ g.IsZero → c.IsInf ∧ c.neg = (f.neg != g.neg)) := by
  have hpos := Bin.infMag_pos (m := 52) (w := 11)
  refine ⟨Bin.mul f g, rfl, fun h => ?_, fun hf hg => ?_, fun h => ?_, fun h1 h2 h3 h4 h5 => ?_⟩
  · unfold Bin.mul; rw [if_pos h]; exact nan_isNaN
  · rw [mul_finite hf hg]; exact rounds_ofRat _ _
  · unfold Bin.IsInf Bin.IsZero at h
    unfold Bin.mul
    rw [if_neg (by unfold Bin.IsNaN; omega), if_pos (by unfold Bin.IsInf; omega), if_pos (by unfold Bin.IsZero; omega)]
    exact nan_isNaN
  · unfold Bin.mul
    rw [if_neg (by rintro (h | h); exacts [h1 h, h2 h]), if_pos h3, if_neg (by rintro (h | h); exacts [h4 h, h5 h])]
    exact ⟨rfl, rfl⟩

/-- The quotient of any two doubles. -/
theorem C101_divide (f g : Double) : ∃ c : Double, applyOp .divide (.double (P := go R) f) (.double g) = .ok (.double c) ∧
    (f.IsNaN ∨ g.IsNaN → c.IsNaN) ∧
    (f.Finite → g.Finite → ¬ g.IsZero → Rounds c (f.val / g.val) (f.neg != g.neg)) ∧
    (f.IsInf → g.IsInf → c.IsNaN) ∧ (f.IsZero → g.IsZero → c.IsNaN) ∧
    (f.IsInf → g.Finite → c.IsInf ∧ c.neg = (f.neg != g.neg)) ∧
    (f.Finite → ¬ f.IsZero → g.IsZero → c.IsInf ∧ c.neg = (f.neg != g.neg)) ∧
    (f.Finite → g.IsInf → c.IsZero ∧ c.neg = (f.neg != g.neg)) := by
  have hpos := Bin.infMag_pos (m := 52) (w := 11)
  refine ⟨Bin.div f g, rfl, fun h => ?_, fun hf hg h0 => ?_, fun hf hg => ?_, fun hf hg => ?_, fun hf hg => ?_, fun hf h0 hg => ?_,
    fun hf hg => ?_⟩
  · unfold Bin.div; rw [if_pos h]; exact nan_isNaN
  · rw [div_finite hf hg (by rwa [Ne, Bin.val_eq_zero_iff])]; exact rounds_ofRat _ _
  · unfold Bin.div; rw [if_neg (neither (inf_nn hf) (inf_nn hg)), if_pos hf, if_pos hg]; exact nan_isNaN
  · unfold Bin.div
    rw [if_neg (neither (fin_nn (zero_fin hf)) (fin_nn (zero_fin hg))), if_neg (fin_ni (zero_fin hf)), if_neg (fin_ni (zero_fin hg)), if_pos hg, if_pos hf]
    exact nan_isNaN
  · unfold Bin.div; rw [if_neg (neither (inf_nn hf) (fin_nn hg)), if_pos hf, if_neg (fin_ni hg)]; exact ⟨rfl, rfl⟩
  · unfold Bin.div
    rw [if_neg (neither (fin_nn hf) (fin_nn (zero_fin hg))), if_neg (fin_ni hf), if_neg (fin_ni (zero_fin hg)), if_pos hg, if_neg h0]
    exact ⟨rfl, rfl⟩
  · unfold Bin.div; rw [if_neg (neither (fin_nn hf) (inf_nn hg)), if_neg (fin_ni hf), if_pos hg]; exact ⟨rfl, rfl⟩

/-- 1 / 0 is infinity and 1 / -0 is minus infinity; 0 / 0 is no number; the largest double and its half overflow. -/
example :
    applyOp .divide (.double (P := go R) (Double.ofBits 0x3FF0000000000000#64)) (.double (Double.ofBits 0x8000000000000000#64)) =
      .ok (.double (Bin.inf true)) ∧
    applyOp .divide (.double (P := go R) (Bin.zero false)) (.double (Bin.zero false)) = .ok (.double Bin.nan) ∧
    applyOp .add (.double (P := go R) (Double.ofBits 0x7FEFFFFFFFFFFFFF#64)) (.double (Double.ofBits 0x7FDFFFFFFFFFFFFF#64)) =
      .ok (.double (Bin.inf false)) := by
  have e1 : Bin.div (Double.ofBits 0x3FF0000000000000#64) (Double.ofBits 0x8000000000000000#64) = Bin.inf true := by decide +kernel
  have e2 : Bin.div (Bin.zero false : Double) (Bin.zero false) = Bin.nan := by decide +kernel
  have e3 : Bin.add (Double.ofBits 0x7FEFFFFFFFFFFFFF#64) (Double.ofBits 0x7FDFFFFFFFFFFFFF#64) = Bin.inf false := by decide +kernel
  have d : ∀ f g : Double, applyOp .divide (.double (P := go R) f) (.double g) = .ok (.double (Bin.div f g)) := fun _ _ => rfl
  have a : ∀ f g : Double, applyOp .add (.double (P := go R) f) (.double g) = .ok (.double (Bin.add f g)) := fun _ _ => rfl
  exact ⟨by rw [d, e1], by rw [d, e2], by rw [a, e3]⟩

end Verif.Lib
