import Verif.Lib.Double

/-!
# Laws of `float64` and `float32`
-/

namespace Verif.Lib

/-- Numbers with few digits can be represented. -/
theorem units_onto (m s r : Nat) (h : r ≤ 2 ^ (m + 1)) : ∃ k, units m k = r * 2 ^ s := by
  induction s generalizing r with
  | zero => exact ⟨0 * 2 ^ m + r, units_eq m 0 r (by omega) h⟩
  | succ s ih =>
    rcases Nat.lt_or_ge r (2 ^ m) with h' | h'
    · obtain ⟨k, hk⟩ := ih (2 * r) (by rw [Nat.pow_succ]; omega)
      exact ⟨k, by rw [hk, Nat.pow_succ]; ring⟩
    · exact ⟨_, units_eq m (s + 1) r (fun _ => h') h⟩

namespace Bin

variable {m w : Nat}

theorem unit_pos (m w : Nat) : 0 < unit m w := by
  unfold unit
  positivity

theorem ext' {f g : Bin m w} (h1 : f.neg = g.neg) (h2 : f.mag = g.mag) : f = g := by
  cases f; cases g; simp_all

theorem finite_iff (f : Bin m w) : f.Finite ↔ ¬ f.IsNaN ∧ ¬ f.IsInf := by
  unfold Finite IsNaN IsInf
  omega

theorem val_neg {f : Bin m w} (h : f.neg = true) : f.val = -(units m f.mag * unit m w) := by
  unfold val; rw [if_pos h]; ring

theorem val_pos {f : Bin m w} (h : f.neg = false) : f.val = units m f.mag * unit m w := by
  unfold val; rw [if_neg (by simp [h])]; ring

theorem abs_val (f : Bin m w) : |f.val| = units m f.mag * unit m w := by
  have hu := unit_pos m w
  have : (0 : ℚ) ≤ units m f.mag * unit m w := by positivity
  cases h : f.neg
  · rw [val_pos h, abs_of_nonneg this]
  · rw [val_neg h, abs_neg, abs_of_nonneg this]

theorem val_neg_ (f : Bin m w) : f.neg_.val = -f.val := by
  have e : f.neg_.mag = f.mag := rfl
  cases h : f.neg
  · rw [val_neg (show f.neg_.neg = true by simp [neg_, h]), val_pos h, e]
  · rw [val_pos (show f.neg_.neg = false by simp [neg_, h]), val_neg h, e]
    ring

theorem val_eq_zero_iff (f : Bin m w) : f.val = 0 ↔ f.IsZero := by
  rw [← abs_eq_zero, abs_val, mul_eq_zero, or_iff_left (ne_of_gt (unit_pos m w))]
  unfold IsZero
  rw [show (0 : ℚ) = ((units m 0 : Nat) : ℚ) by rw [units_zero]; rfl, Nat.cast_inj, units_inj]

/-! ## Order -/

/-- The order of finite numbers is that of their values. -/
theorem key_lt_iff (f g : Bin m w) : f.key < g.key ↔ f.val < g.val := by
  have hu := unit_pos m w
  have hmul : ∀ a b : Nat, (units m a : ℚ) * unit m w < units m b * unit m w ↔ a < b := fun a b => by
    rw [mul_lt_mul_iff_left₀ hu, Nat.cast_lt, units_lt_iff]
  have hz : (units m 0 : ℚ) = 0 := by rw [units_zero]; rfl
  have hnn : ∀ a : Nat, (0 : ℚ) ≤ units m a * unit m w := fun a => by positivity
  have hpos : ∀ a : Nat, 0 < a ↔ (0 : ℚ) < units m a * unit m w := fun a => by
    rw [← hmul 0 a, hz, zero_mul]
  unfold key
  cases hf : f.neg <;> cases hg : g.neg
  · rw [val_pos hf, val_pos hg, hmul]
    simp
  · rw [val_pos hf, val_neg hg]
    have h1 := hnn f.mag
    have h2 := hnn g.mag
    simp only [Bool.false_eq_true, if_false, if_true]
    constructor
    · intro h; omega
    · intro h; linarith
  · rw [val_neg hf, val_pos hg]
    simp only [Bool.false_eq_true, if_false, if_true]
    have p1 := hpos f.mag
    have p2 := hpos g.mag
    have h1 := hnn f.mag
    have h2 := hnn g.mag
    constructor
    · intro h
      rcases Nat.eq_zero_or_pos f.mag with h3 | h3
      · have : 0 < g.mag := by omega
        have := p2.mp this
        linarith
      · have := p1.mp h3
        linarith
    · intro h
      rcases Nat.eq_zero_or_pos f.mag with h3 | h3
      · rcases Nat.eq_zero_or_pos g.mag with h4 | h4
        · rw [h3, h4, hz] at h; simp at h
        · omega
      · omega
  · rw [val_neg hf, val_neg hg, neg_lt_neg_iff, hmul]
    simp only [if_true]
    omega

theorem key_eq_iff (f g : Bin m w) : f.key = g.key ↔ f.val = g.val := by
  have h1 := key_lt_iff f g
  have h2 := key_lt_iff g f
  constructor
  · intro h
    rw [h] at h1 h2
    have h1' := mt h1.mpr (lt_irrefl _)
    have h2' := mt h2.mpr (lt_irrefl _)
    exact le_antisymm (not_lt.mp h2') (not_lt.mp h1')
  · intro h
    rw [h] at h1 h2
    have h1' := mt h1.mp (lt_irrefl _)
    have h2' := mt h2.mp (lt_irrefl _)
    omega

theorem key_le_iff (f g : Bin m w) : f.key ≤ g.key ↔ f.val ≤ g.val := by
  rw [← not_lt, ← not_lt, key_lt_iff]

theorem key_neg_ (f : Bin m w) : f.neg_.key = -f.key := by
  unfold key neg_
  cases f.neg <;> simp

/-! ## Rounding -/

theorem ofRat_neg {z : Bool} {x : ℚ} (h : x < 0) : (ofRat z x : Bin m w).neg = true := by
  show (if x = 0 then z else decide (x < 0)) = true
  rw [if_neg (ne_of_lt h), decide_eq_true h]

theorem ofRat_pos {z : Bool} {x : ℚ} (h : 0 < x) : (ofRat z x : Bin m w).neg = false := by
  show (if x = 0 then z else decide (x < 0)) = false
  rw [if_neg (ne_of_gt h), decide_eq_false (by linarith)]

theorem round_zero (m : Nat) (hm : 0 < m) : Lib.round m 0 = 0 := round_exact m hm 0 0 (by rw [abs_zero, units_zero]; rfl)

theorem ofRat_zero (hm : 0 < m) (z : Bool) : (ofRat z 0 : Bin m w) = zero z := by
  apply ext'
  · show (if (0 : ℚ) = 0 then z else decide ((0 : ℚ) < 0)) = z
    rw [if_pos rfl]
  · show min (Lib.round m (0 / unit m w)) (infMag m w) = 0
    rw [zero_div, round_zero m hm, Nat.zero_min]

theorem abs_div_unit (x : ℚ) : |x / unit m w| = |x| / unit m w := by
  rw [abs_div, abs_of_pos (unit_pos m w)]

theorem ofRat_mag (z : Bool) (x : ℚ) : (ofRat z x : Bin m w).mag = min (Lib.round m (x / unit m w)) (infMag m w) := rfl

theorem ofRat_finite_mag {z : Bool} {x : ℚ} (h : (ofRat z x : Bin m w).Finite) :
    (ofRat z x : Bin m w).mag = Lib.round m (x / unit m w) := by
  unfold Finite at h
  rw [ofRat_mag] at h ⊢
  omega

/-- Not NaN. -/
theorem ofRat_not_nan (z : Bool) (x : ℚ) : ¬ (ofRat z x : Bin m w).IsNaN := by
  unfold IsNaN
  rw [ofRat_mag]
  omega

/-- Results in the range of finite numbers are finite. -/
theorem ofRat_finite (hm : 0 < m) (z : Bool) {x : ℚ} {k : Nat} (hk : k < infMag m w) (h : |x| ≤ units m k * unit m w) :
    (ofRat z x : Bin m w).Finite := by
  have : Lib.round m (x / unit m w) ≤ k := by
    apply round_le m hm
    rw [abs_div_unit, div_le_iff₀ (unit_pos m w)]
    exact h
  unfold Finite
  rw [ofRat_mag]
  omega

theorem ofRat_abs_val {z : Bool} {x : ℚ} (h : (ofRat z x : Bin m w).Finite) :
    |(ofRat z x : Bin m w).val| = units m (Lib.round m (x / unit m w)) * unit m w := by
  rw [abs_val, ofRat_finite_mag h]

/-- The sign of a rounded number: that of the number itself. -/
theorem ofRat_sign (hm : 0 < m) (z : Bool) (x : ℚ) : (0 ≤ x → 0 ≤ (ofRat z x : Bin m w).val) ∧ (x ≤ 0 → (ofRat z x : Bin m w).val ≤ 0) := by
  have hnn : (0 : ℚ) ≤ units m (ofRat z x : Bin m w).mag * unit m w := by
    have := unit_pos m w
    positivity
  have h0 : x = 0 → (ofRat z x : Bin m w).val = 0 := by
    rintro rfl
    rw [ofRat_zero hm, val_eq_zero_iff]
    rfl
  constructor
  · intro h
    rcases eq_or_lt_of_le h with h | h
    · rw [h0 h.symm]
    · rw [val_pos (ofRat_pos h)]; exact hnn
  · intro h
    rcases eq_or_lt_of_le h with h | h
    · rw [h0 h]
    · rw [val_neg (ofRat_neg h)]; linarith

theorem abs_sub_eq_of_sign {a x : ℚ} (h1 : 0 ≤ x → 0 ≤ a) (h2 : x ≤ 0 → a ≤ 0) : |a - x| = |(|a| - |x|)| := by
  rcases le_total 0 x with h | h
  · rw [abs_of_nonneg h, abs_of_nonneg (h1 h)]
  · rw [abs_of_nonpos h, abs_of_nonpos (h2 h), show -a - -x = -(a - x) by ring, abs_neg]

/-- The result is a nearest number. -/
theorem ofRat_nearest (hm : 0 < m) (z : Bool) (x : ℚ) (h : (ofRat z x : Bin m w).Finite) (g : Bin m w) :
    |(ofRat z x : Bin m w).val - x| ≤ |g.val - x| := by
  have hu := unit_pos m w
  obtain ⟨s1, s2⟩ := ofRat_sign (w := w) hm z x
  rw [abs_sub_eq_of_sign s1 s2]
  have hr := (round_isRounded m (x / unit m w) hm).near g.mag
  rw [abs_div_unit] at hr
  have e : ∀ a : ℚ, |a - |x| / unit m w| * unit m w = |(a * unit m w - |x|)| := by
    intro a
    rw [← abs_of_pos hu, ← abs_mul, abs_of_pos hu, sub_mul, div_mul_cancel₀ _ (ne_of_gt hu)]
  have := mul_le_mul_of_nonneg_right hr (le_of_lt hu)
  rw [e, e] at this
  rw [ofRat_abs_val h]
  refine le_trans this ?_
  rw [← abs_val g]
  exact abs_abs_sub_abs_le g.val x

/-- Of two nearest numbers the result is the one whose last bit is 0. -/
theorem ofRat_even (hm : 0 < m) (z : Bool) (x : ℚ) (h : (ofRat z x : Bin m w).Finite) (g : Bin m w)
    (hne : g.val ≠ (ofRat z x : Bin m w).val) (he : |(ofRat z x : Bin m w).val - x| = |g.val - x|) : (ofRat z x : Bin m w).mag % 2 = 0 := by
  have hu := unit_pos m w
  obtain ⟨s1, s2⟩ := ofRat_sign (w := w) hm z x
  have e : ∀ a : ℚ, |a - |x| / unit m w| * unit m w = |(a * unit m w - |x|)| := by
    intro a
    rw [← abs_of_pos hu, ← abs_mul, abs_of_pos hu, sub_mul, div_mul_cancel₀ _ (ne_of_gt hu)]
  have hr := (round_isRounded m (x / unit m w) hm)
  rw [abs_div_unit] at hr
  have h1 := mul_le_mul_of_nonneg_right (hr.near g.mag) (le_of_lt hu)
  rw [e, e] at h1
  rw [abs_sub_eq_of_sign s1 s2, ofRat_abs_val h] at he
  have h2 := abs_abs_sub_abs_le g.val x
  rw [abs_val g] at h2
  rw [ofRat_finite_mag h]
  by_cases hg : g.mag = Lib.round m (x / unit m w)
  · -- same size, other sign: then the result is 0
    by_contra hodd
    have hsz : |g.val| = |(ofRat z x : Bin m w).val| := by rw [abs_val, abs_val, ofRat_finite_mag h, hg]
    rcases abs_eq_abs.mp hsz with h3 | h3
    · exact hne h3
    · rw [← ofRat_abs_val h, ← abs_sub_eq_of_sign s1 s2, h3] at he
      have : (ofRat z x : Bin m w).val * x = 0 := by
        rw [← sq_eq_sq_iff_abs_eq_abs] at he
        linarith [show ((ofRat z x : Bin m w).val - x) ^ 2 - (-(ofRat z x : Bin m w).val - x) ^ 2 = -4 * ((ofRat z x : Bin m w).val * x) by ring]
      rcases mul_eq_zero.mp this with h4 | h4
      · rw [h4] at h3; exact hne (by rw [h3, h4]; simp)
      · apply hodd
        rw [h4, zero_div, round_zero m hm]
  · refine hr.even g.mag hg ?_
    have h3 : |((units m (Lib.round m (x / unit m w)) : ℚ) * unit m w - |x|)| = |((units m g.mag : ℚ) * unit m w - |x|)| := by
      refine le_antisymm h1 ?_
      rw [he]
      exact h2
    rw [← e, ← e] at h3
    exact mul_right_cancel₀ (ne_of_gt hu) h3

/-- What can be represented stays as it is. -/
theorem ofRat_val (hm : 0 < m) (f : Bin m w) (h : f.Finite) : ofRat f.neg f.val = f := by
  have hmag : (ofRat f.neg f.val : Bin m w).mag = f.mag := by
    rw [ofRat_mag, round_exact m hm (f.val / unit m w) f.mag (by
      rw [abs_div_unit, abs_val, mul_div_assoc, div_self (ne_of_gt (unit_pos m w)), mul_one])]
    unfold Finite at h
    omega
  apply ext' _ hmag
  show (if f.val = 0 then f.neg else decide (f.val < 0)) = f.neg
  split
  · rfl
  · rename_i h0
    have hnn : (0 : ℚ) ≤ units m f.mag * unit m w := by
      have := unit_pos m w
      positivity
    cases hf : f.neg
    · rw [val_pos hf, decide_eq_false (by linarith)]
    · rw [val_neg hf] at h0 ⊢
      rw [decide_eq_true]
      rcases eq_or_lt_of_le hnn with h1 | h1
      · exact absurd (by rw [← h1]; simp) h0
      · linarith

theorem ofRat_val' (hm : 0 < m) (f : Bin m w) (h : f.Finite) (z : Bool) : (ofRat z f.val : Bin m w).Finite ∧ (ofRat z f.val : Bin m w).val = f.val := by
  have hmag : (ofRat z f.val : Bin m w).mag = f.mag := by
    have := congrArg Bin.mag (ofRat_val hm f h)
    exact this
  have hfin : (ofRat z f.val : Bin m w).Finite := by
    unfold Finite at h ⊢
    rw [hmag]; exact h
  refine ⟨hfin, ?_⟩
  have := ofRat_nearest hm z f.val hfin f
  rw [sub_self, abs_zero] at this
  have := abs_nonpos_iff.mp this
  linarith

/-- Rounding keeps the order. -/
theorem ofRat_mono (hm : 0 < m) (z z' : Bool) {x y : ℚ} (h : x ≤ y) : (ofRat z x : Bin m w).key ≤ (ofRat z' y : Bin m w).key := by
  have hu := unit_pos m w
  have hkey0 : ∀ (z : Bool) (x : ℚ), 0 ≤ x → 0 ≤ (ofRat z x : Bin m w).key := by
    intro z x hx
    rcases eq_or_lt_of_le hx with h | h
    · rw [← h, ofRat_zero hm]
      unfold key zero
      dsimp only
      split <;> simp
    · unfold key; rw [ofRat_pos h]; simp
  have hkey0' : ∀ (z : Bool) (x : ℚ), x ≤ 0 → (ofRat z x : Bin m w).key ≤ 0 := by
    intro z x hx
    rcases eq_or_lt_of_le hx with h | h
    · rw [h, ofRat_zero hm]
      unfold key zero
      dsimp only
      split <;> simp
    · unfold key; rw [ofRat_neg h]; simp
  rcases lt_trichotomy x 0 with hx | hx | hx
  · rcases lt_or_ge y 0 with hy | hy
    · unfold key
      rw [ofRat_neg hx, ofRat_neg hy]
      simp only [if_true]
      have : Lib.round m (y / unit m w) ≤ Lib.round m (x / unit m w) := by
        apply round_mono m hm
        rw [abs_div_unit, abs_div_unit, abs_of_neg hx, abs_of_neg hy]
        exact div_le_div_of_nonneg_right (by linarith) (le_of_lt hu)
      rw [ofRat_mag, ofRat_mag]
      omega
    · exact le_trans (hkey0' z x (le_of_lt hx)) (hkey0 z' y hy)
  · exact le_trans (hkey0' z x (le_of_eq hx)) (hkey0 z' y (by linarith))
  · have hy : 0 < y := by linarith
    unfold key
    rw [ofRat_pos hx, ofRat_pos hy]
    simp only [Bool.false_eq_true, if_false]
    have : Lib.round m (x / unit m w) ≤ Lib.round m (y / unit m w) := by
      apply round_mono m hm
      rw [abs_div_unit, abs_div_unit, abs_of_pos hx, abs_of_pos hy]
      exact div_le_div_of_nonneg_right h (le_of_lt hu)
    rw [ofRat_mag, ofRat_mag]
    omega

/-! ## Exact results -/

/-- Whole multiples `r * 2 ^ s` of the unit with at most `m + 1` digits are exact, in the range. -/
theorem ofRat_exact (hm : 0 < m) (z : Bool) (x : ℚ) (r s : Nat) (hr : r ≤ 2 ^ (m + 1)) (hx : |x| = (r : ℚ) * 2 ^ s * unit m w) {k : Nat}
    (hk : k < infMag m w) (hin : r * 2 ^ s ≤ units m k) : (ofRat z x : Bin m w).Finite ∧ (ofRat z x : Bin m w).val = x := by
  obtain ⟨j, hj⟩ := units_onto m s r hr
  have hjk : j ≤ k := units_le_iff.mp (by rw [hj]; exact hin)
  have hlt := infMag_lt m w
  let f : Bin m w := ⟨decide (x < 0), j, by omega⟩
  have hf : f.Finite := show j < infMag m w by omega
  have hv : f.val = x := by
    have ha : |x| = units m j * unit m w := by rw [hx, hj]; push_cast; ring
    rcases lt_or_ge x 0 with h | h
    · rw [val_neg (show f.neg = true from decide_eq_true h)]
      show -(units m j * unit m w) = x
      rw [← ha, abs_of_neg h]; ring
    · rw [val_pos (show f.neg = false from decide_eq_false (not_lt.mpr h))]
      show units m j * unit m w = x
      rw [← ha, abs_of_nonneg h]
  rw [← hv]
  exact ofRat_val' hm f hf z

end Bin

end Verif.Lib
