import Verif.Lib.DecimalProps

/-!
# Decimals and whole numbers
-/

namespace Verif.Lib.Decimal

open Bin (roundAway roundAway_spec truncRat truncRat_neg truncRat_nonneg)

/-- A number with a lower exponent than 0 as a quotient. -/
theorem val_quot (d : Decimal) (h : d.exp < 0) : d.val = (d.value : ℚ) / pow10 (-d.exp) := by
  unfold val
  rw [pow10_cast (by omega), zpow_neg, div_inv_eq_mul]

theorem floor_div (n d : Int) (hd : 0 < d) : ⌊(n : ℚ) / d⌋ = n / d := by
  obtain ⟨k, rfl⟩ := Int.eq_ofNat_of_zero_le (le_of_lt hd)
  have := Rat.floor_intCast_div_natCast n k
  rw [Int.cast_natCast]
  exact this

/-- With an exponent of at least 0 a decimal is whole. -/
theorem val_whole (d : Decimal) (h : 0 ≤ d.exp) : d.val = ((d.value * pow10 d.exp : Int) : ℚ) := by
  unfold val
  push_cast
  rw [pow10_cast h]

theorem val_floor (d : Decimal) : d.floor.val = (⌊d.val⌋ : Int) := by
  unfold floor
  split
  · rename_i h
    rw [val_whole d h, Int.floor_intCast]
  · rename_i h
    have hd : d.exp < 0 := by omega
    rw [val_quot d hd, floor_div _ _ (pow10_pos _), val_mk, zpow_zero, mul_one]

theorem ceil_div (n d : Int) (hd : 0 < d) : ⌈(n : ℚ) / d⌉ = n / d + (if n % d = 0 then 0 else 1) := by
  have h := Int.mul_ediv_add_emod n d
  have hm := Int.emod_nonneg n (ne_of_gt hd)
  have hl := Int.emod_lt_of_pos n hd
  have hdq : (0 : ℚ) < d := by exact_mod_cast hd
  have e : (n : ℚ) / d = (n / d : Int) + ((n % d : Int) : ℚ) / d := by
    have : ((d * (n / d) + n % d : Int) : ℚ) = n := by rw [h]
    rw [div_eq_iff (ne_of_gt hdq), add_mul, div_mul_cancel₀ _ (ne_of_gt hdq)]
    push_cast at this
    linarith
  rw [e, Int.ceil_eq_iff]
  split
  · rename_i h0
    rw [h0]
    constructor <;> norm_num
  · rename_i h0
    have h1 : (0 : ℚ) < ((n % d : Int) : ℚ) / d := by
      apply div_pos _ hdq
      have : 0 < n % d := by omega
      exact_mod_cast this
    have h2 : ((n % d : Int) : ℚ) / d < 1 := by
      rw [div_lt_one hdq]
      exact_mod_cast hl
    push_cast
    constructor <;> linarith

theorem val_ceil (d : Decimal) : d.ceil.val = (⌈d.val⌉ : Int) := by
  unfold ceil
  split
  · rename_i h
    rw [val_whole d h, Int.ceil_intCast]
  · rename_i h
    have hd : d.exp < 0 := by omega
    rw [val_quot d hd, ceil_div _ _ (pow10_pos _), val_mk, zpow_zero, mul_one]

/-- Division that drops digits. -/
theorem tdiv_trunc (n d : Int) (hd : 0 < d) : n.tdiv d = truncRat ((n : ℚ) / d) := by
  rcases le_total 0 n with h | h
  · rw [truncRat_nonneg (div_nonneg (by exact_mod_cast h) (by exact_mod_cast le_of_lt hd)), floor_div _ _ hd, Int.tdiv_eq_ediv_of_nonneg h]
  · have e : (n : ℚ) / d = -(((-n : Int) : ℚ) / d) := by push_cast; ring
    rw [e, truncRat_neg, truncRat_nonneg (div_nonneg (by exact_mod_cast (show 0 ≤ -n by omega)) (by exact_mod_cast le_of_lt hd)), floor_div _ _ hd,
      ← Int.tdiv_eq_ediv_of_nonneg (by omega), Int.neg_tdiv, neg_neg]

theorem truncRat_int (n : Int) : truncRat n = n := by
  unfold truncRat
  simp

/-- Rescaling to exponent 0 drops the places. -/
theorem rescale_zero (d : Decimal) : (d.rescale 0).value = truncRat d.val ∧ (d.rescale 0).exp = 0 := by
  unfold rescale
  split
  · rename_i h
    refine ⟨?_, rfl⟩
    rw [val_quot d h, ← tdiv_trunc _ _ (pow10_pos _)]
    show d.value.tdiv (pow10 (0 - d.exp)) = d.value.tdiv (pow10 (-d.exp))
    rw [Int.zero_sub]
  · rename_i h
    refine ⟨?_, rfl⟩
    rw [val_whole d (by omega), truncRat_int]
    show d.value * pow10 (d.exp - 0) = d.value * pow10 d.exp
    rw [Int.sub_zero]

theorem val_truncate (d : Decimal) : d.truncate.val = truncRat d.val := by
  unfold truncate
  split
  · obtain ⟨h1, h2⟩ := rescale_zero d
    unfold val at h1 ⊢
    rw [h2, h1]
    simp
  · rename_i h
    rw [val_whole d (by omega), truncRat_int]

theorem intPart_eq (d : Decimal) : d.intPart = BitVec.ofInt 64 (truncRat d.val) := by
  unfold intPart
  rw [(rescale_zero d).1]

/-- Cut after one place. -/
theorem rescale_one (d : Decimal) : (d.rescale (-1)).value = truncRat (d.val * 10) := by
  unfold rescale
  split
  · rename_i h
    show d.value.tdiv (pow10 (-1 - d.exp)) = _
    rw [tdiv_trunc _ _ (pow10_pos _)]
    congr 1
    unfold val
    rw [pow10_cast (by omega), show (-1 - d.exp : Int) = -(d.exp + 1) by omega, zpow_neg, div_inv_eq_mul, ten_add, zpow_one]
    ring
  · rename_i h
    show d.value * pow10 (d.exp - -1) = _
    have e : d.val * 10 = ((d.value * pow10 (d.exp - -1) : Int) : ℚ) := by
      unfold val
      push_cast
      rw [pow10_cast (by omega), show (d.exp - -1 : Int) = d.exp + 1 by omega, ten_add, zpow_one]
      ring
    rw [e, truncRat_int]

theorem val_round (d : Decimal) : d.round.val = roundAway d.val := by
  unfold round
  split
  · rename_i h
    have e : d.val = (d.value : Int) := by unfold val; rw [h, zpow_zero, mul_one]
    rw [e]
    unfold roundAway
    rw [Bin.ceil_eq]
    have e2 : ∀ y : ℚ, Rat.floor y = ⌊y⌋ := fun _ => rfl
    rw [e2]
    split
    · rw [Int.floor_intCast_add]
      norm_num
    · have e3 : ⌈(d.value : ℚ) - 1 / 2⌉ = d.value := Int.ceil_eq_iff.mpr ⟨by linarith, by linarith⟩
      rw [e3]
  · rw [rescale_one]
    dsimp only
    rw [val_mk, zpow_zero, mul_one]
    congr 1
    generalize d.val = x
    unfold roundAway
    rw [Bin.ceil_eq]
    have e2 : ∀ y : ℚ, Rat.floor y = ⌊y⌋ := fun _ => rfl
    rw [e2]
    rcases le_or_gt 0 x with h | h
    · rw [if_pos h, truncRat_nonneg (by linarith)]
      have hf : 0 ≤ ⌊x * 10⌋ := Int.floor_nonneg.mpr (by linarith)
      have h1 := Int.floor_le (x * 10)
      have h2 := Int.lt_floor_add_one (x * 10)
      generalize ⌊x * 10⌋ = v at *
      rw [if_neg (by omega), if_neg (by omega)]
      symm
      rw [Int.floor_eq_iff]
      have d1 := Int.mul_ediv_add_emod (v + 5) 10
      have d2 := Int.emod_nonneg (v + 5) (show (10 : Int) ≠ 0 by decide)
      have d3 := Int.emod_lt_of_pos (v + 5) (show (0 : Int) < 10 by decide)
      generalize (v + 5) / 10 = q at *
      generalize (v + 5) % 10 = r at *
      have dq : (10 * q + r : ℚ) = v + 5 := by exact_mod_cast d1
      have r0 : (0 : ℚ) ≤ r := by exact_mod_cast d2
      have r9 : (r : ℚ) ≤ 9 := by exact_mod_cast (show r ≤ 9 by omega)
      constructor <;> linarith
    · have e : truncRat (x * 10) = -⌊-(x * 10)⌋ := by
        rw [show x * 10 = -(-(x * 10)) by ring, truncRat_neg, truncRat_nonneg (by linarith), neg_neg]
      rw [e]
      have hf : 0 ≤ ⌊-(x * 10)⌋ := Int.floor_nonneg.mpr (by linarith)
      have h1 := Int.floor_le (-(x * 10))
      have h2 := Int.lt_floor_add_one (-(x * 10))
      generalize ⌊-(x * 10)⌋ = u at *
      symm
      rw [if_neg (show ¬ 0 ≤ x by linarith), Int.ceil_eq_iff]
      by_cases hu : u = 0
      · subst hu
        norm_num at h1 h2 ⊢
        constructor <;> linarith
      · rw [if_pos (show -u < 0 by omega)]
        have d1 := Int.mul_ediv_add_emod (-u - 5) 10
        have d2 := Int.emod_nonneg (-u - 5) (show (10 : Int) ≠ 0 by decide)
        have d3 := Int.emod_lt_of_pos (-u - 5) (show (0 : Int) < 10 by decide)
        generalize (-u - 5) / 10 = q at *
        generalize (-u - 5) % 10 = r at *
        have hq : q < 0 := by omega
        have dq : (10 * q + r : ℚ) = -u - 5 := by exact_mod_cast d1
        have r0 : (0 : ℚ) ≤ r := by exact_mod_cast d2
        have r9 : (r : ℚ) ≤ 9 := by exact_mod_cast (show r ≤ 9 by omega)
        by_cases hr : r = 0
        · rw [if_neg (by omega)]
          subst hr
          norm_num at dq
          constructor <;> linarith
        · rw [if_pos ⟨hq, hr⟩]
          have r1 : (1 : ℚ) ≤ r := by exact_mod_cast (show 1 ≤ r by omega)
          push_cast
          constructor <;> linarith

/-! ## Remainders -/

/-- `Mod` by what it computes: the dividend less the divisor times the quotient, rounded to 16 places and cut. -/
theorem val_mod (a b : Decimal) (hb : b.value ≠ 0) :
    (mod a b).val = a.val - b.val * truncRat (roundAway (a.val / b.val * (10 : ℚ) ^ (16 : Int)) * (10 : ℚ) ^ (-16 : Int)) := by
  unfold mod div
  rw [val_sub, val_mul, val_truncate, divRound_val a b 16 hb]
  rfl

/-- Rounding to 16 places does not reach the next whole number when the quotient is far enough below it. -/
theorem trunc_round (x : ℚ) (h : |x| - ⌊|x|⌋ < 1 - 1 / 20000000000000000) :
    truncRat (roundAway (x * (10 : ℚ) ^ (16 : Int)) * (10 : ℚ) ^ (-16 : Int)) = truncRat x := by
  have key : ∀ x : ℚ, 0 ≤ x → x - ⌊x⌋ < 1 - 1 / 20000000000000000 →
      truncRat (roundAway (x * (10 : ℚ) ^ (16 : Int)) * (10 : ℚ) ^ (-16 : Int)) = truncRat x := by
    intro x hx h
    have hr := (roundAway_spec (x * (10 : ℚ) ^ (16 : Int))).1
    have e : roundAway (x * (10 : ℚ) ^ (16 : Int)) = ⌊x * (10 : ℚ) ^ (16 : Int) + 1 / 2⌋ := by
      unfold roundAway
      rw [if_pos (by positivity)]
      rfl
    have hfl := Int.floor_le x
    have hfl2 := Int.lt_floor_add_one x
    have hlow : ⌊x⌋ * 10000000000000000 ≤ roundAway (x * (10 : ℚ) ^ (16 : Int)) := by
      rw [e, Int.le_floor]
      push_cast
      norm_num
      linarith
    have hf0 : 0 ≤ ⌊x⌋ := Int.floor_nonneg.mpr hx
    have h0 : (0 : Int) ≤ roundAway (x * (10 : ℚ) ^ (16 : Int)) := by omega
    have hlowq : ((⌊x⌋ * 10000000000000000 : Int) : ℚ) ≤ roundAway (x * (10 : ℚ) ^ (16 : Int)) := by exact_mod_cast hlow
    have h0q : (0 : ℚ) ≤ roundAway (x * (10 : ℚ) ^ (16 : Int)) := by exact_mod_cast h0
    rw [truncRat_nonneg (by positivity), truncRat_nonneg hx, Int.floor_eq_iff]
    rw [abs_le] at hr
    norm_num at hr hlowq ⊢
    constructor
    · linarith
    · linarith
  rcases le_total 0 x with hx | hx
  · rw [abs_of_nonneg hx] at h
    exact key x hx h
  · rw [abs_of_nonpos hx] at h
    have := key (-x) (by linarith) h
    rw [neg_mul, roundAway_neg, Int.cast_neg, neg_mul, truncRat_neg, truncRat_neg] at this
    omega

end Verif.Lib.Decimal
