import Verif.Lib.Decimal
import Verif.Lib.DoubleOps

/-!
# Laws of decimals
-/

namespace Verif.Lib.Decimal

theorem pow10_pos (e : Int) : 0 < pow10 e := by
  unfold pow10
  positivity

theorem pow10_cast {e : Int} (h : 0 ≤ e) : ((pow10 e : Int) : ℚ) = (10 : ℚ) ^ e := by
  obtain ⟨n, rfl⟩ := Int.eq_ofNat_of_zero_le h
  unfold pow10
  rw [Int.toNat_natCast, zpow_natCast]
  push_cast
  rfl

theorem ten_pos (e : Int) : (0 : ℚ) < (10 : ℚ) ^ e := zpow_pos (by norm_num) e

theorem ten_add (a b : Int) : (10 : ℚ) ^ (a + b) = (10 : ℚ) ^ a * (10 : ℚ) ^ b := zpow_add₀ (by norm_num) a b

theorem ext' {a b : Decimal} (h1 : a.value = b.value) (h2 : a.exp = b.exp) : a = b := by
  cases a; cases b; simp_all

theorem val_ofInt (i : Int) : (ofInt i).val = i := by
  unfold val ofInt
  simp

/-- A lower exponent changes nothing. -/
theorem rescale_le (d : Decimal) (e : Int) (h : e ≤ d.exp) : (d.rescale e).exp = e ∧ (d.rescale e).value = d.value * pow10 (d.exp - e) ∧
    (d.rescale e).val = d.val := by
  unfold rescale
  rw [if_neg (by omega)]
  refine ⟨rfl, rfl, ?_⟩
  unfold val
  dsimp only
  push_cast
  rw [pow10_cast (by omega), mul_assoc, ← ten_add]
  congr 2
  omega

theorem rescale_val (d : Decimal) (e : Int) (h : e ≤ d.exp) : ((d.rescale e).value : ℚ) = d.val * (10 : ℚ) ^ (-e) := by
  have h1 := rescale_le d e h
  rw [← h1.2.2]
  unfold val
  rw [h1.1, mul_assoc, ← ten_add, Int.add_right_neg, zpow_zero, mul_one]

theorem val_mk (v e : Int) : (⟨v, e⟩ : Decimal).val = v * (10 : ℚ) ^ e := rfl

theorem pair_spec (a b : Decimal) : ((pair a b).1 : ℚ) * (10 : ℚ) ^ (pair a b).2.2 = a.val ∧
    ((pair a b).2.1 : ℚ) * (10 : ℚ) ^ (pair a b).2.2 = b.val := by
  have h1 := rescale_le a (min a.exp b.exp) (Int.min_le_left _ _)
  have h2 := rescale_le b (min a.exp b.exp) (Int.min_le_right _ _)
  constructor
  · show ((a.rescale (min a.exp b.exp)).value : ℚ) * (10 : ℚ) ^ (min a.exp b.exp) = a.val
    rw [← h1.2.2]
    unfold val
    rw [h1.1]
  · show ((b.rescale (min a.exp b.exp)).value : ℚ) * (10 : ℚ) ^ (min a.exp b.exp) = b.val
    rw [← h2.2.2]
    unfold val
    rw [h2.1]

/-- Sums are exact. -/
theorem val_add (a b : Decimal) : (add a b).val = a.val + b.val := by
  obtain ⟨h1, h2⟩ := pair_spec a b
  unfold add
  rw [val_mk]
  push_cast
  rw [add_mul, h1, h2]

/-- Differences are exact. -/
theorem val_sub (a b : Decimal) : (sub a b).val = a.val - b.val := by
  obtain ⟨h1, h2⟩ := pair_spec a b
  unfold sub
  rw [val_mk]
  push_cast
  rw [sub_mul, h1, h2]

/-- Products are exact. -/
theorem val_mul (a b : Decimal) : (mul a b).val = a.val * b.val := by
  unfold mul val
  dsimp only
  push_cast
  rw [ten_add]
  ring

theorem val_abs (a : Decimal) : (abs a).val = |a.val| := by
  unfold abs val
  dsimp only
  rw [abs_mul, abs_of_pos (ten_pos _), Int.cast_natCast, Nat.cast_natAbs, Int.cast_abs]

/-- Comparisons are those of the numbers. -/
theorem cmp_spec (a b : Decimal) : (cmp a b = -1 ↔ a.val < b.val) ∧ (cmp a b = 0 ↔ a.val = b.val) ∧ (cmp a b = 1 ↔ b.val < a.val) := by
  obtain ⟨h1, h2⟩ := pair_spec a b
  have hp := ten_pos (pair a b).2.2
  have hlt : (pair a b).1 < (pair a b).2.1 ↔ a.val < b.val := by
    rw [← h1, ← h2, mul_lt_mul_iff_left₀ hp, Int.cast_lt]
  have heq : (pair a b).1 = (pair a b).2.1 ↔ a.val = b.val := by
    rw [← h1, ← h2, mul_left_inj' (ne_of_gt hp), Int.cast_inj]
  unfold cmp
  split
  · rename_i h
    have := hlt.mp h
    refine ⟨by simp [this], ?_, ?_⟩
    · constructor
      · intro hc; omega
      · intro hc; linarith
    · constructor
      · intro hc; omega
      · intro hc; linarith
  · rename_i h
    have hn := mt hlt.mpr h
    split
    · rename_i h'
      have := heq.mp h'
      refine ⟨?_, by simp [this], ?_⟩
      · constructor
        · intro hc; omega
        · intro hc; exact absurd hc hn
      · constructor
        · intro hc; omega
        · intro hc; linarith
    · rename_i h'
      have hne := mt heq.mpr h'
      refine ⟨?_, ?_, ?_⟩
      · constructor
        · intro hc; omega
        · intro hc; exact absurd hc hn
      · constructor
        · intro hc; omega
        · intro hc; exact absurd hc hne
      · simp only [true_iff]
        exact lt_of_le_of_ne (not_lt.mp hn) (Ne.symm hne)

theorem cmp_cases (a b : Decimal) : cmp a b = -1 ∨ cmp a b = 0 ∨ cmp a b = 1 := by
  unfold cmp
  split
  · exact Or.inl rfl
  · split
    · exact Or.inr (Or.inl rfl)
    · exact Or.inr (Or.inr rfl)

theorem cmp_neg (a b : Decimal) : cmp a b < 0 ↔ a.val < b.val := by
  rw [← (cmp_spec a b).1]
  rcases cmp_cases a b with h | h | h <;> rw [h] <;> decide

theorem cmp_le (a b : Decimal) : cmp a b ≤ 0 ↔ a.val ≤ b.val := by
  rw [show (a.val ≤ b.val ↔ ¬ b.val < a.val) from not_lt.symm, ← (cmp_spec a b).2.2]
  rcases cmp_cases a b with h | h | h <;> rw [h] <;> decide

theorem cmp_pos (a b : Decimal) : cmp a b > 0 ↔ b.val < a.val := by
  rw [← (cmp_spec a b).2.2]
  rcases cmp_cases a b with h | h | h <;> rw [h] <;> decide

/-! ## Division -/

theorem val_eq_zero (d : Decimal) : d.val = 0 ↔ d.value = 0 := by
  unfold val
  rw [mul_eq_zero, or_iff_left (ne_of_gt (ten_pos _)), Int.cast_eq_zero]

theorem sign_val (d : Decimal) : (d.value < 0 ↔ d.val < 0) ∧ (0 < d.value ↔ 0 < d.val) := by
  have hp := ten_pos d.exp
  unfold val
  constructor
  · rw [mul_neg_iff]
    constructor
    · intro h; exact Or.inr ⟨by exact_mod_cast h, hp⟩
    · rintro (⟨_, h⟩ | ⟨h, _⟩)
      · linarith
      · exact_mod_cast h
  · rw [mul_pos_iff]
    constructor
    · intro h; exact Or.inl ⟨by exact_mod_cast h, hp⟩
    · rintro (⟨h, _⟩ | ⟨_, h⟩)
      · exact_mod_cast h
      · linarith

/-- The quotient and the rest as integers: a numerator and a denominator whose quotient is the one asked for, in units of the last place. -/
theorem quoRem_spec (a b : Decimal) (p : Int) (hb : b.value ≠ 0) : ∃ n d : Int, d ≠ 0 ∧ (n : ℚ) / d = a.val / b.val * (10 : ℚ) ^ p ∧
    (quoRem a b p).1 = ⟨n.tdiv d, -p⟩ ∧ n.sign = a.value.sign ∧ d.sign = b.value.sign ∧
    (cmp ⟨(quoRem a b p).2.value.natAbs * 2, (quoRem a b p).2.exp + p⟩ b.abs < 0 ↔ 2 * (n.tmod d).natAbs < d.natAbs) := by
  have hbq : (b.value : ℚ) ≠ 0 := by exact_mod_cast hb
  unfold quoRem
  dsimp only
  split
  · rename_i h
    have hp := pow10_pos (-(a.exp - b.exp + p))
    have hpq := pow10_cast (e := -(a.exp - b.exp + p)) (by omega)
    generalize hP : pow10 (-(a.exp - b.exp + p)) = P at *
    refine ⟨a.value, b.value * P, Int.mul_ne_zero hb (by omega), ?_, rfl, rfl, ?_, ?_⟩
    · push_cast
      rw [hpq]
      unfold val
      rw [show -(a.exp - b.exp + p) = b.exp + (-a.exp + -p) by omega, ten_add, ten_add, zpow_neg, zpow_neg]
      have h1 := ten_pos a.exp
      have h2 := ten_pos b.exp
      have h3 := ten_pos p
      field_simp
    · rw [Int.sign_mul, Int.sign_eq_one_of_pos hp, Int.mul_one]
    · rw [cmp_neg, val_abs, val_mk]
      unfold val
      have h1 := ten_pos (a.exp + p)
      have e : (10 : ℚ) ^ b.exp = P * (10 : ℚ) ^ (a.exp + p) := by
        rw [hpq, ← ten_add]
        congr 1
        omega
      rw [abs_mul, abs_of_pos (ten_pos b.exp), e, ← mul_assoc, mul_lt_mul_iff_left₀ h1, Int.natAbs_mul]
      have e2 : |(b.value : ℚ)| * P = ((b.value.natAbs * P.natAbs : Nat) : ℚ) := by
        push_cast
        rw [Nat.cast_natAbs, Nat.cast_natAbs, Int.cast_abs, Int.cast_abs, abs_of_pos (show (0 : ℚ) < P by exact_mod_cast hp)]
      rw [e2]
      have e3 : (((a.value.tmod (b.value * P)).natAbs * 2 : Int) : ℚ) = (((a.value.tmod (b.value * P)).natAbs * 2 : Nat) : ℚ) := by
        push_cast
        rw [Nat.cast_natAbs, Int.cast_abs]
      rw [e3, Nat.cast_lt]
      omega
  · rename_i h
    have hp := pow10_pos (a.exp - b.exp + p)
    have hpq := pow10_cast (e := a.exp - b.exp + p) (by omega)
    generalize hP : pow10 (a.exp - b.exp + p) = P at *
    refine ⟨a.value * P, b.value, hb, ?_, rfl, ?_, rfl, ?_⟩
    · push_cast
      rw [hpq]
      unfold val
      rw [show a.exp - b.exp + p = a.exp + (-b.exp + p) by omega, ten_add, ten_add, zpow_neg]
      have h1 := ten_pos a.exp
      have h2 := ten_pos b.exp
      have h3 := ten_pos p
      field_simp
    · rw [Int.sign_mul, Int.sign_eq_one_of_pos hp, Int.mul_one]
    · rw [cmp_neg, val_abs, val_mk]
      unfold val
      have h1 := ten_pos b.exp
      have e : (10 : ℚ) ^ (-p + b.exp + p) = (10 : ℚ) ^ b.exp := by
        congr 1
        omega
      rw [abs_mul, abs_of_pos h1, e, mul_lt_mul_iff_left₀ h1]
      have e2 : |(b.value : ℚ)| = ((b.value.natAbs : Nat) : ℚ) := by rw [Nat.cast_natAbs, Int.cast_abs]
      rw [e2]
      have e3 : ((((a.value * P).tmod b.value).natAbs * 2 : Int) : ℚ) = ((((a.value * P).tmod b.value).natAbs * 2 : Nat) : ℚ) := by
        push_cast
        rw [Nat.cast_natAbs, Int.cast_abs]
      rw [e3, Nat.cast_lt]
      omega

/-- The integer quotient and its rest, signs apart. -/
theorem tdiv_parts (n d : Int) (hd : d ≠ 0) : |(n : ℚ) / d| = (n.natAbs / d.natAbs : Nat) + ((n.natAbs % d.natAbs : Nat) : ℚ) / d.natAbs := by
  have hp : 0 < d.natAbs := Int.natAbs_pos.mpr hd
  have hpq : (0 : ℚ) < d.natAbs := by exact_mod_cast hp
  rw [abs_div, ← Int.cast_abs, ← Int.cast_abs, ← Int.natCast_natAbs, ← Int.natCast_natAbs, Int.cast_natCast, Int.cast_natCast]
  rw [div_eq_iff (ne_of_gt hpq), add_mul, div_mul_cancel₀ _ (ne_of_gt hpq)]
  have := Nat.div_add_mod n.natAbs d.natAbs
  have h : ((d.natAbs * (n.natAbs / d.natAbs) + n.natAbs % d.natAbs : Nat) : ℚ) = n.natAbs := by rw [this]
  push_cast at h ⊢
  linarith

open Bin (roundAway roundAway_spec truncRat)

theorem roundAway_neg (x : ℚ) : roundAway (-x) = -roundAway x := by
  unfold roundAway
  rw [Bin.ceil_eq, Bin.ceil_eq]
  have e : ∀ y : ℚ, Rat.floor y = ⌊y⌋ := fun _ => rfl
  rw [e, e]
  rcases lt_trichotomy x 0 with h | h | h
  · rw [if_pos (by linarith), if_neg (by linarith), ← Int.floor_neg]
    congr 1
    ring
  · subst h
    norm_num
  · rw [if_neg (by linarith), if_pos (by linarith), ← Int.ceil_neg]
    congr 1
    ring

theorem roundAway_parts (q t D : Nat) (hD : 0 < D) (ht : t < D) :
    roundAway ((q : ℚ) + (t : ℚ) / D) = if 2 * t < D then (q : Int) else q + 1 := by
  have hDq : (0 : ℚ) < D := by exact_mod_cast hD
  have htq : (t : ℚ) < D := by exact_mod_cast ht
  have h0 : (0 : ℚ) ≤ (t : ℚ) / D := by positivity
  have h1 : (t : ℚ) / D < 1 := by rw [div_lt_one hDq]; exact htq
  unfold roundAway
  rw [if_pos (by positivity)]
  show ⌊(q : ℚ) + t / D + 1 / 2⌋ = _
  rw [Int.floor_eq_iff]
  split
  · rename_i h
    have : ((2 * t : Nat) : ℚ) < D := by exact_mod_cast h
    have h2 : (t : ℚ) / D < 1 / 2 := by
      rw [div_lt_iff₀ hDq]
      push_cast at this
      linarith
    rw [Int.cast_natCast]
    constructor <;> linarith
  · rename_i h
    have : (D : ℚ) ≤ ((2 * t : Nat) : ℚ) := by exact_mod_cast Nat.not_lt.mp h
    have h2 : 1 / 2 ≤ (t : ℚ) / D := by
      rw [le_div_iff₀ hDq]
      push_cast at this
      linarith
    push_cast
    constructor <;> linarith

theorem sub_one (v p : Int) : (sub ⟨v, -p⟩ ⟨1, -p⟩) = ⟨v - 1, -p⟩ := by
  simp [sub, pair, rescale, pow10]

theorem add_one (v p : Int) : (add ⟨v, -p⟩ ⟨1, -p⟩) = ⟨v + 1, -p⟩ := by
  simp [add, pair, rescale, pow10]

/-- `DivRound` gives the quotient rounded to `p` places, halves away from zero. -/
theorem divRound_val (a b : Decimal) (p : Int) (hb : b.value ≠ 0) :
    divRound a b p = ⟨roundAway (a.val / b.val * (10 : ℚ) ^ p), -p⟩ := by
  obtain ⟨n, d, hd, hq, h1, hn, hds, hc⟩ := quoRem_spec a b p hb
  rw [← hq]
  unfold divRound
  dsimp only
  rw [h1]
  have hD : 0 < d.natAbs := Int.natAbs_pos.mpr hd
  have ht := Nat.mod_lt n.natAbs hD
  have hparts := tdiv_parts n d hd
  have hround := roundAway_parts (n.natAbs / d.natAbs) (n.natAbs % d.natAbs) d.natAbs hD ht
  rw [← hparts] at hround
  have hmod : (n.tmod d).natAbs = n.natAbs % d.natAbs := Int.natAbs_tmod n d
  rw [hmod] at hc
  rw [← hn, ← hds]
  -- the sign of the quotient
  by_cases hsgn : n.sign * d.sign < 0
  · have hnd : (n : ℚ) / d < 0 := by
      rcases lt_trichotomy d 0 with h | h | h
      · have hn0 : 0 < n := by
          rw [Int.sign_eq_neg_one_of_neg h] at hsgn
          exact Int.sign_pos_iff.mp (by omega)
        exact div_neg_of_pos_of_neg (by exact_mod_cast hn0) (by exact_mod_cast h)
      · exact absurd h hd
      · have hn0 : n < 0 := by
          rw [Int.sign_eq_one_of_pos h] at hsgn
          exact Int.sign_neg_iff.mp (by omega)
        exact div_neg_of_neg_of_pos (by exact_mod_cast hn0) (by exact_mod_cast h)
    have htd : n.tdiv d = -((n.natAbs / d.natAbs : Nat) : Int) := by
      rcases lt_trichotomy d 0 with h | h | h
      · have hn0 : 0 < n := by
          rw [Int.sign_eq_neg_one_of_neg h] at hsgn
          exact Int.sign_pos_iff.mp (by omega)
        obtain ⟨x, rfl⟩ := Int.eq_ofNat_of_zero_le (le_of_lt hn0)
        obtain ⟨y, hy⟩ := Int.eq_ofNat_of_zero_le (show 0 ≤ -d by omega)
        obtain rfl : d = -(y : Int) := by omega
        rw [Int.tdiv_neg]
        simp
      · exact absurd h hd
      · have hn0 : n < 0 := by
          rw [Int.sign_eq_one_of_pos h] at hsgn
          exact Int.sign_neg_iff.mp (by omega)
        obtain ⟨y, rfl⟩ := Int.eq_ofNat_of_zero_le (le_of_lt h)
        obtain ⟨x, hx⟩ := Int.eq_ofNat_of_zero_le (show 0 ≤ -n by omega)
        obtain rfl : n = -(x : Int) := by omega
        rw [Int.neg_tdiv]
        simp
    rw [abs_of_neg hnd, roundAway_neg] at hround
    have hround' : roundAway ((n : ℚ) / d) = -(if 2 * (n.natAbs % d.natAbs) < d.natAbs then ((n.natAbs / d.natAbs : Nat) : Int) else ((n.natAbs / d.natAbs : Nat) : Int) + 1) := by
      rw [← hround]; omega
    rw [hround', htd]
    by_cases h2 : 2 * (n.natAbs % d.natAbs) < d.natAbs
    · rw [if_pos (hc.mpr h2), if_pos h2]
    · rw [if_neg (mt hc.mp h2), if_pos hsgn, if_neg h2, sub_one]
      congr 1
      omega
  · have hnd : 0 ≤ (n : ℚ) / d := by
      rcases lt_trichotomy d 0 with h | h | h
      · have hn0 : n ≤ 0 := by
          rw [Int.sign_eq_neg_one_of_neg h] at hsgn
          by_contra hc
          rw [Int.sign_eq_one_of_pos (by omega)] at hsgn
          omega
        exact div_nonneg_of_nonpos (by exact_mod_cast hn0) (by exact_mod_cast le_of_lt h)
      · exact absurd h hd
      · have hn0 : 0 ≤ n := by
          rw [Int.sign_eq_one_of_pos h] at hsgn
          by_contra hc
          rw [Int.sign_eq_neg_one_of_neg (by omega)] at hsgn
          omega
        exact div_nonneg (by exact_mod_cast hn0) (by exact_mod_cast le_of_lt h)
    have htd : n.tdiv d = ((n.natAbs / d.natAbs : Nat) : Int) := by
      rcases lt_trichotomy d 0 with h | h | h
      · have hn0 : n ≤ 0 := by
          rw [Int.sign_eq_neg_one_of_neg h] at hsgn
          by_contra hc
          rw [Int.sign_eq_one_of_pos (by omega)] at hsgn
          omega
        obtain ⟨x, hx⟩ := Int.eq_ofNat_of_zero_le (show 0 ≤ -n by omega)
        obtain ⟨y, hy⟩ := Int.eq_ofNat_of_zero_le (show 0 ≤ -d by omega)
        obtain rfl : n = -(x : Int) := by omega
        obtain rfl : d = -(y : Int) := by omega
        rw [Int.tdiv_neg, Int.neg_tdiv]
        simp
      · exact absurd h hd
      · have hn0 : 0 ≤ n := by
          rw [Int.sign_eq_one_of_pos h] at hsgn
          by_contra hc
          rw [Int.sign_eq_neg_one_of_neg (by omega)] at hsgn
          omega
        obtain ⟨y, rfl⟩ := Int.eq_ofNat_of_zero_le (le_of_lt h)
        obtain ⟨x, rfl⟩ := Int.eq_ofNat_of_zero_le hn0
        simp
    rw [abs_of_nonneg hnd] at hround
    rw [hround, htd]
    by_cases h2 : 2 * (n.natAbs % d.natAbs) < d.natAbs
    · rw [if_pos (hc.mpr h2), if_pos h2]
    · rw [if_neg (mt hc.mp h2), if_neg hsgn, if_neg h2, add_one]

end Verif.Lib.Decimal
