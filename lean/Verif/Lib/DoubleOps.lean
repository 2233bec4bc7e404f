import Verif.Lib.DoubleProps
import Mathlib.Algebra.Order.Floor.Ring
import Mathlib.Algebra.Order.Round
import Mathlib.Tactic.Positivity

/-!
# Exact operations and whole numbers
-/

namespace Verif.Lib

/-- A format with more exponents than fraction bits, such as `float64` and `float32`. -/
class Fmt (m w : Nat) : Prop where
  mpos : 0 < m
  wide : m + 6 ≤ 2 ^ (w - 1)
  wpos : 1 < w

instance : Fmt 52 11 := ⟨by decide, by decide, by decide⟩
instance : Fmt 23 8 := ⟨by decide, by decide, by decide⟩

namespace Bin

variable {m w : Nat}

/-- The number of units in 1 is `2 ^ unitExp`. (data/ExpressionTree.go L2622-2760) -/
def unitExp (m w : Nat) : Nat := 2 ^ (w - 1) - 2 + m

theorem unit_eq (m w : Nat) : unit m w = 1 / 2 ^ unitExp m w := rfl

theorem pow_mul_unit (m w : Nat) : (2 : ℚ) ^ unitExp m w * unit m w = 1 := by
  rw [unit_eq]
  field_simp

theorem infMag_pos [F : Fmt m w] : 0 < infMag m w := by
  unfold infMag
  have h1 : 2 ^ 1 ≤ 2 ^ w := Nat.pow_le_pow_right (by omega) (by have := F.wpos; omega)
  exact Nat.mul_pos (by omega) (Nat.two_pow_pos m)

theorem unitExp_lt [F : Fmt m w] : unitExp m w + 1 ≤ 2 ^ w - 3 ∧ 3 ≤ 2 ^ w := by
  have h := F.wide
  have hw := F.wpos
  have e : 2 ^ w = 2 * 2 ^ (w - 1) := by
    obtain ⟨v, rfl⟩ : ∃ v, w = v + 1 := ⟨w - 1, by omega⟩
    rw [Nat.add_sub_cancel, Nat.pow_succ]; omega
  unfold unitExp
  omega

/-- The largest number. -/
theorem units_max [F : Fmt m w] : units m (infMag m w - 1) = (2 ^ (m + 1) - 1) * 2 ^ (2 ^ w - 3) := by
  have h3 := (unitExp_lt (m := m) (w := w)).2
  have hp : 0 < 2 ^ m := Nat.two_pow_pos m
  have e : infMag m w - 1 = (2 ^ w - 3) * 2 ^ m + (2 ^ (m + 1) - 1) := by
    unfold infMag
    obtain ⟨v, hv⟩ : ∃ v, 2 ^ w = v + 3 := ⟨2 ^ w - 3, by omega⟩
    rw [hv, show v + 3 - 1 = v + 2 by omega, show v + 3 - 3 = v by omega, Nat.add_mul, Nat.pow_succ]
    omega
  rw [e]
  exact units_eq m _ _ (fun _ => by rw [Nat.pow_succ]; omega) (by omega)

/-- Whole numbers with at most `m + 1` digits are in the range. -/
theorem in_range [F : Fmt m w] (r : Nat) (h : r ≤ 2 ^ (m + 1)) : r * 2 ^ unitExp m w ≤ units m (infMag m w - 1) := by
  rw [units_max]
  have h1 := (unitExp_lt (m := m) (w := w)).1
  have hp : 2 ≤ 2 ^ (m + 1) := by
    rw [Nat.pow_succ]
    have : 0 < 2 ^ m := Nat.two_pow_pos m
    omega
  calc r * 2 ^ unitExp m w ≤ 2 ^ (m + 1) * 2 ^ unitExp m w := Nat.mul_le_mul_right _ h
    _ ≤ (2 ^ (m + 1) - 1) * 2 * 2 ^ unitExp m w := Nat.mul_le_mul_right _ (by omega)
    _ = (2 ^ (m + 1) - 1) * 2 ^ (unitExp m w + 1) := by ring
    _ ≤ (2 ^ (m + 1) - 1) * 2 ^ (2 ^ w - 3) := Nat.mul_le_mul_left _ (Nat.pow_le_pow_right (by omega) h1)

/-- Whole numbers up to `2 ^ (m + 1)` are exact. -/
theorem whole_exact [F : Fmt m w] (z : Bool) (n : Int) (h : n.natAbs ≤ 2 ^ (m + 1)) :
    (ofRat z n : Bin m w).Finite ∧ (ofRat z n : Bin m w).val = n := by
  have hpos := infMag_pos (m := m) (w := w)
  refine ofRat_exact F.mpos z n n.natAbs (unitExp m w) h ?_ (k := infMag m w - 1) (by omega) (in_range _ h)
  rw [mul_assoc, pow_mul_unit, mul_one, Nat.cast_natAbs, Int.cast_abs]

/-- Large numbers are whole. -/
theorem small_or_whole (f : Bin m w) : |f.val| < 2 ^ m ∨ ∃ n : Int, f.val = n := by
  obtain ⟨s, r, hk, h1, h2⟩ := split_bits m f.mag
  have hu : (units m f.mag : ℚ) = r * 2 ^ s := by
    rw [hk, units_eq m s r h1 (by omega)]; push_cast; rfl
  rcases Nat.lt_or_ge s (unitExp m w) with h | h
  · left
    rw [abs_val, hu]
    have hr : (r : ℚ) < 2 ^ (m + 1) := by exact_mod_cast h2
    have hs : (2 : ℚ) ^ s * 2 ≤ 2 ^ unitExp m w := by
      rw [← pow_succ]
      exact pow_le_pow_right₀ (by norm_num) h
    have hunit := unit_pos m w
    have e := pow_mul_unit m w
    have h3 : (2 : ℚ) ^ s * 2 * unit m w ≤ 1 := by
      rw [← e]
      exact mul_le_mul_of_nonneg_right hs (le_of_lt hunit)
    have h4 : (0 : ℚ) < 2 ^ s * unit m w := by positivity
    calc (r : ℚ) * 2 ^ s * unit m w = r * (2 ^ s * unit m w) := by ring
      _ < 2 ^ (m + 1) * (2 ^ s * unit m w) := mul_lt_mul_of_pos_right hr h4
      _ = 2 ^ m * (2 ^ s * 2 * unit m w) := by ring
      _ ≤ 2 ^ m * 1 := mul_le_mul_of_nonneg_left h3 (by positivity)
      _ = 2 ^ m := mul_one _
  · right
    have e : (r : ℚ) * 2 ^ s * unit m w = ((r * 2 ^ (s - unitExp m w) : Nat) : ℚ) := by
      push_cast
      have : (2 : ℚ) ^ s = 2 ^ (s - unitExp m w) * 2 ^ unitExp m w := by rw [← pow_add]; congr 1; omega
      rw [this, mul_assoc, mul_assoc, pow_mul_unit, mul_one]
    cases hn : f.neg
    · exact ⟨(r * 2 ^ (s - unitExp m w) : Nat), by rw [val_pos hn, hu, e]; simp⟩
    · exact ⟨-(r * 2 ^ (s - unitExp m w) : Nat), by rw [val_neg hn, hu, e]; simp⟩

/-- Whole numbers next to a finite number are exact. -/
theorem nearby_exact [F : Fmt m w] (f : Bin m w) (hf : f.Finite) (z : Bool) (n : Int) (h : |(n : ℚ) - f.val| < 1) :
    (ofRat z n : Bin m w).Finite ∧ (ofRat z n : Bin m w).val = n := by
  rcases small_or_whole f with h1 | ⟨k, hk⟩
  · apply whole_exact
    have h2 : |(n : ℚ)| < 2 ^ m + 1 := by
      have := abs_sub_abs_le_abs_sub (n : ℚ) f.val
      linarith
    have h3 : ((n.natAbs : Nat) : ℚ) < ((2 ^ m + 1 : Nat) : ℚ) := by
      rw [Nat.cast_natAbs, Int.cast_abs]
      push_cast
      exact h2
    have h4 : n.natAbs < 2 ^ m + 1 := by exact_mod_cast h3
    have := Nat.two_pow_pos m
    rw [Nat.pow_succ]
    omega
  · have e : n = k := by
      rw [hk, ← Int.cast_sub, ← Int.cast_abs] at h
      have : |n - k| < 1 := by exact_mod_cast h
      have := Int.abs_lt_one_iff.mp this
      omega
    have := ofRat_val' F.mpos f hf z
    rw [hk, ← e] at this
    exact this

theorem toWhole_val [F : Fmt m w] (r : ℚ → Int) (hr : ∀ x, |(r x : ℚ) - x| < 1) (f : Bin m w) (hf : f.Finite) :
    (toWhole r f).Finite ∧ (toWhole r f).val = r f.val := by
  unfold toWhole
  rw [if_pos hf]
  exact nearby_exact f hf f.neg _ (hr _)

/-- `math.Floor` is exact. -/
theorem floor_val [F : Fmt m w] (f : Bin m w) (hf : f.Finite) : f.floor.Finite ∧ f.floor.val = (⌊f.val⌋ : Int) := by
  refine toWhole_val Rat.floor (fun x => ?_) f hf
  have e : Rat.floor x = ⌊x⌋ := rfl
  rw [e]
  have h1 := Int.floor_le x
  have h2 := Int.lt_floor_add_one x
  rw [abs_lt]
  constructor <;> linarith

theorem ceil_eq (x : ℚ) : Rat.ceil x = ⌈x⌉ := by
  rw [Rat.ceil_eq_neg_floor_neg]
  rfl

/-- `math.Ceil` is exact. -/
theorem ceil_val [F : Fmt m w] (f : Bin m w) (hf : f.Finite) : f.ceil.Finite ∧ f.ceil.val = (⌈f.val⌉ : Int) := by
  have := toWhole_val Rat.ceil (fun x => by
    rw [ceil_eq]
    have h1 := Int.le_ceil x
    have h2 := Int.ceil_lt_add_one x
    rw [abs_lt]
    constructor <;> linarith) f hf
  rw [ceil_eq] at this
  exact this

theorem roundAway_spec (x : ℚ) : |(roundAway x : ℚ) - x| ≤ 1 / 2 ∧ (|(roundAway x : ℚ) - x| = 1 / 2 → |x| < |(roundAway x : ℚ)|) := by
  unfold roundAway
  split
  · rename_i h
    have e : Rat.floor (x + 1 / 2) = ⌊x + 1 / 2⌋ := rfl
    rw [e]
    have h1 := Int.floor_le (x + 1 / 2)
    have h2 := Int.lt_floor_add_one (x + 1 / 2)
    constructor
    · rw [abs_le]
      constructor <;> linarith
    · intro he
      rcases (abs_eq (by norm_num)).mp he with h3 | h3
      · rw [abs_of_nonneg h, abs_of_nonneg (by linarith)]
        linarith
      · linarith
  · rename_i h
    push Not at h
    rw [ceil_eq]
    have h1 := Int.le_ceil (x - 1 / 2)
    have h2 := Int.ceil_lt_add_one (x - 1 / 2)
    constructor
    · rw [abs_le]
      constructor <;> linarith
    · intro he
      rcases (abs_eq (by norm_num)).mp he with h3 | h3
      · linarith
      · rw [abs_of_neg h, abs_of_neg (by linarith)]
        linarith

/-- `math.Round` is exact. -/
theorem round_val [F : Fmt m w] (f : Bin m w) (hf : f.Finite) : f.round.Finite ∧ f.round.val = roundAway f.val :=
  toWhole_val roundAway (fun x => lt_of_le_of_lt (roundAway_spec x).1 (by norm_num)) f hf

/-! ## Remainders -/

theorem truncRat_neg (x : ℚ) : truncRat (-x) = -truncRat x := by
  unfold truncRat
  rw [Rat.num_neg_eq_neg_num, Rat.den_neg_eq_den, Int.neg_tdiv]

theorem truncRat_nonneg {x : ℚ} (h : 0 ≤ x) : truncRat x = ⌊x⌋ := by
  have e : ⌊x⌋ = x.num / (x.den : ℤ) := Rat.floor_def'
  unfold truncRat
  rw [e, Int.tdiv_eq_ediv_of_nonneg (Rat.num_nonneg.mpr h)]

theorem truncRat_nat (a b : Nat) : truncRat ((a : ℚ) / b) = (a / b : Nat) := by
  rw [truncRat_nonneg (by positivity)]
  have := Rat.floor_intCast_div_natCast (a : ℤ) b
  rw [Int.cast_natCast] at this
  rw [this]
  rfl

/-- Remainders of sizes can be represented. -/
theorem units_mod (m j k : Nat) : ∃ i, units m i = units m j % units m k := by
  obtain ⟨s1, r1, hj, h1, h2⟩ := split_bits m j
  obtain ⟨s2, r2, hk, h3, h4⟩ := split_bits m k
  have ea : units m j = r1 * 2 ^ s1 := by rw [hj, units_eq m s1 r1 h1 (by omega)]
  have eb : units m k = r2 * 2 ^ s2 := by rw [hk, units_eq m s2 r2 h3 (by omega)]
  rcases Nat.lt_or_ge s1 s2 with h | h
  · have e : units m k = (r2 * 2 ^ (s2 - s1)) * 2 ^ s1 := by
      rw [eb, Nat.mul_assoc, ← Nat.pow_add]; congr 2; omega
    rw [ea, e, Nat.mul_mod_mul_right]
    exact units_onto m s1 _ (le_trans (Nat.mod_le _ _) (by omega))
  · have e : units m j = (r1 * 2 ^ (s1 - s2)) * 2 ^ s2 := by
      rw [ea, Nat.mul_assoc, ← Nat.pow_add]; congr 2; omega
    rw [e, eb, Nat.mul_mod_mul_right]
    rcases Nat.eq_zero_or_pos r2 with h0 | h0
    · -- the remainder by nothing is the number itself
      subst h0
      rw [Nat.mod_zero, ← e]
      exact ⟨j, rfl⟩
    · exact units_onto m s2 _ (by have := Nat.mod_lt (r1 * 2 ^ (s1 - s2)) h0; omega)

/-- `math.Mod` is exact: what is left of the first number after taking the second away as often as it fits, with the sign of the first. -/
theorem mod_val [F : Fmt m w] (f g : Bin m w) (hf : f.Finite) (hg : g.Finite) (h0 : ¬ g.IsZero) :
    (mod f g).Finite ∧ (mod f g).val = f.val - truncRat (f.val / g.val) * g.val := by
  have hf' := (finite_iff f).mp hf
  have hg' := (finite_iff g).mp hg
  unfold mod
  rw [if_neg (by simp [hf'.1, hf'.2, hg'.1, h0]), if_neg hg'.2]
  have hu := unit_pos m w
  -- the remainder in units
  have key : |f.val - truncRat (f.val / g.val) * g.val| = ((units m f.mag % units m g.mag : Nat) : ℚ) * unit m w := by
    have hdiv : ∀ a b : Nat, ((a : ℚ) * unit m w) / (b * unit m w) = a / b := fun a b =>
      mul_div_mul_right (a : ℚ) b (ne_of_gt hu)
    have hmod : ∀ a b : Nat, (a : ℚ) - ((a / b : Nat) : ℚ) * b = ((a % b : Nat) : ℚ) := by
      intro a b
      have := Nat.div_add_mod a b
      have h : (b : ℚ) * ((a / b : Nat) : ℚ) + ((a % b : Nat) : ℚ) = a := by exact_mod_cast this
      linarith
    have base : (units m f.mag : ℚ) * unit m w - (truncRat (((units m f.mag : ℚ) * unit m w) / (units m g.mag * unit m w)) : ℚ) *
        (units m g.mag * unit m w) = ((units m f.mag % units m g.mag : Nat) : ℚ) * unit m w := by
      rw [hdiv, truncRat_nat, Int.cast_natCast, ← hmod]
      ring
    have hnn : (0 : ℚ) ≤ ((units m f.mag % units m g.mag : Nat) : ℚ) * unit m w := by positivity
    generalize hA : (units m f.mag : ℚ) * unit m w = A at base
    generalize hB : (units m g.mag : ℚ) * unit m w = B at base
    cases h1 : f.neg <;> cases h2 : g.neg
    · rw [val_pos h1, val_pos h2, hA, hB, base, abs_of_nonneg hnn]
    · rw [val_pos h1, val_neg h2, hA, hB, div_neg, truncRat_neg]
      push_cast
      rw [neg_mul_neg, base, abs_of_nonneg hnn]
    · rw [val_neg h1, val_pos h2, hA, hB, neg_div, truncRat_neg]
      push_cast
      rw [show -A - -(truncRat (A / B) : ℚ) * B = -(A - truncRat (A / B) * B) by ring, base, abs_neg, abs_of_nonneg hnn]
    · rw [val_neg h1, val_neg h2, hA, hB, neg_div_neg_eq]
      rw [show -A - (truncRat (A / B) : ℚ) * -B = -(A - truncRat (A / B) * B) by ring, base, abs_neg, abs_of_nonneg hnn]
  obtain ⟨i, hi⟩ := units_mod m f.mag g.mag
  have hle : i ≤ f.mag := units_le_iff.mp (by rw [hi]; exact Nat.mod_le _ _)
  have hpos := infMag_pos (m := m) (w := w)
  obtain ⟨s, r, hk, h1, h2⟩ := split_bits m i
  have hi' : units m f.mag % units m g.mag = r * 2 ^ s := by rw [← hi, hk, units_eq m s r h1 (by omega)]
  refine ofRat_exact F.mpos f.neg _ r s (by omega) ?_ (k := f.mag) hf ?_
  · rw [key, hi']
    push_cast
    rfl
  · rw [← hi']
    exact Nat.mod_le _ _

/-! ## Roots -/

theorem units_even (m k : Nat) (h : 2 ^ (m + 1) ≤ units m k) : units m k % 2 = 0 := by
  obtain ⟨s, r, hk, h1, h2⟩ := split_bits m k
  have e : units m k = r * 2 ^ s := by rw [hk, units_eq m s r h1 (by omega)]
  rw [e] at h ⊢
  rcases Nat.eq_zero_or_pos s with h0 | h0
  · subst h0
    rw [Nat.pow_zero, Nat.mul_one] at h
    omega
  · obtain ⟨t, rfl⟩ : ∃ t, s = t + 1 := ⟨s - 1, by omega⟩
    rw [Nat.pow_succ, ← Nat.mul_assoc]
    omega

/-- `math.Sqrt` of a positive number gives the number nearest to the root: the middle between it and any other number lies on the other side of
the root. -/
theorem sqrt_nearest [F : Fmt m w] (f : Bin m w) (hf : f.Finite) (hn : f.neg = false) (h0 : ¬ f.IsZero) :
    (sqrt f).Finite ∧ 0 ≤ (sqrt f).val ∧ ∀ g : Bin m w, 0 ≤ g.val →
      (g.val < (sqrt f).val → ((g.val + (sqrt f).val) / 2) ^ 2 ≤ f.val) ∧
      ((sqrt f).val < g.val → f.val ≤ ((g.val + (sqrt f).val) / 2) ^ 2) := by
  have hf' := (finite_iff f).mp hf
  have hu := unit_pos m w
  have hm := F.mpos
  have hE := pow_mul_unit m w
  have hEeq : unitExp m w = 2 ^ (w - 1) - 2 + m := rfl
  have hwide := F.wide
  have ha : 0 < units m f.mag := by
    rw [← units_zero m]
    apply units_lt_iff.mpr
    unfold IsZero at h0
    omega
  obtain ⟨n, hnn⟩ : ∃ n, n = units m f.mag * 2 ^ unitExp m w := ⟨_, rfl⟩
  obtain ⟨s, hs⟩ : ∃ s, s = Nat.sqrt n := ⟨_, rfl⟩
  obtain ⟨c, hc⟩ : ∃ c : ℚ, c = if s * s = n then 0 else 1 / 2 := ⟨_, rfl⟩
  have hsq : sqrt f = ofRat false (((s : ℚ) + c) * unit m w) := by
    unfold sqrt
    rw [if_neg hf'.1, if_neg h0, if_neg (by simp [hn]), if_neg hf'.2]
    dsimp only
    rw [hc, hs, hnn, hEeq]
  have hle : s * s ≤ n := by rw [hs]; exact Nat.sqrt_le n
  have hlt : n < (s + 1) * (s + 1) := by rw [hs]; exact Nat.lt_succ_sqrt n
  have hc0 : 0 ≤ c := by rw [hc]; split <;> norm_num
  have hc1 : c ≤ 1 / 2 := by rw [hc]; split <;> norm_num
  -- the root is large in units
  have hbig : 2 ^ (m + 2) ≤ s := by
    rw [hs, Nat.le_sqrt]
    calc 2 ^ (m + 2) * 2 ^ (m + 2) = 2 ^ (m + 2 + (m + 2)) := by rw [← Nat.pow_add]
      _ ≤ 2 ^ unitExp m w := Nat.pow_le_pow_right (by omega) (by omega)
      _ ≤ n := by rw [hnn]; exact Nat.le_mul_of_pos_left _ ha
  -- and in the range
  have hpos := infMag_pos (m := m) (w := w)
  have hsmax : s < units m (infMag m w - 1) := by
    by_contra hcon
    push Not at hcon
    have h1 : units m f.mag ≤ units m (infMag m w - 1) := units_le_iff.mpr (by unfold Finite at hf; omega)
    have h2 : 2 * 2 ^ unitExp m w ≤ units m (infMag m w - 1) := in_range 2 (by
      rw [Nat.pow_succ]
      have : 0 < 2 ^ m := Nat.two_pow_pos m
      omega)
    have h2' : 2 ^ unitExp m w < units m (infMag m w - 1) := by
      have := Nat.two_pow_pos (unitExp m w)
      omega
    have h3 : n < units m (infMag m w - 1) * units m (infMag m w - 1) := by
      rw [hnn]
      exact Nat.mul_lt_mul_of_le_of_lt h1 h2' (by omega)
    have h4 : units m (infMag m w - 1) * units m (infMag m w - 1) ≤ s * s := Nat.mul_le_mul hcon hcon
    omega
  have hy0 : 0 < ((s : ℚ) + c) * unit m w := by
    have : (0 : ℚ) < s := by exact_mod_cast (lt_of_lt_of_le (Nat.two_pow_pos _) hbig)
    positivity
  have hfin : (sqrt f).Finite := by
    rw [hsq]
    refine ofRat_finite hm false (k := infMag m w - 1) (by omega) ?_
    rw [abs_of_pos hy0]
    apply mul_le_mul_of_nonneg_right _ (le_of_lt hu)
    have : ((s + 1 : Nat) : ℚ) ≤ (units m (infMag m w - 1) : ℚ) := by exact_mod_cast hsmax
    push_cast at this
    linarith
  have hneg : (sqrt f).neg = false := by rw [hsq]; exact ofRat_pos hy0
  obtain ⟨R, hR⟩ : ∃ R, R = (sqrt f).mag := ⟨_, rfl⟩
  have hround : IsRounded m ((s : ℚ) + c) R := by
    have h1 : R = Lib.round m (((s : ℚ) + c) * unit m w / unit m w) := by
      rw [hR]
      have h2 := hfin
      rw [hsq] at h2 ⊢
      exact ofRat_finite_mag h2
    rw [mul_div_assoc, div_self (ne_of_gt hu), mul_one] at h1
    have h3 := round_isRounded m ((s : ℚ) + c) hm
    rw [← h1, abs_of_pos (by nlinarith)] at h3
    exact h3
  have hval : (sqrt f).val = units m R * unit m w := by rw [val_pos hneg, hR]
  have hfval : f.val = (n : ℚ) * (unit m w * unit m w) := by
    rw [val_pos hn, hnn]
    push_cast
    calc (units m f.mag : ℚ) * unit m w = units m f.mag * (2 ^ unitExp m w * unit m w) * unit m w := by rw [hE]; ring
      _ = _ := by ring
  -- both neighbours are even
  obtain ⟨k0, hk0⟩ := units_onto m (m + 2) 1 Nat.one_le_two_pow
  obtain ⟨k1, hk1⟩ := units_onto m (m + 1) 1 Nat.one_le_two_pow
  rw [Nat.one_mul] at hk0 hk1
  have hk01 : k1 < k0 := units_lt_iff.mp (by rw [hk0, hk1]; exact Nat.pow_lt_pow_right (by omega) (by omega))
  have hk0R : k0 ≤ R := by
    refine (isRounded_units m k0).mono hround ?_
    rw [hk0]
    have : ((2 ^ (m + 2) : Nat) : ℚ) ≤ s := by exact_mod_cast hbig
    linarith
  have heven : ∀ k, k1 ≤ k → units m k % 2 = 0 := fun k hk => units_even m k (by rw [← hk1]; exact units_le_iff.mpr hk)
  have hsn : ((s * s : Nat) : ℚ) ≤ n := by exact_mod_cast hle
  have hns : (n : ℚ) < ((s + 1) * (s + 1) : Nat) := by exact_mod_cast hlt
  have hexact : c = 0 → (n : ℚ) = (s * s : Nat) := by
    intro h
    rw [hc] at h
    split at h
    · rename_i h2; rw [h2]
    · norm_num at h
  refine ⟨hfin, by rw [hval]; positivity, ?_⟩
  intro g hg
  -- the value of a number that is not negative
  have hgval : g.val = units m g.mag * unit m w := by rw [← abs_val, abs_of_nonneg hg]
  rw [hgval, hval, hfval]
  have hmul : ∀ a b : Nat, (units m a : ℚ) * unit m w < units m b * unit m w ↔ a < b := fun a b => by
    rw [mul_lt_mul_iff_left₀ hu, Nat.cast_lt, units_lt_iff]
  rw [hmul, hmul]
  have hmid : ∀ a b : ℚ, ((a * unit m w + b * unit m w) / 2) ^ 2 = ((a + b) / 2) ^ 2 * (unit m w * unit m w) := by intro a b; ring
  rw [hmid]
  have huu : 0 < unit m w * unit m w := mul_pos hu hu
  constructor
  · intro h
    apply mul_le_mul_of_nonneg_right _ (le_of_lt huu)
    have hG : units m g.mag ≤ units m (R - 1) := units_le_iff.mpr (by omega)
    have hRR : units m (R - 1) < units m R := units_lt_iff.mpr (by omega)
    have hRRq : (units m (R - 1) : ℚ) < units m R := by exact_mod_cast hRR
    have hnear := hround.near (R - 1)
    have h1 : (units m (R - 1) : ℚ) + units m R ≤ 2 * (s + c) := by
      by_contra hcon
      push Not at hcon
      rcases le_or_gt ((s : ℚ) + c) (units m (R - 1) : ℚ) with h2 | h2
      · rw [abs_of_pos (by linarith), abs_of_nonneg (by linarith)] at hnear
        linarith
      · rw [abs_of_neg (show (units m (R - 1) : ℚ) - (s + c) < 0 by linarith)] at hnear
        have := le_abs_self ((units m R : ℚ) - (s + c))
        linarith
    have h2 : ((units m (R - 1) + units m R : Nat) : ℚ) ≤ ((2 * s + 1 : Nat) : ℚ) := by push_cast; linarith
    have h3 : units m (R - 1) + units m R ≤ 2 * s + 1 := by exact_mod_cast h2
    have e1 := heven (R - 1) (by omega)
    have e2 := heven R (by omega)
    have h4 : units m g.mag + units m R ≤ 2 * s := by omega
    have h5 : ((units m g.mag : ℚ) + units m R) / 2 ≤ s := by
      have : ((units m g.mag + units m R : Nat) : ℚ) ≤ ((2 * s : Nat) : ℚ) := by exact_mod_cast h4
      push_cast at this
      linarith
    have h6 : (0 : ℚ) ≤ ((units m g.mag : ℚ) + units m R) / 2 := by positivity
    push_cast at hsn
    nlinarith
  · intro h
    apply mul_le_mul_of_nonneg_right _ (le_of_lt huu)
    have hG : units m (R + 1) ≤ units m g.mag := units_le_iff.mpr (by omega)
    have hRR : units m R < units m (R + 1) := units_lt_iff.mpr (by omega)
    have hRRq : (units m R : ℚ) < units m (R + 1) := by exact_mod_cast hRR
    have hnear := hround.near (R + 1)
    have h1 : 2 * (s + c) ≤ (units m (R + 1) : ℚ) + units m R := by
      by_contra hcon
      push Not at hcon
      rcases le_or_gt (units m (R + 1) : ℚ) ((s : ℚ) + c) with h2 | h2
      · rw [abs_of_neg (by linarith), abs_of_nonpos (by linarith)] at hnear
        linarith
      · rw [abs_of_pos (show (0 : ℚ) < (units m (R + 1) : ℚ) - (s + c) by linarith)] at hnear
        have := neg_abs_le ((units m R : ℚ) - (s + c))
        linarith
    have hGq : (units m (R + 1) : ℚ) ≤ units m g.mag := by exact_mod_cast hG
    have hs0 : (0 : ℚ) ≤ s := Nat.cast_nonneg s
    by_cases hcz : c = 0
    · rw [hexact hcz]
      rw [hcz] at h1
      have h5 : (s : ℚ) ≤ ((units m g.mag : ℚ) + units m R) / 2 := by linarith
      push_cast
      nlinarith
    · have hch : c = 1 / 2 := by
        rw [hc] at hcz ⊢
        split
        · rename_i h2; rw [if_pos h2] at hcz; exact absurd rfl hcz
        · rfl
      rw [hch] at h1
      have h2 : ((2 * s + 1 : Nat) : ℚ) ≤ ((units m (R + 1) + units m R : Nat) : ℚ) := by push_cast; linarith
      have h3 : 2 * s + 1 ≤ units m (R + 1) + units m R := by exact_mod_cast h2
      have e1 := heven (R + 1) (by omega)
      have e2 := heven R (by omega)
      have h4 : 2 * (s + 1) ≤ units m g.mag + units m R := by omega
      have h5 : (s : ℚ) + 1 ≤ ((units m g.mag : ℚ) + units m R) / 2 := by
        have : ((2 * (s + 1) : Nat) : ℚ) ≤ ((units m g.mag + units m R : Nat) : ℚ) := by exact_mod_cast h4
        push_cast at this
        linarith
      push_cast at hns
      nlinarith

end Bin

end Verif.Lib
