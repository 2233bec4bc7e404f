import Verif.Format.FloatProps
import Mathlib.Data.Rat.Floor
import Mathlib.Tactic.Ring
import Mathlib.Tactic.NormNum

/-!
# Binary floating point: magnitudes and rounding

A floating point format with `m` fraction bits. The bits of a number without its sign are read as one natural number `k`; `units m k` is the
number's size as a multiple of the smallest positive one (IEEE 754 binary formats). `round m x` are the bits of the number nearest to `x` such units,
of two equally near the one with an even last bit, as if there were no largest exponent.
-/

namespace Verif.Lib

open Verif.Format (roundEven roundEven_near roundEven_tie)

/-- The size of the number with bits `k`: subnormal below `2 ^ m`, else with the hidden bit and an exponent. (IEEE 754, `float64` and `float32` of /repo/sttp/data)
(data/ExpressionTree.go L2622-2760) -/
def units (m k : Nat) : Nat := if k < 2 ^ m then k else (2 ^ m + k % 2 ^ m) * 2 ^ (k / 2 ^ m - 1)

/-- The exponent, from 0, that goes with a size of `q` units. (IEEE 754) (data/ExpressionTree.go L2622-2760) -/
def shiftOf (m q : Nat) : Nat := Nat.log2 q - m

/-- The quotient `num / den` rounded. (IEEE 754) (data/ExpressionTree.go L2622-2760) -/
def roundQuot (m num den : Nat) : Nat :=
  shiftOf m (num / den) * 2 ^ m + roundEven num (den * 2 ^ shiftOf m (num / den))

/-- A rational number rounded, its sign left out. (IEEE 754; the arithmetic of data/ExpressionTree.go L2622-2760) -/
def round (m : Nat) (x : ℚ) : Nat := roundQuot m x.num.natAbs x.den

/-! ## Sizes -/

theorem units_eq (m s r : Nat) (h1 : 0 < s → 2 ^ m ≤ r) (h2 : r ≤ 2 ^ (m + 1)) : units m (s * 2 ^ m + r) = r * 2 ^ s := by
  have hp : 0 < 2 ^ m := Nat.two_pow_pos m
  have h2' : r ≤ 2 ^ m + 2 ^ m := by rw [Nat.pow_succ] at h2; omega
  unfold units
  rcases Nat.lt_or_ge r (2 ^ m) with h | h
  · have hs : s = 0 := by
      rcases Nat.eq_zero_or_pos s with h' | h'
      · exact h'
      · exact absurd (h1 h') (by omega)
    subst hs
    simp [h]
  · rw [if_neg (by have := Nat.le_add_left r (s * 2 ^ m); omega)]
    rcases Nat.lt_or_ge r (2 ^ m + 2 ^ m) with h' | h'
    · have e : s * 2 ^ m + r = (r - 2 ^ m) + 2 ^ m * (s + 1) := by rw [Nat.mul_add, Nat.mul_comm s]; omega
      rw [e, Nat.add_mul_mod_self_left, Nat.mod_eq_of_lt (by omega), Nat.add_mul_div_left _ _ hp, Nat.div_eq_of_lt (by omega),
        Nat.zero_add, Nat.add_sub_cancel, Nat.add_sub_cancel' h]
    · have hr : r = 2 ^ m + 2 ^ m := by omega
      have e : s * 2 ^ m + r = 0 + 2 ^ m * (s + 2) := by rw [Nat.mul_add, Nat.mul_comm s]; omega
      rw [e, Nat.add_mul_mod_self_left, Nat.mod_eq_of_lt hp, Nat.add_mul_div_left _ _ hp, Nat.div_eq_of_lt hp,
        Nat.zero_add, show s + 2 - 1 = s + 1 by omega, Nat.pow_succ, hr]
      ring

/-- The bits of a number taken apart. -/
theorem split_bits (m k : Nat) : ∃ s r, k = s * 2 ^ m + r ∧ (0 < s → 2 ^ m ≤ r) ∧ r < 2 ^ (m + 1) := by
  have hp : 0 < 2 ^ m := Nat.two_pow_pos m
  have hd := Nat.div_add_mod k (2 ^ m)
  have hm := Nat.mod_lt k hp
  rcases Nat.eq_zero_or_pos (k / 2 ^ m) with h | h
  · refine ⟨0, k, by simp, by simp, ?_⟩
    rw [h, Nat.mul_zero] at hd
    rw [Nat.pow_succ]
    omega
  · refine ⟨k / 2 ^ m - 1, 2 ^ m + k % 2 ^ m, ?_, fun _ => Nat.le_add_right _ _, by rw [Nat.pow_succ]; omega⟩
    have : 2 ^ m * (k / 2 ^ m) = (k / 2 ^ m - 1) * 2 ^ m + 2 ^ m := by
      conv_lhs => rw [show k / 2 ^ m = (k / 2 ^ m - 1) + 1 by omega]
      ring
    omega

theorem units_succ (m k : Nat) : units m k < units m (k + 1) := by
  obtain ⟨s, r, rfl, h1, h2⟩ := split_bits m k
  rw [Nat.add_assoc, units_eq m s r h1 (by omega), units_eq m s (r + 1) (fun h => by have := h1 h; omega) (by omega)]
  exact Nat.mul_lt_mul_of_pos_right (by omega) (Nat.two_pow_pos s)

/-- More bits, greater number. -/
theorem units_strictMono (m : Nat) : StrictMono (units m) := strictMono_nat_of_lt_succ (units_succ m)

theorem units_zero (m : Nat) : units m 0 = 0 := by simp [units]

theorem units_lt_iff {m j k : Nat} : units m j < units m k ↔ j < k := (units_strictMono m).lt_iff_lt
theorem units_le_iff {m j k : Nat} : units m j ≤ units m k ↔ j ≤ k := (units_strictMono m).le_iff_le
theorem units_inj {m j k : Nat} : units m j = units m k ↔ j = k := (units_strictMono m).injective.eq_iff

/-! ## Rounding -/

/-- What rounding is to be: nearest, and even when another one is as near. (data/ExpressionTree.go L2622-2760) -/
structure IsRounded (m : Nat) (x : ℚ) (k : Nat) : Prop where
  near : ∀ j, |(units m k : ℚ) - x| ≤ |(units m j : ℚ) - x|
  even : ∀ j, j ≠ k → |(units m k : ℚ) - x| = |(units m j : ℚ) - x| → k % 2 = 0

theorem log2_bounds (q : Nat) (h : q ≠ 0) : 2 ^ Nat.log2 q ≤ q ∧ q < 2 ^ (Nat.log2 q + 1) :=
  ⟨Nat.log2_self_le h, Nat.lt_log2_self⟩

theorem shiftOf_spec (m num den : Nat) (hd : 0 < den) :
    (0 < shiftOf m (num / den) → 2 ^ m * (den * 2 ^ shiftOf m (num / den)) ≤ num) ∧
      num < 2 ^ (m + 1) * (den * 2 ^ shiftOf m (num / den)) := by
  unfold shiftOf
  rcases Nat.eq_zero_or_pos (num / den) with h | h
  · rw [h]
    have : num < den := by
      rcases Nat.lt_or_ge num den with h' | h'
      · exact h'
      · have := Nat.div_pos h' hd; omega
    have h1 : 1 ≤ 2 ^ (m + 1) := Nat.one_le_two_pow
    have hz : Nat.log2 0 - m = 0 := by rw [Nat.log2_zero]; omega
    rw [hz]
    refine ⟨fun h => absurd h (by omega), ?_⟩
    have : 1 * den ≤ 2 ^ (m + 1) * den := Nat.mul_le_mul_right den h1
    simp only [Nat.pow_zero, Nat.mul_one]
    omega
  · obtain ⟨h1, h2⟩ := log2_bounds (num / den) (by omega)
    have hq := Nat.div_add_mod num den
    have hr := Nat.mod_lt num hd
    generalize hl : Nat.log2 (num / den) = l at *
    generalize num / den = q at *
    constructor
    · intro hs
      have e : 2 ^ m * (den * 2 ^ (l - m)) = den * 2 ^ l := by
        rw [show (2 : Nat) ^ l = 2 ^ (l - m) * 2 ^ m by rw [← Nat.pow_add]; congr 1; omega]
        ring
      rw [e]
      have := Nat.mul_le_mul_left den h1
      omega
    · have e : den * 2 ^ (l + 1) ≤ 2 ^ (m + 1) * (den * 2 ^ (l - m)) := by
        rw [show 2 ^ (m + 1) * (den * 2 ^ (l - m)) = den * (2 ^ (l - m) * 2 ^ (m + 1)) by ring, ← Nat.pow_add]
        exact Nat.mul_le_mul_left den (Nat.pow_le_pow_right (by omega) (by omega))
      have h3 : den * (q + 1) ≤ den * 2 ^ (l + 1) := Nat.mul_le_mul_left den h2
      rw [Nat.mul_add] at h3
      omega

theorem roundEven_le (num den b : Nat) (hd : 0 < den) (h : num < b * den) : roundEven num den ≤ b := by
  have := (roundEven_near num den hd).1
  by_contra hc
  have h1 : (b + 1) * den ≤ roundEven num den * den := Nat.mul_le_mul_right den (by omega)
  rw [Nat.add_mul] at h1
  omega

theorem le_roundEven (num den b : Nat) (hd : 0 < den) (h : b * den ≤ num) : b ≤ roundEven num den := by
  have h2 := (roundEven_near num den hd).2
  by_contra hc
  have h1 : (roundEven num den + 1) * den ≤ b * den := Nat.mul_le_mul_right den (by omega)
  rw [Nat.add_mul] at h1
  omega

/-- Sizes are multiples of `2 ^ s` or lie below `2 ^ m * 2 ^ s`. -/
theorem units_grid (m s j : Nat) : (∃ t, units m j = t * 2 ^ s ∧ (0 < s → 2 ^ m ≤ t)) ∨ (0 < s ∧ units m j < 2 ^ m * 2 ^ s) := by
  obtain ⟨a, r, rfl, h1, h2⟩ := split_bits m j
  rw [units_eq m a r h1 (by omega)]
  rcases Nat.lt_or_ge a s with h | h
  · right
    refine ⟨by omega, ?_⟩
    calc r * 2 ^ a < 2 ^ (m + 1) * 2 ^ a := Nat.mul_lt_mul_of_pos_right h2 (Nat.two_pow_pos a)
      _ = 2 ^ m * 2 ^ (a + 1) := by ring
      _ ≤ 2 ^ m * 2 ^ s := Nat.mul_le_mul_left _ (Nat.pow_le_pow_right (by omega) h)
  · left
    refine ⟨r * 2 ^ (a - s), ?_, ?_⟩
    · rw [Nat.mul_assoc, ← Nat.pow_add, Nat.sub_add_cancel h]
    · intro hs
      have := h1 (by omega)
      calc 2 ^ m ≤ r := this
        _ ≤ r * 2 ^ (a - s) := Nat.le_mul_of_pos_right r (Nat.two_pow_pos _)

/-- A multiple `r` of `D` within `D / 2` of `x` is a nearest one; another one is as near only at that distance. -/
theorem near_multiple (x D : ℚ) (r t : Nat) (hD : 0 < D) (hr : |(r : ℚ) * D - x| ≤ D / 2) :
    |(r : ℚ) * D - x| ≤ |(t : ℚ) * D - x| ∧ (t ≠ r → |(r : ℚ) * D - x| = |(t : ℚ) * D - x| → |(r : ℚ) * D - x| = D / 2) := by
  rcases eq_or_ne t r with h | h
  · subst h
    exact ⟨le_refl _, fun h => absurd rfl h⟩
  · have h1 : (1 : ℚ) ≤ |(t : ℚ) - r| := by
      have : (1 : ℤ) ≤ |(t : ℤ) - r| := by
        apply Int.one_le_abs
        intro hc
        apply h
        omega
      exact_mod_cast this
    have h2 : D ≤ |((t : ℚ) - r) * D| := by
      rw [abs_mul, abs_of_pos hD]
      nlinarith
    have h3 : |((t : ℚ) - r) * D| ≤ |(t : ℚ) * D - x| + |(r : ℚ) * D - x| := by
      have : ((t : ℚ) - r) * D = ((t : ℚ) * D - x) - ((r : ℚ) * D - x) := by ring
      rw [this]
      exact abs_sub _ _
    constructor
    · linarith
    · intro _ he
      linarith

theorem roundQuot_isRounded (m num den : Nat) (hm : 0 < m) (hd : 0 < den) :
    IsRounded m ((num : ℚ) / den) (roundQuot m num den) := by
  obtain ⟨h1, h2⟩ := shiftOf_spec m num den hd
  unfold roundQuot
  generalize hs : shiftOf m (num / den) = s at *
  have hD : 0 < den * 2 ^ s := Nat.mul_pos hd (Nat.two_pow_pos s)
  have hlo : 0 < s → 2 ^ m ≤ roundEven num (den * 2 ^ s) := fun h => le_roundEven _ _ _ hD (h1 h)
  have hhi : roundEven num (den * 2 ^ s) ≤ 2 ^ (m + 1) := roundEven_le _ _ _ hD h2
  obtain ⟨n1, n2⟩ := roundEven_near num (den * 2 ^ s) hD
  have ht := roundEven_tie num (den * 2 ^ s) hD
  generalize hr : roundEven num (den * 2 ^ s) = r at *
  have hu := units_eq m s r hlo hhi
  have hpar : (s * 2 ^ m + r) % 2 = r % 2 := by
    obtain ⟨n, rfl⟩ : ∃ n, m = n + 1 := ⟨m - 1, by omega⟩
    rw [Nat.pow_succ, ← Nat.mul_assoc]
    omega
  have hdq : (0 : ℚ) < den := by exact_mod_cast hd
  have h2s : (0 : ℚ) < 2 ^ s := by positivity
  -- distance to the result
  have hx : (num : ℚ) = (num / den : ℚ) * den := by field_simp
  have hdist : |(r : ℚ) * 2 ^ s - num / den| ≤ 2 ^ s / 2 := by
    have m1 : (2 * (r * (den * 2 ^ s)) : ℚ) ≤ 2 * num + den * 2 ^ s := by exact_mod_cast n1
    have m2 : (2 * num : ℚ) ≤ 2 * (r * (den * 2 ^ s)) + den * 2 ^ s := by exact_mod_cast n2
    rw [hx] at m1 m2
    rw [abs_le]
    constructor
    · have : (den : ℚ) * (2 * (num / den)) ≤ den * (2 * (r * 2 ^ s) + 2 ^ s) := by linarith
      have := le_of_mul_le_mul_left this hdq
      linarith
    · have : (den : ℚ) * (2 * (r * 2 ^ s)) ≤ den * (2 * (num / den) + 2 ^ s) := by linarith
      have := le_of_mul_le_mul_left this hdq
      linarith
  have htie : |(r : ℚ) * 2 ^ s - num / den| = 2 ^ s / 2 → r % 2 = 0 := by
    intro he
    apply ht
    rcases abs_eq (by positivity) |>.mp he with he | he
    · left
      have : (2 * (r * (den * 2 ^ s)) : ℚ) = 2 * num + den * 2 ^ s := by
        rw [hx]
        have : (r : ℚ) * 2 ^ s = num / den + 2 ^ s / 2 := by linarith
        have h' := congrArg (fun z : ℚ => 2 * (den : ℚ) * z) this
        linarith
      exact_mod_cast this
    · right
      have : (2 * num : ℚ) = 2 * (r * (den * 2 ^ s)) + den * 2 ^ s := by
        rw [hx]
        have : (r : ℚ) * 2 ^ s = num / den - 2 ^ s / 2 := by linarith
        have h' := congrArg (fun z : ℚ => 2 * (den : ℚ) * z) this
        linarith
      exact_mod_cast this
  have hu' : ((units m (s * 2 ^ m + r) : Nat) : ℚ) = r * 2 ^ s := by rw [hu]; push_cast; rfl
  -- against any other size
  have key : ∀ j, |(r : ℚ) * 2 ^ s - num / den| ≤ |(units m j : ℚ) - num / den| ∧
      (j ≠ s * 2 ^ m + r → |(r : ℚ) * 2 ^ s - num / den| = |(units m j : ℚ) - num / den| → r % 2 = 0) := by
    intro j
    rcases units_grid m s j with ⟨t, ht', _⟩ | ⟨hs0, hlt⟩
    · have hq : (units m j : ℚ) = t * 2 ^ s := by rw [ht']; push_cast; rfl
      obtain ⟨k1, k2⟩ := near_multiple (num / den) (2 ^ s) r t h2s hdist
      rw [hq]
      refine ⟨k1, fun hj he => htie (k2 ?_ he)⟩
      intro htr
      apply hj
      rw [← units_inj (m := m), hu, ht', htr]
    · obtain ⟨k1, _⟩ := near_multiple (num / den) (2 ^ s) r (2 ^ m) h2s hdist
      have hb : ((2 ^ m : Nat) : ℚ) * 2 ^ s ≤ num / den := by
        have h3 : ((2 ^ m * (den * 2 ^ s) : Nat) : ℚ) ≤ (num : ℚ) := by exact_mod_cast h1 hs0
        rw [le_div_iff₀ hdq]
        push_cast at h3 ⊢
        linarith
      have hlt' : (units m j : ℚ) < ((2 ^ m : Nat) : ℚ) * 2 ^ s := by exact_mod_cast hlt
      have hstrict : |((2 ^ m : Nat) : ℚ) * 2 ^ s - num / den| < |(units m j : ℚ) - num / den| := by
        rw [abs_of_nonpos (by linarith), abs_of_nonpos (by linarith)]
        linarith
      exact ⟨by linarith, fun _ he => absurd he (by intro hc; linarith)⟩
  constructor
  · intro j
    rw [hu']
    exact (key j).1
  · intro j hj
    rw [hu', hpar]
    exact (key j).2 hj

/-- `round` rounds. -/
theorem round_isRounded (m : Nat) (x : ℚ) (hm : 0 < m) : IsRounded m |x| (round m x) := by
  have := roundQuot_isRounded m x.num.natAbs x.den hm x.den_pos
  have e : ((x.num.natAbs : Nat) : ℚ) / x.den = |x| := by
    rw [Nat.cast_natAbs, Int.cast_abs]
    conv_rhs => rw [← Rat.num_div_den x]
    rw [abs_div, abs_of_pos (show (0 : ℚ) < x.den by exact_mod_cast x.den_pos)]
  rw [e] at this
  exact this

/-- Rounding is determined by its specification and keeps the order. -/
theorem IsRounded.mono {m : Nat} {x y : ℚ} {k l : Nat} (hk : IsRounded m x k) (hl : IsRounded m y l) (h : x ≤ y) : k ≤ l := by
  by_contra hc
  have hlt : l < k := by omega
  have h1 : (units m l : ℚ) < units m k := by exact_mod_cast units_lt_iff.mpr hlt
  have n1 := hk.near l
  have n2 := hl.near k
  -- `x` is not below the middle, `y` not above it
  have m1 : (units m l : ℚ) + units m k ≤ 2 * x := by
    by_contra hm
    push Not at hm
    rcases le_or_gt x (units m l : ℚ) with h2 | h2
    · rw [abs_of_nonneg (by linarith), abs_of_nonneg (by linarith)] at n1
      linarith
    · rw [abs_of_neg (show (units m l : ℚ) - x < 0 by linarith)] at n1
      have := le_abs_self ((units m k : ℚ) - x)
      linarith
  have m2 : 2 * y ≤ (units m l : ℚ) + units m k := by
    by_contra hm
    push Not at hm
    rcases le_or_gt (units m k : ℚ) y with h2 | h2
    · rw [abs_of_nonpos (by linarith), abs_of_nonpos (by linarith)] at n2
      linarith
    · rw [abs_of_pos (show (0 : ℚ) < (units m k : ℚ) - y by linarith)] at n2
      have := neg_abs_le ((units m l : ℚ) - y)
      linarith
  have ex : x = y := by linarith
  subst ex
  have e : |(units m k : ℚ) - x| = |(units m l : ℚ) - x| := by
    rw [abs_of_pos (by linarith), abs_of_neg (by linarith)]
    linarith
  have p1 := hk.even l (by omega) e
  have p2 := hl.even k (by omega) e.symm
  -- a size in between is nearer
  have hmid : l < l + 1 ∧ l + 1 < k := by omega
  have q1 : (units m l : ℚ) < units m (l + 1) := by exact_mod_cast units_lt_iff.mpr hmid.1
  have q2 : (units m (l + 1) : ℚ) < units m k := by exact_mod_cast units_lt_iff.mpr hmid.2
  have n3 := hl.near (l + 1)
  rw [abs_of_neg (show (units m l : ℚ) - x < 0 by linarith)] at n3
  rcases le_or_gt (units m (l + 1) : ℚ) x with h2 | h2
  · rw [abs_of_nonpos (by linarith)] at n3
    linarith
  · rw [abs_of_pos (by linarith)] at n3
    linarith

theorem IsRounded.unique {m : Nat} {x : ℚ} {k l : Nat} (hk : IsRounded m x k) (hl : IsRounded m x l) : k = l :=
  le_antisymm (hk.mono hl (le_refl x)) (hl.mono hk (le_refl x))

theorem isRounded_units (m k : Nat) : IsRounded m (units m k) k where
  near j := by
    rw [sub_self, abs_zero]
    exact abs_nonneg _
  even j hj he := by
    rw [sub_self, abs_zero] at he
    have := abs_eq_zero.mp he.symm
    exact absurd (units_inj.mp (by exact_mod_cast (sub_eq_zero.mp this))) hj

/-- A number that can be represented stays as it is. -/
theorem round_exact (m : Nat) (hm : 0 < m) (x : ℚ) (k : Nat) (h : |x| = units m k) : round m x = k := by
  have := round_isRounded m x hm
  rw [h] at this
  exact this.unique (isRounded_units m k)

theorem round_mono (m : Nat) (hm : 0 < m) {x y : ℚ} (h : |x| ≤ |y|) : round m x ≤ round m y :=
  (round_isRounded m x hm).mono (round_isRounded m y hm) h

theorem round_le (m : Nat) (hm : 0 < m) {x : ℚ} {k : Nat} (h : |x| ≤ units m k) : round m x ≤ k :=
  (round_isRounded m x hm).mono (isRounded_units m k) h

theorem le_round (m : Nat) (hm : 0 < m) {x : ℚ} {k : Nat} (h : (units m k : ℚ) ≤ |x|) : k ≤ round m x :=
  (isRounded_units m k).mono (round_isRounded m x hm) h

end Verif.Lib
