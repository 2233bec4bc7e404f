import Verif.Lib.Go
import Mathlib.Tactic.Linarith
import Mathlib.Tactic.LinearCombination

/-!
# C79 for dates any time apart

DateDiff counts hours, minutes and seconds in floating point: `time.Duration.Hours` is the float of the whole hours plus that of the rest
divided, days and weeks are quotients of hours. The number of whole intervals comes out right as long as the time between the dates is a multiple
of `g` nanoseconds and at most 9·10¹⁵ times that: for dates with microseconds up to 285 years, with ticks of 100 nanoseconds up to 28 years.
-/

namespace Verif.Lib

open Bin

/-- The double nearest to a number, as a number. -/
def V (x : ℚ) : ℚ := (ofRat false x : Double).val

theorem zero_val (z : Bool) : (Bin.zero z : Double).val = 0 := (Bin.val_eq_zero_iff (Bin.zero z)).mpr (show (0 : Nat) = 0 from rfl)

theorem ofRat_V (z : Bool) (x : ℚ) : (ofRat z x : Double).val = V x := by
  unfold V
  by_cases h : x = 0
  · subst h
    rw [Bin.ofRat_zero (by norm_num), Bin.ofRat_zero (by norm_num), zero_val, zero_val]
  · have : (ofRat z x : Double) = ofRat false x := by
      apply Bin.ext'
      · show (if x = 0 then _ else decide (x < 0)) = if x = 0 then _ else decide (x < 0)
        rw [if_neg h, if_neg h]
      · rfl
    rw [this]

theorem V_neg (x : ℚ) : V (-x) = -V x := by
  have hm : (ofRat false (-x) : Double).mag = (ofRat false x : Double).mag := by
    rw [ofRat_mag, ofRat_mag]
    have : -x / unit 52 11 = -(x / unit 52 11) := by ring
    rw [this]
    unfold Lib.round
    rw [Rat.neg_num, Rat.neg_den, Int.natAbs_neg]
  unfold V
  rcases lt_trichotomy x 0 with h | h | h
  · rw [val_pos (ofRat_pos (by linarith)), val_neg (ofRat_neg h), hm, neg_neg]
  · subst h
    rw [neg_zero, Bin.ofRat_zero (by norm_num), zero_val, neg_zero]
  · rw [val_neg (ofRat_neg (by linarith)), val_pos (ofRat_pos h), hm]

theorem V_mono {x y : ℚ} (h : x ≤ y) : V x ≤ V y := (key_le_iff _ _).mp (ofRat_mono (by norm_num) _ _ h)

theorem V_nonneg {x : ℚ} (h : 0 ≤ x) : 0 ≤ V x := (ofRat_sign (by norm_num) false x).1 h

theorem U_eq : unitExp 52 11 = 1074 := rfl

/-- Multiples of a power of one half with up to 53 bits are doubles. -/
theorem exact_grid (M e : Nat) (hM : M ≤ 2 ^ 53) (he : e ≤ 1000) :
    (ofRat false ((M : ℚ) / 2 ^ e) : Double).Finite ∧ V ((M : ℚ) / 2 ^ e) = (M : ℚ) / 2 ^ e := by
  have hpos := infMag_pos (m := 52) (w := 11)
  have hx : |(M : ℚ) / 2 ^ e| = (M : ℚ) * 2 ^ (unitExp 52 11 - e) * unit 52 11 := by
    rw [abs_of_nonneg (by positivity)]
    have h2 : (2 : ℚ) ^ unitExp 52 11 = 2 ^ (unitExp 52 11 - e) * 2 ^ e := by
      rw [← pow_add]
      congr 1
      rw [U_eq]
      omega
    have h3 := pow_mul_unit 52 11
    rw [h2] at h3
    rw [div_eq_iff (by positivity)]
    linear_combination -(M : ℚ) * h3
  refine ofRat_exact (by norm_num) false _ M (unitExp 52 11 - e) hM hx (k := infMag 52 11 - 1) (by omega) ?_
  have h1 := in_range (m := 52) (w := 11) M hM
  refine le_trans (Nat.mul_le_mul_left _ (Nat.pow_le_pow_right (by norm_num) (by omega))) h1

theorem finite_small (z : Bool) {x : ℚ} (h : |x| ≤ 2 ^ 53) : (ofRat z x : Double).Finite := by
  have hpos := infMag_pos (m := 52) (w := 11)
  refine ofRat_finite (by norm_num) z (k := infMag 52 11 - 1) (by omega) ?_
  have h1 := in_range (m := 52) (w := 11) (2 ^ 53) (le_refl _)
  have h2 : (((2 ^ 53 * 2 ^ unitExp 52 11 : Nat) : ℚ)) ≤ (units 52 (infMag 52 11 - 1) : ℚ) := by exact_mod_cast h1
  have h3 := pow_mul_unit 52 11
  have hu := unit_pos 52 11
  calc |x| ≤ 2 ^ 53 := h
    _ = 2 ^ 53 * (2 ^ unitExp 52 11 * unit 52 11) := by rw [h3, mul_one]
    _ = ((2 ^ 53 * 2 ^ unitExp 52 11 : Nat) : ℚ) * unit 52 11 := by push_cast; ring
    _ ≤ _ := mul_le_mul_of_nonneg_right h2 (le_of_lt hu)

/-- Doubles that are large against a power of one half are multiples of it. -/
theorem on_grid (f : Double) (e : Nat) (he : e ≤ 1000) (h : (2 : ℚ) ^ 52 ≤ f.val * 2 ^ e) : ∃ n : Int, f.val * 2 ^ e = n := by
  have hv : 0 ≤ f.val := by
    by_contra hv
    have h2 : (0 : ℚ) < 2 ^ e := by positivity
    have : f.val * 2 ^ e < 0 := mul_neg_of_neg_of_pos (not_le.mp hv) h2
    linarith [show (0 : ℚ) < 2 ^ 52 by positivity]
  obtain ⟨s, r, hk, h1, h2⟩ := split_bits 52 f.mag
  have hu : (units 52 f.mag : ℚ) = r * 2 ^ s := by
    rw [hk, units_eq 52 s r h1 (by omega)]; push_cast; rfl
  have hval : f.val = r * 2 ^ s * unit 52 11 := by rw [← hu, ← abs_val, abs_of_nonneg hv]
  have hunit := unit_pos 52 11
  have h3 := pow_mul_unit 52 11
  generalize unitExp 52 11 = U at *
  generalize unit 52 11 = d at *
  have hU : U ≤ s + e := by
    by_contra hlt
    have h4 : s + e + 1 ≤ U := by omega
    have h5 : (2 : ℚ) ^ s * 2 ^ e * 2 ≤ 2 ^ U := by
      rw [← pow_add, ← pow_succ]
      exact pow_le_pow_right₀ (by norm_num) h4
    have hr : (r : ℚ) < 2 ^ 53 := by exact_mod_cast h2
    have h6 : (2 : ℚ) ^ s * 2 ^ e * 2 * d ≤ 1 := by
      rw [← h3]
      exact mul_le_mul_of_nonneg_right h5 (le_of_lt hunit)
    have h7 : (0 : ℚ) < 2 ^ s * 2 ^ e * d := by positivity
    rw [hval] at h
    have h8 : (r : ℚ) * (2 ^ s * 2 ^ e * d) < 2 ^ 53 * (2 ^ s * 2 ^ e * d) := mul_lt_mul_of_pos_right hr h7
    have : (2 : ℚ) ^ 52 < 2 ^ 52 := by
      calc (2 : ℚ) ^ 52 ≤ r * 2 ^ s * d * 2 ^ e := h
        _ = r * (2 ^ s * 2 ^ e * d) := by ring
        _ < 2 ^ 53 * (2 ^ s * 2 ^ e * d) := h8
        _ = 2 ^ 52 * (2 ^ s * 2 ^ e * 2 * d) := by ring
        _ ≤ 2 ^ 52 * 1 := mul_le_mul_of_nonneg_left h6 (by positivity)
        _ = 2 ^ 52 := mul_one _
    exact lt_irrefl _ this
  refine ⟨(r * 2 ^ (s + e - U) : Nat), ?_⟩
  rw [hval]
  push_cast
  have h4 : (2 : ℚ) ^ s * 2 ^ e = 2 ^ (s + e - U) * 2 ^ U := by
    rw [← pow_add, ← pow_add]
    congr 1
    omega
  linear_combination (r : ℚ) * d * h4 + (r : ℚ) * 2 ^ (s + e - U) * h3

/-- Below a number on the grid there is room for a step. -/
theorem step_below (f : Double) (M e : Nat) (he : e ≤ 1000) (hM : 2 ^ 52 < M) (h : f.val * 2 ^ e < M) : f.val * 2 ^ e ≤ M - 1 := by
  rcases lt_or_ge (f.val * 2 ^ e) ((2 : ℚ) ^ 52) with h1 | h1
  · have : ((2 ^ 52 + 1 : Nat) : ℚ) ≤ M := by exact_mod_cast hM
    push_cast at this
    linarith
  · obtain ⟨n, hn⟩ := on_grid f e he h1
    rw [hn] at h ⊢
    have h2 : n < (M : Int) := by exact_mod_cast h
    have h3 : n ≤ (M : Int) - 1 := by omega
    exact_mod_cast h3

/-- A number more than half a step below one on the grid is not rounded up to it. -/
theorem rounds_below (x : ℚ) (M e : Nat) (he : e ≤ 1000) (hM : 2 ^ 52 < M) (hM2 : M ≤ 2 ^ 53) (h0 : 0 ≤ x) (h : x * 2 ^ e < M - 1 / 2) :
    V x < M / 2 ^ e := by
  have hp : (0 : ℚ) < 2 ^ e := by positivity
  have hx : x ≤ (M : ℚ) / 2 ^ e := by
    rw [le_div_iff₀ hp]
    linarith
  have hle : V x ≤ M / 2 ^ e := by
    rw [← (exact_grid M e hM2 he).2]
    exact V_mono hx
  refine lt_of_le_of_ne hle fun heq => ?_
  have hfin : (ofRat false x : Double).Finite := by
    apply finite_small
    rw [abs_of_nonneg h0]
    refine le_trans hx ?_
    rw [div_le_iff₀ hp]
    have h1 : (M : ℚ) ≤ 2 ^ 53 := by exact_mod_cast hM2
    have h2 : (1 : ℚ) ≤ 2 ^ e := one_le_pow₀ (by norm_num)
    nlinarith
  obtain ⟨gf, gv⟩ := exact_grid (M - 1) e (by omega) he
  have hn := ofRat_nearest (by norm_num) false x hfin (ofRat false (((M - 1 : Nat) : ℚ) / 2 ^ e))
  have e1 : (ofRat false x : Double).val = M / 2 ^ e := heq
  have e2 : (ofRat false (((M - 1 : Nat) : ℚ) / 2 ^ e) : Double).val = (M - 1) / 2 ^ e := by
    show V _ = _
    rw [gv]
    push_cast [show 1 ≤ M by omega]
    rfl
  rw [e1, e2] at hn
  have h3 : |(M : ℚ) / 2 ^ e - x| * 2 ^ e ≤ |((M : ℚ) - 1) / 2 ^ e - x| * 2 ^ e := mul_le_mul_of_nonneg_right hn (le_of_lt hp)
  have h4 : ∀ y : ℚ, |y / 2 ^ e - x| * 2 ^ e = |y - x * 2 ^ e| := by
    intro y
    rw [← abs_of_pos hp, ← abs_mul, abs_of_pos hp, sub_mul, div_mul_cancel₀ _ (ne_of_gt hp)]
  rw [h4, h4, abs_of_pos (by linarith)] at h3
  rcases abs_cases ((M : ℚ) - 1 - x * 2 ^ e) with ⟨h5, -⟩ | ⟨h5, -⟩ <;> rw [h5] at h3 <;> linarith

/-- Every whole number has a grid on which it has 53 bits. -/
theorem has_grid (K : Nat) (h0 : 0 < K) (h : K ≤ 2 ^ 53) : ∃ e, e ≤ 53 ∧ 2 ^ 52 < K * 2 ^ e ∧ K * 2 ^ e ≤ 2 ^ 53 := by
  rcases Nat.eq_or_lt_of_le (show 1 ≤ K from h0) with h1 | h1
  · exact ⟨53, le_refl _, by rw [← h1]; norm_num, by rw [← h1]; norm_num⟩
  · obtain ⟨h2, h3⟩ := log2_bounds (K - 1) (by omega)
    generalize Nat.log2 (K - 1) = L at *
    have hL : L ≤ 52 := by
      by_contra hL
      have : 2 ^ 53 ≤ 2 ^ L := Nat.pow_le_pow_right (by norm_num) (by omega)
      omega
    have e1 : 2 ^ L * 2 ^ (52 - L) = 2 ^ 52 := by rw [← Nat.pow_add]; congr 1; omega
    have hp : 0 < 2 ^ (52 - L) := Nat.two_pow_pos _
    refine ⟨52 - L, by omega, ?_, ?_⟩
    · rw [← e1]
      exact Nat.mul_lt_mul_of_pos_right (by omega) hp
    · have e2 : 2 ^ (L + 1) * 2 ^ (52 - L) = 2 ^ 53 := by rw [← Nat.pow_add]; congr 1; omega
      rw [← e2]
      exact Nat.mul_le_mul_right _ (by omega)

theorem V_whole (n : Nat) (h : n ≤ 2 ^ 53) : V n = n := by
  have := (exact_grid n 0 h (by norm_num)).2
  rwa [pow_zero, div_one] at this

/-- Division by a whole number keeps the whole part of the quotient. -/
theorem quotient_floor (f : Double) (j c : Nat) (hc : 0 < c) (hb : c * (j / c + 1) ≤ 2 ^ 53) (h1 : (j : ℚ) ≤ f.val) (h2 : f.val < j + 1) :
    ((j / c : Nat) : ℚ) ≤ V (f.val / c) ∧ V (f.val / c) < (j / c : Nat) + 1 := by
  obtain ⟨J, hJ⟩ : ∃ J, J = j / c := ⟨_, rfl⟩
  rw [← hJ] at hb ⊢
  have hcq : (0 : ℚ) < c := by exact_mod_cast hc
  have d1 : c * J ≤ j := by rw [hJ]; exact Nat.mul_div_le j c
  have d2 : j + 1 ≤ c * (J + 1) := by
    rw [hJ, Nat.mul_add, Nat.mul_one]
    have := Nat.lt_mul_div_succ j hc
    rw [Nat.mul_add, Nat.mul_one] at this
    omega
  have hJb : J + 1 ≤ 2 ^ 53 := le_trans (Nat.le_mul_of_pos_left _ hc) hb
  have hf0 : 0 ≤ f.val := le_trans (Nat.cast_nonneg j) h1
  constructor
  · rw [← V_whole J (by omega)]
    apply V_mono
    rw [le_div_iff₀ hcq]
    have : ((c * J : Nat) : ℚ) ≤ j := by exact_mod_cast d1
    push_cast at this
    linarith
  · obtain ⟨e0, he0, g1, g2⟩ := has_grid (c * (J + 1)) (Nat.mul_pos hc (Nat.succ_pos J)) hb
    obtain ⟨e, he, k1, k2⟩ := has_grid (J + 1) (Nat.succ_pos J) hJb
    have hp0 : (0 : ℚ) < 2 ^ e0 := by positivity
    have hp : (0 : ℚ) < 2 ^ e := by positivity
    have hlt : f.val < ((c * (J + 1) : Nat) : ℚ) := lt_of_lt_of_le h2 (by exact_mod_cast d2)
    have hs := step_below f (c * (J + 1) * 2 ^ e0) e0 (by omega) g1 (by
      push_cast at hlt ⊢
      exact mul_lt_mul_of_pos_right hlt hp0)
    push_cast at hs
    have hw : (c : ℚ) * 2 ^ e0 < 2 * 2 ^ e := by
      have a1 : (2 : ℚ) ^ 52 < (J + 1) * 2 ^ e := by exact_mod_cast k1
      have a2 : (c : ℚ) * (J + 1) * 2 ^ e0 ≤ 2 ^ 53 := by exact_mod_cast g2
      have hJq : (0 : ℚ) < J + 1 := by positivity
      by_contra hw
      have := mul_le_mul_of_nonneg_left (not_lt.mp hw) (le_of_lt hJq)
      have e53 : (2 : ℚ) ^ 53 = 2 * 2 ^ 52 := by norm_num
      nlinarith
    have := rounds_below (f.val / c) ((J + 1) * 2 ^ e) e (by omega) k1 k2 (by positivity) (by
      push_cast
      have a3 : f.val / c * 2 ^ e * (c * 2 ^ e0) = f.val * 2 ^ e0 * 2 ^ e := by field_simp
      have a4 : (0 : ℚ) < c * 2 ^ e0 := by positivity
      refine lt_of_mul_lt_mul_right ?_ (le_of_lt a4)
      rw [a3]
      have a5 : f.val * 2 ^ e0 * 2 ^ e ≤ ((c : ℚ) * (J + 1) * 2 ^ e0 - 1) * 2 ^ e := mul_le_mul_of_nonneg_right hs (le_of_lt hp)
      linarith)
    push_cast at this ⊢
    rwa [mul_div_cancel_right₀ _ (ne_of_gt hp)] at this

/-- The whole part of a duration in some unit is kept by the sum of whole part and rest. -/
theorem sum_floor (n u g : Nat) (hg : 0 < g) (hu : 0 < u) (h1 : g ∣ n) (h2 : g ∣ u) (h : u * (n / u + 1) ≤ 2 ^ 53 * g) :
    ((n / u : Nat) : ℚ) ≤ V ((n / u : Nat) + V ((n % u : Nat) / u)) ∧ V ((n / u : Nat) + V ((n % u : Nat) / u)) < (n / u : Nat) + 1 := by
  have hgu : g ≤ u := Nat.le_of_dvd hu h2
  have hr : n % u + g ≤ u := by
    have hd : g ∣ u - n % u := Nat.dvd_sub h2 ((Nat.dvd_mod_iff h2).mpr h1)
    have hlt := Nat.mod_lt n hu
    have := Nat.le_of_dvd (by omega) hd
    omega
  have hK : n / u + 1 ≤ 2 ^ 53 := by
    have : u * (n / u + 1) ≤ u * 2 ^ 53 := le_trans h (by rw [Nat.mul_comm u]; exact Nat.mul_le_mul_left _ hgu)
    exact Nat.le_of_mul_le_mul_left this hu
  generalize n / u = q at *
  generalize n % u = r at *
  have huq : (0 : ℚ) < u := by exact_mod_cast hu
  have hr0 : (0 : ℚ) ≤ r / u := by positivity
  constructor
  · have hv := V_nonneg hr0
    calc ((q : Nat) : ℚ) = V q := (V_whole q (by omega)).symm
      _ ≤ _ := V_mono (by linarith)
  · obtain ⟨e, he, k1, k2⟩ := has_grid (q + 1) (Nat.succ_pos q) hK
    have hp : (0 : ℚ) < 2 ^ e := by positivity
    have hv : V (r / u) ≤ 1 - ((q : ℚ) + 1) / 2 ^ 53 := by
      have e1 : ((2 ^ 53 - (q + 1) : Nat) : ℚ) / 2 ^ 53 = 1 - ((q : ℚ) + 1) / 2 ^ 53 := by
        rw [Nat.cast_sub hK]
        push_cast
        ring
      rw [← e1, ← (exact_grid (2 ^ 53 - (q + 1)) 53 (by omega) (by norm_num)).2]
      apply V_mono
      rw [e1, div_le_iff₀ huq]
      have a1 : (u : ℚ) * (q + 1) ≤ 2 ^ 53 * g := by exact_mod_cast h
      have a2 : (r : ℚ) + g ≤ u := by exact_mod_cast hr
      have a3 : ((q : ℚ) + 1) / 2 ^ 53 * u ≤ g := by
        rw [div_mul_eq_mul_div, div_le_iff₀ (by positivity)]
        linarith
      linarith
    have := rounds_below (q + V (r / u)) ((q + 1) * 2 ^ e) e (by omega) k1 k2 (by have := V_nonneg hr0; positivity) (by
      push_cast
      have a1 : (2 : ℚ) ^ 52 < (q + 1) * 2 ^ e := by exact_mod_cast k1
      have a2 : (q + V (r / u)) * 2 ^ e ≤ (q + (1 - ((q : ℚ) + 1) / 2 ^ 53)) * 2 ^ e := mul_le_mul_of_nonneg_right (by linarith) (le_of_lt hp)
      have a3 : ((q : ℚ) + 1) / 2 ^ 53 * 2 ^ e = (q + 1) * 2 ^ e / 2 ^ 53 := by ring
      have a4 : (1 : ℚ) / 2 < (q + 1) * 2 ^ e / 2 ^ 53 := by
        rw [lt_div_iff₀ (by positivity)]
        linarith [show (2 : ℚ) ^ 53 = 2 * 2 ^ 52 by norm_num]
      nlinarith)
    push_cast at this ⊢
    rwa [mul_div_cancel_right₀ _ (ne_of_gt hp)] at this

/-- The double has the whole part `j`, up to its sign. -/
def Told (f : Double) (neg : Bool) (j : Nat) : Prop := f.Finite ∧ ∃ y : ℚ, (j : ℚ) ≤ y ∧ y < j + 1 ∧ f.val = if neg then -y else y

theorem Told.trunc {f : Double} {neg : Bool} {j : Nat} (h : Told f neg j) : truncRat f.val = if neg then -(j : Int) else j := by
  obtain ⟨-, y, h1, h2, h3⟩ := h
  have hy : truncRat y = j := by
    rw [truncRat_nonneg (le_trans (Nat.cast_nonneg j) h1), Int.floor_eq_iff]
    exact ⟨by exact_mod_cast h1, by exact_mod_cast h2⟩
  rw [h3]
  cases neg
  · exact hy
  · show truncRat (-y) = -(j : Int)
    rw [truncRat_neg, hy]

theorem div_val {f g : Double} (hf : f.Finite) (hg : g.Finite) (h0 : g.val ≠ 0) (h : |f.val / g.val| ≤ 2 ^ 53) :
    (Bin.div f g).Finite ∧ (Bin.div f g).val = V (f.val / g.val) := by
  have n1 := (Bin.finite_iff _).mp hf
  have n2 := (Bin.finite_iff _).mp hg
  unfold Bin.div
  rw [if_neg (by rintro (h | h); exacts [n1.1 h, n2.1 h]), if_neg n1.2, if_neg n2.2, if_neg (by
    intro hz
    rw [← Bin.val_eq_zero_iff] at hz
    exact h0 hz)]
  exact ⟨finite_small _ h, ofRat_V _ _⟩

theorem add_val {f g : Double} (hf : f.Finite) (hg : g.Finite) (h : |f.val + g.val| ≤ 2 ^ 53) :
    (Bin.add f g).Finite ∧ (Bin.add f g).val = V (f.val + g.val) := by
  have n1 := (Bin.finite_iff _).mp hf
  have n2 := (Bin.finite_iff _).mp hg
  unfold Bin.add
  rw [if_neg (by rintro (h | h); exacts [n1.1 h, n2.1 h]), if_neg n1.2, if_neg n2.2]
  exact ⟨finite_small _ h, ofRat_V _ _⟩

theorem Told.div {f : Double} {neg : Bool} {j : Nat} (h : Told f neg j) (c : Nat) (hc : 0 < c) (hb : c * (j / c + 1) ≤ 2 ^ 53) :
    Told (Bin.div f (Bin.ofInt c)) neg (j / c) := by
  obtain ⟨hf, y, h1, h2, h3⟩ := h
  have hc53 : c ≤ 2 ^ 53 := le_trans (Nat.le_mul_of_pos_right _ (Nat.succ_pos _)) hb
  obtain ⟨cf, cv⟩ := ofInt_val (c : Int) (by simpa using hc53)
  have hcq : (0 : ℚ) < c := by exact_mod_cast hc
  have cv' : (Bin.ofInt (c : Int) : Double).val = c := by rw [cv]; rfl
  have y0 : 0 ≤ y := le_trans (Nat.cast_nonneg j) h1
  have hj : j + 1 ≤ 2 ^ 53 := by
    have := Nat.lt_mul_div_succ j hc
    exact le_trans this hb
  have hyle : y ≤ 2 ^ 53 := by
    have : ((j + 1 : Nat) : ℚ) ≤ ((2 ^ 53 : Nat) : ℚ) := by exact_mod_cast hj
    push_cast at this
    linarith
  have habs : |f.val| = y := by
    rw [h3]
    cases neg
    · exact abs_of_nonneg y0
    · show |(-y)| = y
      rw [abs_neg, abs_of_nonneg y0]
  have hq : |f.val / c| ≤ 2 ^ 53 := by
    rw [abs_div, habs, abs_of_pos hcq, div_le_iff₀ hcq]
    have : (1 : ℚ) ≤ c := by exact_mod_cast hc
    nlinarith
  obtain ⟨r1, r2⟩ := div_val hf cf (by rw [cv']; exact ne_of_gt hcq) (by rw [cv']; exact hq)
  rw [cv'] at r2
  refine ⟨r1, V (y / c), ?_⟩
  cases neg
  · have h3 : f.val = y := h3
    obtain ⟨q1, q2⟩ := quotient_floor f j c hc hb (by rw [h3]; exact h1) (by rw [h3]; exact h2)
    rw [h3] at q1 q2 r2
    exact ⟨q1, q2, r2⟩
  · have h3 : f.val = -y := h3
    have h4 : f.neg_.val = y := by rw [val_neg_, h3, neg_neg]
    obtain ⟨q1, q2⟩ := quotient_floor f.neg_ j c hc hb (by rw [h4]; exact h1) (by rw [h4]; exact h2)
    rw [h4] at q1 q2
    rw [h3, neg_div, V_neg] at r2
    exact ⟨q1, q2, r2⟩

theorem sum_told (u : Nat) (hu : 0 < u) (hu2 : u ≤ 2 ^ 53) (neg : Bool) (q r : Nat) (hq : q + 1 ≤ 2 ^ 53) (hr : r < u)
    (s1 : (q : ℚ) ≤ V (q + V (r / u))) (s2 : V (q + V (r / u)) < q + 1) :
    Told (Bin.add (Bin.ofInt (if neg then -(q : Int) else q)) (Bin.div (Bin.ofInt (if neg then -(r : Int) else r)) (Bin.ofInt (u : Int)))) neg q := by
  have huq : (0 : ℚ) < u := by exact_mod_cast hu
  have hqr : (q : ℚ) + 1 ≤ 2 ^ 53 := by exact_mod_cast hq
  obtain ⟨qf, qv⟩ := ofInt_val (if neg then -(q : Int) else q) (by cases neg <;> simp <;> omega)
  obtain ⟨rf, rv⟩ := ofInt_val (if neg then -(r : Int) else r) (by cases neg <;> simp <;> omega)
  obtain ⟨uf, uv⟩ := ofInt_val (u : Int) (by simpa using hu2)
  have uv' : (Bin.ofInt (u : Int) : Double).val = u := by rw [uv]; rfl
  have hru : (r : ℚ) / u ≤ 1 := by
    rw [div_le_one huq]
    exact_mod_cast le_of_lt hr
  have hru0 : (0 : ℚ) ≤ r / u := by positivity
  have rv' : (Bin.ofInt (if neg then -(r : Int) else r) : Double).val / u = if neg then -((r : ℚ) / u) else r / u := by
    rw [rv]
    cases neg
    · simp
    · simp [neg_div]
  have qv' : (Bin.ofInt (if neg then -(q : Int) else q) : Double).val = if neg then -(q : ℚ) else q := by
    rw [qv]
    cases neg <;> simp
  obtain ⟨df, dv⟩ := div_val rf uf (by rw [uv']; exact ne_of_gt huq) (by
    rw [uv', rv']
    have : |(r : ℚ) / u| ≤ 2 ^ 53 := by
      rw [abs_of_nonneg hru0]
      linarith [show (1 : ℚ) ≤ 2 ^ 53 by norm_num]
    cases neg
    · simp only [Bool.false_eq_true, if_false]
      exact this
    · simp only [if_true, abs_neg]
      exact this)
  rw [uv', rv'] at dv
  have hV1 : V ((r : ℚ) / u) ≤ 1 := by
    have := V_mono hru
    have e1 := V_whole 1 (by norm_num)
    rw [Nat.cast_one] at e1
    linarith
  have hV0 := V_nonneg hru0
  have dv' : (Bin.div (Bin.ofInt (if neg then -(r : Int) else r)) (Bin.ofInt (u : Int)) : Double).val = if neg then -V (r / u) else V (r / u) := by
    rw [dv]
    cases neg
    · simp only [Bool.false_eq_true, if_false]
    · simp only [if_true, V_neg]
  have hsum : (if neg then -(q : ℚ) else q) + (if neg then -V (r / u) else V (r / u)) = if neg then -(q + V (r / u)) else q + V (r / u) := by
    cases neg
    · simp only [Bool.false_eq_true, if_false]
    · simp only [if_true]
      ring
  have habs : |(q : ℚ) + V (r / u)| ≤ 2 ^ 53 := by
    rw [abs_of_nonneg (by positivity)]
    linarith
  obtain ⟨af, av⟩ := add_val qf df (by
    rw [qv', dv', hsum]
    cases neg
    · simp only [Bool.false_eq_true, if_false]
      exact habs
    · simp only [if_true, abs_neg]
      exact habs)
  rw [qv', dv', hsum] at av
  refine ⟨af, _, s1, s2, ?_⟩
  rw [av]
  cases neg
  · simp only [Bool.false_eq_true, if_false]
  · simp only [if_true, V_neg]

theorem tdiv_sign (i : Int) (u : Nat) : i.tdiv u = if decide (i < 0) = true then -((i.natAbs / u : Nat) : Int) else (i.natAbs / u : Nat) := by
  by_cases hi : i < 0
  · rw [if_pos (decide_eq_true hi)]
    obtain ⟨k, rfl⟩ : ∃ k : Nat, i = -k := ⟨i.natAbs, by omega⟩
    rw [Int.neg_tdiv, Int.natAbs_neg, Int.natAbs_natCast]
    rfl
  · rw [if_neg (by simpa using hi)]
    obtain ⟨k, rfl⟩ : ∃ k : Nat, i = k := ⟨i.natAbs, by omega⟩
    rfl

theorem tmod_sign (i : Int) (u : Nat) : i.tmod u = if decide (i < 0) = true then -((i.natAbs % u : Nat) : Int) else (i.natAbs % u : Nat) := by
  by_cases hi : i < 0
  · rw [if_pos (decide_eq_true hi)]
    obtain ⟨k, rfl⟩ : ∃ k : Nat, i = -k := ⟨i.natAbs, by omega⟩
    rw [Int.neg_tmod, Int.natAbs_neg, Int.natAbs_natCast]
    rfl
  · rw [if_neg (by simpa using hi)]
    obtain ⟨k, rfl⟩ : ∃ k : Nat, i = k := ⟨i.natAbs, by omega⟩
    rfl

theorem durIn_told (u g : Nat) (d : BitVec 64) (hg : 0 < g) (hu : 0 < u) (hu2 : u ≤ 2 ^ 53) (h1 : g ∣ d.toInt.natAbs) (h2 : g ∣ u)
    (h : u * (d.toInt.natAbs / u + 1) ≤ 2 ^ 53 * g) : Told (durIn u d) (decide (d.toInt < 0)) (d.toInt.natAbs / u) := by
  obtain ⟨s1, s2⟩ := sum_floor d.toInt.natAbs u g hg hu h1 h2 h
  have hK : d.toInt.natAbs / u + 1 ≤ 2 ^ 53 := by
    have : u * (d.toInt.natAbs / u + 1) ≤ u * 2 ^ 53 := le_trans h (by rw [Nat.mul_comm u]; exact Nat.mul_le_mul_left _ (Nat.le_of_dvd hu h2))
    exact Nat.le_of_mul_le_mul_left this hu
  have hr := Nat.mod_lt d.toInt.natAbs hu
  unfold durIn
  have := sum_told u hu hu2 (decide (d.toInt < 0)) (d.toInt.natAbs / u) (d.toInt.natAbs % u) hK hr s1 s2
  rw [tdiv_sign, tmod_sign]
  exact this

theorem toInt32_told {R : Rest} {f : Double} {d : Int} {len : Nat} (h : Told f (decide (d < 0)) (d.natAbs / len))
    (h1 : -2 ^ 31 ≤ d.tdiv len) (h2 : d.tdiv len < 2 ^ 31) : toSigned R 32 f = BitVec.ofInt 32 (d.tdiv len) := by
  unfold toSigned
  rw [h.trunc, ← tdiv_sign, if_pos ⟨h.1, by omega, by omega⟩]

variable {R : Rest}

open Expr Calendar

/-- C79: DateDiff gives the number of whole intervals (hours, minutes, seconds, milliseconds, days, weeks) between two dates, rounded towards zero
and negative when the second is earlier, if the time between them is a multiple of `g` nanoseconds, `g` a divisor of a second, and at most 9·10¹⁵
times that, and the number is an Int32. -/
theorem C79_whole_part {v w : Val (go R)} {t u : Int} (hv : Gives v t) (hw : Gives w u) {n : Str} {i : Interval} (hn : Names (go R) n i)
    {len : Int} (hi : lengthOf i = some len) {g : Nat} (hg : g ∣ 1000000000) (hd : (g : Int) ∣ u - t) (hb : (u - t).natAbs ≤ 9000000000000000 * g)
    (h1 : -2 ^ 63 ≤ u - t) (h2 : u - t < 2 ^ 63) (h3 : -2 ^ 31 ≤ (u - t).tdiv len) (h4 : (u - t).tdiv len < 2 ^ 31) :
    call .dateDiff [v, w, .string n] = .ok (.int32 (BitVec.ofInt 32 ((u - t).tdiv len))) := by
  rw [dateDiff_eq hv hw hn]
  have hs : ((go R).timeSub u t).toInt = u - t := sub_toInt (goClock R) (t := t) (u := u) h1 h2
  generalize hz : (go R).timeSub u t = z at hs
  suffices timeDiff (P := go R) t u i = BitVec.ofInt 32 ((u - t).tdiv len) by rw [this]
  generalize u - t = d at *
  have hc : BitVec.ofInt 64 (clamp (u - t)) = z := hz
  have hg0 : 0 < g := Nat.pos_of_dvd_of_pos hg (by norm_num)
  have hg9 : g ≤ 1000000000 := Nat.le_of_dvd (by norm_num) hg
  have hdn : g ∣ z.toInt.natAbs := by rw [hs]; exact Int.natCast_dvd.mp hd
  have key : ∀ c : Nat, 0 < c → c ≤ 3600 → Told (durIn (c * 1000000000 : Nat) z) (decide (d < 0)) (d.natAbs / (c * 1000000000)) := by
    intro c c1 c2
    have := durIn_told (c * 1000000000) g z hg0 (by omega) (by omega) hdn (Dvd.dvd.mul_left hg c) (by
      rw [hs, Nat.mul_add, Nat.mul_one]
      have := Nat.mul_div_le d.natAbs (c * 1000000000)
      have : c * 1000000000 ≤ 3600000000000 := by omega
      omega)
    rwa [hs] at this
  have hours : Told (durIn Calendar.hour z) (decide (d < 0)) (d.natAbs / 3600000000000) := key 3600 (by omega) (by omega)
  have days : Told (Bin.div (durIn Calendar.hour z) (Bin.ofInt 24)) (decide (d < 0)) (d.natAbs / 86400000000000) := by
    have := hours.div 24 (by norm_num) (by omega)
    rwa [Nat.div_div_eq_div_mul] at this
  have weeks : Told (Bin.div (Bin.div (durIn Calendar.hour z) (Bin.ofInt 24)) (Bin.ofInt 7)) (decide (d < 0)) (d.natAbs / 604800000000000) := by
    have := days.div 7 (by norm_num) (by omega)
    rwa [Nat.div_div_eq_div_mul] at this
  cases i <;> simp only [lengthOf, reduceCtorEq, Option.some.injEq] at hi <;> subst hi
  · simp only [timeDiff, hc]
    exact toInt32_told (len := 86400000000000) days h3 h4
  · simp only [timeDiff, hc]
    exact toInt32_told (len := 86400000000000) days h3 h4
  · simp only [timeDiff, hc]
    exact toInt32_told (len := 604800000000000) weeks h3 h4
  · simp only [timeDiff, hc]
    exact toInt32_told (len := 86400000000000) days h3 h4
  · simp only [timeDiff, hc]
    exact toInt32_told (len := 3600000000000) hours h3 h4
  · simp only [timeDiff, hc]
    exact toInt32_told (len := 60000000000) (key 60 (by omega) (by omega)) h3 h4
  · simp only [timeDiff, hc]
    exact toInt32_told (len := 1000000000) (key 1 (by omega) (by omega)) h3 h4
  · simp only [timeDiff, hc]
    rw [millis, hs]

/-- 1 hour, 59 minutes, 59.999999 seconds before midnight at the end of year 285 are 1 hour. -/
example : let t : Int := 285 * 365 * day - (2 * Calendar.hour - 1000); let u : Int := 285 * 365 * day
    ((1000 : Nat) : Int) ∣ u - t ∧ (u - t).natAbs ≤ 9000000000000000 * 1000 ∧ (u - t).tdiv Calendar.hour = 1 := by decide

/-- C79 fails for dates told to the nanosecond: 2,000,000 hours less one nanosecond (228 years) are told as 2,000,000 hours. -/
theorem C79_nanoseconds_false {v w : Val (go R)} {t : Int} (hv : Gives v t) (hw : Gives w (t + (2000000 * Calendar.hour - 1))) {n : Str}
    (hn : Names (go R) n .hour) : call .dateDiff [v, w, .string n] = .ok (.int32 2000000) := by
  rw [dateDiff_eq hv hw hn]
  have hs : ((go R).timeSub (t + (2000000 * Calendar.hour - 1) : Int) t).toInt = 2000000 * Calendar.hour - 1 := by
    have e : t + (2000000 * Calendar.hour - 1) - t = 2000000 * Calendar.hour - 1 := by omega
    have := sub_toInt (goClock R) (t := t) (u := (t + (2000000 * Calendar.hour - 1) : Int)) (show _ ≤ t + _ - t by rw [e]; decide) (show t + _ - t < _ by rw [e]; decide)
    rw [this]
    exact e
  have hz : (go R).timeSub (t + (2000000 * Calendar.hour - 1) : Int) t = BitVec.ofInt 64 (2000000 * Calendar.hour - 1) := by
    apply BitVec.eq_of_toInt_eq
    rw [hs]
    decide
  suffices timeDiff (P := go R) t (t + (2000000 * Calendar.hour - 1) : Int) .hour = 2000000 by rw [this]
  have hc : BitVec.ofInt 64 (clamp (t + (2000000 * Calendar.hour - 1) - t)) = BitVec.ofInt 64 (2000000 * Calendar.hour - 1) := hz
  simp only [timeDiff]
  rw [hc]
  have hf : durIn Calendar.hour (BitVec.ofInt 64 (2000000 * Calendar.hour - 1)) = Bin.ofInt 2000000 := by decide +kernel
  rw [hf]
  exact toSigned_ofInt R 32 2000000 (by norm_num) (by norm_num) (by norm_num)

end Verif.Lib
