import Verif.Tssc.Spec
import Mathlib.Tactic.Ring

/-!
# Seven-bit encoded integers (C12)
-/

namespace Verif.Tssc

/-- The constant exclusive-ored at the end: the continuation bits of the first `k` bytes. -/
def contMask (w : Nat) : Nat → BitVec w
  | 0 => 0#w
  | k + 1 => contMask w k ^^^ (1#w <<< (7 * (k + 1)))

/-- The unrolled decoders as a recursion. -/
def decode7 (w last : Nat) : Nat → BitVec w → List Byte → Res (BitVec w × Nat)
  | _, _, [] => .panic
  | k, acc, s :: r =>
    let acc := acc ^^^ (s.setWidth w <<< (7 * k))
    if k < last ∧ ¬ acc < BitVec.ofNat w (2 ^ (7 * (k + 1))) then decode7 w last (k + 1) acc r
    else .ok (acc ^^^ contMask w k, k + 1)

theorem decode7_32 (l : List Byte) : decode7BitUInt32 l = decode7 32 4 0 0#32 l := by
  unfold decode7BitUInt32
  rcases l with _ | ⟨s0, r⟩
  · rfl
  simp only [decode7, Nat.mul_zero, BitVec.shiftLeft_zero, BitVec.zero_xor]
  split
  · rename_i h
    rw [if_neg (by rw [not_and, not_not]; intro _; exact h)]
    simp [contMask]
  rename_i h0
  rw [if_pos ⟨by omega, h0⟩]
  rcases r with _ | ⟨s1, r⟩
  · rfl
  simp only [decode7]
  split
  · rename_i h
    rw [if_neg (by rw [not_and, not_not]; intro _; exact h)]
    rfl
  rename_i h1
  rw [if_pos ⟨by omega, h1⟩]
  rcases r with _ | ⟨s2, r⟩
  · rfl
  simp only [decode7]
  split
  · rename_i h
    rw [if_neg (by rw [not_and, not_not]; intro _; exact h)]
    rfl
  rename_i h2
  rw [if_pos ⟨by omega, h2⟩]
  rcases r with _ | ⟨s3, r⟩
  · rfl
  simp only [decode7]
  split
  · rename_i h
    rw [if_neg (by rw [not_and, not_not]; intro _; exact h)]
    rfl
  rename_i h3
  rw [if_pos ⟨by omega, h3⟩]
  rcases r with _ | ⟨s4, r⟩
  · rfl
  simp only [decode7]
  rw [if_neg (by omega)]
  rfl

theorem decode7_64 (l : List Byte) : decode7BitUInt64 l = decode7 64 8 0 0#64 l := by
  unfold decode7BitUInt64
  rcases l with _ | ⟨s0, r⟩
  · rfl
  simp only [decode7, Nat.mul_zero, BitVec.shiftLeft_zero, BitVec.zero_xor]
  split
  · rename_i h
    rw [if_neg (by rw [not_and, not_not]; intro _; exact h)]
    simp [contMask]
  rename_i h0
  rw [if_pos ⟨by omega, h0⟩]
  iterate 7
    rcases r with _ | ⟨s, r⟩
    · rfl
    simp only [decode7]
    split
    · rename_i h
      rw [if_neg (by rw [not_and, not_not]; intro _; exact h)]
      rfl
    rename_i h
    rw [if_pos ⟨by omega, h⟩]
    clear h
  rcases r with _ | ⟨s, r⟩
  · rfl
  simp only [decode7]
  rw [if_neg (by omega)]
  rfl

theorem contMask_bit (w k i : Nat) (hi : i < w) :
    (contMask w k).getLsbD i = decide (i % 7 = 0 ∧ 7 ≤ i ∧ i ≤ 7 * k) := by
  induction k with
  | zero => simp [contMask]; omega
  | succ k ih =>
    rw [contMask, BitVec.getLsbD_xor, ih, BitVec.getLsbD_shiftLeft]
    by_cases h1 : i = 7 * (k + 1)
    · subst h1
      simp [hi]
      omega
    · have e : (i % 7 = 0 ∧ 7 ≤ i ∧ i ≤ 7 * (k + 1)) ↔ (i % 7 = 0 ∧ 7 ≤ i ∧ i ≤ 7 * k) := by omega
      simp only [e]
      by_cases h2 : i < 7 * (k + 1)
      · simp [h2]
      · have h3 : ¬ (i - 7 * (k + 1) = 0) := by omega
        simp only [BitVec.getLsbD_one, h3]
        simp

/-- What has been accumulated after `k` continued bytes of the encoding of `v`. -/
def AccInv {w : Nat} (v : BitVec w) (k : Nat) (acc : BitVec w) : Prop :=
  ∀ i < w, acc.getLsbD i = ((decide (i < 7 * k) && v.getLsbD i) ^^ (contMask w k).getLsbD i)

theorem contByte_bit (u j : Nat) (hj : j < 8) :
    (BitVec.ofNat 8 (u % 128 + 128)).getLsbD j = ((decide (j < 7) && u.testBit j) || decide (j = 7)) := by
  rw [BitVec.getLsbD_ofNat]
  have h1 : u % 128 + 128 = 2 ^ 7 + u % 2 ^ 7 := by omega
  rw [h1, decide_eq_true hj, Bool.true_and]
  by_cases h : j = 7
  · subst h
    rw [Nat.testBit_two_pow_add_eq, Nat.testBit_lt_two_pow (Nat.mod_lt _ (by decide))]
    rfl
  · rw [Nat.testBit_two_pow_add_gt (by omega), Nat.testBit_mod_two_pow]
    simp [h]

theorem lastByte_bit (u j : Nat) (hj : j < 8) : (BitVec.ofNat 8 u).getLsbD j = u.testBit j := by
  rw [BitVec.getLsbD_ofNat, decide_eq_true hj, Bool.true_and]

theorem shifted_bit {w : Nat} (v : BitVec w) (k j : Nat) :
    (v.toNat / 2 ^ (7 * k)).testBit j = v.getLsbD (7 * k + j) := by
  rw [← Nat.shiftRight_eq_div_pow, Nat.testBit_shiftRight]
  rfl

theorem setWidth_shift_bit (w : Nat) (s : Byte) (k i : Nat) (hi : i < w) :
    (s.setWidth w <<< (7 * k)).getLsbD i = (decide (7 * k ≤ i) && s.getLsbD (i - 7 * k)) := by
  rw [BitVec.getLsbD_shiftLeft, BitVec.getLsbD_setWidth]
  by_cases h : i < 7 * k
  · have : ¬ 7 * k ≤ i := by omega
    simp [h, this]
  · have h1 : 7 * k ≤ i := by omega
    have h2 : i - 7 * k < w := by omega
    simp [hi, h, h1, h2]

/-- One continued byte. -/
theorem acc_cont {w : Nat} (v : BitVec w) (k : Nat) (acc : BitVec w) (h : AccInv v k acc) :
    AccInv v (k + 1) (acc ^^^
      ((BitVec.ofNat 8 (v.toNat / 2 ^ (7 * k) % 128 + 128)).setWidth w <<< (7 * k))) := by
  intro i hi
  rw [BitVec.getLsbD_xor, h i hi, setWidth_shift_bit w _ k i hi, contMask_bit w k i hi,
    contMask_bit w (k + 1) i hi]
  by_cases h1 : 7 * k ≤ i
  · by_cases h2 : i - 7 * k < 8
    · rw [contByte_bit _ _ h2, shifted_bit]
      have h3 : 7 * k + (i - 7 * k) = i := by omega
      rw [h3]
      by_cases h4 : i - 7 * k = 7
      · have e1 : ¬ i < 7 * k := by omega
        have e2 : ¬ i < 7 * (k + 1) := by omega
        have e3 : ¬ i ≤ 7 * k := by omega
        have e4 : i % 7 = 0 ∧ 7 ≤ i ∧ i ≤ 7 * (k + 1) := by omega
        simp [h1, h4, e1, e2, e3, e4]
      · have e1 : ¬ i < 7 * k := by omega
        have e2 : i < 7 * (k + 1) := by omega
        have e3 : i - 7 * k < 7 := by omega
        have e4 : (i % 7 = 0 ∧ 7 ≤ i ∧ i ≤ 7 * (k + 1)) ↔ (i % 7 = 0 ∧ 7 ≤ i ∧ i ≤ 7 * k) := by omega
        simp only [h1, h4, e1, e2, e3, e4]
        cases v.getLsbD i <;> simp
    · have e0 : (BitVec.ofNat 8 (v.toNat / 2 ^ (7 * k) % 128 + 128)).getLsbD (i - 7 * k) = false :=
        BitVec.getLsbD_of_ge _ _ (by omega)
      have e1 : ¬ i < 7 * k := by omega
      have e2 : ¬ i < 7 * (k + 1) := by omega
      have e3 : ¬ i ≤ 7 * k := by omega
      have e4 : ¬ i ≤ 7 * (k + 1) := by omega
      simp [e0, e1, e2, e3, e4]
  · have e1 : i < 7 * k := by omega
    have e2 : i < 7 * (k + 1) := by omega
    have e4 : (i % 7 = 0 ∧ 7 ≤ i ∧ i ≤ 7 * (k + 1)) ↔ (i % 7 = 0 ∧ 7 ≤ i ∧ i ≤ 7 * k) := by omega
    simp [h1, e1, e2, e4]

/-- The last byte completes the value. -/
theorem acc_last {w : Nat} (v : BitVec w) (k : Nat) (acc : BitVec w) (h : AccInv v k acc)
    (hv : v.toNat / 2 ^ (7 * k) < 256) :
    acc ^^^ ((BitVec.ofNat 8 (v.toNat / 2 ^ (7 * k))).setWidth w <<< (7 * k)) = v ^^^ contMask w k := by
  apply BitVec.eq_of_getLsbD_eq
  intro i hi
  rw [BitVec.getLsbD_xor, h i hi, setWidth_shift_bit w _ k i hi, BitVec.getLsbD_xor]
  by_cases h1 : 7 * k ≤ i
  · have e1 : ¬ i < 7 * k := by omega
    have h3 : 7 * k + (i - 7 * k) = i := by omega
    by_cases h2 : i - 7 * k < 8
    · rw [lastByte_bit _ _ h2, shifted_bit, h3]
      simp [h1, e1, Bool.xor_comm]
    · have e0 : (BitVec.ofNat 8 (v.toNat / 2 ^ (7 * k))).getLsbD (i - 7 * k) = false :=
        BitVec.getLsbD_of_ge _ _ (by omega)
      have e5 : v.getLsbD i = false := by
        rw [← h3, ← shifted_bit]
        apply Nat.testBit_lt_two_pow
        calc v.toNat / 2 ^ (7 * k) < 2 ^ 8 := hv
          _ ≤ 2 ^ (i - 7 * k) := Nat.pow_le_pow_right (by omega) (by omega)
      simp [e0, e1, e5]
  · have e1 : i < 7 * k := by omega
    simp [h1, e1]

theorem decode7_encode7 (w last : Nat) (hw : 7 * last < w) (v : BitVec w)
    (hlast : v.toNat / 2 ^ (7 * last) < 256) (n : Nat) :
    ∀ (k : Nat) (acc : BitVec w), k + n = last → AccInv v k acc → ∀ rest : List Byte,
      decode7 w last k acc (encode7 n (v.toNat / 2 ^ (7 * k)) ++ rest) =
        .ok (v, k + (encode7 n (v.toNat / 2 ^ (7 * k))).length) := by
  induction n with
  | zero =>
    intro k acc hk hacc rest
    have : k = last := by omega
    subst this
    simp only [encode7, List.cons_append, List.nil_append, decode7, List.length_cons, List.length_nil]
    rw [if_neg (by omega), acc_last v k acc hacc hlast, BitVec.xor_assoc, BitVec.xor_self,
      BitVec.xor_zero]
  | succ n ih =>
    intro k acc hk hacc rest
    have hpow : 2 ^ (7 * (k + 1)) < 2 ^ w := Nat.pow_lt_pow_right (by omega) (by omega)
    rw [encode7]
    split
    · rename_i hlt
      simp only [List.cons_append, List.nil_append, decode7, List.length_cons, List.length_nil]
      rw [acc_last v k acc hacc (by omega)]
      have hsmall : (v ^^^ contMask w k).toNat < 2 ^ (7 * (k + 1)) := by
        apply Nat.lt_pow_two_of_testBit
        intro i hi
        have : (v ^^^ contMask w k).toNat.testBit i = (v ^^^ contMask w k).getLsbD i := rfl
        rw [this, BitVec.getLsbD_xor]
        by_cases hiw : i < w
        · have e5 : v.getLsbD i = false := by
            have h3 : 7 * k + (i - 7 * k) = i := by omega
            rw [← h3, ← shifted_bit]
            apply Nat.testBit_lt_two_pow
            calc v.toNat / 2 ^ (7 * k) < 2 ^ 7 := hlt
              _ ≤ 2 ^ (i - 7 * k) := Nat.pow_le_pow_right (by omega) (by omega)
          rw [e5, contMask_bit w k i hiw]
          have : ¬ i ≤ 7 * k := by omega
          simp [this]
        · rw [BitVec.getLsbD_of_ge _ _ (by omega), BitVec.getLsbD_of_ge _ _ (by omega)]
          rfl
      rw [if_neg, BitVec.xor_assoc, BitVec.xor_self, BitVec.xor_zero]
      rw [not_and, not_not, BitVec.lt_def, BitVec.toNat_ofNat, Nat.mod_eq_of_lt hpow]
      exact fun _ => hsmall
    · rename_i hge
      simp only [List.cons_append, decode7, List.length_cons]
      have hinv := acc_cont v k acc hacc
      have hbig : ¬ (acc ^^^ ((BitVec.ofNat 8 (v.toNat / 2 ^ (7 * k) % 128 + 128)).setWidth w <<<
          (7 * k))) < BitVec.ofNat w (2 ^ (7 * (k + 1))) := by
        rw [BitVec.lt_def, BitVec.toNat_ofNat, Nat.mod_eq_of_lt hpow, Nat.not_lt]
        apply Nat.ge_two_pow_of_testBit
        have := hinv (7 * (k + 1)) (by omega)
        rw [contMask_bit w (k + 1) _ (by omega)] at this
        have e4 : (7 * (k + 1)) % 7 = 0 ∧ 7 ≤ 7 * (k + 1) ∧ 7 * (k + 1) ≤ 7 * (k + 1) := by omega
        rw [decide_eq_true e4] at this
        rw [← BitVec.testBit_toNat] at this
        rw [this]
        simp
      rw [if_pos ⟨by omega, hbig⟩]
      have hdiv : v.toNat / 2 ^ (7 * k) / 128 = v.toNat / 2 ^ (7 * (k + 1)) := by
        rw [Nat.div_div_eq_div_mul]
        congr 1
        rw [show 7 * (k + 1) = 7 * k + 7 by omega, Nat.pow_add]
      rw [hdiv, ih (k + 1) _ (by omega) hinv rest]
      congr 2
      omega

theorem accInv_zero {w : Nat} (v : BitVec w) : AccInv v 0 0#w := by
  intro i hi
  simp [contMask]

/-- **C12 (32 bit).** Reading the seven-bit encoding of any 32-bit value, whatever follows it, gives the
value and consumes exactly its bytes; there are at most five of them. -/
theorem C12_uint32_roundtrip (v : BitVec 32) (rest : List Byte) :
    decode7BitUInt32 (encode7BitUInt32 v ++ rest) = .ok (v, (encode7BitUInt32 v).length) ∧
      (encode7BitUInt32 v).length ≤ 5 := by
  have h : v.toNat < 4294967296 := v.isLt
  constructor
  · rw [decode7_32]
    have := decode7_encode7 32 4 (by omega) v (by norm_num; omega) 4 0 0#32 rfl (accInv_zero v) rest
    simpa [encode7BitUInt32] using this
  · unfold encode7BitUInt32
    simp only [encode7]
    repeat' split
    all_goals simp

/-- **C12 (64 bit).** The same for 64-bit values; there are at most nine bytes. -/
theorem C12_uint64_roundtrip (v : BitVec 64) (rest : List Byte) :
    decode7BitUInt64 (encode7BitUInt64 v ++ rest) = .ok (v, (encode7BitUInt64 v).length) ∧
      (encode7BitUInt64 v).length ≤ 9 := by
  have h : v.toNat < 18446744073709551616 := v.isLt
  constructor
  · rw [decode7_64]
    have := decode7_encode7 64 8 (by omega) v (by norm_num; omega) 8 0 0#64 rfl (accInv_zero v) rest
    simpa [encode7BitUInt64] using this
  · unfold encode7BitUInt64
    simp only [encode7]
    repeat' split
    all_goals simp

/-- Non-trivial cases: a value of three bytes, and the largest value. -/
example : encode7BitUInt32 1000000#32 = [192#8, 132#8, 61#8] := by decide
example : decode7BitUInt64 (encode7BitUInt64 18446744073709551615#64 ++ [7#8]) =
    .ok (18446744073709551615#64, 9) := by decide +kernel

end Verif.Tssc
