import Verif.Expr.OpProps

/-!
# Integer arithmetic, shifts and conversions (properties C56, C57)
-/

namespace Verif.Expr

variable {P : Prim}

open Val

/-! ## C56: integer arithmetic -/

theorem toInt_compl {w : Nat} (hw : 0 < w) (a : BitVec w) : (~~~a).toInt = -a.toInt - 1 := by
  have h := a.isLt
  have h2 : 2 ^ w = 2 * 2 ^ (w - 1) := by
    obtain ⟨k, rfl⟩ := Nat.exists_eq_add_of_lt hw
    simp [Nat.pow_succ, Nat.mul_comm]
  simp only [BitVec.toInt, BitVec.toNat_not]
  generalize 2 ^ (w - 1) = m at h2
  generalize hm : (2 ^ w : Nat) = k at *
  split <;> split <;> omega

theorem toNat_of_toInt {w : Nat} (a : BitVec w) : (a.toNat : Int) = a.toInt % (2 ^ w : Nat) := by
  have h := a.isLt
  simp only [BitVec.toInt]
  generalize (2 ^ w : Nat) = k at *
  split
  · rw [Int.emod_eq_of_lt (by omega) (by omega)]
  · rw [Int.sub_emod_right, Int.emod_eq_of_lt (by omega) (by omega)]

theorem bmod_congr {x y : Int} {m : Nat} (h : x % (m : Int) = y % (m : Int)) : x.bmod m = y.bmod m := by
  rw [Int.bmod_def, Int.bmod_def, h]

/-- `+`, `-`, `*`, unary minus and `~` on Int32 compute modulo 2^32: the result is the number in the range of int32 that is
congruent to the mathematical result. -/
theorem C56_int32 (a b : BitVec 32) :
    (∃ c, applyOp (P := P) .add (.int32 a) (.int32 b) = .ok (.int32 c) ∧ c.toInt = (a.toInt + b.toInt).bmod (2 ^ 32)) ∧
    (∃ c, applyOp (P := P) .subtract (.int32 a) (.int32 b) = .ok (.int32 c) ∧ c.toInt = (a.toInt - b.toInt).bmod (2 ^ 32)) ∧
    (∃ c, applyOp (P := P) .multiply (.int32 a) (.int32 b) = .ok (.int32 c) ∧ c.toInt = (a.toInt * b.toInt).bmod (2 ^ 32)) ∧
    (∃ c, unaryOp (P := P) .minus (.int32 a) = .ok (.int32 c) ∧ c.toInt = (-a.toInt).bmod (2 ^ 32)) ∧
    (∃ c, unaryOp (P := P) .not (.int32 a) = .ok (.int32 c) ∧ c.toInt = -a.toInt - 1) ∧
    unaryOp (P := P) .plus (.int32 a) = .ok (.int32 a) := by
  refine ⟨⟨_, rfl, BitVec.toInt_add a b⟩, ⟨_, rfl, BitVec.toInt_sub⟩, ⟨_, rfl, BitVec.toInt_mul a b⟩, ⟨_, rfl, BitVec.toInt_neg⟩,
    ⟨_, rfl, ?_⟩, rfl⟩
  exact toInt_compl (by decide) a

/-- The same on Int64. -/
theorem C56_int64 (a b : BitVec 64) :
    (∃ c, applyOp (P := P) .add (.int64 a) (.int64 b) = .ok (.int64 c) ∧ c.toInt = (a.toInt + b.toInt).bmod (2 ^ 64)) ∧
    (∃ c, applyOp (P := P) .subtract (.int64 a) (.int64 b) = .ok (.int64 c) ∧ c.toInt = (a.toInt - b.toInt).bmod (2 ^ 64)) ∧
    (∃ c, applyOp (P := P) .multiply (.int64 a) (.int64 b) = .ok (.int64 c) ∧ c.toInt = (a.toInt * b.toInt).bmod (2 ^ 64)) ∧
    (∃ c, unaryOp (P := P) .minus (.int64 a) = .ok (.int64 c) ∧ c.toInt = (-a.toInt).bmod (2 ^ 64)) ∧
    (∃ c, unaryOp (P := P) .not (.int64 a) = .ok (.int64 c) ∧ c.toInt = -a.toInt - 1) ∧
    unaryOp (P := P) .plus (.int64 a) = .ok (.int64 a) := by
  refine ⟨⟨_, rfl, BitVec.toInt_add a b⟩, ⟨_, rfl, BitVec.toInt_sub⟩, ⟨_, rfl, BitVec.toInt_mul a b⟩, ⟨_, rfl, BitVec.toInt_neg⟩,
    ⟨_, rfl, ?_⟩, rfl⟩
  exact toInt_compl (by decide) a

/-- Bitwise operators work on each bit. -/
theorem C56_bitwise {i : Nat} (a b : BitVec 32) (c d : BitVec 64) :
    (∃ x y, applyOp (P := P) .bitwiseAnd (.int32 a) (.int32 b) = .ok (.int32 x) ∧ x.getLsbD i = (a.getLsbD i && b.getLsbD i) ∧
      applyOp (P := P) .bitwiseAnd (.int64 c) (.int64 d) = .ok (.int64 y) ∧ y.getLsbD i = (c.getLsbD i && d.getLsbD i)) ∧
    (∃ x y, applyOp (P := P) .bitwiseOr (.int32 a) (.int32 b) = .ok (.int32 x) ∧ x.getLsbD i = (a.getLsbD i || b.getLsbD i) ∧
      applyOp (P := P) .bitwiseOr (.int64 c) (.int64 d) = .ok (.int64 y) ∧ y.getLsbD i = (c.getLsbD i || d.getLsbD i)) ∧
    (∃ x y, applyOp (P := P) .bitwiseXor (.int32 a) (.int32 b) = .ok (.int32 x) ∧ x.getLsbD i = (a.getLsbD i ^^ b.getLsbD i) ∧
      applyOp (P := P) .bitwiseXor (.int64 c) (.int64 d) = .ok (.int64 y) ∧ y.getLsbD i = (c.getLsbD i ^^ d.getLsbD i)) :=
  ⟨⟨_, _, rfl, BitVec.getLsbD_and, rfl, BitVec.getLsbD_and⟩, ⟨_, _, rfl, BitVec.getLsbD_or, rfl, BitVec.getLsbD_or⟩,
    ⟨_, _, rfl, BitVec.getLsbD_xor, rfl, BitVec.getLsbD_xor⟩⟩

/-- Mixed widths: the Int32 is widened, keeping its number. -/
theorem C56_mixed (a : BitVec 32) (b : BitVec 64) :
    ∃ c : BitVec 64, c.toInt = a.toInt ∧
      applyOp (P := P) .add (.int32 a) (.int64 b) = applyOp .add (.int64 c) (.int64 b) ∧
      applyOp (P := P) .subtract (.int64 b) (.int32 a) = applyOp .subtract (.int64 b) (.int64 c) ∧
      applyOp (P := P) .multiply (.int32 a) (.int64 b) = applyOp .multiply (.int64 c) (.int64 b) :=
  ⟨a.signExtend 64, BitVec.toInt_signExtend_of_le (by decide), rfl, rfl, rfl⟩

/-- Whole-number division and remainder truncate toward zero (and wrap for the smallest number divided by -1). -/
theorem C56_division (a b : BitVec 32) (c d : BitVec 64) (hb : b ≠ 0) (hd : d ≠ 0) :
    (∃ q, applyOp (P := P) .divide (.int32 a) (.int32 b) = .ok (.int32 q) ∧ q.toInt = (a.toInt.tdiv b.toInt).bmod (2 ^ 32)) ∧
    (∃ m, applyOp (P := P) .modulus (.int32 a) (.int32 b) = .ok (.int32 m) ∧ m.toInt = a.toInt.tmod b.toInt) ∧
    (∃ q, applyOp (P := P) .divide (.int64 c) (.int64 d) = .ok (.int64 q) ∧ q.toInt = (c.toInt.tdiv d.toInt).bmod (2 ^ 64)) ∧
    (∃ m, applyOp (P := P) .modulus (.int64 c) (.int64 d) = .ok (.int64 m) ∧ m.toInt = c.toInt.tmod d.toInt) := by
  refine ⟨⟨_, ?_, BitVec.toInt_sdiv a b⟩, ⟨_, ?_, BitVec.toInt_srem a b⟩, ⟨_, ?_, BitVec.toInt_sdiv c d⟩, ⟨_, ?_, BitVec.toInt_srem c d⟩⟩
  · show (if b = 0 then Res.panic else Res.ok (Val.int32 (a.sdiv b))) = _
    rw [if_neg hb]
  · show (if b = 0 then Res.panic else Res.ok (Val.int32 (a.srem b))) = _
    rw [if_neg hb]
  · show (if d = 0 then Res.panic else Res.ok (Val.int64 (c.sdiv d))) = _
    rw [if_neg hd]
  · show (if d = 0 then Res.panic else Res.ok (Val.int64 (c.srem d))) = _
    rw [if_neg hd]

example : applyOp (P := P) .divide (.int32 (-7)) (.int32 2) = .ok (.int32 (-3)) := rfl

/-! ### Shifts -/

theorem shiftAmount_nonneg {s : BitVec 64} {n : Nat} (h : 0 ≤ s.toInt) : shiftAmount s n = s.toNat := by
  rw [shiftAmount, if_neg (by omega)]

theorem shl_emod {w : Nat} (x : BitVec w) (n m : Nat) (h : m ∣ 2 ^ w) :
    ((x <<< n).toNat : Int) % (m : Int) = (x.toInt * 2 ^ n) % (m : Int) := by
  have hd : (m : Int) ∣ ((2 ^ w : Nat) : Int) := Int.natCast_dvd_natCast.mpr h
  rw [BitVec.toNat_shiftLeft, Nat.shiftLeft_eq, Int.natCast_emod, Int.emod_emod_of_dvd _ hd]
  rw [Int.natCast_mul, Int.natCast_pow, toNat_of_toInt, Int.mul_emod, Int.emod_emod_of_dvd _ hd, ← Int.mul_emod]
  rfl

/-- `<<` by a non-negative amount multiplies by a power of two, modulo the width. -/
theorem C56_shift_left (a : BitVec 32) (b s : BitVec 64) (hs : 0 ≤ s.toInt) :
    (∃ c, applyOp (P := P) .bitShiftLeft (.int32 a) (.int64 s) = .ok (.int32 c) ∧ c.toInt = (a.toInt * 2 ^ s.toNat).bmod (2 ^ 32)) ∧
    (∃ c, applyOp (P := P) .bitShiftLeft (.int64 b) (.int64 s) = .ok (.int64 c) ∧ c.toInt = (b.toInt * 2 ^ s.toNat).bmod (2 ^ 64)) := by
  constructor
  · refine ⟨_, rfl, ?_⟩
    rw [shiftAmount_nonneg hs, BitVec.truncate_eq_setWidth, BitVec.toInt_setWidth]
    apply bmod_congr
    rw [shl_emod _ _ _ ⟨2 ^ 32, rfl⟩, BitVec.toInt_signExtend_of_le (by decide)]
  · refine ⟨_, rfl, ?_⟩
    rw [shiftAmount_nonneg hs, BitVec.toInt_eq_toNat_bmod]
    apply bmod_congr
    rw [shl_emod _ _ _ ⟨1, rfl⟩]

example : applyOp (P := P) .bitShiftLeft (.int32 3) (.int64 4) = .ok (.int32 48) := rfl
example : applyOp (P := P) .bitShiftLeft (.int32 1) (.int64 32) = .ok (.int32 0) := rfl

theorem shr_floor {w : Nat} (x : BitVec w) (n : Nat) : (x.sshiftRight n).toInt = x.toInt / 2 ^ n := by
  rw [BitVec.toInt_sshiftRight, Int.shiftRight_eq_div_pow]
  rfl

theorem trunc_toInt {x : BitVec 64} (h1 : -2 ^ 31 ≤ x.toInt) (h2 : x.toInt < 2 ^ 31) : (x.truncate 32).toInt = x.toInt := by
  rw [BitVec.truncate_eq_setWidth, BitVec.toInt_setWidth]
  have h : (x.toNat : Int) % ((2 ^ 32 : Nat) : Int) = x.toInt % ((2 ^ 32 : Nat) : Int) := by
    rw [toNat_of_toInt, Int.emod_emod_of_dvd _ (show ((2 ^ 32 : Nat) : Int) ∣ ((2 ^ 64 : Nat) : Int) from ⟨2 ^ 32, rfl⟩)]
  rw [bmod_congr h, Int.bmod_def]
  split <;> omega

theorem floor_range {a : Int} (n : Nat) (h1 : -2 ^ 31 ≤ a) (h2 : a < 2 ^ 31) : -2 ^ 31 ≤ a / 2 ^ n ∧ a / 2 ^ n < 2 ^ 31 := by
  have hp : (1 : Int) ≤ 2 ^ n := Int.pow_pos (by decide)
  generalize (2 : Int) ^ n = k at *
  constructor
  · apply Int.le_ediv_of_mul_le (by omega)
    omega
  · apply Int.ediv_lt_of_lt_mul (by omega)
    omega

theorem int32_range (a : BitVec 32) : -2 ^ 31 ≤ a.toInt ∧ a.toInt < 2 ^ 31 :=
  ⟨BitVec.le_toInt a, BitVec.toInt_lt⟩

/-- `>>` by a non-negative amount on an Int32 keeps the sign: division by a power of two, rounding down. An Int64 is
    shifted as an unsigned number. -/
theorem C56_shift_right (a : BitVec 32) (b s : BitVec 64) (hs : 0 ≤ s.toInt) :
    (∃ c, applyOp (P := P) .bitShiftRight (.int32 a) (.int64 s) = .ok (.int32 c) ∧ c.toInt = a.toInt / 2 ^ s.toNat) ∧
    (∃ c, applyOp (P := P) .bitShiftRight (.int64 b) (.int64 s) = .ok (.int64 c) ∧ c.toNat = b.toNat / 2 ^ s.toNat) := by
  constructor
  · refine ⟨_, rfl, ?_⟩
    have hr := floor_range s.toNat (int32_range a).1 (int32_range a).2
    have h : (((a.signExtend 64).sshiftRight s.toNat)).toInt = a.toInt / 2 ^ s.toNat := by
      rw [shr_floor, BitVec.toInt_signExtend_of_le (by decide)]
    rw [shiftAmount_nonneg hs, trunc_toInt (by rw [h]; exact hr.1) (by rw [h]; exact hr.2), h]
  · refine ⟨_, rfl, ?_⟩
    rw [shiftAmount_nonneg hs, BitVec.toNat_ushiftRight, Nat.shiftRight_eq_div_pow]

example : applyOp (P := P) .bitShiftRight (.int32 (-9)) (.int64 1) = .ok (.int32 (-5)) := rfl

/-- Partial: an Int64 that is not negative is shifted right arithmetically. Missing: negative ones, see the next theorem. -/
theorem C56_shift_right_int64_partial (b s : BitVec 64) (hs : 0 ≤ s.toInt) (hb : 0 ≤ b.toInt) :
    ∃ c, applyOp (P := P) .bitShiftRight (.int64 b) (.int64 s) = .ok (.int64 c) ∧ c.toInt = b.toInt / 2 ^ s.toNat := by
  obtain ⟨c, h, hc⟩ := (C56_shift_right (P := P) 0 b s hs).2
  refine ⟨c, h, ?_⟩
  have hbn : b.toInt = (b.toNat : Int) := by
    have := b.isLt
    rw [BitVec.toInt_eq_toNat_cond] at hb ⊢
    split at hb <;> split <;> omega
  have hle : c.toNat ≤ b.toNat := by rw [hc]; exact Nat.div_le_self _ _
  have hlt : b.toNat < 2 ^ 63 := by
    have := BitVec.toInt_lt (x := b)
    omega
  rw [BitVec.toInt_eq_toNat_cond, if_pos (by omega), hc, hbn]
  push_cast
  rfl

example : applyOp (P := P) .bitShiftRight (.int64 9) (.int64 1) = .ok (.int64 4) := rfl

/-- The two widths disagree about negative numbers: -2 >> 1 is -1 for an Int32 and the largest Int64 for an Int64. -/
theorem C56_shift_right_false :
    applyOp (P := P) .bitShiftRight (.int32 (-2)) (.int64 1) = .ok (.int32 (-1)) ∧
    applyOp (P := P) .bitShiftRight (.int64 (-2)) (.int64 1) = .ok (.int64 (BitVec.ofInt 64 (2 ^ 63 - 1))) :=
  ⟨rfl, rfl⟩

theorem srem_abs {s m : BitVec 64} {n : Nat} (h : s.toInt < 0) (hm : m.toInt = n) (hn : n = 32 ∨ n = 64) :
    ((abs s).srem m).toInt = -s.toInt % n := by
  rw [BitVec.toInt_srem, hm, abs, if_pos h, BitVec.toInt_neg]
  have h1 := BitVec.le_toInt s
  rw [Int.bmod_def]
  rcases hn with rfl | rfl
  · split
    · rw [Int.tmod_eq_emod_of_nonneg (by omega)]
      omega
    · have : s.toInt = -2 ^ 63 := by omega
      rw [this]
      rfl
  · split
    · rw [Int.tmod_eq_emod_of_nonneg (by omega)]
      omega
    · have : s.toInt = -2 ^ 63 := by omega
      rw [this]
      rfl

theorem shiftAmount_neg {s : BitVec 64} {n : Nat} (h : s.toInt < 0) (hn : n = 32 ∨ n = 64) :
    (shiftAmount s n : Int) = if s.toInt % n = 0 then (n : Int) else s.toInt % n := by
  have hm : (BitVec.ofNat 64 n).toInt = n := by rcases hn with rfl | rfl <;> rfl
  have hk : (BitVec.ofNat 64 n).toNat = n := by rcases hn with rfl | rfl <;> rfl
  have hr := srem_abs h hm hn
  rw [shiftAmount, if_pos h, BitVec.toNat_sub, hk]
  generalize (abs s).srem (BitVec.ofNat 64 n) = r at *
  have hrn : (r.toNat : Int) = r.toInt := by
    have := r.isLt
    rw [BitVec.toInt_eq_toNat_cond] at hr ⊢
    rcases hn with rfl | rfl <;> split <;> split at hr <;> omega
  rcases hn with rfl | rfl <;> split <;> omega

/-- Partial: a negative amount wraps. Shifting by `s` is shifting by the amount in `1 .. width - 1` that is congruent to `s`.
    Missing: the amounts that are multiples of the width, see the next theorem. -/
theorem C56_negative_amount_partial (a : BitVec 32) (b s t : BitVec 64) (hs : s.toInt < 0) :
    (t.toInt = s.toInt % 32 → s.toInt % 32 ≠ 0 →
      applyOp (P := P) .bitShiftLeft (.int32 a) (.int64 s) = applyOp .bitShiftLeft (.int32 a) (.int64 t) ∧
      applyOp (P := P) .bitShiftRight (.int32 a) (.int64 s) = applyOp .bitShiftRight (.int32 a) (.int64 t)) ∧
    (t.toInt = s.toInt % 64 → s.toInt % 64 ≠ 0 →
      applyOp (P := P) .bitShiftLeft (.int64 b) (.int64 s) = applyOp .bitShiftLeft (.int64 b) (.int64 t) ∧
      applyOp (P := P) .bitShiftRight (.int64 b) (.int64 s) = applyOp .bitShiftRight (.int64 b) (.int64 t)) := by
  have key : ∀ n : Nat, (n = 32 ∨ n = 64) → t.toInt = s.toInt % n → s.toInt % n ≠ 0 → shiftAmount s n = shiftAmount t n := by
    intro n hn ht hz
    have h1 := shiftAmount_neg hs hn
    rw [if_neg hz] at h1
    have hpos : 0 ≤ t.toInt := by rw [ht]; rcases hn with rfl | rfl <;> omega
    have hlt : t.toInt < 64 := by rw [ht]; rcases hn with rfl | rfl <;> omega
    rw [shiftAmount_nonneg hpos]
    have : (t.toNat : Int) = t.toInt := by
      have := t.isLt
      rw [BitVec.toInt_eq_toNat_cond] at hpos ⊢
      split <;> split at hpos <;> omega
    omega
  constructor
  · intro ht hz
    have e := key 32 (.inl rfl) ht hz
    constructor
    · show Res.ok (Val.int32 (((a.signExtend 64) <<< shiftAmount s 32).truncate 32)) = Res.ok (Val.int32 (((a.signExtend 64) <<< shiftAmount t 32).truncate 32))
      rw [e]
    · show Res.ok (Val.int32 (((a.signExtend 64).sshiftRight (shiftAmount s 32)).truncate 32)) = Res.ok (Val.int32 (((a.signExtend 64).sshiftRight (shiftAmount t 32)).truncate 32))
      rw [e]
  · intro ht hz
    have e := key 64 (.inr rfl) ht hz
    constructor
    · show Res.ok (Val.int64 (b <<< shiftAmount s 64)) = Res.ok (Val.int64 (b <<< shiftAmount t 64))
      rw [e]
    · show Res.ok (Val.int64 (b >>> shiftAmount s 64)) = Res.ok (Val.int64 (b >>> shiftAmount t 64))
      rw [e]

example : applyOp (P := P) .bitShiftLeft (.int32 5) (.int64 (-31)) = .ok (.int32 10) ∧ (1 : BitVec 64).toInt = (-31 : BitVec 64).toInt % 32 :=
  ⟨rfl, rfl⟩

/-- A negative multiple of the width does not wrap to zero: every bit is shifted out, while shifting by zero keeps them. -/
theorem C56_negative_amount_false :
    applyOp (P := P) .bitShiftLeft (.int32 5) (.int64 (-32)) = .ok (.int32 0) ∧
    applyOp (P := P) .bitShiftLeft (.int32 5) (.int64 0) = .ok (.int32 5) ∧
    applyOp (P := P) .bitShiftLeft (.int64 5) (.int64 (-64)) = .ok (.int64 0) ∧
    applyOp (P := P) .bitShiftRight (.int32 5) (.int64 (-32)) = .ok (.int32 0) :=
  ⟨rfl, rfl, rfl, rfl⟩

end Verif.Expr
