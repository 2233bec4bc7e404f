import Verif.Tssc.CodeProps
import Verif.Tssc.VarintProps
import Mathlib.Tactic.IntervalCases

/-!
# Reading stream elements back from the buffer layout
-/

namespace Verif.Tssc

/-- The buffer holds exactly the stream elements `toks`. -/
structure Holds (toks : List Tok) (b : Buf) : Prop where
  rest : b.rest = layout b.bitCount toks
  count : b.bitCount = (tokBits toks).length % 8
  bits : ∀ i < b.bitCount, b.bitCache.getLsbD (b.bitCount - 1 - i) = ((tokBits toks)[i]?).getD false

theorem packNat_lt (n : Nat) (bs : List Bool) : packNat n bs < 2 ^ n := by
  induction n generalizing bs with
  | zero => simp [packNat]
  | succ n ih =>
    cases bs with
    | nil => simp [packNat]
    | cons b bs =>
      have := ih bs
      rw [packNat, Nat.pow_succ]
      cases b <;> simp <;> omega

theorem packNat_bit (n : Nat) (bs : List Bool) (i : Nat) (h : i < n) :
    (packNat n bs).testBit (n - 1 - i) = (bs[i]?).getD false := by
  induction n generalizing bs i with
  | zero => omega
  | succ n ih =>
    cases bs with
    | nil => simp [packNat]
    | cons b bs =>
      have hlt := packNat_lt n bs
      rw [packNat]
      cases i with
      | zero =>
        have : n + 1 - 1 - 0 = n := by omega
        rw [this]
        cases b
        · simp [Nat.testBit_lt_two_pow hlt]
        · rw [Bool.toNat_true, Nat.one_mul, Nat.testBit_two_pow_add_eq, Nat.testBit_lt_two_pow hlt]
          rfl
      | succ i =>
        have e : n + 1 - 1 - (i + 1) = n - 1 - i := by omega
        rw [e, List.getElem?_cons_succ, ← ih bs i (by omega)]
        cases b
        · simp
        · rw [Bool.toNat_true, Nat.one_mul, Nat.testBit_two_pow_add_gt (by omega)]

theorem readBit_holds (b : Bool) (t : List Tok) (buf : Buf) (h : Holds (.bit b :: t) buf) :
    ∃ buf', readBit buf = .ok (b, buf') ∧ Holds t buf' := by
  obtain ⟨rest, n, cache⟩ := buf
  obtain ⟨hr, hc, hb⟩ := h
  dsimp only at hr hc hb
  simp only [tokBits, List.length_cons] at hc hb
  rcases Nat.eq_zero_or_pos n with h0 | hp
  · subst h0
    rw [layout] at hr
    subst hr
    refine ⟨⟨layout 7 t, 7, BitVec.ofNat 8 (packNat 8 (b :: tokBits t))⟩, ?_, rfl, ?_, ?_⟩
    · have := packNat_bit 8 (b :: tokBits t) 0 (by omega)
      simp only [List.getElem?_cons_zero, Option.getD_some] at this
      simp only [readBit, if_true, Res.bind_ok]
      rw [BitVec.getLsbD_ofNat, show 8 - 1 = 8 - 1 - 0 from rfl, this]
      rfl
    · dsimp only; omega
    · intro i hi
      dsimp only at hi ⊢
      have := packNat_bit 8 (b :: tokBits t) (i + 1) (by omega)
      rw [List.getElem?_cons_succ] at this
      rw [← this, BitVec.getLsbD_ofNat]
      have e : 8 - 1 - (i + 1) = 7 - 1 - i := by omega
      rw [e, decide_eq_true (by omega), Bool.true_and]
  · obtain ⟨m, rfl⟩ : ∃ m, n = m + 1 := ⟨n - 1, by omega⟩
    rw [layout] at hr
    subst hr
    refine ⟨⟨layout m t, m, cache⟩, ?_, rfl, ?_, ?_⟩
    · have := hb 0 (by omega)
      simp only [readBit]
      simp only [List.getElem?_cons_zero, Option.getD_some] at this
      simp at this ⊢
      exact this
    · dsimp only; omega
    · intro i hi
      dsimp only at hi ⊢
      have := hb (i + 1) (by omega)
      rw [List.getElem?_cons_succ] at this
      rw [← this]
      congr 1
      omega

theorem holds_delivers : Delivers readBit (fun b t => Tok.bit b :: t) Holds := readBit_holds

theorem readByte_holds (b : Byte) (t : List Tok) (buf : Buf) (h : Holds (.byte b :: t) buf) :
    ∃ buf', readByte buf = .ok (b, buf') ∧ Holds t buf' := by
  obtain ⟨rest, n, cache⟩ := buf
  obtain ⟨hr, hc, hb⟩ := h
  dsimp only at hr hc hb
  have : rest = b :: layout n t := by rw [hr]; cases n <;> rfl
  subst this
  exact ⟨⟨layout n t, n, cache⟩, rfl, rfl, hc, hb⟩

theorem layout_bytes (n : Nat) (bs : List Byte) (t : List Tok) :
    layout n (bs.map .byte ++ t) = bs ++ layout n t := by
  induction bs with
  | nil => rfl
  | cons b bs ih =>
    have : layout n (Tok.byte b :: (bs.map .byte ++ t)) = b :: layout n (bs.map .byte ++ t) := by
      cases n <;> rfl
    simp only [List.map_cons, List.cons_append, this, ih]

theorem tokBits_bytes (bs : List Byte) (t : List Tok) : tokBits (bs.map .byte ++ t) = tokBits t := by
  induction bs with
  | nil => rfl
  | cons b bs ih => simpa [tokBits] using ih

theorem tokBits_append (a b : List Tok) : tokBits (a ++ b) = tokBits a ++ tokBits b := by
  induction a with
  | nil => rfl
  | cons x a ih => cases x <;> simp [tokBits, ih]

theorem foldr_bits (bits : List Bool) (t : List Tok) :
    bits.foldr (fun b t => Tok.bit b :: t) t = bits.map .bit ++ t := by
  induction bits with
  | nil => rfl
  | cons b bits ih => simp [ih]

/-- Dropping the bytes of a whole-byte part. -/
theorem holds_drop (bs : List Byte) (t : List Tok) (buf : Buf) (h : Holds (bs.map .byte ++ t) buf) :
    buf.rest = bs ++ layout buf.bitCount t ∧ Holds t { buf with rest := buf.rest.drop bs.length } := by
  obtain ⟨hr, hc, hb⟩ := h
  rw [layout_bytes] at hr
  rw [tokBits_bytes] at hc hb
  refine ⟨hr, ?_, hc, hb⟩
  dsimp only
  rw [hr]
  simp

theorem four_value (v : Nat) :
    (v.testBit 3).toNat <<< 3 ||| (v.testBit 2).toNat <<< 2 ||| (v.testBit 1).toNat <<< 1 |||
      (v.testBit 0).toNat = v % 16 := by
  have h : ∀ j < 4, v.testBit j = (v % 2 ^ 4).testBit j := by
    intro j hj; rw [Nat.testBit_mod_two_pow]; simp [hj]
  rw [h 3 (by omega), h 2 (by omega), h 1 (by omega), h 0 (by omega)]
  have hlt : v % 16 < 16 := Nat.mod_lt _ (by omega)
  show _ = v % 16
  have e : v % 2 ^ 4 = v % 16 := rfl
  rw [e]
  generalize v % 16 = u at *
  interval_cases u <;> rfl

theorem readBits4_holds (v : Nat) (t : List Tok) (buf : Buf)
    (h : Holds ((bitsOf v 4).map .bit ++ t) buf) :
    ∃ buf', readBits4 buf = .ok (v % 16, buf') ∧ Holds t buf' := by
  simp only [bitsOf, List.map_cons, List.map_nil, List.cons_append, List.nil_append] at h
  obtain ⟨s1, e1, h⟩ := readBit_holds _ _ _ h
  obtain ⟨s2, e2, h⟩ := readBit_holds _ _ _ h
  obtain ⟨s3, e3, h⟩ := readBit_holds _ _ _ h
  obtain ⟨s4, e4, h⟩ := readBit_holds _ _ _ h
  refine ⟨s4, ?_, h⟩
  simp only [readBits4, e1, e2, e3, e4, Res.bind_ok, four_value]

/-! ## Reassembling exclusive-or bits -/

theorem nibble_bit (x : BitVec 32) (i : Nat) (hi : i < 32) :
    (BitVec.ofNat 32 (x.toNat % 16)).getLsbD i = (decide (i < 4) && x.getLsbD i) := by
  rw [BitVec.getLsbD_ofNat, decide_eq_true hi, Bool.true_and]
  have : x.toNat % 16 = x.toNat % 2 ^ 4 := rfl
  rw [this, Nat.testBit_mod_two_pow]
  rfl

theorem piece_bit (x : BitVec 32) (k i : Nat) (hi : i < 32) :
    ((BitVec.ofNat 8 (x.toNat / 2 ^ k)).setWidth 32 <<< k).getLsbD i =
      (decide (k ≤ i ∧ i < k + 8) && x.getLsbD i) := by
  rw [BitVec.getLsbD_shiftLeft, BitVec.getLsbD_setWidth, BitVec.getLsbD_ofNat,
    ← Nat.shiftRight_eq_div_pow, Nat.testBit_shiftRight]
  by_cases h : i < k
  · have : ¬ (k ≤ i ∧ i < k + 8) := by omega
    simp [h, this]
  · have h1 : k + (i - k) = i := by omega
    have h2 : i - k < 32 := by omega
    rw [h1]
    by_cases h3 : i - k < 8
    · have : k ≤ i ∧ i < k + 8 := by omega
      simp only [hi, h, h2, h3, this]
      simp only [BitVec.getLsbD]
      simp
    · have : ¬ (k ≤ i ∧ i < k + 8) := by omega
      simp [h3, this]

theorem high_bit (x : BitVec 32) (w i : Nat) (hx : x.toNat < 2 ^ w) (hi : w ≤ i) :
    x.getLsbD i = false := by
  apply Nat.testBit_lt_two_pow
  calc x.toNat < 2 ^ w := hx
    _ ≤ 2 ^ i := Nat.pow_le_pow_right (by omega) hi

/-- Run a buffer reader and name its result. -/
theorem onBuf_ok {α : Type} {f : Buf → Res (α × Buf)} {d : Decoder} {a : α} {b : Buf}
    (h : f d.buf = .ok (a, b)) : onBuf f d = (.ok a, { d with buf := b }) := by
  simp [onBuf, h]

@[simp] theorem DecM.bind_def {α β : Type} (x : DecM α) (f : α → DecM β) (d : Decoder) :
    (x >>= f) d = match x d with
      | (.ok a, d') => f a d'
      | (.err, d') => (.err, d')
      | (.panic, d') => (.panic, d') := rfl

@[simp] theorem DecM.pure_def {α : Type} (a : α) (d : Decoder) : (pure a : DecM α) d = (.ok a, d) := rfl

theorem xor_bits_ext (x y : BitVec 32) (w : Nat) (hx : x.toNat < 2 ^ w)
    (h : ∀ i < 32, y.getLsbD i = (decide (i < w) && x.getLsbD i)) : y = x := by
  apply BitVec.eq_of_getLsbD_eq
  intro i hi
  rw [h i hi]
  by_cases hw : i < w
  · simp [hw]
  · simp [hw, high_bit x w i hx (by omega)]

end Verif.Tssc
