import Verif.Tssc.BufLemmas

/-!
# Decoder steps against publisher steps
-/

set_option linter.unusedSimpArgs false

namespace Verif.Tssc

/-! ## Exclusive-or parts -/

/-- Reading the exclusive-or bits of a given width. -/
def readXor : Nat → DecM (BitVec 32)
  | 4 => valueBits cValueXor4
  | 8 => valueBits cValueXor8
  | 12 => valueBits cValueXor12
  | 16 => valueBits cValueXor16
  | 20 => valueBits cValueXor20
  | 24 => valueBits cValueXor24
  | 28 => valueBits cValueXor28
  | 32 => valueBits cValueXor32
  | _ => DecM.fail

theorem pointIDBits_eq (c w : Nat) (h : idWidth c = some w) : pointIDBits c = readXor w := by
  unfold idWidth at h
  split at h
  all_goals cases h
  all_goals rfl

theorem valueBits_eq (c w : Nat) (h : valueWidth c = some w) : valueBits c = readXor w := by
  unfold valueWidth at h
  split at h
  all_goals cases h
  all_goals rfl

theorem readByte_step {α : Type} (b : Byte) (t : List Tok) (d : Decoder) (h : Holds (.byte b :: t) d.buf)
    (f : Byte → DecM α) :
    ∃ buf', (onBuf readByte >>= f) d = f b { d with buf := buf' } ∧ Holds t buf' := by
  obtain ⟨buf', e, h'⟩ := readByte_holds b t d.buf h
  refine ⟨buf', ?_, h'⟩
  rw [DecM.bind_def, onBuf_ok e]

theorem readBits4_step {α : Type} (v : Nat) (t : List Tok) (d : Decoder)
    (h : Holds ((bitsOf v 4).map .bit ++ t) d.buf) (f : Nat → DecM α) :
    ∃ buf', (onBuf readBits4 >>= f) d = f (v % 16) { d with buf := buf' } ∧ Holds t buf' := by
  obtain ⟨buf', e, h'⟩ := readBits4_holds v t d.buf h
  refine ⟨buf', ?_, h'⟩
  rw [DecM.bind_def, onBuf_ok e]

theorem div16 (n : Nat) : n / 16 = n / 2 ^ 4 := rfl

theorem readXor_holds (w : Nat) (hw : w = 4 ∨ w = 8 ∨ w = 12 ∨ w = 16 ∨ w = 20 ∨ w = 24 ∨ w = 28 ∨ w = 32)
    (x : BitVec 32) (hx : x.toNat < 2 ^ w) (t : List Tok) (d : Decoder)
    (h : Holds (xorToks w x ++ t) d.buf) :
    ∃ buf', readXor w d = (.ok x, { d with buf := buf' }) ∧ Holds t buf' := by
  have p0 : ∀ i < 32, ((BitVec.ofNat 8 x.toNat).setWidth 32).getLsbD i =
      (decide (0 ≤ i ∧ i < 0 + 8) && x.getLsbD i) := by
    intro i hi
    have := piece_bit x 0 i hi
    simpa using this
  rcases hw with rfl | rfl | rfl | rfl | rfl | rfl | rfl | rfl
  · simp only [xorToks, Nat.reduceMod, if_true, Nat.reduceDiv, leBytes, List.map_nil, List.append_nil] at h
    obtain ⟨b1, e, h⟩ := readBits4_step _ _ d h (fun n => pure (BitVec.ofNat 32 n))
    refine ⟨b1, ?_, h⟩
    have : BitVec.ofNat 32 (x.toNat % 16) = x := by
      apply xor_bits_ext x _ 4 hx
      intro i hi
      rw [nibble_bit x i hi]
    rw [this] at e
    exact e
  · simp only [xorToks, Nat.reduceMod, Nat.reduceDiv, leBytes, List.map_cons, List.map_nil, List.cons_append,
      List.nil_append] at h
    simp only [show ¬ (0 = 4) by omega, if_false] at h
    obtain ⟨b1, e, h⟩ := readByte_step _ _ d h (fun b0 => pure (b0.setWidth 32))
    refine ⟨b1, ?_, h⟩
    have : (BitVec.ofNat 8 x.toNat).setWidth 32 = x := by
      apply xor_bits_ext x _ 8 hx
      intro i hi
      rw [p0 i hi]
      simp
    rw [this] at e
    exact e
  · have h := h
    simp only [xorToks, Nat.reduceMod, if_true, Nat.reduceDiv, leBytes, List.map_cons, List.map_nil,
      List.append_assoc, List.cons_append, List.nil_append, Nat.div_div_eq_div_mul, Nat.reduceMul] at h
    obtain ⟨q, e, h⟩ := readBits4_step _ _ d h (fun n => do
      let b0 ← onBuf readByte
      pure (BitVec.ofNat 32 n ^^^ (b0.setWidth 32 <<< 4)))
    obtain ⟨q0, e0, h⟩ := readByte_step _ _ { d with buf := q } h _
    refine ⟨q0, ?_, h⟩
    have this : BitVec.ofNat 32 (x.toNat % 16) ^^^ ((BitVec.ofNat 8 (x.toNat / 2 ^ 4)).setWidth 32 <<< 4) = x := by
      apply xor_bits_ext x _ 12 hx
      intro i hi
      rw [BitVec.getLsbD_xor, nibble_bit x i hi, piece_bit x 4 i hi]
      generalize x.getLsbD i = b
      revert i b
      decide
    refine e.trans (e0.trans (congrArg (fun v => (Res.ok v, { d with buf := q0 })) this))
  · have h := h
    simp only [xorToks, Nat.reduceMod, show ¬ (0 = 4) by omega, if_false, Nat.reduceDiv, leBytes, List.map_cons,
      List.map_nil, List.append_assoc, List.cons_append, List.nil_append, Nat.div_div_eq_div_mul, Nat.reduceMul] at h
    obtain ⟨q0, e0, h⟩ := readByte_step _ _ d h (fun b0 => do
      let b1 ← onBuf readByte
      pure (b0.setWidth 32 ^^^ (b1.setWidth 32 <<< 8)))
    obtain ⟨q1, e1, h⟩ := readByte_step _ _ { d with buf := q0 } h _
    refine ⟨q1, ?_, h⟩
    have this : (BitVec.ofNat 8 x.toNat).setWidth 32 ^^^ ((BitVec.ofNat 8 (x.toNat / 2 ^ 8)).setWidth 32 <<< 8) = x := by
      apply xor_bits_ext x _ 16 hx
      intro i hi
      rw [BitVec.getLsbD_xor, p0 i hi, piece_bit x 8 i hi]
      generalize x.getLsbD i = b
      revert i b
      decide
    refine (e0.trans (e1.trans (congrArg (fun v => (Res.ok v, { d with buf := q1 })) this)))
  · have h := h
    simp only [xorToks, Nat.reduceMod, if_true, Nat.reduceDiv, leBytes, List.map_cons, List.map_nil,
      List.append_assoc, List.cons_append, List.nil_append, Nat.div_div_eq_div_mul, Nat.reduceMul] at h
    obtain ⟨q, e, h⟩ := readBits4_step _ _ d h (fun n => do
      let b0 ← onBuf readByte
      let b1 ← onBuf readByte
      pure (BitVec.ofNat 32 n ^^^ (b0.setWidth 32 <<< 4) ^^^ (b1.setWidth 32 <<< 12)))
    obtain ⟨q0, e0, h⟩ := readByte_step _ _ { d with buf := q } h _
    obtain ⟨q1, e1, h⟩ := readByte_step _ _ { d with buf := q0 } h _
    refine ⟨q1, ?_, h⟩
    have this : BitVec.ofNat 32 (x.toNat % 16) ^^^ ((BitVec.ofNat 8 (x.toNat / 2 ^ 4)).setWidth 32 <<< 4) ^^^ ((BitVec.ofNat 8 (x.toNat / 2 ^ 12)).setWidth 32 <<< 12) = x := by
      apply xor_bits_ext x _ 20 hx
      intro i hi
      rw [BitVec.getLsbD_xor, BitVec.getLsbD_xor, nibble_bit x i hi, piece_bit x 4 i hi, piece_bit x 12 i hi]
      generalize x.getLsbD i = b
      revert i b
      decide
    refine e.trans (e0.trans (e1.trans (congrArg (fun v => (Res.ok v, { d with buf := q1 })) this)))
  · have h := h
    simp only [xorToks, Nat.reduceMod, show ¬ (0 = 4) by omega, if_false, Nat.reduceDiv, leBytes, List.map_cons,
      List.map_nil, List.append_assoc, List.cons_append, List.nil_append, Nat.div_div_eq_div_mul, Nat.reduceMul] at h
    obtain ⟨q0, e0, h⟩ := readByte_step _ _ d h (fun b0 => do
      let b1 ← onBuf readByte
      let b2 ← onBuf readByte
      pure (b0.setWidth 32 ^^^ (b1.setWidth 32 <<< 8) ^^^ (b2.setWidth 32 <<< 16)))
    obtain ⟨q1, e1, h⟩ := readByte_step _ _ { d with buf := q0 } h _
    obtain ⟨q2, e2, h⟩ := readByte_step _ _ { d with buf := q1 } h _
    refine ⟨q2, ?_, h⟩
    have this : (BitVec.ofNat 8 x.toNat).setWidth 32 ^^^ ((BitVec.ofNat 8 (x.toNat / 2 ^ 8)).setWidth 32 <<< 8) ^^^ ((BitVec.ofNat 8 (x.toNat / 2 ^ 16)).setWidth 32 <<< 16) = x := by
      apply xor_bits_ext x _ 24 hx
      intro i hi
      rw [BitVec.getLsbD_xor, BitVec.getLsbD_xor, p0 i hi, piece_bit x 8 i hi, piece_bit x 16 i hi]
      generalize x.getLsbD i = b
      revert i b
      decide
    refine (e0.trans (e1.trans (e2.trans (congrArg (fun v => (Res.ok v, { d with buf := q2 })) this))))
  · have h := h
    simp only [xorToks, Nat.reduceMod, if_true, Nat.reduceDiv, leBytes, List.map_cons, List.map_nil,
      List.append_assoc, List.cons_append, List.nil_append, Nat.div_div_eq_div_mul, Nat.reduceMul] at h
    obtain ⟨q, e, h⟩ := readBits4_step _ _ d h (fun n => do
      let b0 ← onBuf readByte
      let b1 ← onBuf readByte
      let b2 ← onBuf readByte
      pure (BitVec.ofNat 32 n ^^^ (b0.setWidth 32 <<< 4) ^^^ (b1.setWidth 32 <<< 12) ^^^ (b2.setWidth 32 <<< 20)))
    obtain ⟨q0, e0, h⟩ := readByte_step _ _ { d with buf := q } h _
    obtain ⟨q1, e1, h⟩ := readByte_step _ _ { d with buf := q0 } h _
    obtain ⟨q2, e2, h⟩ := readByte_step _ _ { d with buf := q1 } h _
    refine ⟨q2, ?_, h⟩
    have this : BitVec.ofNat 32 (x.toNat % 16) ^^^ ((BitVec.ofNat 8 (x.toNat / 2 ^ 4)).setWidth 32 <<< 4) ^^^ ((BitVec.ofNat 8 (x.toNat / 2 ^ 12)).setWidth 32 <<< 12) ^^^ ((BitVec.ofNat 8 (x.toNat / 2 ^ 20)).setWidth 32 <<< 20) = x := by
      apply xor_bits_ext x _ 28 hx
      intro i hi
      rw [BitVec.getLsbD_xor, BitVec.getLsbD_xor, BitVec.getLsbD_xor, nibble_bit x i hi, piece_bit x 4 i hi, piece_bit x 12 i hi, piece_bit x 20 i hi]
      generalize x.getLsbD i = b
      revert i b
      decide
    refine e.trans (e0.trans (e1.trans (e2.trans (congrArg (fun v => (Res.ok v, { d with buf := q2 })) this))))
  · have h := h
    simp only [xorToks, Nat.reduceMod, show ¬ (0 = 4) by omega, if_false, Nat.reduceDiv, leBytes, List.map_cons,
      List.map_nil, List.append_assoc, List.cons_append, List.nil_append, Nat.div_div_eq_div_mul, Nat.reduceMul] at h
    obtain ⟨q0, e0, h⟩ := readByte_step _ _ d h (fun b0 => do
      let b1 ← onBuf readByte
      let b2 ← onBuf readByte
      let b3 ← onBuf readByte
      pure (b0.setWidth 32 ^^^ (b1.setWidth 32 <<< 8) ^^^ (b2.setWidth 32 <<< 16) ^^^ (b3.setWidth 32 <<< 24)))
    obtain ⟨q1, e1, h⟩ := readByte_step _ _ { d with buf := q0 } h _
    obtain ⟨q2, e2, h⟩ := readByte_step _ _ { d with buf := q1 } h _
    obtain ⟨q3, e3, h⟩ := readByte_step _ _ { d with buf := q2 } h _
    refine ⟨q3, ?_, h⟩
    have this : (BitVec.ofNat 8 x.toNat).setWidth 32 ^^^ ((BitVec.ofNat 8 (x.toNat / 2 ^ 8)).setWidth 32 <<< 8) ^^^ ((BitVec.ofNat 8 (x.toNat / 2 ^ 16)).setWidth 32 <<< 16) ^^^ ((BitVec.ofNat 8 (x.toNat / 2 ^ 24)).setWidth 32 <<< 24) = x := by
      apply xor_bits_ext x _ 32 hx
      intro i hi
      rw [BitVec.getLsbD_xor, BitVec.getLsbD_xor, BitVec.getLsbD_xor, p0 i hi, piece_bit x 8 i hi, piece_bit x 16 i hi, piece_bit x 24 i hi]
      generalize x.getLsbD i = b
      revert i b
      decide
    refine (e0.trans (e1.trans (e2.trans (e3.trans (congrArg (fun v => (Res.ok v, { d with buf := q3 })) this)))))

end Verif.Tssc
