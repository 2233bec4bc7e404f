import Verif.Lib.Aes

/-!
# C129: what AES enciphers is deciphered
-/

namespace Verif.Lib.Aes

/-! ## The layers and their inverses -/

theorem invSbox_sbox : ∀ a : Byte, invSbox (sbox a) = a := by decide +kernel

theorem xor_cancel (a b : Byte) : a ^^^ b ^^^ b = a := by rw [BitVec.xor_assoc, BitVec.xor_self, BitVec.xor_zero]

theorem Word.xor_cancel (a b : Word) : (a.xor b).xor b = a := by
  obtain ⟨a0, a1, a2, a3⟩ := a
  simp only [Word.xor, Aes.xor_cancel]

theorem Block.xor_cancel (a b : Block) : (a.xor b).xor b = a := by
  obtain ⟨a0, a1, a2, a3⟩ := a
  simp only [Block.xor, Word.xor_cancel]

theorem sub_cancel (w : Word) : (w.map sbox).map invSbox = w := by
  obtain ⟨a0, a1, a2, a3⟩ := w
  simp only [Word.map, invSbox_sbox]

theorem subs_cancel (a : Block) : (a.map (Word.map sbox)).map (Word.map invSbox) = a := by
  obtain ⟨a0, a1, a2, a3⟩ := a
  simp only [Block.map, sub_cancel]

theorem shift_cancel (a : Block) : invShiftRows (shiftRows a) = a := rfl

theorem xtime_xor : ∀ a b : Byte, xtime (a ^^^ b) = xtime a ^^^ xtime b := by
  intro a b
  unfold xtime
  rw [BitVec.shiftLeft_xor_distrib, BitVec.getLsbD_xor]
  generalize a <<< 1 = x
  generalize b <<< 1 = y
  cases a.getLsbD 7 <;> cases b.getLsbD 7 <;> simp
  · ac_rfl
  · ac_rfl
  · rw [show x ^^^ 27#8 ^^^ (y ^^^ 27#8) = (x ^^^ y) ^^^ 27#8 ^^^ 27#8 from by ac_rfl, xor_cancel]

theorem mulBits_xor (n : Nat) : ∀ a b c : Byte, mulBits n a (b ^^^ c) = mulBits n a b ^^^ mulBits n a c := by
  induction n with
  | zero => intro a b c; simp [mulBits]
  | succ n ih =>
    intro a b c
    simp only [mulBits]
    rw [xtime_xor, ih]
    cases a.getLsbD 0
    · simp
    · simp only [if_true]; ac_rfl

theorem mul_xor (a b c : Byte) : mul a (b ^^^ c) = mul a b ^^^ mul a c := mulBits_xor 4 a b c

/-- The products of the two matrices, entry by entry. -/
theorem mix_table : ∀ a : Byte,
    mul 14 (mul 2 a) ^^^ mul 11 a ^^^ mul 13 a ^^^ mul 9 (mul 3 a) = a ∧
    mul 14 (mul 3 a) ^^^ mul 11 (mul 2 a) ^^^ mul 13 a ^^^ mul 9 a = 0 ∧
    mul 14 a ^^^ mul 11 (mul 3 a) ^^^ mul 13 (mul 2 a) ^^^ mul 9 a = 0 ∧
    mul 14 a ^^^ mul 11 a ^^^ mul 13 (mul 3 a) ^^^ mul 9 (mul 2 a) = 0 := by decide +kernel

/-- Sixteen terms, sorted by columns. -/
theorem sixteen (a0 a1 a2 a3 b0 b1 b2 b3 c0 c1 c2 c3 d0 d1 d2 d3 : Byte) :
    (a0 ^^^ a1 ^^^ a2 ^^^ a3) ^^^ (b0 ^^^ b1 ^^^ b2 ^^^ b3) ^^^ (c0 ^^^ c1 ^^^ c2 ^^^ c3) ^^^ (d0 ^^^ d1 ^^^ d2 ^^^ d3) =
      (a0 ^^^ b0 ^^^ c0 ^^^ d0) ^^^ (a1 ^^^ b1 ^^^ c1 ^^^ d1) ^^^ (a2 ^^^ b2 ^^^ c2 ^^^ d2) ^^^ (a3 ^^^ b3 ^^^ c3 ^^^ d3) := by ac_rfl

theorem four_turn (a b c d : Byte) : a ^^^ b ^^^ c ^^^ d = d ^^^ a ^^^ b ^^^ c := by ac_rfl

theorem mixColumn_cancel (w : Word) : invMixColumn (mixColumn w) = w := by
  obtain ⟨a, b, c, d⟩ := w
  obtain ⟨a1, a2, a3, a4⟩ := mix_table a
  obtain ⟨b1, b2, b3, b4⟩ := mix_table b
  obtain ⟨c1, c2, c3, c4⟩ := mix_table c
  obtain ⟨d1, d2, d3, d4⟩ := mix_table d
  have t : ∀ {p q r s x : Byte}, p ^^^ q ^^^ r ^^^ s = x → s ^^^ p ^^^ q ^^^ r = x := fun h => by rw [← four_turn]; exact h
  have e0 : (invMixColumn (mixColumn ⟨a, b, c, d⟩)).b0 = a := by
    simp only [invMixColumn, mixColumn, mul_xor]
    rw [sixteen, a1, b2, c3, d4]
    simp
  have e1 : (invMixColumn (mixColumn ⟨a, b, c, d⟩)).b1 = b := by
    simp only [invMixColumn, mixColumn, mul_xor]
    rw [sixteen, t a4, t b1, t c2, t d3]
    simp
  have e2 : (invMixColumn (mixColumn ⟨a, b, c, d⟩)).b2 = c := by
    simp only [invMixColumn, mixColumn, mul_xor]
    rw [sixteen, t (t a3), t (t b4), t (t c1), t (t d2)]
    simp
  have e3 : (invMixColumn (mixColumn ⟨a, b, c, d⟩)).b3 = d := by
    simp only [invMixColumn, mixColumn, mul_xor]
    rw [sixteen, t (t (t a2)), t (t (t b3)), t (t (t c4)), t (t (t d1))]
    simp
  generalize invMixColumn (mixColumn ⟨a, b, c, d⟩) = w at *
  obtain ⟨w0, w1, w2, w3⟩ := w
  dsimp only at e0 e1 e2 e3
  rw [e0, e1, e2, e3]

theorem mix_cancel (a : Block) : (a.map mixColumn).map invMixColumn = a := by
  obtain ⟨a0, a1, a2, a3⟩ := a
  simp only [Block.map, mixColumn_cancel]

theorem rounds_cancel : ∀ (ks : List Block) (s : Block), invRounds ks (rounds ks s) = s
  | [], _ => rfl
  | [k], s => by
    simp only [rounds, invRounds, Block.xor_cancel, shift_cancel, subs_cancel]
  | k :: k' :: ks, s => by
    simp only [rounds, invRounds]
    rw [rounds_cancel (k' :: ks), Block.xor_cancel, mix_cancel, shift_cancel, subs_cancel]

theorem decrypt_encrypt (ks : List Block) (s : Block) : decrypt ks (encrypt ks s) = s := by
  cases ks with
  | nil => rfl
  | cons k ks => simp only [decrypt, encrypt, rounds_cancel, Block.xor_cancel]

theorem cbc_cancel (ks : List Block) : ∀ (ps : List Block) (v : Block), cbcDecrypt ks v (cbcEncrypt ks v ps) = ps
  | [], _ => rfl
  | p :: ps, v => by
    simp only [cbcEncrypt, cbcDecrypt, decrypt_encrypt, Block.xor_cancel, cbc_cancel ks ps]

theorem cbcEncrypt_length (ks : List Block) : ∀ (ps : List Block) (v : Block), (cbcEncrypt ks v ps).length = ps.length
  | [], _ => rfl
  | p :: ps, v => by simp only [cbcEncrypt, List.length_cons, cbcEncrypt_length ks ps]

/-! ## Blocks and bytes -/

theorem Block.bytes_length (a : Block) : a.bytes.length = 16 := rfl

theorem split_block (a : Block) (l : List Byte) : split (a.bytes ++ l) = (a :: (split l).1, (split l).2) := rfl

theorem split_bytes : ∀ as : List Block, split (as.map Block.bytes).flatten = (as, [])
  | [] => rfl
  | a :: as => by
    rw [List.map_cons, List.flatten_cons, split_block, split_bytes as]

theorem split_short {l : List Byte} (h : l.length < 16) : split l = ([], l) := by
  unfold split
  split
  · simp only [List.length_cons] at h; omega
  · rfl

theorem split_spec (l : List Byte) : ((split l).1.map Block.bytes).flatten ++ (split l).2 = l ∧ (split l).2.length = l.length % 16 := by
  generalize hn : l.length = n
  induction n using Nat.strongRecOn generalizing l with
  | ind n ih =>
    by_cases h : l.length < 16
    · rw [split_short h]
      refine ⟨rfl, ?_⟩
      dsimp only
      rw [← hn, Nat.mod_eq_of_lt h]
    · obtain ⟨a, m, rfl⟩ : ∃ (a : Block) (m : List Byte), l = a.bytes ++ m := by
        rcases l with _ | ⟨a0, _ | ⟨a1, _ | ⟨a2, _ | ⟨a3, _ | ⟨a4, _ | ⟨a5, _ | ⟨a6, _ | ⟨a7, _ | ⟨a8, _ | ⟨a9, _ | ⟨a10, _ | ⟨a11, _ | ⟨a12, _ |
          ⟨a13, _ | ⟨a14, _ | ⟨a15, m⟩⟩⟩⟩⟩⟩⟩⟩⟩⟩⟩⟩⟩⟩⟩⟩ <;>
          first
          | exact ⟨⟨⟨a0, a1, a2, a3⟩, ⟨a4, a5, a6, a7⟩, ⟨a8, a9, a10, a11⟩, ⟨a12, a13, a14, a15⟩⟩, m, rfl⟩
          | (simp only [List.length_cons, List.length_nil] at h; omega)
      rw [split_block]
      rw [List.length_append, Block.bytes_length] at hn
      obtain ⟨i1, i2⟩ := ih m.length (by omega) m rfl
      refine ⟨?_, ?_⟩
      · dsimp only
        rw [List.map_cons, List.flatten_cons, List.append_assoc, i1]
      · dsimp only
        rw [i2, ← hn, Nat.add_mod_left]

theorem split_whole {l : List Byte} (h : l.length % 16 = 0) : (split l).2 = [] ∧ ((split l).1.map Block.bytes).flatten = l := by
  obtain ⟨h1, h2⟩ := split_spec l
  rw [h] at h2
  have h3 := List.length_eq_zero_iff.mp h2
  rw [h3, List.append_nil] at h1
  exact ⟨h3, h1⟩

theorem flatten_length (as : List Block) : (as.map Block.bytes).flatten.length = 16 * as.length := by
  induction as with
  | nil => rfl
  | cons a as ih => rw [List.map_cons, List.flatten_cons, List.length_append, ih, Block.bytes_length, List.length_cons]; omega

theorem split_iv {iv : List Byte} (h : iv.length = 16) : ∃ v, split iv = ([v], []) := by
  obtain ⟨h1, h2⟩ := split_whole (l := iv) (by omega)
  have h3 := flatten_length (split iv).1
  rw [h2, h] at h3
  have h4 : (split iv).1.length = 1 := by omega
  obtain ⟨v, hv⟩ := List.length_eq_one_iff.mp h4
  exact ⟨v, by rw [← hv, ← h1]⟩

/-- The key is one of AES. -/
def KeyOk (key : List Byte) : Prop := key.length = 16 ∨ key.length = 24 ∨ key.length = 32

/-- C129: whatever key of 16, 24 or 32 bytes, initialisation vector and data of whole blocks: what was enciphered is deciphered to the same data. -/
theorem C129_roundtrip (key iv data : List Byte) (hk : KeyOk key) (hi : iv.length = 16) (hd : data.length % 16 = 0) :
    decipherAES key iv (encipher key iv data) = .ok data ∧ (encipher key iv data).length = data.length := by
  obtain ⟨v, hv⟩ := split_iv hi
  obtain ⟨h1, h2⟩ := split_whole hd
  rw [show decipherAES key iv (encipher key iv data) = cryptBlocks (roundKeys key) iv (encipher key iv data) from if_pos hk]
  unfold cryptBlocks encipher
  rw [hv]
  dsimp only
  rw [split_bytes]
  dsimp only
  rw [cbc_cancel, h2, flatten_length, cbcEncrypt_length, ← flatten_length, h2]
  exact ⟨rfl, rfl⟩

/-- C129: what `decipherAES` does with any arguments: a key of another length is an error; with a key that fits, an initialisation vector that is not
one block or data that are not whole blocks are a panic; otherwise as many bytes come back as were given. -/
theorem C129_outcomes (key iv data : List Byte) :
    (decipherAES key iv data = .err ↔ ¬ KeyOk key) ∧
    (decipherAES key iv data = .panic ↔ KeyOk key ∧ (iv.length ≠ 16 ∨ data.length % 16 ≠ 0)) ∧
    ∀ out, decipherAES key iv data = .ok out → out.length = data.length := by
  by_cases hk : KeyOk key
  · rw [show decipherAES key iv data = cryptBlocks (roundKeys key) iv data from if_pos hk]
    by_cases hi : iv.length = 16
    · obtain ⟨v, hv⟩ := split_iv hi
      by_cases hd : data.length % 16 = 0
      · obtain ⟨h1, h2⟩ := split_whole hd
        have e : cryptBlocks (roundKeys key) iv data = .ok ((cbcDecrypt (roundKeys key) v (split data).1).map Block.bytes).flatten := by
          unfold cryptBlocks
          rw [hv]
          dsimp only
          generalize hs : split data = p at *
          obtain ⟨cs, r⟩ := p
          dsimp only at h1
          rw [h1]
        rw [e]
        refine ⟨by simp [hk], by simp [hi, hd], ?_⟩
        rintro out ⟨⟩
        have hl : ∀ (ks : List Block) (cs : List Block) (v : Block), (cbcDecrypt ks v cs).length = cs.length := by
          intro ks cs
          induction cs with
          | nil => intro v; rfl
          | cons c cs ih => intro v; simp only [cbcDecrypt, List.length_cons, ih]
        rw [flatten_length, hl, ← flatten_length, h2]
      · have hne : (split data).2 ≠ [] := by
          intro hx
          have := (split_spec data).2
          rw [hx] at this
          exact hd this.symm
        have e : cryptBlocks (roundKeys key) iv data = .panic := by
          unfold cryptBlocks
          rw [hv]
          dsimp only
          generalize split data = p at *
          obtain ⟨cs, r⟩ := p
          dsimp only at hne
          cases r with
          | nil => exact absurd rfl hne
          | cons b r => rfl
        rw [e]
        exact ⟨by simp [hk], by simp [hk, hd], by simp⟩
    · have e : cryptBlocks (roundKeys key) iv data = .panic := by
        have hs := split_spec iv
        unfold cryptBlocks
        generalize hp : split iv = p at *
        obtain ⟨cs, r⟩ := p
        dsimp only at hs
        obtain ⟨s1, s2⟩ := hs
        split
        · rename_i v heq
          injection heq with q1 q2
          subst q1 q2
          exfalso
          apply hi
          rw [← s1]
          rfl
        · rfl
      rw [e]
      exact ⟨by simp [hk], by simp [hk, hi], by simp⟩
  · rw [show decipherAES key iv data = .err from if_neg hk]
    exact ⟨by simp [hk], by simp [hk], by simp⟩

/-! ## The vectors of the standard, and cases meeting the hypotheses -/

/-- 0, 1, 2, .. -/
def counting (n : Nat) : List Byte := (List.range n).map (BitVec.ofNat 8)

/-- FIPS 197, appendix C: 00 11 22 .. ff. -/
def exPlain : List Byte := (List.range 16).map fun i => BitVec.ofNat 8 (17 * i)

/-- FIPS 197, appendix C.1, C.2, C.3, with an initialisation vector of zeros. -/
example :
    encipher (counting 16) (List.replicate 16 0) exPlain =
      [0x69, 0xc4, 0xe0, 0xd8, 0x6a, 0x7b, 0x04, 0x30, 0xd8, 0xcd, 0xb7, 0x80, 0x70, 0xb4, 0xc5, 0x5a] ∧
    encipher (counting 24) (List.replicate 16 0) exPlain =
      [0xdd, 0xa9, 0x7c, 0xa4, 0x86, 0x4c, 0xdf, 0xe0, 0x6e, 0xaf, 0x70, 0xa0, 0xec, 0x0d, 0x71, 0x91] ∧
    encipher (counting 32) (List.replicate 16 0) exPlain =
      [0x8e, 0xa2, 0xb7, 0xca, 0x51, 0x67, 0x45, 0xbf, 0xea, 0xfc, 0x49, 0x90, 0x4b, 0x49, 0x60, 0x89] := by decide +kernel

example : KeyOk (counting 24) ∧ (counting 16).length = 16 ∧ (exPlain ++ exPlain).length % 16 = 0 := by unfold KeyOk; decide

/-- SP 800-38A, F.2.1: two blocks in sequence. -/
example : decipherAES [0x2b, 0x7e, 0x15, 0x16, 0x28, 0xae, 0xd2, 0xa6, 0xab, 0xf7, 0x15, 0x88, 0x09, 0xcf, 0x4f, 0x3c] (counting 16)
    [0x76, 0x49, 0xab, 0xac, 0x81, 0x19, 0xb2, 0x46, 0xce, 0xe9, 0x8e, 0x9b, 0x12, 0xe9, 0x19, 0x7d,
     0x50, 0x86, 0xcb, 0x9b, 0x50, 0x72, 0x19, 0xee, 0x95, 0xdb, 0x11, 0x3a, 0x91, 0x76, 0x78, 0xb2] =
    .ok [0x6b, 0xc1, 0xbe, 0xe2, 0x2e, 0x40, 0x9f, 0x96, 0xe9, 0x3d, 0x7e, 0x11, 0x73, 0x93, 0x17, 0x2a,
     0xae, 0x2d, 0x8a, 0x57, 0x1e, 0x03, 0xac, 0x9c, 0x9e, 0xb7, 0x6f, 0xac, 0x45, 0xaf, 0x8e, 0x51] := by decide +kernel

end Verif.Lib.Aes
