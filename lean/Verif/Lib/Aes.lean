import Verif.Common.Basic

/-!
# AES in cipher block chaining mode, as `decipherAES` uses it

`crypto/aes` and `crypto/cipher` of Go, called in transport/Common.go L36-49. Their sources are not in /repo: the block cipher is written from
FIPS 197, the mode from NIST SP 800-38A, the failures from the documentation of the packages. The Go implementation uses tables or machine
instructions for the same function.
-/

namespace Verif.Lib.Aes

/-! ## Bytes as polynomials over GF(2) modulo x^8 + x^4 + x^3 + x + 1 -/

/-- Multiplication by x (FIPS 197, 4.2.1; `crypto/aes`, used in transport/Common.go L40). -/
def xtime (b : Byte) : Byte := (b <<< 1) ^^^ (if b.getLsbD 7 then 0x1b else 0)

/-- Multiplication (FIPS 197, 4.2; `crypto/aes`, used in transport/Common.go L40): the `n` low bits of `a` are to do. -/
def mulBits : Nat → Byte → Byte → Byte
  | 0, _, _ => 0
  | n + 1, a, b => (if a.getLsbD 0 then b else 0) ^^^ mulBits n (a >>> 1) (xtime b)

/-- Multiplication by a polynomial of degree below 4; no others are used. (FIPS 197, 4.2; `crypto/aes`, used in transport/Common.go L40) -/
def mul (a b : Byte) : Byte := mulBits 4 a b

/-- The S-box (FIPS 197, table 4; `sbox0` of `crypto/aes`, used in transport/Common.go L40). -/
def sboxTable : List Byte := [
    0x63, 0x7c, 0x77, 0x7b, 0xf2, 0x6b, 0x6f, 0xc5, 0x30, 0x01, 0x67, 0x2b, 0xfe, 0xd7, 0xab, 0x76,
    0xca, 0x82, 0xc9, 0x7d, 0xfa, 0x59, 0x47, 0xf0, 0xad, 0xd4, 0xa2, 0xaf, 0x9c, 0xa4, 0x72, 0xc0,
    0xb7, 0xfd, 0x93, 0x26, 0x36, 0x3f, 0xf7, 0xcc, 0x34, 0xa5, 0xe5, 0xf1, 0x71, 0xd8, 0x31, 0x15,
    0x04, 0xc7, 0x23, 0xc3, 0x18, 0x96, 0x05, 0x9a, 0x07, 0x12, 0x80, 0xe2, 0xeb, 0x27, 0xb2, 0x75,
    0x09, 0x83, 0x2c, 0x1a, 0x1b, 0x6e, 0x5a, 0xa0, 0x52, 0x3b, 0xd6, 0xb3, 0x29, 0xe3, 0x2f, 0x84,
    0x53, 0xd1, 0x00, 0xed, 0x20, 0xfc, 0xb1, 0x5b, 0x6a, 0xcb, 0xbe, 0x39, 0x4a, 0x4c, 0x58, 0xcf,
    0xd0, 0xef, 0xaa, 0xfb, 0x43, 0x4d, 0x33, 0x85, 0x45, 0xf9, 0x02, 0x7f, 0x50, 0x3c, 0x9f, 0xa8,
    0x51, 0xa3, 0x40, 0x8f, 0x92, 0x9d, 0x38, 0xf5, 0xbc, 0xb6, 0xda, 0x21, 0x10, 0xff, 0xf3, 0xd2,
    0xcd, 0x0c, 0x13, 0xec, 0x5f, 0x97, 0x44, 0x17, 0xc4, 0xa7, 0x7e, 0x3d, 0x64, 0x5d, 0x19, 0x73,
    0x60, 0x81, 0x4f, 0xdc, 0x22, 0x2a, 0x90, 0x88, 0x46, 0xee, 0xb8, 0x14, 0xde, 0x5e, 0x0b, 0xdb,
    0xe0, 0x32, 0x3a, 0x0a, 0x49, 0x06, 0x24, 0x5c, 0xc2, 0xd3, 0xac, 0x62, 0x91, 0x95, 0xe4, 0x79,
    0xe7, 0xc8, 0x37, 0x6d, 0x8d, 0xd5, 0x4e, 0xa9, 0x6c, 0x56, 0xf4, 0xea, 0x65, 0x7a, 0xae, 0x08,
    0xba, 0x78, 0x25, 0x2e, 0x1c, 0xa6, 0xb4, 0xc6, 0xe8, 0xdd, 0x74, 0x1f, 0x4b, 0xbd, 0x8b, 0x8a,
    0x70, 0x3e, 0xb5, 0x66, 0x48, 0x03, 0xf6, 0x0e, 0x61, 0x35, 0x57, 0xb9, 0x86, 0xc1, 0x1d, 0x9e,
    0xe1, 0xf8, 0x98, 0x11, 0x69, 0xd9, 0x8e, 0x94, 0x9b, 0x1e, 0x87, 0xe9, 0xce, 0x55, 0x28, 0xdf,
    0x8c, 0xa1, 0x89, 0x0d, 0xbf, 0xe6, 0x42, 0x68, 0x41, 0x99, 0x2d, 0x0f, 0xb0, 0x54, 0xbb, 0x16]

/-- The inverse S-box (FIPS 197, table 6; `sbox1` of `crypto/aes`, used in transport/Common.go L46). -/
def invSboxTable : List Byte := [
    0x52, 0x09, 0x6a, 0xd5, 0x30, 0x36, 0xa5, 0x38, 0xbf, 0x40, 0xa3, 0x9e, 0x81, 0xf3, 0xd7, 0xfb,
    0x7c, 0xe3, 0x39, 0x82, 0x9b, 0x2f, 0xff, 0x87, 0x34, 0x8e, 0x43, 0x44, 0xc4, 0xde, 0xe9, 0xcb,
    0x54, 0x7b, 0x94, 0x32, 0xa6, 0xc2, 0x23, 0x3d, 0xee, 0x4c, 0x95, 0x0b, 0x42, 0xfa, 0xc3, 0x4e,
    0x08, 0x2e, 0xa1, 0x66, 0x28, 0xd9, 0x24, 0xb2, 0x76, 0x5b, 0xa2, 0x49, 0x6d, 0x8b, 0xd1, 0x25,
    0x72, 0xf8, 0xf6, 0x64, 0x86, 0x68, 0x98, 0x16, 0xd4, 0xa4, 0x5c, 0xcc, 0x5d, 0x65, 0xb6, 0x92,
    0x6c, 0x70, 0x48, 0x50, 0xfd, 0xed, 0xb9, 0xda, 0x5e, 0x15, 0x46, 0x57, 0xa7, 0x8d, 0x9d, 0x84,
    0x90, 0xd8, 0xab, 0x00, 0x8c, 0xbc, 0xd3, 0x0a, 0xf7, 0xe4, 0x58, 0x05, 0xb8, 0xb3, 0x45, 0x06,
    0xd0, 0x2c, 0x1e, 0x8f, 0xca, 0x3f, 0x0f, 0x02, 0xc1, 0xaf, 0xbd, 0x03, 0x01, 0x13, 0x8a, 0x6b,
    0x3a, 0x91, 0x11, 0x41, 0x4f, 0x67, 0xdc, 0xea, 0x97, 0xf2, 0xcf, 0xce, 0xf0, 0xb4, 0xe6, 0x73,
    0x96, 0xac, 0x74, 0x22, 0xe7, 0xad, 0x35, 0x85, 0xe2, 0xf9, 0x37, 0xe8, 0x1c, 0x75, 0xdf, 0x6e,
    0x47, 0xf1, 0x1a, 0x71, 0x1d, 0x29, 0xc5, 0x89, 0x6f, 0xb7, 0x62, 0x0e, 0xaa, 0x18, 0xbe, 0x1b,
    0xfc, 0x56, 0x3e, 0x4b, 0xc6, 0xd2, 0x79, 0x20, 0x9a, 0xdb, 0xc0, 0xfe, 0x78, 0xcd, 0x5a, 0xf4,
    0x1f, 0xdd, 0xa8, 0x33, 0x88, 0x07, 0xc7, 0x31, 0xb1, 0x12, 0x10, 0x59, 0x27, 0x80, 0xec, 0x5f,
    0x60, 0x51, 0x7f, 0xa9, 0x19, 0xb5, 0x4a, 0x0d, 0x2d, 0xe5, 0x7a, 0x9f, 0x93, 0xc9, 0x9c, 0xef,
    0xa0, 0xe0, 0x3b, 0x4d, 0xae, 0x2a, 0xf5, 0xb0, 0xc8, 0xeb, 0xbb, 0x3c, 0x83, 0x53, 0x99, 0x61,
    0x17, 0x2b, 0x04, 0x7e, 0xba, 0x77, 0xd6, 0x26, 0xe1, 0x69, 0x14, 0x63, 0x55, 0x21, 0x0c, 0x7d]

/-- `SubBytes` of one byte (FIPS 197, 5.1.1; `crypto/aes`, used in transport/Common.go L40). -/
def sbox (a : Byte) : Byte := sboxTable.getD a.toNat 0

/-- `InvSubBytes` of one byte (FIPS 197, 5.3.2; `crypto/aes`, used in transport/Common.go L46). -/
def invSbox (a : Byte) : Byte := invSboxTable.getD a.toNat 0

/-! ## Words and blocks -/

/-- Four bytes: a column of the state, a word of the key schedule. (FIPS 197, 3.4-3.5; `crypto/aes`, used in transport/Common.go L40) -/
structure Word where
  (b0 b1 b2 b3 : Byte)
  deriving DecidableEq

/-- Sixteen bytes: the state, column by column. (FIPS 197, 3.4; `crypto/aes`, used in transport/Common.go L40) -/
structure Block where
  (c0 c1 c2 c3 : Word)
  deriving DecidableEq

/-- FIPS 197, 5.2; `crypto/aes`, used in transport/Common.go L40 -/
def Word.xor (v w : Word) : Word := ⟨v.b0 ^^^ w.b0, v.b1 ^^^ w.b1, v.b2 ^^^ w.b2, v.b3 ^^^ w.b3⟩

/-- FIPS 197, 5.2; `crypto/aes`, used in transport/Common.go L40 -/
def Word.map (f : Byte → Byte) (w : Word) : Word := ⟨f w.b0, f w.b1, f w.b2, f w.b3⟩

/-- `RotWord` (FIPS 197, 5.2; `crypto/aes`, used in transport/Common.go L40) -/
def Word.rot (w : Word) : Word := ⟨w.b1, w.b2, w.b3, w.b0⟩

/-- `AddRoundKey` (FIPS 197, 5.1.4), also the exclusive or of the mode (SP 800-38A, 6.2; transport/Common.go L44-46). -/
def Block.xor (a b : Block) : Block := ⟨a.c0.xor b.c0, a.c1.xor b.c1, a.c2.xor b.c2, a.c3.xor b.c3⟩

/-- FIPS 197, 5.1; `crypto/aes`, used in transport/Common.go L40 -/
def Block.map (f : Word → Word) (a : Block) : Block := ⟨f a.c0, f a.c1, f a.c2, f a.c3⟩

/-- `ShiftRows` (FIPS 197, 5.1.2; `crypto/aes`, used in transport/Common.go L40): row r moves left by r. -/
def shiftRows (a : Block) : Block :=
  ⟨⟨a.c0.b0, a.c1.b1, a.c2.b2, a.c3.b3⟩, ⟨a.c1.b0, a.c2.b1, a.c3.b2, a.c0.b3⟩,
   ⟨a.c2.b0, a.c3.b1, a.c0.b2, a.c1.b3⟩, ⟨a.c3.b0, a.c0.b1, a.c1.b2, a.c2.b3⟩⟩

/-- `InvShiftRows` (FIPS 197, 5.3.1; `crypto/aes`, used in transport/Common.go L40): row r moves right by r. -/
def invShiftRows (a : Block) : Block :=
  ⟨⟨a.c0.b0, a.c3.b1, a.c2.b2, a.c1.b3⟩, ⟨a.c1.b0, a.c0.b1, a.c3.b2, a.c2.b3⟩,
   ⟨a.c2.b0, a.c1.b1, a.c0.b2, a.c3.b3⟩, ⟨a.c3.b0, a.c2.b1, a.c1.b2, a.c0.b3⟩⟩

/-- `MixColumns` of one column (FIPS 197, 5.1.3; `crypto/aes`, used in transport/Common.go L40) -/
def mixColumn (w : Word) : Word :=
  ⟨mul 2 w.b0 ^^^ mul 3 w.b1 ^^^ w.b2 ^^^ w.b3, w.b0 ^^^ mul 2 w.b1 ^^^ mul 3 w.b2 ^^^ w.b3,
   w.b0 ^^^ w.b1 ^^^ mul 2 w.b2 ^^^ mul 3 w.b3, mul 3 w.b0 ^^^ w.b1 ^^^ w.b2 ^^^ mul 2 w.b3⟩

/-- `InvMixColumns` of one column (FIPS 197, 5.3.3; `crypto/aes`, used in transport/Common.go L40) -/
def invMixColumn (w : Word) : Word :=
  ⟨mul 14 w.b0 ^^^ mul 11 w.b1 ^^^ mul 13 w.b2 ^^^ mul 9 w.b3, mul 9 w.b0 ^^^ mul 14 w.b1 ^^^ mul 11 w.b2 ^^^ mul 13 w.b3,
   mul 13 w.b0 ^^^ mul 9 w.b1 ^^^ mul 14 w.b2 ^^^ mul 11 w.b3, mul 11 w.b0 ^^^ mul 13 w.b1 ^^^ mul 9 w.b2 ^^^ mul 14 w.b3⟩

/-! ## The key schedule -/

/-- `Rcon[i]` (FIPS 197, 5.2; `crypto/aes`, used in transport/Common.go L40): the power i - 1 of x. -/
def rcon : Nat → Byte
  | 0 => 0
  | 1 => 1
  | n + 2 => xtime (rcon (n + 1))

/-- The word number `ws.length` after `ws`, for keys of `nk` words. (FIPS 197, 5.2; `crypto/aes`, used in transport/Common.go L40) -/
def nextWord (nk : Nat) (ws : List Word) : Word :=
  let i := ws.length
  let last := ws.getD (i - 1) ⟨0, 0, 0, 0⟩
  let temp :=
    if i % nk = 0 then (last.rot.map sbox).xor ⟨rcon (i / nk), 0, 0, 0⟩
    else if nk > 6 ∧ i % nk = 4 then last.map sbox
    else last
  (ws.getD (i - nk) ⟨0, 0, 0, 0⟩).xor temp

/-- `n` more words. (FIPS 197, 5.2; `crypto/aes`, used in transport/Common.go L40) -/
def expand (nk : Nat) : Nat → List Word → List Word
  | 0, ws => ws
  | n + 1, ws => expand nk n (ws ++ [nextWord nk ws])

/-- Bytes as words; what is left over is dropped, keys have whole words. (`crypto/aes`, used in transport/Common.go L40) -/
def words : List Byte → List Word
  | a :: b :: c :: d :: l => ⟨a, b, c, d⟩ :: words l
  | _ => []

/-- Words as blocks. (FIPS 197, 5.2; `crypto/aes`, used in transport/Common.go L40) -/
def groups : List Word → List Block
  | a :: b :: c :: d :: l => ⟨a, b, c, d⟩ :: groups l
  | _ => []

/-- The round keys of a key: for 4, 6 or 8 words 11, 13 or 15 of them. (FIPS 197, 5.2; `aes.NewCipher`, transport/Common.go L40) -/
def roundKeys (key : List Byte) : List Block :=
  let nk := key.length / 4
  groups (expand nk (4 * (nk + 7) - nk) (words key))

/-! ## The block cipher -/

/-- The rounds with their keys; the last does not mix columns. (FIPS 197, 5.1; the inverse of what `crypto/aes` does for transport/Common.go L46) -/
def rounds : List Block → Block → Block
  | [], s => s
  | [k], s => (shiftRows (s.map (Word.map sbox))).xor k
  | k :: k' :: ks, s => rounds (k' :: ks) (((shiftRows (s.map (Word.map sbox))).map mixColumn).xor k)

/-- `Cipher` (FIPS 197, 5.1; what a publisher does) -/
def encrypt (ks : List Block) (s : Block) : Block :=
  match ks with
  | [] => s
  | k :: ks => rounds ks (s.xor k)

/-- The rounds undone, the last first. (FIPS 197, 5.3; `crypto/aes`, used in transport/Common.go L46) -/
def invRounds : List Block → Block → Block
  | [], s => s
  | [k], s => (invShiftRows (s.xor k)).map (Word.map invSbox)
  | k :: k' :: ks, s => (invShiftRows (((invRounds (k' :: ks) s).xor k).map invMixColumn)).map (Word.map invSbox)

/-- `InvCipher` (FIPS 197, 5.3; `crypto/aes`, used in transport/Common.go L46) -/
def decrypt (ks : List Block) (s : Block) : Block :=
  match ks with
  | [] => s
  | k :: ks => (invRounds ks s).xor k

/-! ## The mode -/

/-- Whole blocks, and the bytes left over. (`CryptBlocks`, transport/Common.go L46) -/
def split : List Byte → List Block × List Byte
  | a0 :: a1 :: a2 :: a3 :: a4 :: a5 :: a6 :: a7 :: a8 :: a9 :: a10 :: a11 :: a12 :: a13 :: a14 :: a15 :: l =>
    (⟨⟨a0, a1, a2, a3⟩, ⟨a4, a5, a6, a7⟩, ⟨a8, a9, a10, a11⟩, ⟨a12, a13, a14, a15⟩⟩ :: (split l).1, (split l).2)
  | l => ([], l)

/-- The bytes of a word. (`CryptBlocks`, transport/Common.go L46) -/
def Word.bytes (w : Word) : List Byte := [w.b0, w.b1, w.b2, w.b3]

/-- The bytes of a block. (`CryptBlocks`, transport/Common.go L46) -/
def Block.bytes (a : Block) : List Byte := a.c0.bytes ++ a.c1.bytes ++ a.c2.bytes ++ a.c3.bytes

/-- Cipher block chaining backwards: each block is decrypted and combined with the enciphered one before. (SP 800-38A, 6.2; `CryptBlocks`,
transport/Common.go L46) -/
def cbcDecrypt (ks : List Block) : Block → List Block → List Block
  | _, [] => []
  | prev, c :: cs => (decrypt ks c).xor prev :: cbcDecrypt ks c cs

/-- Cipher block chaining forwards. (SP 800-38A, 6.2; what a publisher does) -/
def cbcEncrypt (ks : List Block) : Block → List Block → List Block
  | _, [] => []
  | prev, p :: ps => encrypt ks (p.xor prev) :: cbcEncrypt ks (encrypt ks (p.xor prev)) ps

/-- `NewCBCDecrypter` and `CryptBlocks` (transport/Common.go L44-46): both panic on lengths that do not fit, the initialisation vector first. -/
def cryptBlocks (ks : List Block) (iv data : List Byte) : Res (List Byte) :=
  match split iv with
  | ([v], []) =>
    match split data with
    | (cs, []) => .ok ((cbcDecrypt ks v cs).map Block.bytes).flatten
    | _ => .panic
  | _ => .panic

/-- `decipherAES` (transport/Common.go L36-49): `NewCipher` returns an error unless the key has 16, 24 or 32 bytes. -/
def decipherAES (key iv data : List Byte) : Res (List Byte) :=
  if key.length = 16 ∨ key.length = 24 ∨ key.length = 32 then cryptBlocks (roundKeys key) iv data else .err

/-- What a publisher sends for `data`. (SP 800-38A, 6.2; undone by transport/Common.go L36-49) -/
def encipher (key iv data : List Byte) : List Byte :=
  match split iv with
  | (v :: _, _) => ((cbcEncrypt (roundKeys key) v (split data).1).map Block.bytes).flatten
  | _ => []

end Verif.Lib.Aes
