import Verif.Lib.Inflate

/-!
# The formats of RFC 1951 and 1952

Written independently of the reader in `Lib.Inflate`: what a stream of blocks and a file of members are, and what they stand for. A compressor may choose
blocks, codes and matches as it likes.
-/

namespace Verif.Lib.Gzip.Rfc

/-- The `n` low bits of a number, the least significant first. -/
def lsb (n v : Nat) : List Bool := (List.range n).map v.testBit

/-- The bits of bytes. -/
def bytes (l : List Byte) : List Bool := l.flatMap fun b => lsb 8 b.toNat

/-! ## Codes -/

/-- The part of all sequences of 15 bits that begin with a code of this length. -/
def room (n : Nat) : Nat := if n = 0 then 0 else 2 ^ (15 - n)

/-- Where the code of symbol `s` begins among all sequences of 15 bits: after the shorter codes and those as long of earlier symbols. -/
def start (lens : List Nat) (s : Nat) : Nat :=
  (lens.map fun n => if n < lens.getD s 0 then room n else 0).sum + ((lens.take s).map fun n => if n = lens.getD s 0 then room n else 0).sum

/-- The code of symbol `s`, the most significant bit first. (RFC 1951, 3.2.2) -/
def code (lens : List Nat) (s : Nat) : List Bool := (List.range (lens.getD s 0)).map fun j => (start lens s).testBit (14 - j)

/-- The symbol has a code. -/
def Coded (lens : List Nat) (s : Nat) : Prop := lens.getD s 0 ≠ 0

/-- Lengths that give a code: one that uses all sequences, or none at all, or a single code of one bit. -/
def CodeOk (lens : List Nat) : Prop :=
  (∀ n ∈ lens, n = 0) ∨ (lens.map room).sum = 2 ^ 15 ∨ lens.filter (fun n => n ≠ 0) = [1]

/-! ## Matches -/

/-- Shortest length and further bits of the symbols 257 to 285. (RFC 1951, 3.2.5) -/
def lengthTable : List (Nat × Nat) :=
  [(3, 0), (4, 0), (5, 0), (6, 0), (7, 0), (8, 0), (9, 0), (10, 0), (11, 1), (13, 1), (15, 1), (17, 1), (19, 2), (23, 2), (27, 2), (31, 2),
   (35, 3), (43, 3), (51, 3), (59, 3), (67, 4), (83, 4), (99, 4), (115, 4), (131, 5), (163, 5), (195, 5), (227, 5), (258, 0)]

/-- Shortest distance and further bits of the symbols 0 to 29. (RFC 1951, 3.2.5) -/
def distTable : List (Nat × Nat) :=
  [(1, 0), (2, 0), (3, 0), (4, 0), (5, 1), (7, 1), (9, 2), (13, 2), (17, 3), (25, 3), (33, 4), (49, 4), (65, 5), (97, 5), (129, 6), (193, 6),
   (257, 7), (385, 7), (513, 8), (769, 8), (1025, 9), (1537, 9), (2049, 10), (3073, 10), (4097, 11), (6145, 11), (8193, 12), (12289, 12),
   (16385, 13), (24577, 13)]

/-- `Repeated out dist len out'`: `out'` is `out` and `len` bytes more, each equal to the one `dist` bytes before it. -/
def Repeated (out : List Byte) (dist len : Nat) (out' : List Byte) : Prop :=
  out <+: out' ∧ out'.length = out.length + len ∧ ∀ i, out.length ≤ i → i < out'.length → out'[i]? = out'[i - dist]?

/-- `Symbols lits dists out l out'`: the bits `l` are symbols of these codes up to the end of the block; after `out` they lead to `out'`. (RFC 1951, 3.2.3) -/
inductive Symbols (lits dists : List Nat) : List Byte → List Bool → List Byte → Prop
  | stop (out : List Byte) (h : Coded lits 256) : Symbols lits dists out (code lits 256) out
  | literal (out out' : List Byte) (l : List Bool) (b : Byte) (h : Coded lits b.toNat) (hr : Symbols lits dists (out ++ [b]) l out') :
      Symbols lits dists out (code lits b.toNat ++ l) out'
  | copy (out out1 out' : List Byte) (l : List Bool) (i lbase lbits x d dbase dbits y : Nat) (h : Coded lits (257 + i))
      (hi : lengthTable[i]? = some (lbase, lbits)) (hx : x < 2 ^ lbits) (hd : Coded dists d) (hdt : distTable[d]? = some (dbase, dbits)) (hy : y < 2 ^ dbits)
      (hback : dbase + y ≤ out.length) (hrep : Repeated out (dbase + y) (lbase + x) out1) (hr : Symbols lits dists out1 l out') :
      Symbols lits dists out (code lits (257 + i) ++ lsb lbits x ++ code dists d ++ lsb dbits y ++ l) out'

/-! ## Blocks -/

/-- Lengths of the fixed code of literals. (RFC 1951, 3.2.6) -/
def fixedLit (s : Nat) : Nat := if s ≤ 143 then 8 else if s ≤ 255 then 9 else if s ≤ 279 then 7 else 8

/-- In which order the lengths of the code for lengths are given. (RFC 1951, 3.2.7) -/
def order : List Nat := [16, 17, 18, 0, 8, 7, 9, 6, 10, 5, 11, 4, 12, 3, 13, 2, 14, 1, 15]

/-- `Lengths cl so l lens`: the bits `l`, in the code with the lengths `cl`, lead from the lengths `so` on to `lens`. (RFC 1951, 3.2.7) -/
inductive Lengths (cl : List Nat) : List Nat → List Bool → List Nat → Prop
  | stop (so : List Nat) : Lengths cl so [] so
  | one (so lens : List Nat) (l : List Bool) (n : Nat) (h : n ≤ 15) (hc : Coded cl n) (hr : Lengths cl (so ++ [n]) l lens) :
      Lengths cl so (code cl n ++ l) lens
  | again (so lens : List Nat) (l : List Bool) (n x : Nat) (hx : x < 4) (hc : Coded cl 16)
      (hr : Lengths cl (so ++ [n] ++ List.replicate (3 + x) n) l lens) : Lengths cl (so ++ [n]) (code cl 16 ++ lsb 2 x ++ l) lens
  | zeros (so lens : List Nat) (l : List Bool) (x : Nat) (hx : x < 8) (hc : Coded cl 17) (hr : Lengths cl (so ++ List.replicate (3 + x) 0) l lens) :
      Lengths cl so (code cl 17 ++ lsb 3 x ++ l) lens
  | zerosMore (so lens : List Nat) (l : List Bool) (x : Nat) (hx : x < 128) (hc : Coded cl 18) (hr : Lengths cl (so ++ List.replicate (11 + x) 0) l lens) :
      Lengths cl so (code cl 18 ++ lsb 7 x ++ l) lens

/-- `Codes l lits dists`: the bits `l` describe these codes. (RFC 1951, 3.2.7) -/
inductive Codes : List Bool → List Nat → List Nat → Prop
  | intro (given cl lits dists : List Nat) (l : List Bool) (hg : 4 ≤ given.length ∧ given.length ≤ 19) (hg7 : ∀ n ∈ given, n < 8)
      (hcl : cl.length = 19) (hcl' : ∀ i, i < 19 → cl[order.getD i 0]? = some (given.getD i 0)) (hok : CodeOk cl)
      (hl : 257 ≤ lits.length ∧ lits.length ≤ 286) (hd : 1 ≤ dists.length ∧ dists.length ≤ 30) (hs : Lengths cl [] l (lits ++ dists))
      (hlok : CodeOk lits) (hdok : CodeOk dists) :
      Codes (lsb 5 (lits.length - 257) ++ lsb 5 (dists.length - 1) ++ lsb 4 (given.length - 4) ++ given.flatMap (lsb 3) ++ l) lits dists

/-- `Block pos type out l out'`: the bits `l`, before which there are `pos` bits, are the content of a block of this type, and lead from `out` to `out'`.
(RFC 1951, 3.2.4-3.2.7) -/
inductive Block (pos : Nat) : Nat → List Byte → List Bool → List Byte → Prop
  | stored (out data : List Byte) (pad : List Bool) (hp : pad.length < 8) (hpos : (pos + pad.length) % 8 = 0) (hd : data.length < 65536) :
      Block pos 0 out (pad ++ lsb 16 data.length ++ lsb 16 (65535 - data.length) ++ bytes data) (out ++ data)
  | fixed (out out' : List Byte) (l : List Bool) (h : Symbols ((List.range 288).map fixedLit) (List.replicate 32 5) out l out') : Block pos 1 out l out'
  | own (out out' : List Byte) (c l : List Bool) (lits dists : List Nat) (hc : Codes c lits dists) (h : Symbols lits dists out l out') :
      Block pos 2 out (c ++ l) out'

/-- `Blocks pos out l out'`: blocks, the last of which says so. (RFC 1951, 3.2.3) -/
inductive Blocks : Nat → List Byte → List Bool → List Byte → Prop
  | last (pos type : Nat) (ht : type < 4) (out out' : List Byte) (l : List Bool) (h : Block (pos + 3) type out l out') :
      Blocks pos out (lsb 1 1 ++ lsb 2 type ++ l) out'
  | more (pos type : Nat) (ht : type < 4) (out out1 out' : List Byte) (l m : List Bool) (h : Block (pos + 3) type out l out1)
      (hr : Blocks (pos + 3 + l.length) out1 m out') : Blocks pos out (lsb 1 0 ++ lsb 2 type ++ l ++ m) out'

/-! ## Members -/

/-- A text of a header, with its end; Go takes at most 511 bytes. -/
def Text (l : List Byte) : Prop := ∃ t : List Byte, l = t ++ [0] ∧ 0 ∉ t ∧ t.length ≤ 511

/-- The parts of a header that the flags announce. (RFC 1952, 2.3) -/
structure Header (flags : Byte) (six extra name comment check : List Byte) : Prop where
  /-- time, extra flags, operating system -/
  hsix : six.length = 6
  hextra : if flags.getLsbD 2 then ∃ data : List Byte, data.length < 65536 ∧ extra = [BitVec.ofNat 8 (data.length % 256), BitVec.ofNat 8 (data.length / 256)] ++ data
    else extra = []
  hname : if flags.getLsbD 3 then Text name else name = []
  hcomment : if flags.getLsbD 4 then Text comment else comment = []
  hcheck : if flags.getLsbD 1 then bytes check = lsb 16 ((crc32 ([0x1f, 0x8b, 8, flags] ++ six ++ extra ++ name ++ comment)).toNat % 65536) else check = []

/-- `Member l out`: the bits of a member and what it stands for. (RFC 1952, 2.3) -/
inductive Member : List Bool → List Byte → Prop
  | intro (flags : Byte) (six extra name comment check : List Byte) (h : Header flags six extra name comment check) (l pad : List Bool) (out : List Byte)
      (hb : Blocks 0 [] l out) (hp : pad.length < 8) (hal : (l.length + pad.length) % 8 = 0) :
      Member (bytes ([0x1f, 0x8b, 8, flags] ++ six ++ extra ++ name ++ comment ++ check) ++ l ++ pad ++ lsb 32 (crc32 out).toNat ++
        lsb 32 (out.length % 2 ^ 32)) out

/-- `File l out`: one member or several. (RFC 1952, 2.2) -/
inductive File : List Bool → List Byte → Prop
  | one (l : List Bool) (out : List Byte) (h : Member l out) : File l out
  | more (l m : List Bool) (out out' : List Byte) (h : Member l out) (hr : File m out') : File (l ++ m) (out ++ out')

end Verif.Lib.Gzip.Rfc
