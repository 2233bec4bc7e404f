import Verif.Common.Basic

/-!
# GZip, as `decompressGZip` uses it

`compress/gzip`, `compress/flate` and `hash/crc32` of Go, called in transport/Common.go L51-66. Their sources are not in /repo: written from their documented
behaviour and RFC 1951 and 1952, the tests and the order in which they are made as in Go 1.22. The input is the sequence of its bits, each byte from its least
significant bit on; the Go code takes bytes into a buffer of bits one at a time and never more than the next code word needs, so that at any moment the bits
not yet used are those that are left here. What has been written so far is kept whole, of which the Go code keeps the last 32768 bytes, as far back as a
distance can reach. Errors are `none`; memory is not limited.
-/

namespace Verif.Lib.Gzip

/-- The bits of the input. (`moreBits` of `compress/flate`, used in transport/Common.go L61) -/
def bitsOf (l : List Byte) : List Bool := l.flatMap fun b => (List.range 8).map b.getLsbD

/-- Bits as a number, the first the least significant. (`compress/flate`, used in transport/Common.go L61) -/
def number : List Bool → Nat
  | [] => 0
  | b :: l => b.toNat + 2 * number l

/-- The next `n` bits. (`compress/flate`, used in transport/Common.go L61) -/
def take (n : Nat) (l : List Bool) : Option (Nat × List Bool) :=
  if l.length < n then none else some (number (l.take n), l.drop n)

/-- The next byte. (`ReadByte`, used in transport/Common.go L55-61) -/
def takeByte (l : List Bool) : Option (Byte × List Bool) :=
  match take 8 l with
  | none => none
  | some (v, l) => some (BitVec.ofNat 8 v, l)

/-- The next `n` bytes. (`io.ReadFull`, used in transport/Common.go L55-61) -/
def takeBytes : Nat → List Bool → Option (List Byte × List Bool)
  | 0, l => some ([], l)
  | n + 1, l =>
    match takeByte l with
    | none => none
    | some (b, l) =>
      match takeBytes n l with
      | none => none
      | some (bs, l) => some (b :: bs, l)

/-- To the next whole byte. (`dataBlock` of `compress/flate`, used in transport/Common.go L61) -/
def align (l : List Bool) : List Bool := l.drop (l.length % 8)

/-! ## Huffman codes -/

/-- The first code of length `n` when the symbols have these lengths. (`huffmanDecoder.init` of `compress/flate`, used in transport/Common.go L61) -/
def nextCode (lens : List Nat) : Nat → Nat
  | 0 => 0
  | 1 => 0
  | n + 2 => 2 * (nextCode lens (n + 1) + lens.count (n + 1))

/-- A code of `n` bits, the most significant first. (`huffmanDecoder.init` of `compress/flate`, used in transport/Common.go L61) -/
def codeBits (n c : Nat) : List Bool := (List.range n).map fun j => c.testBit (n - 1 - j)

/-- The codes of the symbols from `i` on; `done` are the lengths before. (`huffmanDecoder.init` of `compress/flate`, used in transport/Common.go L61) -/
def tableFrom (lens : List Nat) (i : Nat) : List Nat → List (List Bool × Nat)
  | [] => []
  | n :: rest =>
    if n = 0 then tableFrom lens (i + 1) rest
    else (codeBits n (nextCode lens n + (lens.take i).count n), i) :: tableFrom lens (i + 1) rest

/-- The codes of all symbols that have one. (`huffmanDecoder.init` of `compress/flate`, used in transport/Common.go L61) -/
def table (lens : List Nat) : List (List Bool × Nat) := tableFrom lens 0 lens

/-- `init` succeeds: no code at all, a complete one, or a single code of one bit. (`huffmanDecoder.init` of `compress/flate`, used in transport/Common.go L61) -/
def complete (lens : List Nat) : Bool :=
  let m := lens.foldl max 0
  let code := nextCode lens m + lens.count m
  m == 0 || code == 2 ^ m || (code == 1 && m == 1)

/-- `huffSym`: the next symbol. (`compress/flate`, used in transport/Common.go L61) -/
def symbol (codes : List (List Bool × Nat)) (l : List Bool) : Option (Nat × List Bool) :=
  match codes.find? fun c => c.1.isPrefixOf l with
  | none => none
  | some c => some (c.2, l.drop c.1.length)

/-! ## Blocks -/

/-- Shortest length and number of further bits of a length symbol. (`huffmanBlock` of `compress/flate`, used in transport/Common.go L61) -/
def lengthBase (v : Nat) : Option (Nat × Nat) :=
  if v < 265 then some (v - (257 - 3), 0)
  else if v < 269 then some (v * 2 - (265 * 2 - 11), 1)
  else if v < 273 then some (v * 4 - (269 * 4 - 19), 2)
  else if v < 277 then some (v * 8 - (273 * 8 - 35), 3)
  else if v < 281 then some (v * 16 - (277 * 16 - 67), 4)
  else if v < 285 then some (v * 32 - (281 * 32 - 131), 5)
  else if v < 286 then some (258, 0)
  else none

/-- Shortest distance and number of further bits of a distance symbol. (`huffmanBlock` of `compress/flate`, used in transport/Common.go L61) -/
def distBase (d : Nat) : Option (Nat × Nat) :=
  if d < 4 then some (d + 1, 0)
  else if d < 30 then some (2 ^ ((d - 2) / 2 + 1) + 1 + d % 2 * 2 ^ ((d - 2) / 2), (d - 2) / 2)
  else none

/-- `n` bytes copied from `dist` bytes back, one at a time. (`dictDecoder.writeCopy` of `compress/flate`, used in transport/Common.go L61) -/
def copyBack (dist : Nat) : Nat → List Byte → List Byte
  | 0, out => out
  | n + 1, out => copyBack dist n (out ++ [out.getD (out.length - dist) 0])

/-- The distance of a match. (`huffmanBlock` of `compress/flate`, used in transport/Common.go L61; the five bits of fixed codes are a complete code too) -/
def readDist (dists : List (List Bool × Nat)) (l : List Bool) : Option (Nat × List Bool) :=
  match symbol dists l with
  | none => none
  | some (d, l) =>
    match distBase d with
    | none => none
    | some (base, n) =>
      match take n l with
      | none => none
      | some (x, l) => some (base + x, l)

/-- The length of a match, for a symbol above 256. (`huffmanBlock` of `compress/flate`, used in transport/Common.go L61) -/
def readLength (v : Nat) (l : List Bool) : Option (Nat × List Bool) :=
  match lengthBase v with
  | none => none
  | some (base, n) =>
    match take n l with
    | none => none
    | some (x, l) => some (base + x, l)

/-- A match: what is written then. (`huffmanBlock` of `compress/flate`, used in transport/Common.go L61) -/
def readMatch (dists : List (List Bool × Nat)) (v : Nat) (out : List Byte) (l : List Bool) : Option (List Byte × List Bool) :=
  match readLength v l with
  | none => none
  | some (len, l) =>
    match readDist dists l with
    | none => none
    | some (dist, l) => if out.length < dist then none else some (copyBack dist len out, l)

/-- The symbols of a block up to the end-of-block marker, at most as many as the first argument says. (`huffmanBlock` of `compress/flate`, used in
transport/Common.go L61) -/
def readSymbols (lits dists : List (List Bool × Nat)) : Nat → List Byte → List Bool → Option (List Byte × List Bool)
  | 0, _, _ => none
  | fuel + 1, out, l =>
    match symbol lits l with
    | none => none
    | some (v, l) =>
      if v < 256 then readSymbols lits dists fuel (out ++ [BitVec.ofNat 8 v]) l
      else if v = 256 then some (out, l)
      else match readMatch dists v out l with
        | none => none
        | some (out, l) => readSymbols lits dists fuel out l

/-- A stored block. (`dataBlock`, `copyData` of `compress/flate`, used in transport/Common.go L61) -/
def readStored (out : List Byte) (l : List Bool) : Option (List Byte × List Bool) :=
  match take 16 (align l) with
  | none => none
  | some (n, l) =>
    match take 16 l with
    | none => none
    | some (nn, l) =>
      if nn ≠ 65535 - n then none
      else match takeBytes n l with
        | none => none
        | some (bs, l) => some (out ++ bs, l)

/-- The code lengths of fixed literals. (`fixedHuffmanDecoderInit` of `compress/flate`, used in transport/Common.go L61) -/
def fixedLits : List Nat := List.replicate 144 8 ++ List.replicate 112 9 ++ List.replicate 24 7 ++ List.replicate 8 8

/-- The code lengths of fixed distances: five bits each. (`huffmanBlock` of `compress/flate`, used in transport/Common.go L61) -/
def fixedDists : List Nat := List.replicate 32 5

/-- The order in which the lengths of the code of code lengths are given. (`codeOrder` of `compress/flate`, used in transport/Common.go L61) -/
def codeOrder : List Nat := [16, 17, 18, 0, 8, 7, 9, 6, 10, 5, 11, 4, 12, 3, 13, 2, 14, 1, 15]

/-- `n` numbers of three bits. (`readHuffman` of `compress/flate`, used in transport/Common.go L61) -/
def takeThrees : Nat → List Bool → Option (List Nat × List Bool)
  | 0, l => some ([], l)
  | n + 1, l =>
    match take 3 l with
    | none => none
    | some (v, l) =>
      match takeThrees n l with
      | none => none
      | some (vs, l) => some (v :: vs, l)

/-- The lengths of the code of code lengths, of which those in `codeOrder` are given. (`readHuffman` of `compress/flate`, used in transport/Common.go L61) -/
def arrange (given : List Nat) : List Nat := (List.range 19).map fun s => given.getD (codeOrder.idxOf s) 0

/-- What a symbol of the code of code lengths stands for: the length repeated, the fewest repetitions, and the number of further bits. (`readHuffman` of
`compress/flate`, used in transport/Common.go L61) -/
def repeats (x : Nat) (lens : List Nat) : Option (Nat × Nat × Nat) :=
  if x < 16 then some (x, 1, 0)
  else if x = 16 then (lens.getLast?).map fun p => (p, 3, 2)
  else if x = 17 then some (0, 3, 3)
  else some (0, 11, 7)

/-- The code lengths up to number `n`. (`readHuffman` of `compress/flate`, used in transport/Common.go L61) -/
def readLengths (codes : List (List Bool × Nat)) (n : Nat) : Nat → List Nat → List Bool → Option (List Nat × List Bool)
  | 0, _, _ => none
  | fuel + 1, lens, l =>
    if n ≤ lens.length then some (lens, l)
    else match symbol codes l with
      | none => none
      | some (x, l) =>
        match repeats x lens with
        | none => none
        | some (v, base, nb) =>
          match take nb l with
          | none => none
          | some (e, l) => if n < lens.length + (base + e) then none else readLengths codes n fuel (lens ++ List.replicate (base + e) v) l

/-- The lengths of both codes of a block. (`readHuffman` of `compress/flate`, used in transport/Common.go L61) -/
def readHeader (l : List Bool) : Option ((List Nat × List Nat) × List Bool) :=
  match take 5 l with
  | none => none
  | some (hlit, l) =>
    if 29 < hlit then none
    else match take 5 l with
      | none => none
      | some (hdist, l) =>
        if 29 < hdist then none
        else match take 4 l with
          | none => none
          | some (hclen, l) =>
            match takeThrees (hclen + 4) l with
            | none => none
            | some (given, l) =>
              if complete (arrange given) = false then none
              else match readLengths (table (arrange given)) (hlit + 257 + (hdist + 1)) (hlit + 257 + (hdist + 1) + 1) [] l with
                | none => none
                | some (lens, l) =>
                  if complete (lens.take (hlit + 257)) && complete (lens.drop (hlit + 257)) then some ((lens.take (hlit + 257), lens.drop (hlit + 257)), l)
                  else none

/-- A block with its own codes. (`nextBlock`, `readHuffman` of `compress/flate`, used in transport/Common.go L61) -/
def readDynamic (out : List Byte) (l : List Bool) : Option (List Byte × List Bool) :=
  match readHeader l with
  | none => none
  | some ((lits, dists), l) => readSymbols (table lits) (table dists) (l.length + 1) out l

/-- One block of the given type. (`nextBlock` of `compress/flate`, used in transport/Common.go L61) -/
def readBlock (type : Nat) (out : List Byte) (l : List Bool) : Option (List Byte × List Bool) :=
  match type with
  | 0 => readStored out l
  | 1 => readSymbols (table fixedLits) (table fixedDists) (l.length + 1) out l
  | 2 => readDynamic out l
  | _ => none

/-- Blocks up to the last. (`nextBlock`, `finishBlock` of `compress/flate`, used in transport/Common.go L61) -/
def inflate : Nat → List Byte → List Bool → Option (List Byte × List Bool)
  | 0, _, _ => none
  | fuel + 1, out, l =>
    match take 1 l with
    | none => none
    | some (final, l) =>
      match take 2 l with
      | none => none
      | some (type, l) =>
        match readBlock type out l with
        | none => none
        | some (out, l) => if final = 1 then some (out, l) else inflate fuel out l

/-! ## Members -/

/-- One bit of the checksum. (`hash/crc32`, used in transport/Common.go L61) -/
def crcBit (c : BitVec 32) : BitVec 32 := (c >>> 1) ^^^ (if c.getLsbD 0 then 0xEDB88320 else 0)

/-- One byte of the checksum. (`hash/crc32`, used in transport/Common.go L61) -/
def crcByte (c : BitVec 32) (b : Byte) : BitVec 32 := crcBit^[8] (c ^^^ b.setWidth 32)

/-- The checksum `crc32.ChecksumIEEE`. (`hash/crc32`, used in transport/Common.go L61) -/
def crc32 (l : List Byte) : BitVec 32 := ~~~ l.foldl crcByte 0xFFFFFFFF

/-- A text up to a zero byte, which is included, of at most `n` bytes in all. (`readString` of `compress/gzip`, used in transport/Common.go L55) -/
def takeText : Nat → List Bool → Option (List Byte × List Bool)
  | 0, _ => none
  | n + 1, l =>
    match takeByte l with
    | none => none
    | some (b, l) =>
      if b = 0 then some ([b], l)
      else match takeText n l with
        | none => none
        | some (bs, l) => some (b :: bs, l)

/-- The extra field with its size, if the flags say so. (`readHeader` of `compress/gzip`, used in transport/Common.go L55) -/
def takeExtra (flags : Byte) (l : List Bool) : Option (List Byte × List Bool) :=
  if flags.getLsbD 2 then
    match takeBytes 2 l with
    | none => none
    | some (size, l) =>
      match takeBytes (number (bitsOf size)) l with
      | none => none
      | some (data, l) => some (size ++ data, l)
  else some ([], l)

/-- A text, if the flags say so. (`readHeader` of `compress/gzip`, used in transport/Common.go L55) -/
def takeTextIf (c : Bool) (l : List Bool) : Option (List Byte × List Bool) := if c then takeText 512 l else some ([], l)

/-- The checksum of the header, if the flags say so: two bytes of it. (`readHeader` of `compress/gzip`, used in transport/Common.go L55) -/
def takeHeaderCrc (flags : Byte) (header : List Byte) (l : List Bool) : Option (List Bool) :=
  if flags.getLsbD 1 then
    match take 16 l with
    | none => none
    | some (v, l) => if v = (crc32 header).toNat % 65536 then some l else none
  else some l

/-- The fixed part of the header: magic number, method; time and system are not looked at. (`readHeader` of `compress/gzip`, used in transport/Common.go L55) -/
def headerFlags (h : List Byte) : Option Byte :=
  match h with
  | 0x1f#8 :: 0x8b#8 :: 8#8 :: flags :: _ => some flags
  | _ => none

/-- The header of a member. (`readHeader` of `compress/gzip`, used in transport/Common.go L55) -/
def takeHeader (l : List Bool) : Option (List Bool) :=
  match takeBytes 10 l with
  | none => none
  | some (h, l) =>
    match headerFlags h with
    | none => none
    | some flags =>
      match takeExtra flags l with
      | none => none
      | some (extra, l) =>
        match takeTextIf (flags.getLsbD 3) l with
        | none => none
        | some (name, l) =>
          match takeTextIf (flags.getLsbD 4) l with
          | none => none
          | some (comment, l) => takeHeaderCrc flags (h ++ extra ++ name ++ comment) l

/-- One member: header, blocks, checksum and size. (`Reader.Read` of `compress/gzip`, used in transport/Common.go L61) -/
def takeMember (l : List Bool) : Option (List Byte × List Bool) :=
  match takeHeader l with
  | none => none
  | some l =>
    match inflate (l.length + 1) [] l with
    | none => none
    | some (out, l) =>
      match take 32 (align l) with
      | none => none
      | some (digest, l) =>
        match take 32 l with
        | none => none
        | some (size, l) => if digest = (crc32 out).toNat ∧ size = out.length % 2 ^ 32 then some (out, l) else none

/-- Members up to the end. (`Reader.Read` of `compress/gzip` with several members, `io.ReadAll`; transport/Common.go L61) -/
def takeMembers : Nat → List Bool → Option (List Byte)
  | 0, _ => none
  | fuel + 1, l =>
    match takeMember l with
    | none => none
    | some (out, l) =>
      if l = [] then some out
      else match takeMembers fuel l with
        | none => none
        | some rest => some (out ++ rest)

/-- `decompressGZip` (transport/Common.go L51-66) -/
def decompressGZip (data : List Byte) : Option (List Byte) := takeMembers (data.length + 1) (bitsOf data)

end Verif.Lib.Gzip
