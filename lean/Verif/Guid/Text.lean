import Verif.Guid.Model

/-!
# The text of a Guid

`Parse` and `String` (Guid.go L108-117) rest on google/uuid v1.3.0, written out here from the library's source: `Parse`, `xtob`, `encodeHex`.
`strings.ToLower` of nine bytes can only give the ASCII text `urn:uuid:` for bytes that are it letter case aside, so ASCII is enough.
-/

set_option linter.dupNamespace false

namespace Verif.Guid

/-- The value of a hexadecimal digit, 255 for any other byte (uuid/util.go, `xvalues`). (Guid.go L109-112) -/
def xvalue (b : Byte) : Byte :=
  if 48 ≤ b.toNat ∧ b.toNat ≤ 57 then b - 48#8
  else if 97 ≤ b.toNat ∧ b.toNat ≤ 102 then b - 87#8
  else if 65 ≤ b.toNat ∧ b.toNat ≤ 70 then b - 55#8
  else 255#8

/-- `xtob` (uuid/util.go): two digits as a byte, and whether they are digits. (Guid.go L109-112) -/
def xtob (a b : Byte) : Byte × Bool :=
  ((xvalue a <<< 4) ||| xvalue b, decide (xvalue a ≠ 255#8) && decide (xvalue b ≠ 255#8))

/-- The loops of `Parse` over the positions of the digits: the bytes stored up to the first error and whether there was none. The loop for texts
without dashes stores before it tests (`early`). The texts are long enough for all positions. (Guid.go L109-112) -/
def readPairs (early : Bool) (s : List Byte) : List Nat → List Byte × Bool
  | [] => ([], true)
  | i :: is =>
    let v := xtob (s.getD i 0) (s.getD (i + 1) 0)
    if v.2 then (v.1 :: (readPairs early s is).1, (readPairs early s is).2)
    else (if early then [v.1] else [], false)

/-- Where the digits of the bytes are in a text with dashes. (Guid.go L109-112) -/
def dashed : List Nat := [0, 2, 4, 6, 9, 11, 14, 16, 19, 21, 24, 26, 28, 30, 32, 34]

/-- Where they are in a text of digits only. (Guid.go L109-112) -/
def packed : List Nat := [0, 2, 4, 6, 8, 10, 12, 14, 16, 18, 20, 22, 24, 26, 28, 30]

/-- ASCII lower case. (Guid.go L109-112) -/
def lowerByte (b : Byte) : Byte := if 65 ≤ b.toNat ∧ b.toNat ≤ 90 then b + 32#8 else b

/-- `urn:uuid:` (Guid.go L109-112) -/
def urn : List Byte := [117, 114, 110, 58, 117, 117, 105, 100, 58]

/-- The bytes read, filled up with zeros: the array a failing `Parse` returns. (Guid.go L109-112) -/
def fill (l : List Byte) : Guid := ⟨(l ++ List.replicate 16 0#8).take 16, by simp⟩

/-- The part of `uuid.Parse` after the switch: dashes and digits. (Guid.go L109-112) -/
def parseDashed (s : List Byte) : Guid × Bool :=
  if s.getD 8 0 ≠ 45#8 ∨ s.getD 13 0 ≠ 45#8 ∨ s.getD 18 0 ≠ 45#8 ∨ s.getD 23 0 ≠ 45#8 then (empty, false)
  else (fill (readPairs false s dashed).1, (readPairs false s dashed).2)

/-- `Parse` (Guid.go L109-112): the value, and whether there was no error. The value of a failing call has the bytes read before the error. -/
def parse (s : List Byte) : Guid × Bool :=
  if s.length = 36 then parseDashed s
  else if s.length = 45 then if (s.take 9).map lowerByte ≠ urn then (empty, false) else parseDashed (s.drop 9)
  else if s.length = 38 then parseDashed (s.drop 1)
  else if s.length = 32 then (fill (readPairs true s packed).1, (readPairs true s packed).2)
  else (empty, false)

/-- A hexadecimal digit, in lower case. (Guid.go L115-117) -/
def hexDigit (n : Nat) : Byte := if n < 10 then BitVec.ofNat 8 (48 + n) else BitVec.ofNat 8 (87 + n)

/-- `hex.Encode` (Guid.go L115-117) -/
def hexBytes : List Byte → List Byte
  | [] => []
  | b :: bs => hexDigit (b.toNat / 16) :: hexDigit (b.toNat % 16) :: hexBytes bs

/-- `UUID.String` (`encodeHex`) (Guid.go L115-117) -/
def uuidString (g : Guid) : List Byte :=
  hexBytes (g.bytes.take 4) ++ 45#8 :: (hexBytes ((g.bytes.drop 4).take 2) ++ 45#8 :: (hexBytes ((g.bytes.drop 6).take 2) ++
    45#8 :: (hexBytes ((g.bytes.drop 8).take 2) ++ 45#8 :: hexBytes (g.bytes.drop 10))))

/-- `String` (Guid.go L115-117): in braces. -/
def toString (g : Guid) : List Byte := 123#8 :: uuidString g ++ [125#8]

end Verif.Guid
