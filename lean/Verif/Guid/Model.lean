import Verif.Common.Basic

/-!
# Model of `sttp/guid/Guid.go`

`Guid` is `[16]byte` (Guid.go L35): a byte list of length 16.
`Parse` and `String` are in `Verif.Guid.Text`; `New` gives random bytes and is not modelled.
-/

set_option linter.dupNamespace false

namespace Verif.Guid

/-- Guid.go L35 -/
structure Guid where
  bytes : List Byte
  len : bytes.length = 16
  deriving DecidableEq, Repr

/-- Guid.go L38 -/
def empty : Guid := ⟨List.replicate 16 0#8, by decide⟩

/-- Guid.go L46-48 -/
def isZero (g : Guid) : Bool := g = empty

/-- Guid.go L51-53 and L56-58 -/
def equal (a b : Guid) : Bool := a = b

/-- Guid.go L91-97 -/
def result (left right : Nat) : Int := if left < right then -1 else 1

/-- Guid.go L100-106: big-endian `uint32`, two `uint16` and eight bytes. -/
def components (g : Guid) : Nat × Nat × Nat × List Byte :=
  (beNat (g.bytes.take 4), beNat ((g.bytes.drop 4).take 2), beNat ((g.bytes.drop 6).take 2),
    g.bytes.drop 8)

/-- The loop of Guid.go L82-88 over the last eight bytes. -/
def compareD : List Byte → List Byte → Int
  | x :: xs, y :: ys => if x ≠ y then result x.toNat y.toNat else compareD xs ys
  | _, _ => 0

/-- Guid.go L66-89 (and the method L61-63). -/
def compare (a b : Guid) : Int :=
  let (a1, b1, c1, d1) := components a
  let (a2, b2, c2, d2) := components b
  if a1 ≠ a2 then result a1 a2
  else if b1 ≠ b2 then result b1 b2
  else if c1 ≠ c2 then result c1 c2
  else compareD d1 d2

/-- Guid.go L147-172. The loop L151-157 reads indexes 0..15 of the slice, which panics on a shorter
one; both callers pass at least 16 bytes. The result is a fresh slice: the argument's bytes are
not changed. -/
def swapGuidEndianness : List Byte → Res (List Byte)
  | b0 :: b1 :: b2 :: b3 :: b4 :: b5 :: b6 :: b7 :: b8 :: b9 :: b10 :: b11 :: b12 :: b13 :: b14 ::
      b15 :: _ =>
    .ok [b3, b2, b1, b0, b5, b4, b7, b6, b8, b9, b10, b11, b12, b13, b14, b15]
  | _ => .panic

/-- Guid.go L124-134. `Guid(data)` converts a slice to the array of its first 16 bytes. -/
def fromBytes (data : List Byte) (swap : Bool) : Res Guid :=
  if data.length < 16 then .err
  else do
    let data ← if swap then swapGuidEndianness data else .ok data
    if h : (data.take 16).length = 16 then .ok ⟨data.take 16, h⟩ else .panic

/-- Guid.go L137-145 -/
def toBytes (g : Guid) (swap : Bool) : Res (List Byte) :=
  if swap then swapGuidEndianness g.bytes else .ok g.bytes

end Verif.Guid
