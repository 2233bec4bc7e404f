import Verif.Tssc.Decoder

/-!
# Specification of the TSSC stream: what a conforming publisher sends

The repository contains no publisher, so this file states the protocol from the publisher's side,
independently of the decoder: an ordered stream of single bits and whole bytes, the rule that lays
them out in a buffer, and an encoder that may choose any code word that describes the
measurement correctly (`Choice`). `bestChoice` is one such publisher.

The adaptive code used for code words is the one of the repository's own `WriteCode` (PointMetadata.go L141).
-/

namespace Verif.Tssc

/-- Elements of the stream: a bit of the bit stream or a whole byte. -/
inductive Tok where
  | bit (b : Bool)
  | byte (b : Byte)
  deriving DecidableEq, Repr

/-- The bits among the stream elements. -/
def tokBits : List Tok → List Bool
  | [] => []
  | .bit b :: t => b :: tokBits t
  | .byte _ :: t => tokBits t

/-- Number spelled by the first `n` bits (most significant first), missing bits being zero. -/
def packNat : Nat → List Bool → Nat
  | 0, _ => 0
  | _ + 1, [] => 0
  | n + 1, b :: bs => b.toNat * 2 ^ n + packNat n bs

/-- Layout rule: whole bytes are stored where they occur; bits are collected eight at a time into a
byte stored where the first of the eight occurs. `n` is the number of bits that still belong to the
byte already stored. -/
def layout : Nat → List Tok → List Byte
  | _, [] => []
  | n, .byte b :: t => b :: layout n t
  | 0, .bit b :: t => BitVec.ofNat 8 (packNat 8 (b :: tokBits t)) :: layout 7 t
  | n + 1, .bit _ :: t => layout n t

/-- Little-endian bytes. -/
def leBytes : Nat → Nat → List Byte
  | 0, _ => []
  | n + 1, v => BitVec.ofNat 8 v :: leBytes n (v / 256)

/-- Seven-bit groups, least significant first, at most `k` continued groups before the last byte. -/
def encode7 : Nat → Nat → List Byte
  | 0, v => [BitVec.ofNat 8 v]
  | k + 1, v => if v < 128 then [BitVec.ofNat 8 v]
      else BitVec.ofNat 8 (v % 128 + 128) :: encode7 k (v / 128)

/-- Seven-bit encoding of a 32-bit value (1 to 5 bytes). -/
def encode7BitUInt32 (v : BitVec 32) : List Byte := encode7 4 v.toNat

/-- Seven-bit encoding of a 64-bit value (1 to 9 bytes, the ninth carrying 8 bits). -/
def encode7BitUInt64 (v : BitVec 64) : List Byte := encode7 8 v.toNat

/-- Exclusive-or bits of width `w`: the low four bits as bits when `w` is an odd number of nibbles, the
rest as little-endian bytes. -/
def xorToks (w : Nat) (x : BitVec 32) : List Tok :=
  if w % 8 = 4 then
    (bitsOf x.toNat 4).map .bit ++ (leBytes (w / 8) (x.toNat / 16)).map .byte
  else (leBytes (w / 8) x.toNat).map .byte

/-- What the publisher remembers about a point. -/
structure PubPoint where
  /-- The point expected to follow. -/
  next : BitVec 32
  /-- Current and previous state flags. -/
  flags : BitVec 32
  flagsBefore : BitVec 32
  /-- The last three values, most recent first. -/
  values : List (BitVec 32)
  /-- The adaptive code for code words that follow this point. -/
  code : CodeState

/-- The publisher's state. -/
structure Pub where
  /-- Current and previous timestamp. -/
  now : BitVec 64
  before : BitVec 64
  /-- The four smallest distinct timestamp steps seen, smallest first (signed). -/
  steps : List (BitVec 64)
  /-- State used before the first measurement. -/
  start : PubPoint
  /-- The last point sent. -/
  cur : Option (BitVec 32)
  known : BitVec 32 → Option PubPoint

/-- A point not seen before. -/
def PubPoint.fresh (next : BitVec 32) : PubPoint := ⟨next, 0, 0, [0, 0, 0], CodeState.new⟩

/-- A new publisher. -/
def Pub.new : Pub :=
  ⟨0, 0, List.replicate 4 9223372036854775807#64, PubPoint.fresh 0, none, fun _ => none⟩

/-- The point last sent; `none` only for inconsistent states. -/
def Pub.curPoint (s : Pub) : Option PubPoint :=
  match s.cur with
  | none => some s.start
  | some i => s.known i

/-- Replace what is remembered about a point. -/
def Pub.setKnown (s : Pub) (i : BitVec 32) (p : PubPoint) : Pub :=
  { s with known := fun j => if j = i then some p else s.known j }

/-- Replace what is remembered about the point last sent. -/
def Pub.setCur (s : Pub) (p : PubPoint) : Pub :=
  match s.cur with
  | none => { s with start := p }
  | some i => s.setKnown i p

/-- Send a code word with the adaptive code of the point last sent. -/
def Pub.emit (s : Pub) (c : Nat) : Option (List Tok × Pub) := do
  let p ← s.curPoint
  match writeCode p.code c with
  | .ok (bits, cs) => some (bits.map .bit, s.setCur { p with code := cs })
  | _ => none

/-- Width of the exclusive-or bits of the point-ID code words. -/
def idWidth : Nat → Option Nat
  | 1 => some 4
  | 2 => some 8
  | 3 => some 12
  | 4 => some 16
  | 5 => some 20
  | 6 => some 24
  | 7 => some 32
  | _ => none

/-- Width of the exclusive-or bits of the value code words. -/
def valueWidth : Nat → Option Nat
  | 24 => some 4
  | 25 => some 8
  | 26 => some 12
  | 27 => some 16
  | 28 => some 20
  | 29 => some 24
  | 30 => some 28
  | 31 => some 32
  | _ => none

/-- Absolute value in 64-bit two's complement. -/
def absStep (a b : BitVec 64) : BitVec 64 := if (a - b).slt 0 then b - a else a - b

/-- Insert before the first larger element (signed order). -/
def insertStep (x : BitVec 64) : List (BitVec 64) → List (BitVec 64)
  | [] => [x]
  | y :: ys => if x.slt y then x :: y :: ys else y :: insertStep x ys

/-- Remember a timestamp step among the four smallest distinct ones. -/
def noteStep (x : BitVec 64) (l : List (BitVec 64)) : List (BitVec 64) :=
  if x ∈ l then l else (insertStep x l).take 4

/-- The timestamp a time code word stands for, when it stands for one by itself. -/
def Pub.timeOf (s : Pub) (c : Nat) : Option (BitVec 64) :=
  if 8 ≤ c ∧ c ≤ 11 then (s.steps[c - 8]?).map (s.now + ·)
  else if 12 ≤ c ∧ c ≤ 15 then (s.steps[c - 12]?).map (s.now - ·)
  else if c = 16 then some s.before
  else none

/-- Code words chosen by a publisher for one measurement; `none` leaves the part out. -/
structure Choice where
  id : Option Nat
  time : Option Nat
  flags : Option Nat
  value : Nat
  deriving DecidableEq, Repr

/-- The ID part. It may be left out when the measurement is the expected one. -/
def Pub.sendID (s : Pub) (id : BitVec 32) : Option Nat → Option (List Tok × Pub)
  | none => do
    let p ← s.curPoint
    if p.next = id then some ([], s) else none
  | some c => do
    let w ← idWidth c
    let p ← s.curPoint
    let x := id ^^^ p.next
    if x.toNat < 2 ^ w then do
      let (t, s) ← s.emit c
      let p ← s.curPoint
      some (t ++ xorToks w x, s.setCur { p with next := id })
    else none

/-- Start remembering a new point; it expects the next higher ID to follow. -/
def Pub.meet (s : Pub) (id : BitVec 32) : Pub :=
  match s.known id with
  | some _ => s
  | none => s.setKnown id (PubPoint.fresh (id + 1))

/-- The timestamp part. It may be left out when the timestamp did not change. -/
def Pub.sendTime (s : Pub) (ts : BitVec 64) : Option Nat → Option (List Tok × Pub)
  | none => if s.now = ts then some ([], s) else none
  | some c =>
    let moved : Pub → Pub := fun s =>
      { s with steps := noteStep (absStep s.now ts) s.steps, before := s.now, now := ts }
    if c = 17 then do
      let (t, s) ← s.emit c
      some (t ++ (encode7BitUInt64 (ts ^^^ s.now)).map .byte, moved s)
    else if s.timeOf c = some ts then do
      let (t, s) ← s.emit c
      some (t, moved s)
    else none

/-- The state-flags part. It may be left out when the flags of the point did not change. -/
def Pub.sendFlags (s : Pub) (id : BitVec 32) (f : BitVec 32) : Option Nat → Option (List Tok × Pub)
  | none => do
    let p ← s.known id
    if p.flags = f then some ([], s) else none
  | some c => do
    let extra ←
      (if c = 18 then do
        let p ← s.known id
        if p.flagsBefore = f then some [] else none
      else if c = 19 then some ((encode7BitUInt32 f).map Tok.byte)
      else none)
    let (t, s) ← s.emit c
    let p ← s.known id
    some (t ++ extra, s.setKnown id { p with flags := f, flagsBefore := p.flags })

/-- The value part, always present: one of the last three values (codes 20, 21, 22, moved to the front), zero
(code 23), or exclusive-or bits against the last value. -/
def Pub.sendValue (s : Pub) (id : BitVec 32) (v : BitVec 32) (c : Nat) : Option (List Tok × Pub) :=
  if 20 ≤ c ∧ c ≤ 22 then do
    let p ← s.known id
    if p.values[c - 20]? = some v then do
      let (t, s) ← s.emit c
      let p ← s.known id
      some (t, s.setKnown id { p with values := v :: p.values.eraseIdx (c - 20) })
    else none
  else if c = 23 then do
    if v = 0 then do
      let (t, s) ← s.emit c
      let p ← s.known id
      some (t, s.setKnown id { p with values := (v :: p.values).take 3 })
    else none
  else do
    let w ← valueWidth c
    let p ← s.known id
    let last ← p.values.head?
    let x := v ^^^ last
    if x.toNat < 2 ^ w then do
      let (t, s) ← s.emit c
      let p ← s.known id
      some (t ++ xorToks w x, s.setKnown id { p with values := (v :: p.values).take 3 })
    else none

/-- Send one measurement with the chosen code words; `none` when a choice does not describe it. -/
def Pub.send (s : Pub) (m : Meas) (ch : Choice) : Option (List Tok × Pub) := do
  let (t1, s) ← s.sendID m.id ch.id
  let s := s.meet m.id
  let (t2, s) ← s.sendTime m.timestamp ch.time
  let (t3, s) ← s.sendFlags m.id m.flags ch.flags
  let (t4, s) ← s.sendValue m.id m.value ch.value
  some (t1 ++ t2 ++ t3 ++ t4, { s with cur := some m.id })

/-- Send several measurements. -/
def Pub.sendAll (s : Pub) : List (Meas × Choice) → Option (List Tok × Pub)
  | [] => some ([], s)
  | (m, ch) :: r => do
    let (t, s) ← s.send m ch
    let (t', s) ← s.sendAll r
    some (t ++ t', s)

/-- How a block ends: either its bits fill whole bytes, or the end-of-stream code word and padding bits
follow. -/
inductive BlockEnd where
  | aligned
  | endCode (pad : List Bool)

/-- Send the end of a block whose elements so far are `t`. -/
def Pub.finish (s : Pub) (t : List Tok) : BlockEnd → Option (List Tok × Pub)
  | .aligned => if (tokBits t).length % 8 = 0 then some (t, s) else none
  | .endCode pad => do
    let (t', s) ← s.emit 0
    let t := t ++ t' ++ pad.map .bit
    if (tokBits t).length % 8 = 0 then some (t, s) else none

/-- A block: measurements with code choices, and its ending. -/
structure Block where
  items : List (Meas × Choice)
  ending : BlockEnd

/-- The bytes of one block. -/
def Pub.sendBlock (s : Pub) (b : Block) : Option (List Byte × Pub) := do
  let (t, s) ← s.sendAll b.items
  let (t, s) ← s.finish t b.ending
  some (layout 0 t, s)

/-- The bytes of successive blocks. -/
def Pub.sendBlocks (s : Pub) : List Block → Option (List (List Byte))
  | [] => some []
  | b :: bs => do
    let (data, s) ← s.sendBlock b
    let rest ← s.sendBlocks bs
    some (data :: rest)

/-- Smallest exclusive-or code word that fits, among `(code, width)` pairs. -/
def smallestXor (x : BitVec 32) : List (Nat × Nat) → Nat
  | [] => 0
  | [(c, _)] => c
  | (c, w) :: r => if x.toNat < 2 ^ w then c else smallestXor x r

/-- A publisher that leaves out what it can and otherwise uses short code words. -/
def Pub.bestChoice (s : Pub) (m : Meas) : Choice :=
  let nextID := (s.curPoint.map (·.next)).getD 0
  let p := ((s.meet m.id).known m.id).getD (PubPoint.fresh 0)
  { id := if nextID = m.id then none
      else some (smallestXor (m.id ^^^ nextID) [(1, 4), (2, 8), (3, 12), (4, 16), (5, 20), (6, 24), (7, 32)])
    time := if s.now = m.timestamp then none
      else some ((([8, 9, 10, 11, 12, 13, 14, 15, 16] : List Nat).find?
        (fun c => s.timeOf c = some m.timestamp)).getD 17)
    flags := if p.flags = m.flags then none else if p.flagsBefore = m.flags then some 18 else some 19
    value := if p.values[0]? = some m.value then 20
      else if p.values[1]? = some m.value then 21
      else if p.values[2]? = some m.value then 22
      else if m.value = 0 then 23
      else smallestXor (m.value ^^^ (p.values.head?).getD 0)
        [(24, 4), (25, 8), (26, 12), (27, 16), (28, 20), (29, 24), (30, 28), (31, 32)] }

end Verif.Tssc
