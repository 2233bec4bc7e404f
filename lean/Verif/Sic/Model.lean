import Verif.Common.GoMap
import Verif.Guid.Model

/-!
# Model of `sttp/transport/SignalIndexCache.go`

Strings are their UTF-8 bytes (`DecodeString`, DataSubscriber.go L274-281, is the identity under the only
supported encoding). `buffer[offset:]` is kept as the list of remaining bytes; see `decodeRecord` for why the uint32
offset needs no separate treatment. `tsscDecoder` belongs to the session model.
-/

namespace Verif.Sic

open Verif.Guid (Guid)

/-- A Go string as bytes. (SignalIndexCache.go L37-45) -/
abbrev Str := List Byte

/-- SignalIndexCache.go L37-45 -/
structure Cache where
  reference : GoMap (BitVec 32) Nat
  signalIDList : List Guid
  sourceList : List Str
  idList : List (BitVec 64)
  signalIDCache : GoMap Guid (BitVec 32)
  binaryLength : BitVec 32
  deriving DecidableEq

/-- `NewSignalIndexCache` (L48-53) -/
def Cache.new : Cache := ⟨[], [], [], [], [], 0⟩

/-- `addRecord` (L56-76), the cache's fields; for the metadata registry see `Verif.Meta.note`. `uint32(len(...))` is the length itself: the list cannot reach 2^32
entries. -/
def addRecord (c : Cache) (signalIndex : BitVec 32) (signalID : Guid) (source : Str) (id : BitVec 64)
    (charSizeEstimate : BitVec 32) : Cache where
  reference := c.reference.set signalIndex c.signalIDList.length
  signalIDList := c.signalIDList ++ [signalID]
  sourceList := c.sourceList ++ [source]
  idList := c.idList ++ [id]
  signalIDCache := c.signalIDCache.set signalID signalIndex
  binaryLength := c.binaryLength + (32 + BitVec.ofNat 32 source.length * charSizeEstimate)

/-- Slice indexing `l[i]`. (SignalIndexCache.go L37-45) -/
def at' {α : Type} (l : List α) (i : Nat) : Res α :=
  match l[i]? with
  | some a => .ok a
  | none => .panic

/-- `Contains` (L89-92) -/
def contains (c : Cache) (i : BitVec 32) : Bool := (c.reference.get i).isSome

/-- `SignalID` (L95-101) -/
def signalID (c : Cache) (i : BitVec 32) : Res Guid :=
  match c.reference.get i with
  | some k => at' c.signalIDList k
  | none => .ok Guid.empty

/-- `SignalIDs` (L104-106): the elements of the set. -/
def signalIDs (c : Cache) : List Guid := c.signalIDList

/-- `Source` (L109-115) -/
def source (c : Cache) (i : BitVec 32) : Res Str :=
  match c.reference.get i with
  | some k => at' c.sourceList k
  | none => .ok []

/-- `ID` (L118-124) -/
def idOf (c : Cache) (i : BitVec 32) : Res (BitVec 64) :=
  match c.reference.get i with
  | some k => at' c.idList k
  | none => .ok 0xFFFFFFFFFFFFFFFF#64

/-- `Record` (L128-134) -/
def record (c : Cache) (i : BitVec 32) : Res (Guid × Str × BitVec 64 × Bool) :=
  match c.reference.get i with
  | some k => do
    let g ← at' c.signalIDList k
    let s ← at' c.sourceList k
    let d ← at' c.idList k
    .ok (g, s, d, true)
  | none => .ok (Guid.empty, [], 0, false)

/-- `SignalIndex` (L137-143) -/
def signalIndex (c : Cache) (g : Guid) : BitVec 32 :=
  match c.signalIDCache.get g with
  | some i => i
  | none => 0xFFFFFFFF#32

/-- `Count` (L146-148) -/
def count (c : Cache) : BitVec 32 := BitVec.ofNat 32 c.signalIDCache.length

/-- A record being decoded. (SignalIndexCache.go L37-45) -/
structure Rec where
  index : BitVec 32
  signalID : Guid
  source : Str
  id : BitVec 64
  deriving DecidableEq

/-- One iteration of the loop (L206-231) without `addRecord`: the record and the bytes after it.

`buffer[offset : offset+sourceSize]` panics when `offset+sourceSize` wraps (high bound below low) and when it exceeds
the capacity; between length and capacity it succeeds but the following `buffer[offset:]` panics. So a
`sourceSize` larger than the remaining bytes always panics. -/
def decodeRecord (swap : Bool) (b : List Byte) : Res (Rec × List Byte) := do
  let index ← readBE 4 b
  let b := b.drop 4
  let g ← Guid.fromBytes b swap
  let b := b.drop 16
  let size ← readBE 4 b
  let b := b.drop 4
  if b.length < size then .panic else
    let src := b.take size
    let b := b.drop size
    let id ← readBE 8 b
    let b := b.drop 8
    .ok (⟨BitVec.ofNat 32 index, g, src, BitVec.ofNat 64 id⟩, b)

/-- The loop L205-231 with `n` iterations left. -/
def decodeLoop (swap : Bool) : Nat → Cache → List Byte → Res Cache
  | 0, c, _ => .ok c
  | n + 1, c, b => do
    let (r, b) ← decodeRecord swap b
    decodeLoop swap n (addRecord c r.index r.signalID r.source r.id 1) b

/-- `decode` (L168-237) called on a new cache (its only use, DataSubscriber.go L1081-1082): the subscriber ID and the
cache. `uint32(len(buffer))` wraps for buffers of 2^32 bytes and more. -/
def decode (swap : Bool) (buffer : List Byte) : Res (Guid × Cache) := do
  let length := buffer.length % 2 ^ 32
  if length < 4 then .err else
    let binaryLength ← readBE 4 buffer
    let b := buffer.drop 4
    if length < binaryLength then .err else
      let sub ← Guid.fromBytes b swap
      let b := b.drop 16
      let n ← readBE 4 b
      let b := b.drop 4
      let c ← decodeLoop swap n Cache.new b
      .ok (sub, c)

end Verif.Sic
