import Verif.Tssc.PointMetadata

/-!
# Model of `sttp/transport/tssc/Decoder.go`

`data[position:]` is kept as the list of remaining bytes: `position` never passes `lastPosition = len(data)`
(every increment follows an access at or beyond the skipped bytes), so
`position == lastPosition` is emptiness of that list. `float32` values are their 32-bit patterns.
`SequenceNumber` belongs to the session model. Where an expression combines `readBits4()` with `data[position]`
(L225, L231, L237, L266, L272), the Go specification leaves open which is evaluated first; the call comes first here, as in the code the
Go compiler makes.

`lastPoint` is a pointer into the `points` map, or the initial object created by `NewDecoder` that is in
no map entry. Entries are never replaced, so the pointer is modelled by the key.
-/

namespace Verif.Tssc

/-- The buffer fields (Decoder.go L35-37, L50-54). -/
structure Buf where
  /-- `data[position:]` -/
  rest : List Byte
  /-- `bitStreamCount` -/
  bitCount : Nat
  /-- `bitStreamCache`; it only ever holds a byte. -/
  bitCache : Byte
  deriving DecidableEq, Repr

/-- `readBit` (Decoder.go L356-366) -/
def readBit (b : Buf) : Res (Bool × Buf) := do
  let b ←
    (if b.bitCount = 0 then
      match b.rest with
      | [] => Res.panic
      | x :: xs => .ok ⟨xs, 8, x⟩
    else .ok b)
  let n := b.bitCount - 1
  .ok (b.bitCache.getLsbD n, { b with bitCount := n })

/-- `readBits4` (Decoder.go L368-370) -/
def readBits4 (b : Buf) : Res (Nat × Buf) := do
  let (b3, b) ← readBit b
  let (b2, b) ← readBit b
  let (b1, b) ← readBit b
  let (b0, b) ← readBit b
  .ok (b3.toNat <<< 3 ||| b2.toNat <<< 2 ||| b1.toNat <<< 1 ||| b0.toNat, b)

/-- `readBits5` (Decoder.go L372-374) -/
def readBits5 (b : Buf) : Res (Nat × Buf) := do
  let (b4, b) ← readBit b
  let (b3, b) ← readBit b
  let (b2, b) ← readBit b
  let (b1, b) ← readBit b
  let (b0, b) ← readBit b
  .ok (b4.toNat <<< 4 ||| b3.toNat <<< 3 ||| b2.toNat <<< 2 ||| b1.toNat <<< 1 ||| b0.toNat, b)

/-- `td.data[td.position]` followed (eventually) by `td.position++`. Expressions that read
`data[position]`, `data[position+1]`, ... and then add the count are successive uses of this. (transport/tssc/Decoder.go L98-475) -/
def readByte (b : Buf) : Res (Byte × Buf) :=
  match b.rest with
  | [] => .panic
  | x :: xs => .ok (x, { b with rest := xs })

/-- `decode7BitUInt32` (Decoder.go L376-410): value and bytes consumed. -/
def decode7BitUInt32 (stream : List Byte) : Res (BitVec 32 × Nat) :=
  match stream with
  | [] => .panic
  | s0 :: r1 =>
    let value := s0.setWidth 32
    if value < 128#32 then .ok (value, 1) else
    match r1 with
    | [] => .panic
    | s1 :: r2 =>
      let value := value ^^^ (s1.setWidth 32 <<< 7)
      if value < 16384#32 then .ok (value ^^^ 0x80#32, 2) else
      match r2 with
      | [] => .panic
      | s2 :: r3 =>
        let value := value ^^^ (s2.setWidth 32 <<< 14)
        if value < 2097152#32 then .ok (value ^^^ 0x4080#32, 3) else
        match r3 with
        | [] => .panic
        | s3 :: r4 =>
          let value := value ^^^ (s3.setWidth 32 <<< 21)
          if value < 268435456#32 then .ok (value ^^^ 0x204080#32, 4) else
          match r4 with
          | [] => .panic
          | s4 :: _ =>
            let value := value ^^^ (s4.setWidth 32 <<< 28)
            .ok (value ^^^ 0x10204080#32, 5)

/-- `decode7BitUInt64` (Decoder.go L412-475): value and bytes consumed. -/
def decode7BitUInt64 (stream : List Byte) : Res (BitVec 64 × Nat) :=
  match stream with
  | [] => .panic
  | s0 :: r1 =>
    let value := s0.setWidth 64
    if value < 128#64 then .ok (value, 1) else
    match r1 with
    | [] => .panic
    | s1 :: r2 =>
      let value := value ^^^ (s1.setWidth 64 <<< 7)
      if value < 16384#64 then .ok (value ^^^ 0x80#64, 2) else
      match r2 with
      | [] => .panic
      | s2 :: r3 =>
        let value := value ^^^ (s2.setWidth 64 <<< 14)
        if value < 2097152#64 then .ok (value ^^^ 0x4080#64, 3) else
        match r3 with
        | [] => .panic
        | s3 :: r4 =>
          let value := value ^^^ (s3.setWidth 64 <<< 21)
          if value < 268435456#64 then .ok (value ^^^ 0x204080#64, 4) else
          match r4 with
          | [] => .panic
          | s4 :: r5 =>
            let value := value ^^^ (s4.setWidth 64 <<< 28)
            if value < 34359738368#64 then .ok (value ^^^ 0x10204080#64, 5) else
            match r5 with
            | [] => .panic
            | s5 :: r6 =>
              let value := value ^^^ (s5.setWidth 64 <<< 35)
              if value < 4398046511104#64 then .ok (value ^^^ 0x810204080#64, 6) else
              match r6 with
              | [] => .panic
              | s6 :: r7 =>
                let value := value ^^^ (s6.setWidth 64 <<< 42)
                if value < 562949953421312#64 then .ok (value ^^^ 0x40810204080#64, 7) else
                match r7 with
                | [] => .panic
                | s7 :: r8 =>
                  let value := value ^^^ (s7.setWidth 64 <<< 49)
                  if value < 72057594037927936#64 then .ok (value ^^^ 0x2040810204080#64, 8) else
                  match r8 with
                  | [] => .panic
                  | s8 :: _ =>
                    let value := value ^^^ (s8.setWidth 64 <<< 56)
                    .ok (value ^^^ 0x102040810204080#64, 9)

/-- `pointMetadata` (PointMetadata.go L101-127): remembered fields plus the adaptive code. -/
structure Point where
  nextID : BitVec 32
  flags1 : BitVec 32
  flags2 : BitVec 32
  value1 : BitVec 32
  value2 : BitVec 32
  value3 : BitVec 32
  code : CodeState
  deriving DecidableEq, Repr

/-- `newPointMetadata` (PointMetadata.go L129-139, Decoder.go L75-77) -/
def Point.new : Point := ⟨0, 0, 0, 0, 0, 0, CodeState.new⟩

/-- `math.MaxInt64` (transport/tssc/Decoder.go L47, L61-77) -/
def maxInt64 : BitVec 64 := 9223372036854775807#64

/-- The decoder (Decoder.go L34-58). -/
structure Decoder where
  buf : Buf
  ts1 : BitVec 64
  ts2 : BitVec 64
  delta1 : BitVec 64
  delta2 : BitVec 64
  delta3 : BitVec 64
  delta4 : BitVec 64
  /-- The object `lastPoint` points to before any measurement was decoded. -/
  initial : Point
  /-- `none`: `lastPoint` is the initial object; `some id`: it is the map entry of `id`. -/
  last : Option (BitVec 32)
  points : BitVec 32 → Option Point

/-- `NewDecoder` (Decoder.go L61-73) -/
def newDecoder : Decoder where
  buf := ⟨[], 0, 0⟩
  ts1 := 0
  ts2 := 0
  delta1 := maxInt64
  delta2 := maxInt64
  delta3 := maxInt64
  delta4 := maxInt64
  initial := Point.new
  last := none
  points := fun _ => none

/-- `SetBuffer` with `clearBitStream` (Decoder.go L83-94) -/
def setBuffer (d : Decoder) (data : List Byte) : Decoder := { d with buf := ⟨data, 0, 0⟩ }

/-- Dereferencing `td.lastPoint`. (transport/tssc/Decoder.go L47, L61-77) -/
def getLast (d : Decoder) : Res Point :=
  match d.last with
  | none => .ok d.initial
  | some i => match d.points i with
    | some p => .ok p
    | none => .panic

/-- Writing through `td.lastPoint`. (transport/tssc/Decoder.go L47, L61-77) -/
def setLast (d : Decoder) (p : Point) : Decoder :=
  match d.last with
  | none => { d with initial := p }
  | some i => { d with points := fun j => if j = i then some p else d.points j }

/-- Writing through the map entry of `id` (the Go code holds the pointer `nextPoint`). (transport/tssc/Decoder.go L98-256) -/
def setPoint (d : Decoder) (id : BitVec 32) (p : Point) : Decoder :=
  { d with points := fun j => if j = id then some p else d.points j }

/-- Calls of the decoder: outcome and the decoder afterwards (also after an error). (transport/tssc/Decoder.go L98-475) -/
abbrev DecM (α : Type) := Decoder → Res α × Decoder

/-- Sequencing of decoder calls; a failed call ends the sequence and leaves the decoder as it was then. (transport/tssc/Decoder.go L98-475) -/
def DecM.bind {α β : Type} (x : DecM α) (f : α → DecM β) : DecM β := fun d =>
  match x d with
  | (.ok a, d') => f a d'
  | (.err, d') => (.err, d')
  | (.panic, d') => (.panic, d')

instance : Monad DecM where
  pure a := fun d => (.ok a, d)
  bind := DecM.bind

/-- Return an error from a decoder call (`fmt.Errorf`). (transport/tssc/Decoder.go L98-475) -/
def DecM.fail {α : Type} : DecM α := fun d => (.err, d)

/-- Run a buffer reader on the decoder's buffer. (transport/tssc/Decoder.go L98-475) -/
def onBuf {α : Type} (f : Buf → Res (α × Buf)) : DecM α := fun d =>
  match f d.buf with
  | .ok (a, b) => (.ok a, { d with buf := b })
  | .err => (.err, d)
  | .panic => (.panic, d)

/-- `td.lastPoint.ReadCode()` (PointMetadata.go L176-212) with the decoder's own `readBit`, `readBits5`
(Decoder.go L75-77). -/
def readLastCode : DecM Nat := fun d =>
  match getLast d with
  | .ok p =>
    match readCode readBit readBits5 p.code d.buf with
    | .ok (code, cs, b) => (.ok code, setLast { d with buf := b } { p with code := cs })
    | .err => (.err, d)
    | .panic => (.panic, d)
  | .err => (.err, d)
  | .panic => (.panic, d)

/-- `decodePointID`'s bits to exclusive-or (Decoder.go L258-285), by code. -/
def pointIDBits (code : Nat) : DecM (BitVec 32) :=
  if code = cPointIDXor4 then do
    let n ← onBuf readBits4
    pure (BitVec.ofNat 32 n)
  else if code = cPointIDXor8 then do
    let b0 ← onBuf readByte
    pure (b0.setWidth 32)
  else if code = cPointIDXor12 then do
    let n ← onBuf readBits4
    let b0 ← onBuf readByte
    pure (BitVec.ofNat 32 n ^^^ (b0.setWidth 32 <<< 4))
  else if code = cPointIDXor16 then do
    let b0 ← onBuf readByte
    let b1 ← onBuf readByte
    pure (b0.setWidth 32 ^^^ (b1.setWidth 32 <<< 8))
  else if code = cPointIDXor20 then do
    let n ← onBuf readBits4
    let b0 ← onBuf readByte
    let b1 ← onBuf readByte
    pure (BitVec.ofNat 32 n ^^^ (b0.setWidth 32 <<< 4) ^^^ (b1.setWidth 32 <<< 12))
  else if code = cPointIDXor24 then do
    let b0 ← onBuf readByte
    let b1 ← onBuf readByte
    let b2 ← onBuf readByte
    pure (b0.setWidth 32 ^^^ (b1.setWidth 32 <<< 8) ^^^ (b2.setWidth 32 <<< 16))
  else if code = cPointIDXor32 then do
    let b0 ← onBuf readByte
    let b1 ← onBuf readByte
    let b2 ← onBuf readByte
    let b3 ← onBuf readByte
    pure (b0.setWidth 32 ^^^ (b1.setWidth 32 <<< 8) ^^^ (b2.setWidth 32 <<< 16) ^^^
      (b3.setWidth 32 <<< 24))
  else DecM.fail

/-- Read through `td.lastPoint`. (transport/tssc/Decoder.go L47, L61-77) -/
def lastPoint : DecM Point := fun d => (getLast d, d)

/-- `decodePointID` (Decoder.go L258-285) -/
def decodePointID (code : Nat) : DecM Unit := do
  let x ← pointIDBits code
  let p ← lastPoint
  fun d => (.ok (), setLast d { p with nextID := x ^^^ p.nextID })

/-- `abs` (Decoder.go L477-483): wraps at the minimum. -/
def goAbs (v : BitVec 64) : BitVec 64 := if v.slt 0#64 then v * (-1 : BitVec 64) else v

/-- `decode7BitUInt64(td.data, &td.position)` (transport/tssc/Decoder.go L412-475) -/
def read7Bit64 : DecM (BitVec 64) := onBuf fun b =>
  match decode7BitUInt64 b.rest with
  | .ok (v, n) => .ok (v, { b with rest := b.rest.drop n })
  | .err => .err
  | .panic => .panic

/-- `decode7BitUInt32(td.data, &td.position)` (transport/tssc/Decoder.go L376-410) -/
def read7Bit32 : DecM (BitVec 32) := onBuf fun b =>
  match decode7BitUInt32 b.rest with
  | .ok (v, n) => .ok (v, { b with rest := b.rest.drop n })
  | .err => .err
  | .panic => .panic

/-- The timestamp selected by a code (Decoder.go L289-312). -/
def timestampFor (code : Nat) : DecM (BitVec 64) := fun d =>
  if code = cTimeDelta1Forward then (.ok (d.ts1 + d.delta1), d)
  else if code = cTimeDelta2Forward then (.ok (d.ts1 + d.delta2), d)
  else if code = cTimeDelta3Forward then (.ok (d.ts1 + d.delta3), d)
  else if code = cTimeDelta4Forward then (.ok (d.ts1 + d.delta4), d)
  else if code = cTimeDelta1Reverse then (.ok (d.ts1 - d.delta1), d)
  else if code = cTimeDelta2Reverse then (.ok (d.ts1 - d.delta2), d)
  else if code = cTimeDelta3Reverse then (.ok (d.ts1 - d.delta3), d)
  else if code = cTimeDelta4Reverse then (.ok (d.ts1 - d.delta4), d)
  else if code = cTimestamp2 then (.ok d.ts2, d)
  else (do let x ← read7Bit64; pure (d.ts1 ^^^ x)) d

/-- Saving the smallest deltas (Decoder.go L314-333). -/
def saveDelta (d : Decoder) (timestamp : BitVec 64) : Decoder :=
  let minDelta := goAbs (d.ts1 - timestamp)
  if minDelta.slt d.delta4 ∧ minDelta ≠ d.delta1 ∧ minDelta ≠ d.delta2 ∧ minDelta ≠ d.delta3 then
    if minDelta.slt d.delta1 then
      { d with delta4 := d.delta3, delta3 := d.delta2, delta2 := d.delta1, delta1 := minDelta }
    else if minDelta.slt d.delta2 then
      { d with delta4 := d.delta3, delta3 := d.delta2, delta2 := minDelta }
    else if minDelta.slt d.delta3 then
      { d with delta4 := d.delta3, delta3 := minDelta }
    else { d with delta4 := minDelta }
  else d

/-- `decodeTimestamp` (Decoder.go L288-339) -/
def decodeTimestamp (code : Nat) : DecM (BitVec 64) := do
  let timestamp ← timestampFor code
  fun d =>
    let d := saveDelta d timestamp
    (.ok timestamp, { d with ts2 := d.ts1, ts1 := timestamp })

/-- Reading the map entry of `id`; `TryGetMeasurement` makes sure it exists. (transport/tssc/Decoder.go L98-256) -/
def pointOf (id : BitVec 32) : DecM Point := fun d =>
  match d.points id with
  | some p => (.ok p, d)
  | none => (.panic, d)

/-- Writing the map entry of `id`. (transport/tssc/Decoder.go L98-256) -/
def putPoint (id : BitVec 32) (p : Point) : DecM Unit := fun d => (.ok (), setPoint d id p)

/-- `decodeStateFlags` (Decoder.go L341-354) -/
def decodeStateFlags (code : Nat) (id : BitVec 32) : DecM (BitVec 32) := do
  let flags ←
    (if code = cStateFlags2 then do
      let p ← pointOf id
      pure p.flags2
    else read7Bit32)
  let p ← pointOf id
  putPoint id { p with flags2 := p.flags1, flags1 := flags }
  pure flags

/-- The exclusive-or bits of a value code (Decoder.go L218-244). -/
def valueBits (code : Nat) : DecM (BitVec 32) :=
  if code = cValueXor4 then do
    let n ← onBuf readBits4
    pure (BitVec.ofNat 32 n)
  else if code = cValueXor8 then do
    let b0 ← onBuf readByte
    pure (b0.setWidth 32)
  else if code = cValueXor12 then do
    let n ← onBuf readBits4
    let b0 ← onBuf readByte
    pure (BitVec.ofNat 32 n ^^^ (b0.setWidth 32 <<< 4))
  else if code = cValueXor16 then do
    let b0 ← onBuf readByte
    let b1 ← onBuf readByte
    pure (b0.setWidth 32 ^^^ (b1.setWidth 32 <<< 8))
  else if code = cValueXor20 then do
    let n ← onBuf readBits4
    let b0 ← onBuf readByte
    let b1 ← onBuf readByte
    pure (BitVec.ofNat 32 n ^^^ (b0.setWidth 32 <<< 4) ^^^ (b1.setWidth 32 <<< 12))
  else if code = cValueXor24 then do
    let b0 ← onBuf readByte
    let b1 ← onBuf readByte
    let b2 ← onBuf readByte
    pure (b0.setWidth 32 ^^^ (b1.setWidth 32 <<< 8) ^^^ (b2.setWidth 32 <<< 16))
  else if code = cValueXor28 then do
    let n ← onBuf readBits4
    let b0 ← onBuf readByte
    let b1 ← onBuf readByte
    let b2 ← onBuf readByte
    pure (BitVec.ofNat 32 n ^^^ (b0.setWidth 32 <<< 4) ^^^ (b1.setWidth 32 <<< 12) ^^^
      (b2.setWidth 32 <<< 20))
  else if code = cValueXor32 then do
    let b0 ← onBuf readByte
    let b1 ← onBuf readByte
    let b2 ← onBuf readByte
    let b3 ← onBuf readByte
    pure (b0.setWidth 32 ^^^ (b1.setWidth 32 <<< 8) ^^^ (b2.setWidth 32 <<< 16) ^^^
      (b3.setWidth 32 <<< 24))
  else DecM.fail

/-- Decoding the value (Decoder.go L198-249). -/
def decodeValue (code : Nat) (id : BitVec 32) : DecM (BitVec 32) := do
  let p ← pointOf id
  if code = cValue1 then
    pure p.value1
  else if code = cValue2 then do
    putPoint id { p with value2 := p.value1, value1 := p.value2 }
    pure p.value2
  else if code = cValue3 then do
    putPoint id { p with value3 := p.value2, value2 := p.value1, value1 := p.value3 }
    pure p.value3
  else if code = cValueZero then do
    putPoint id { p with value3 := p.value2, value2 := p.value1, value1 := 0 }
    pure 0
  else do
    let x ← valueBits code
    let p ← pointOf id
    let v := x ^^^ p.value1
    putPoint id { p with value3 := p.value2, value2 := p.value1, value1 := v }
    pure v

/-- A decoded measurement: the four out-parameters of `TryGetMeasurement`. (transport/tssc/Decoder.go L98-256) -/
structure Meas where
  id : BitVec 32
  timestamp : BitVec 64
  flags : BitVec 32
  value : BitVec 32
  deriving DecidableEq, Repr

/-- `clearBitStream` (Decoder.go L83-86) -/
def clearBits (d : Decoder) : Decoder := { d with buf := { d.buf with bitCount := 0, bitCache := 0 } }

/-- Setting up the entry of a measurement ID not seen before (Decoder.go L155-163). -/
def ensurePoint (id : BitVec 32) : DecM Unit := fun d =>
  match d.points id with
  | some _ => (.ok (), d)
  | none => (.ok (), setPoint d id { Point.new with nextID := id + 1 })

/-- Decoder.go L134-151: the ID part, given the first code; returns the code to use next. -/
def idPart (code : Nat) : DecM Nat :=
  if code ≤ cPointIDXor32 then do
    decodePointID code
    let code ← readLastCode
    if code < cTimeDelta1Forward then DecM.fail else pure code
  else pure code

/-- Decoder.go L165-179: the timestamp part; returns the timestamp and the code to use next. -/
def timePart (code : Nat) : DecM (BitVec 64 × Nat) :=
  if code ≤ cTimeXor7Bit then do
    let ts ← decodeTimestamp code
    let code ← readLastCode
    if code < cStateFlags2 then DecM.fail else pure (ts, code)
  else fun d => (.ok (d.ts1, code), d)

/-- Decoder.go L181-195: the state-flags part; returns the flags and the code to use next. -/
def flagsPart (code : Nat) (id : BitVec 32) : DecM (BitVec 32 × Nat) :=
  if code ≤ cStateFlags7Bit32 then do
    let flags ← decodeStateFlags code id
    let code ← readLastCode
    if code < cValue1 then DecM.fail else pure (flags, code)
  else do
    let p ← pointOf id
    pure (p.flags1, code)

/-- `TryGetMeasurement` (Decoder.go L98-256). `ok none` is the Go result `false, nil`. -/
def tryGetMeasurement : DecM (Option Meas) := fun d =>
  if d.buf.rest = [] ∧ d.buf.bitCount = 0 then (.ok none, clearBits d)
  else
    (do
      let code ← readLastCode
      if code = cEndOfStream then
        fun d => (.ok none, clearBits d)
      else do
        let code ← idPart code
        let p ← lastPoint
        let id := p.nextID
        ensurePoint id
        let (ts, code) ← timePart code
        let (flags, code) ← flagsPart code id
        let v ← decodeValue code id
        fun d => (.ok (some ⟨id, ts, flags, v⟩), { d with last := some id }) : DecM (Option Meas)) d

/-- The caller's loop (DataSubscriber.go L1328-1341): measurements until the decoder reports the end of
data or fails. `fuel` bounds the iterations; `C14` shows that a bound derived from the buffer length
is never reached. Returns the measurements, how the loop ended and the decoder. -/
def decodeAll : Nat → Decoder → List Meas × Res Unit × Decoder
  | 0, d => ([], .panic, d)
  | fuel + 1, d =>
    match tryGetMeasurement d with
    | (.ok (some m), d') =>
      let r := decodeAll fuel d'
      (m :: r.1, r.2)
    | (.ok none, d') => ([], .ok (), d')
    | (.err, d') => ([], .err, d')
    | (.panic, d') => ([], .panic, d')

/-- A bound on the number of measurements in the buffer: every one uses at least one bit. (transport/DataSubscriber.go L1320-1347) -/
def fuelFor (d : Decoder) : Nat := 8 * d.buf.rest.length + d.buf.bitCount + 1

/-- Decode one block: `SetBuffer` and the loop (DataSubscriber.go L1319-1341). -/
def decodeBlock (d : Decoder) (data : List Byte) : List Meas × Res Unit × Decoder :=
  let d := setBuffer d data
  decodeAll (fuelFor d) d

/-- Decode successive blocks, stopping at the first that fails. (transport/DataSubscriber.go L1320-1347) -/
def decodeBlocks (d : Decoder) : List (List Byte) → List (List Meas) × Res Unit × Decoder
  | [] => ([], .ok (), d)
  | b :: bs =>
    match decodeBlock d b with
    | (ms, .ok (), d') =>
      let r := decodeBlocks d' bs
      (ms :: r.1, r.2)
    | (ms, e, d') => ([ms], e, d')

end Verif.Tssc
