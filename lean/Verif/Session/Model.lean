import Verif.Tssc.Decoder
import Verif.Compact.Model

/-!
# Model of `sttp/transport/DataSubscriber.go`: processing of what the publisher sends

What the subscriber does to the outside is recorded in a log of events: callbacks called, bytes written to the command
channel, and requests to end the connection. Message texts are not modelled, only that a message was given. All callbacks are
taken to be set; an unset callback only leaves its events out of the log (and skips reading the payload of `DataStartTime`
and `MetadataRefresh`). Two messages that are throttled by the clock (L1301-1312, L1358-1366) are left out. A Go panic ends
the program and is the value `Res.panic`.
-/

namespace Verif.Session

open Verif.Guid (Guid)

/-! ## Constants (Constants.go) -/

/-- Constants.go L214-230 -/
def flagCompact : Byte := 0x02
/-- Constants.go L214-230 -/
def flagCipherIndex : Byte := 0x04
/-- Constants.go L214-230 -/
def flagCompressed : Byte := 0x08
/-- Constants.go L214-230 -/
def flagCacheIndex : Byte := 0x10

/-- `ServerCommand` (Constants.go L312-341) -/
def cmdConnect : Byte := 0x00
/-- Constants.go L312-341 -/
def cmdMetadataRefresh : Byte := 0x01
/-- Constants.go L312-341 -/
def cmdSubscribe : Byte := 0x02
/-- Constants.go L312-341 -/
def cmdUnsubscribe : Byte := 0x03
/-- Constants.go L312-341 -/
def cmdRotateCipherKeys : Byte := 0x04
/-- Constants.go L312-341 -/
def cmdUpdateProcessingInterval : Byte := 0x05
/-- Constants.go L312-341 -/
def cmdDefineOperationalModes : Byte := 0x06
/-- Constants.go L312-341 -/
def cmdConfirmNotification : Byte := 0x07
/-- Constants.go L312-341 -/
def cmdConfirmBufferBlock : Byte := 0x08
/-- Constants.go L312-341 -/
def cmdConfirmUpdateSignalIndexCache : Byte := 0x0A

/-- `ServerResponse` (Constants.go L493-520) -/
def rspSucceeded : Byte := 0x80
/-- Constants.go L493-520 -/
def rspFailed : Byte := 0x81
/-- Constants.go L493-520 -/
def rspDataPacket : Byte := 0x82
/-- Constants.go L493-520 -/
def rspUpdateSignalIndexCache : Byte := 0x83
/-- Constants.go L493-520 -/
def rspUpdateBaseTimes : Byte := 0x84
/-- Constants.go L493-520 -/
def rspUpdateCipherKeys : Byte := 0x85
/-- Constants.go L493-520 -/
def rspDataStartTime : Byte := 0x86
/-- Constants.go L493-520 -/
def rspProcessingComplete : Byte := 0x87
/-- Constants.go L493-520 -/
def rspBufferBlock : Byte := 0x88
/-- Constants.go L493-520 -/
def rspNotify : Byte := 0x89
/-- Constants.go L493-520 -/
def rspConfigurationChanged : Byte := 0x8A
/-- Constants.go L493-520 -/
def rspNoOP : Byte := 0xFF

/-- `responseHeaderSize` (Constants.go L34) -/
def responseHeaderSize : Nat := 6

/-- `maxPacketSize` (Constants.go L32), the capacity of the write buffer. -/
def maxPacketSize : Nat := 32768

/-! ## State -/

/-- `Measurement` (Measurement.go L34-47); the value as the 32 bits received. -/
structure Measurement where
  signalID : Guid
  value : BitVec 32
  timestamp : BitVec 64
  flags : BitVec 32
  deriving DecidableEq

/-- The zero value of `Measurement`, as in a slice fresh from `make`. (Measurement.go L34-47) -/
def Measurement.zero : Measurement := ⟨Guid.empty, 0, 0, 0⟩

/-- `BufferBlock` (BufferBlock.go L29-36); `none` is a nil buffer. -/
structure BufferBlock where
  signalID : Guid
  buffer : Option (List Byte)
  deriving DecidableEq

/-- The zero value of `BufferBlock`. (BufferBlock.go L29-36) -/
def BufferBlock.zero : BufferBlock := ⟨Guid.empty, none⟩

/-- A `SignalIndexCache` with its TSSC decoder (SignalIndexCache.go L37-45); the decoder comes with its `SequenceNumber`
(tssc/Decoder.go L34-58). -/
structure Half where
  cache : Sic.Cache
  decoder : Option (Tssc.Decoder × BitVec 16)

/-- The key/IV pairs of L1131-1133. -/
structure KeyIVs where
  evenKey : List Byte
  evenIV : List Byte
  oddKey : List Byte
  oddIV : List Byte
  deriving DecidableEq

/-- What the outside sees. (the callbacks of DataSubscriber.go L86-125 and the writes of L1499-1533) -/
inductive Event where
  | status
  | error
  | metadata (data : List Byte)
  | subscriptionUpdated (cache : Sic.Cache)
  | dataStartTime (t : BitVec 64)
  | configurationChanged
  | newMeasurements (ms : List Measurement)
  | newBufferBlocks (bs : List BufferBlock)
  | processingComplete (message : List Byte)
  | notification (message : List Byte)
  | sent (bytes : List Byte)
  /-- `dispatchConnectionTerminated` (L729-731) -/
  | terminate
  deriving DecidableEq

/-- Options that stay fixed, and the library functions GZip and AES-CBC as arbitrary functions. (DataSubscriber.go L126-140, Common.go L36-66) -/
structure Cfg where
  version : Byte
  compressMetadata : Bool
  compressSignalIndexCache : Bool
  swapGuidEndianness : Bool
  includeTime : Bool
  useMillisecondResolution : Bool
  gunzip : List Byte → Option (List Byte)
  decipherAES : List Byte → List Byte → List Byte → Res (List Byte)

/-- The fields of `DataSubscriber` (L49-164) that response processing reads or writes, and the log. -/
structure St where
  connected : Bool
  validated : Bool
  subscribed : Bool
  disconnecting : Bool
  connectionRefused : Bool
  totalCommandChannelBytesReceived : BitVec 64
  totalMeasurementsReceived : BitVec 64
  subscriberID : Guid
  half0 : Half
  half1 : Half
  cacheIndex : Bool
  timeIndex : Bool
  baseTimeOffset0 : BitVec 64
  baseTimeOffset1 : BitVec 64
  keyIVs : Option KeyIVs
  tsscResetRequested : Bool
  bufferBlockExpectedSequenceNumber : BitVec 32
  bufferBlockCache : List BufferBlock
  log : List Event

/-- What the surroundings contribute to processing one response: whether a write to the command channel succeeds, and the
content (over its whole capacity) of the slice the measurement pool hands out, if any. (DataSubscriber.go L1224-1236, L1528) -/
structure Env where
  writeOk : Bool
  pool : Option (List Measurement)

/-- DataSubscriber.go L728-750 -/
def St.emit (s : St) (e : Event) : St := { s with log := s.log ++ [e] }

/-- A message and the end of the connection: `dispatchErrorMessage` and `dispatchConnectionTerminated`. (DataSubscriber.go L728-750) -/
def St.fail (s : St) : St := (s.emit .error).emit .terminate

/-- DataSubscriber.go L1088, L1244, L1416 -/
def St.half (s : St) (i : Bool) : Half := if i then s.half1 else s.half0

/-- DataSubscriber.go L1088, L1244, L1416 -/
def St.setHalf (s : St) (i : Bool) (h : Half) : St := if i then { s with half1 := h } else { s with half0 := h }

/-! ## Sending -/

/-- `SendServerCommandWithPayload` (L1499-1533) -/
def sendCommand (env : Env) (command : Byte) (data : List Byte) (s : St) : Res St :=
  if !s.connected then .ok s
  else if 5 + data.length > maxPacketSize then .panic
  else if env.writeOk then .ok (s.emit (.sent (beBytes 4 (data.length + 1) ++ [command] ++ data)))
  else .ok s.fail

/-! ## Responses -/

/-- `handleMetadataRefresh` (L1002-1027) -/
def handleMetadataRefresh (cfg : Cfg) (data : List Byte) (s : St) : Res St :=
  if cfg.compressMetadata then
    let s := s.emit .status
    match cfg.gunzip data with
    | none => .ok (s.emit .error)
    | some data => .ok ((s.emit .status).emit (.metadata data))
  else .ok ((s.emit .status).emit (.metadata data))

/-- `handleSucceeded` (L948-979) -/
def handleSucceeded (cfg : Cfg) (command : Byte) (data : List Byte) (s : St) : Res St :=
  if command = cmdMetadataRefresh then handleMetadataRefresh cfg data s
  else if command = cmdSubscribe ∨ command = cmdUnsubscribe then
    .ok ({ s with subscribed := decide (command = cmdSubscribe) }.emit .status)
  else if command = cmdDefineOperationalModes ∨ command = cmdRotateCipherKeys ∨
      command = cmdUpdateProcessingInterval then .ok (s.emit .status)
  else .ok (s.emit .error)

/-- `handleFailed` (L981-1000) -/
def handleFailed (command : Byte) (data : List Byte) (s : St) : Res St :=
  if command = cmdConnect ∨ command = cmdDefineOperationalModes then
    let s := { s with connectionRefused := true }
    if data.length > 0 then .ok (s.emit .error) else .ok s
  else .ok (s.emit .error)

/-- `handleDataStartTime` (L1029-1039) -/
def handleDataStartTime (data : List Byte) (s : St) : Res St := do
  let t ← readBE 8 data
  .ok (s.emit (.dataStartTime (BitVec.ofNat 64 t)))

/-- `handleProcessingComplete` (L1041-1051), UTF-8 strings. -/
def handleProcessingComplete (data : List Byte) (s : St) : Res St := .ok (s.emit (.processingComplete data))

/-- What the failed `decode` of a signal index cache leaves in `ds.subscriberID` (SignalIndexCache.go L168-192):
untouched when the length checks fail, otherwise the subscriber ID read, empty when there are too few bytes for it. -/
def subscriberIDAfterError (swap : Bool) (buffer : List Byte) (old : Guid) : Guid :=
  if buffer.length < 4 ∨ buffer.length < beNat (buffer.take 4) then old
  else match Guid.fromBytes (buffer.drop 4) swap with
    | .ok g => g
    | _ => Guid.empty

/-- `handleUpdateSignalIndexCache` (L1053-1103). `data` is never nil: it is a slice of the read buffer. The registry of
measurement metadata is not part of this state. -/
def handleUpdateSignalIndexCache (cfg : Cfg) (env : Env) (data : List Byte) (s : St) : Res St := do
  let (cacheIndex, data) ←
    if cfg.version > 1 then
      match data with
      | [] => Res.panic
      | b :: rest => Res.ok (decide (b > 0), rest)
    else Res.ok (false, data)
  match if cfg.compressSignalIndexCache then cfg.gunzip data else some data with
  | none => .ok (s.emit .error)
  | some data =>
    match Sic.decode cfg.swapGuidEndianness data with
    | .panic => .panic
    | .err =>
      .ok ({ s with subscriberID := subscriberIDAfterError cfg.swapGuidEndianness data s.subscriberID }.emit .error)
    | .ok (sub, cache) => do
      let s := ({ s with subscriberID := sub }.setHalf cacheIndex ⟨cache, none⟩)
      let s := { s with cacheIndex := cacheIndex }
      let s ← if cfg.version > 1 then sendCommand env cmdConfirmUpdateSignalIndexCache [] s else .ok s
      .ok (s.emit (.subscriptionUpdated cache))

/-- `handleUpdateBaseTimes` (L1105-1127) -/
def handleUpdateBaseTimes (data : List Byte) (s : St) : Res St := do
  let timeIndex ← readBE 4 data
  let o0 ← readBE 8 (data.drop 4)
  if data.length < 12 then .panic else
  let o1 ← readBE 8 (data.drop 12)
  .ok ({ s with
    timeIndex := decide (timeIndex ≠ 0)
    baseTimeOffset0 := BitVec.ofNat 64 o0
    baseTimeOffset1 := BitVec.ofNat 64 o1 }.emit .status)

/-- One length-prefixed block of `handleUpdateCipherKeys` (e.g. L1138-1145): `uint32` index arithmetic; the copy leaves
zeros behind when the packet is short. -/
def readKey (data : List Byte) (index : Nat) : Res (List Byte × Nat) := do
  if index > data.length then .panic else
  let len ← readBE 4 (data.drop index)
  let index := (index + 4) % 2 ^ 32
  if index > data.length then .panic else
  let src := (data.drop index).take len
  .ok (src ++ List.replicate (len - src.length) 0, (index + len) % 2 ^ 32)

/-- `handleUpdateCipherKeys` (L1129-1178) -/
def handleUpdateCipherKeys (data : List Byte) (s : St) : Res St := do
  let (ek, i) ← readKey data 1
  let (ei, i) ← readKey data i
  let (ok, i) ← readKey data i
  let (oi, _) ← readKey data i
  .ok ({ s with keyIVs := some ⟨ek, ei, ok, oi⟩ }.emit .status)

/-- `handleConfigurationChanged` (L1180-1190) -/
def handleConfigurationChanged (s : St) : Res St := .ok ((s.emit .status).emit .configurationChanged)

/-! ## Data packets -/

/-- A decoded TSSC measurement with the signal looked up (L1332-1337). -/
def ofTssc (cache : Sic.Cache) (m : Tssc.Meas) : Res Measurement := do
  let g ← Sic.signalID cache m.id
  .ok ⟨g, m.value, m.timestamp, m.flags⟩

/-- The lookups for a list of measurements. (DataSubscriber.go L1326-1345) -/
def ofTsscAll (cache : Sic.Cache) : List Tssc.Meas → Res (List Measurement)
  | [] => .ok []
  | m :: ms => do
    let a ← ofTssc cache m
    let as ← ofTsscAll cache ms
    .ok (a :: as)

/-- The sequence number after an accepted block (L1349-1354). -/
def nextSequence (n : BitVec 16) : BitVec 16 := if n + 1 = 0 then 1 else n + 1

/-- The decoder used for a block (L1266-1297): made if missing, replaced when the block is numbered 0; `none` before the
number is looked at. -/
def decoderFor (h : Half) : Tssc.Decoder × BitVec 16 := h.decoder.getD (Tssc.newDecoder, 0)

/-- `parseTSSCMeasurements` (L1266-1355): the measurements slice afterwards and the state. More measurements than slice
entries is an index panic. -/
def parseTSSC (i : Bool) (data : List Byte) (ms : List Measurement) (s : St) : Res (List Measurement × St) :=
  let h := s.half i
  let (decoder, number) := decoderFor h
  let s := s.setHalf i { h with decoder := some (decoder, number) }
  match data with
  | [] => .panic
  | version :: rest =>
    if version ≠ 85 then .ok (ms, s.fail)
    else do
      let sequenceNumber ← readBE 2 rest
      let seq := BitVec.ofNat 16 sequenceNumber
      let (decoder, number, s) :=
        if seq = 0 then
          let s := if number > 0 then s.emit .status else s
          (Tssc.newDecoder, (0 : BitVec 16), { s with tsscResetRequested := false })
        else (decoder, number, s)
      let s := s.setHalf i { h with decoder := some (decoder, number) }
      if number ≠ seq then .ok (ms, s)
      else
        let (decoded, result, decoder) := Tssc.decodeBlock decoder (rest.drop 2)
        if ms.length < decoded.length then .panic
        else do
          let new ← ofTsscAll h.cache decoded
          let ms := new ++ ms.drop new.length
          match result with
          | .panic => .panic
          | .err => .ok (ms, (s.setHalf i { h with decoder := some (decoder, number) }).fail)
          | .ok () => .ok (ms, s.setHalf i { h with decoder := some (decoder, nextSequence number) })

/-- The measurement part of a compact measurement. (CompactMeasurement.go L130-139) -/
def ofCompact (cm : Compact.CM) : Measurement := ⟨cm.signalID, cm.value, cm.timestamp, cm.flags⟩

/-- The loop of `parseCompactMeasurements` (L1373-1388) over the remaining entries of the slice; the flag tells whether a
measurement was rejected. `data[index:]` panics when the index is past the end. -/
def compactLoop (c : Compact.Config) (data : List Byte) : Nat → List Measurement → Res (List Measurement × Bool)
  | _, [] => .ok ([], false)
  | index, old :: rest =>
    if index > data.length then .panic
    else match Compact.decode c Compact.CM.new (data.drop index) with
      | .panic => .panic
      | .err => .ok (old :: rest, true)
      | .ok (n, cm) => do
        let (ms, failed) ← compactLoop c data (index + n) rest
        .ok (ofCompact cm :: ms, failed)

/-- `parseCompactMeasurements` (L1357-1389) -/
def parseCompact (cfg : Cfg) (i : Bool) (data : List Byte) (ms : List Measurement) (s : St) :
    Res (List Measurement × St) :=
  let h := s.half i
  if Sic.count h.cache = 0 then .ok (ms, s)
  else do
    let (ms, failed) ← compactLoop ⟨h.cache, s.baseTimeOffset0, s.baseTimeOffset1, cfg.includeTime,
      cfg.useMillisecondResolution⟩ data 0 ms
    .ok (ms, if failed then s.fail else s)

/-- The slice to decode into (L1224-1236): from the pool when it has one of sufficient capacity, else new. -/
def sliceFor (env : Env) (count : Nat) : List Measurement :=
  match env.pool with
  | none => List.replicate count Measurement.zero
  | some m => if m.length < count then List.replicate count Measurement.zero else m.take count

/-- Undo the optional encryption (L1206-1221). -/
def decipher (cfg : Cfg) (flags : Byte) (data : List Byte) (s : St) : Res (List Byte) :=
  match s.keyIVs with
  | none => .ok data
  | some k =>
    if flags &&& flagCipherIndex > 0 then cfg.decipherAES k.oddKey k.oddIV data
    else cfg.decipherAES k.evenKey k.evenIV data

/-- `handleDataPacket` (L1192-1264) -/
def handleDataPacket (cfg : Cfg) (env : Env) (data : List Byte) (s : St) : Res St :=
  match data with
  | [] => .panic
  | flags :: data =>
    let compressed := decide (flags &&& flagCompressed > 0)
    let compact := decide (flags &&& flagCompact > 0)
    if !compressed && !compact then .ok s.fail
    else match decipher cfg flags data s with
      | .panic => .panic
      | .err => .ok s.fail
      | .ok data => do
        let count ← readBE 4 data
        let ms := sliceFor env count
        let cacheIndex := decide (flags &&& flagCacheIndex > 0)
        let (ms, s) ← if compressed then parseTSSC cacheIndex (data.drop 4) ms s
          else parseCompact cfg cacheIndex (data.drop 4) ms s
        let s := s.emit (.newMeasurements ms)
        .ok { s with totalMeasurementsReceived := s.totalMeasurementsReceived + BitVec.ofNat 64 count }

/-! ## Buffer blocks and notifications -/

/-- The cached blocks published after the expected one (L1444-1451): entries from index 1 up to the first without a
buffer. -/
def publishable : List BufferBlock → List BufferBlock
  | [] => []
  | b :: bs => if b.buffer = none then [] else b :: publishable bs

/-- The cache half named by a buffer block (L1395-1399). -/
def blockCacheIndex (cfg : Cfg) (data : List Byte) : Res Bool :=
  if cfg.version > 1 then
    match data.drop 4 with
    | [] => .panic
    | b :: _ => .ok (decide (b > 0))
  else .ok false

/-- `handleBufferBlock` (L1391-1468) -/
def handleBufferBlock (cfg : Cfg) (env : Env) (data : List Byte) (s : St) : Res St := do
  let n ← readBE 4 data
  let sequenceNumber := BitVec.ofNat 32 n
  let bufferCacheIndex := (sequenceNumber - s.bufferBlockExpectedSequenceNumber).toNat
  let cacheIndex ← blockCacheIndex cfg data
  match s.bufferBlockCache[bufferCacheIndex]? with
  | some ⟨_, some _⟩ => .ok s
  | _ => do
    let s ← sendCommand env cmdConfirmBufferBlock (data.take 4) s
    let data := if cfg.version > 1 then data.drop 5 else data.drop 4
    let signalIndex ← readBE 4 data
    let signalID ← Sic.signalID (s.half cacheIndex).cache (BitVec.ofNat 32 signalIndex)
    let block : BufferBlock := ⟨signalID, none⟩
    if sequenceNumber = s.bufferBlockExpectedSequenceNumber then
      let cached := publishable (s.bufferBlockCache.drop 1)
      let published := block :: cached ++
        List.replicate (s.bufferBlockCache.length - cached.length) BufferBlock.zero
      let s := { s with
        bufferBlockExpectedSequenceNumber :=
          s.bufferBlockExpectedSequenceNumber + 1 + BitVec.ofNat 32 cached.length
        bufferBlockCache := s.bufferBlockCache.drop (1 + cached.length) }
      .ok (s.emit (.newBufferBlocks published))
    else
      let cache := s.bufferBlockCache ++
        List.replicate (bufferCacheIndex + 1 - s.bufferBlockCache.length) BufferBlock.zero
      .ok { s with bufferBlockCache := cache.set bufferCacheIndex block }

/-- `handleNotification` (L1470-1487) -/
def handleNotification (env : Env) (data : List Byte) (s : St) : Res St :=
  if data.length < 4 then .panic
  else
    let s := (s.emit .status).emit (.notification (data.drop 4))
    sendCommand env cmdConfirmNotification (data.take 4) s

/-! ## Dispatch -/

/-- `processServerResponse` (L899-946) -/
def processServerResponse (cfg : Cfg) (env : Env) (buffer : List Byte) (s : St) : Res St :=
  match buffer with
  | responseCode :: commandCode :: _ =>
    if buffer.length < responseHeaderSize then .panic
    else
      let data := buffer.drop responseHeaderSize
      if !s.validated && decide (cfg.version ≥ 2) && decide (responseCode ≠ rspNoOP ∧
          (commandCode ≠ cmdDefineOperationalModes ∨ (responseCode ≠ rspSucceeded ∧ responseCode ≠ rspFailed))) then
        .ok s.fail
      else
        let s := { s with validated := true }
        if responseCode = rspSucceeded then handleSucceeded cfg commandCode data s
        else if responseCode = rspFailed then handleFailed commandCode data s
        else if responseCode = rspDataPacket then handleDataPacket cfg env data s
        else if responseCode = rspDataStartTime then handleDataStartTime data s
        else if responseCode = rspProcessingComplete then handleProcessingComplete data s
        else if responseCode = rspUpdateSignalIndexCache then handleUpdateSignalIndexCache cfg env data s
        else if responseCode = rspUpdateBaseTimes then handleUpdateBaseTimes data s
        else if responseCode = rspUpdateCipherKeys then handleUpdateCipherKeys data s
        else if responseCode = rspConfigurationChanged then handleConfigurationChanged s
        else if responseCode = rspBufferBlock then handleBufferBlock cfg env data s
        else if responseCode = rspNotify then handleNotification env data s
        else if responseCode = rspNoOP then .ok s
        else .ok (s.emit .error)
  | _ => .panic

/-- `maxInitialPacketSize` (L838) -/
def maxInitialPacketSize : Nat := responseHeaderSize + 8192

/-- `readPayloadHeader` (L809-859) up to reading the body, for a complete header: `none` when the connection is ended,
otherwise the body size and the state. The read buffer grows as needed. -/
def readPayloadHeader (cfg : Cfg) (packetSize : Nat) (s : St) : St × Bool :=
  let s := { s with totalCommandChannelBytesReceived := s.totalCommandChannelBytesReceived + 4 }
  if !s.validated then
    if cfg.version ≥ 2 then
      if packetSize > maxInitialPacketSize then (s.fail, false) else (s, true)
    else ({ s with validated := true }, true)
  else (s, true)

/-- `readPacket` (L861-877) for a complete body. -/
def readPacket (cfg : Cfg) (env : Env) (body : List Byte) (s : St) : Res St :=
  processServerResponse cfg env body
    { s with totalCommandChannelBytesReceived := s.totalCommandChannelBytesReceived + BitVec.ofNat 64 body.length }

/-- One complete packet from the command channel: header and body. (DataSubscriber.go L801-877) -/
def receive (cfg : Cfg) (env : Env) (body : List Byte) (s : St) : Res St :=
  match readPayloadHeader cfg body.length s with
  | (s, true) => readPacket cfg env body s
  | (s, false) => .ok s

/-- Successive packets. (DataSubscriber.go L801-877) -/
def receiveAll (cfg : Cfg) : List (Env × List Byte) → St → Res St
  | [], s => .ok s
  | (env, body) :: rest, s => do
    let s ← receive cfg env body s
    receiveAll cfg rest s

/-! ## Connection life cycle, as far as it touches this state -/

/-- `NewDataSubscriber` (L167-205) -/
def St.new : St where
  connected := false
  validated := true
  subscribed := false
  disconnecting := false
  connectionRefused := false
  totalCommandChannelBytesReceived := 0
  totalMeasurementsReceived := 0
  subscriberID := Guid.empty
  half0 := ⟨Sic.Cache.new, none⟩
  half1 := ⟨Sic.Cache.new, none⟩
  cacheIndex := false
  timeIndex := false
  baseTimeOffset0 := 0
  baseTimeOffset1 := 0
  keyIVs := none
  tsscResetRequested := false
  bufferBlockExpectedSequenceNumber := 0
  bufferBlockCache := []
  log := []

/-- `setupConnection` (L370-381); `connectionRefused` is cleared at L357. -/
def setupConnection (s : St) : St :=
  { s with
    subscribed := false
    totalCommandChannelBytesReceived := 0
    totalMeasurementsReceived := 0
    keyIVs := none
    bufferBlockExpectedSequenceNumber := 0
    connectionRefused := false }

/-- `establishConnection` (L383-424): the flags; the operational modes sent are the subject of `Verif.Modes`. -/
def establish (s : St) : St := { s with connected := true }

/-- `disconnect` (L608-649): the flags. -/
def disconnect (s : St) : St :=
  { s with disconnecting := true, connected := false, validated := false, subscribed := false }

/-- The end of `runDisconnectThread` (L651-722). -/
def disconnectDone (s : St) : St := { s with disconnecting := false }

end Verif.Session
