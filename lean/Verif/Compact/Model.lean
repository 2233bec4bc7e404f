import Verif.Sic.Model
import Verif.Ticks.Model

/-!
# Model of `sttp/transport/CompactMeasurement.go`

Values are the 32-bit patterns on the wire; the widening to `float64` (L270) is exact and left out.
`int64` quantities are `BitVec 64` compared as signed.
-/

namespace Verif.Compact

open Verif.Guid (Guid)

/-- CompactMeasurement.go L59-64 -/
def dataRangeMask : BitVec 32 := 0x000000FC#32
/-- CompactMeasurement.go L59-64 -/
def dataQualityMask : BitVec 32 := 0x0000EF03#32
/-- CompactMeasurement.go L59-64 -/
def timeQualityMask : BitVec 32 := 0x00BF0000#32
/-- CompactMeasurement.go L59-64 -/
def systemIssueMask : BitVec 32 := 0xE0000000#32
/-- CompactMeasurement.go L59-64 -/
def calculatedValueMask : BitVec 32 := 0x00001000#32
/-- CompactMeasurement.go L59-64 -/
def discardedValueMask : BitVec 32 := 0x00400000#32

/-- CompactMeasurement.go L36-54 -/
def fDataRange : BitVec 8 := 0x01#8
/-- CompactMeasurement.go L36-54 -/
def fDataQuality : BitVec 8 := 0x02#8
/-- CompactMeasurement.go L36-54 -/
def fTimeQuality : BitVec 8 := 0x04#8
/-- CompactMeasurement.go L36-54 -/
def fSystemIssue : BitVec 8 := 0x08#8
/-- CompactMeasurement.go L36-54 -/
def fCalculatedValue : BitVec 8 := 0x10#8
/-- CompactMeasurement.go L36-54 -/
def fDiscardedValue : BitVec 8 := 0x20#8
/-- CompactMeasurement.go L36-54 -/
def fBaseTimeOffset : BitVec 8 := 0x40#8
/-- CompactMeasurement.go L36-54 -/
def fTimeIndex : BitVec 8 := 0x80#8

/-- `mapToFullFlags` (L69-97) -/
def mapToFullFlags (c : BitVec 8) : BitVec 32 :=
  let f : BitVec 32 := 0#32
  let f := if c &&& fDataRange > 0#8 then f ||| dataRangeMask else f
  let f := if c &&& fDataQuality > 0#8 then f ||| dataQualityMask else f
  let f := if c &&& fTimeQuality > 0#8 then f ||| timeQualityMask else f
  let f := if c &&& fSystemIssue > 0#8 then f ||| systemIssueMask else f
  let f := if c &&& fCalculatedValue > 0#8 then f ||| calculatedValueMask else f
  let f := if c &&& fDiscardedValue > 0#8 then f ||| discardedValueMask else f
  f

/-- `mapToCompactFlags` (L99-127) -/
def mapToCompactFlags (f : BitVec 32) : BitVec 8 :=
  let c : BitVec 8 := 0#8
  let c := if f &&& dataRangeMask > 0#32 then c ||| fDataRange else c
  let c := if f &&& dataQualityMask > 0#32 then c ||| fDataQuality else c
  let c := if f &&& timeQualityMask > 0#32 then c ||| fTimeQuality else c
  let c := if f &&& systemIssueMask > 0#32 then c ||| fSystemIssue else c
  let c := if f &&& calculatedValueMask > 0#32 then c ||| fCalculatedValue else c
  let c := if f &&& discardedValueMask > 0#32 then c ||| fDiscardedValue else c
  c

/-- The configuration fields of `CompactMeasurement` (L130-139, set by `NewCompactMeasurement` L141-151). -/
structure Config where
  cache : Sic.Cache
  offset0 : BitVec 64
  offset1 : BitVec 64
  includeTime : Bool
  useMillisecondResolution : Bool

/-- The measurement fields (Measurement.go L34-47) and the remaining fields L130-139. `timeIndex` is 0 or 1
everywhere it is assigned (L141-151, L222-235), so it is a `Bool`. -/
structure CM where
  signalID : Guid
  value : BitVec 32
  timestamp : BitVec 64
  flags : BitVec 32
  timeIndex : Bool
  usingBaseTimeOffset : Bool
  deriving DecidableEq

/-- `NewCompactMeasurement` (L141-151): the non-configuration fields. -/
def CM.new : CM := ⟨Guid.empty, 0, 0, 0, false, false⟩

/-- `cm.baseTimeOffsets[cm.timeIndex]` (CompactMeasurement.go L161, L197-202, L279) -/
def baseOffset (cfg : Config) (cm : CM) : BitVec 64 := if cm.timeIndex then cfg.offset1 else cfg.offset0

/-- `int64(ticks.PerMillisecond)` (CompactMeasurement.go L161, L197-202, L279) -/
def perMs : BitVec 64 := Ticks.perMillisecond

/-- `cm.TimestampValue()` as 64 bits (Ticks.go L83-85). -/
def timestampValue (cm : CM) : BitVec 64 := cm.timestamp &&& Ticks.valueMask

/-- `GetBinaryLength` (L154-193) -/
def getBinaryLength (cfg : Config) (cm : CM) : Nat × CM :=
  if !cfg.includeTime then (9, cm)
  else
    let base := baseOffset cfg cm
    if (0#64).slt base then
      let difference := timestampValue cm - base
      let using' :=
        if (0#64).slt difference then
          if cfg.useMillisecondResolution then (difference.sdiv perMs).slt 65535#64
          else difference.slt 4294967295#64
        else false
      let cm := { cm with usingBaseTimeOffset := using' }
      if using' then
        if cfg.useMillisecondResolution then (9 + 2, cm) else (9 + 4, cm)
      else (9 + 8, cm)
    else (9 + 8, cm)

/-- `GetTimestampC2` (L196-198) -/
def getTimestampC2 (cfg : Config) (cm : CM) : BitVec 16 :=
  ((timestampValue cm - baseOffset cfg cm).sdiv perMs).setWidth 16

/-- `GetTimestampC4` (L201-203) -/
def getTimestampC4 (cfg : Config) (cm : CM) : BitVec 32 := (timestampValue cm - baseOffset cfg cm).setWidth 32

/-- `GetCompactStateFlags` (L206-219) -/
def getCompactStateFlags (cm : CM) : BitVec 8 :=
  let flags := mapToCompactFlags cm.flags
  let flags := if cm.timeIndex then flags ||| fTimeIndex else flags
  if cm.usingBaseTimeOffset then flags ||| fBaseTimeOffset else flags

/-- `SetCompactStateFlags` (L222-235) -/
def setCompactStateFlags (cm : CM) (value : BitVec 8) : CM :=
  { cm with
    flags := mapToFullFlags value
    timeIndex := decide (value &&& fTimeIndex > 0#8)
    usingBaseTimeOffset := decide (value &&& fBaseTimeOffset > 0#8) }

/-- `GetRuntimeID` (L238-240) -/
def getRuntimeID (cfg : Config) (cm : CM) : BitVec 32 := Sic.signalIndex cfg.cache cm.signalID

/-- `Decode` (L248-301): bytes consumed and the measurement. -/
def decode (cfg : Config) (cm : CM) (buffer : List Byte) : Res (Nat × CM) :=
  match buffer with
  | b0 :: rest =>
    if buffer.length < 9 then .err else do
      let cm := setCompactStateFlags cm b0
      let index ← readBE 4 rest
      let signalID ← Sic.signalID cfg.cache (BitVec.ofNat 32 index)
      let cm := { cm with signalID := signalID }
      let rest := rest.drop 4
      let value ← readBE 4 rest
      let cm := { cm with value := BitVec.ofNat 32 value }
      let rest := rest.drop 4
      if !cfg.includeTime then .ok (9, cm)
      else if cm.usingBaseTimeOffset then
        let base := baseOffset cfg cm
        if cfg.useMillisecondResolution then
          if (0#64).slt base then do
            let t ← readBE 2 rest
            .ok (9 + 2, { cm with timestamp := base + BitVec.ofNat 64 t * perMs })
          else .ok (9 + 2, cm)
        else
          if (0#64).slt base then do
            let t ← readBE 4 rest
            .ok (9 + 4, { cm with timestamp := base + BitVec.ofNat 64 t })
          else .ok (9 + 4, cm)
      else do
        let t ← readBE 8 rest
        .ok (9 + 8, { cm with timestamp := BitVec.ofNat 64 t })
  | [] => .err

end Verif.Compact
