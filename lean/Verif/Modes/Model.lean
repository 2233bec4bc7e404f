import Verif.Session.Commands
import Verif.Format.Model

/-!
# What the subscriber announces

`sendOperationalModes` and the parameter string of `Subscribe` in `sttp/transport/DataSubscriber.go`, and
`StateFlagsEnum.String` in `sttp/transport/Constants.go`.
-/

namespace Verif.Modes

open Verif.Session (Env St sendCommand cmdDefineOperationalModes)

/-! ## Operational modes -/

/-- The settings `sendOperationalModes` reads (DataSubscriber.go L52, L126-136; SubscriptionInfo.go L48-49). -/
structure Options where
  version : Byte
  encoding : BitVec 32
  compressPayloadData : Bool
  compressMetadata : Bool
  compressSignalIndexCache : Bool
  udpDataChannel : Bool
  deriving DecidableEq

/-- `OperationalModes.VersionMask` (Constants.go L631) -/
def versionMask : BitVec 32 := 0x000000FF

/-- `OperationalModes.EncodingMask` (Constants.go L632) -/
def encodingMask : BitVec 32 := 0x00000300

/-- `OperationalModes.CompressPayloadData` (Constants.go L636) -/
def modeCompressPayloadData : BitVec 32 := 0x20000000

/-- `OperationalModes.CompressSignalIndexCache` (Constants.go L637) -/
def modeCompressSignalIndexCache : BitVec 32 := 0x40000000

/-- `OperationalModes.CompressMetadata` (Constants.go L638) -/
def modeCompressMetadata : BitVec 32 := 0x80000000

/-- `OperationalEncoding.UTF16LE` (Constants.go L656) -/
def utf16LE : BitVec 32 := 0x00000000

/-- `OperationalEncoding.UTF16BE` (Constants.go L657) -/
def utf16BE : BitVec 32 := 0x00000100

/-- `OperationalEncoding.UTF8` (Constants.go L658) -/
def utf8 : BitVec 32 := 0x00000200

/-- `CompressionModes.GZip` (Constants.go L675) -/
def modeGZip : BitVec 32 := 0x00000020

/-- `CompressionModes.TSSC` (Constants.go L676) -/
def modeTSSC : BitVec 32 := 0x00000040

/-- The word computed by `sendOperationalModes` (DataSubscriber.go L1536-1560). -/
def operationalModes (o : Options) : BitVec 32 :=
  let m : BitVec 32 := 0
  let m := m ||| (versionMask &&& o.version.setWidth 32)
  let m := m ||| o.encoding
  let m := if o.version < 10 then m ||| modeGZip else m
  let m := if o.compressPayloadData && !o.udpDataChannel then
      let m := m ||| modeCompressPayloadData
      if o.version < 10 then m ||| modeTSSC else m
    else m
  let m := if o.compressMetadata then m ||| modeCompressMetadata else m
  if o.compressSignalIndexCache then m ||| modeCompressSignalIndexCache else m

/-- `sendOperationalModes` (DataSubscriber.go L1535-1566) -/
def sendOperationalModes (o : Options) (env : Env) (s : St) : Res St :=
  sendCommand env cmdDefineOperationalModes (beBytes 4 (operationalModes o).toNat) s

/-! ## The parameter string -/

/-- ASCII text of a Go string literal. (DataSubscriber.go L475-560) -/
def ascii (s : List Char) : List Byte := s.map fun c => BitVec.ofNat 8 c.toNat

/-- `strconv.FormatBool` (DataSubscriber.go L478-496) -/
def formatBool (b : Bool) : List Byte := if b then ascii "true".toList else ascii "false".toList

/-- `SubscriptionInfo` (SubscriptionInfo.go L27-94) as far as `Subscribe` writes it, with the three texts of the assembly
information (DataSubscriber.go L142-149). The texts of the floating-point settings stand for the results of
`strconv.FormatFloat(x, 'f', 6, 64)`; `Verif.Client.App.info` puts them in. -/
structure Info where
  throttled : Bool
  publishInterval : List Byte
  includeTime : Bool
  enableTimeReasonabilityCheck : Bool
  lagTime : List Byte
  leadTime : List Byte
  useLocalClockAsRealTime : Bool
  processingInterval : BitVec 32
  useMillisecondResolution : Bool
  requestNaNValueFilter : Bool
  sourceInfo : List Byte
  versionInfo : List Byte
  updatedOnInfo : List Byte
  filterExpression : List Byte
  udpDataChannel : Bool
  dataChannelLocalPort : BitVec 16
  startTime : List Byte
  stopTime : List Byte
  constraintParameters : List Byte
  extraParameters : List Byte

/-- The parameter string of `Subscribe` (DataSubscriber.go L476-551), the UDP socket opening without error. -/
def parameterString (i : Info) : List Byte :=
  ascii "throttled=".toList ++ formatBool i.throttled ++
  ascii ";publishInterval=".toList ++ i.publishInterval ++
  ascii ";includeTime=".toList ++ formatBool i.includeTime ++
  ascii ";enableTimeReasonabilityCheck=".toList ++ formatBool i.enableTimeReasonabilityCheck ++
  ascii ";lagTime=".toList ++ i.lagTime ++
  ascii ";leadTime=".toList ++ i.leadTime ++
  ascii ";useLocalClockAsRealTime=".toList ++ formatBool i.useLocalClockAsRealTime ++
  ascii ";processingInterval=".toList ++ Format.formatInt i.processingInterval.toInt ++
  ascii ";useMillisecondResolution=".toList ++ formatBool i.useMillisecondResolution ++
  ascii ";requestNaNValueFilter".toList ++ formatBool i.requestNaNValueFilter ++
  ascii ";assemblyInfo={source=".toList ++ i.sourceInfo ++
  ascii ";version=".toList ++ i.versionInfo ++
  ascii ";updatedOn=".toList ++ i.updatedOnInfo ++ ascii "}".toList ++
  (if i.filterExpression.length > 0 then
    ascii ";filterExpression={".toList ++ i.filterExpression ++ ascii "}".toList else []) ++
  (if i.udpDataChannel then
    ascii ";dataChannel={localport=".toList ++ Format.formatInt i.dataChannelLocalPort.toNat ++ ascii "}".toList else []) ++
  (if i.startTime.length > 0 then ascii ";startTimeConstraint=".toList ++ i.startTime else []) ++
  (if i.stopTime.length > 0 then ascii ";stopTimeConstraint=".toList ++ i.stopTime else []) ++
  (if i.constraintParameters.length > 0 then ascii ";timeConstraintParameters=".toList ++ i.constraintParameters else []) ++
  (if i.extraParameters.length > 0 then ascii ";".toList ++ i.extraParameters else [])

/-- The payload of the Subscribe command (DataSubscriber.go L553-559): compact flag, length of the string in 32 bits, string.
A string of 2^32 bytes or more would make the slices disagree; the model has the length modulo 2^32 but then all bytes. -/
def subscribePayload (i : Info) : List Byte :=
  [0x02] ++ beBytes 4 (parameterString i).length ++ parameterString i

/-! ## State flags as text -/

/-- The flags with their names in the order of `StateFlagsEnum.String` (Constants.go L118-150, L171-202). -/
def flagNames : List (BitVec 32 × List Char) := [
  (0x1, "BadData".toList),
  (0x2, "SuspectData".toList),
  (0x4, "OverRangeError".toList),
  (0x8, "UnderRangeError".toList),
  (0x10, "AlarmHigh".toList),
  (0x20, "AlarmLow".toList),
  (0x40, "WarningHigh".toList),
  (0x80, "WarningLow".toList),
  (0x100, "FlatlineAlarm".toList),
  (0x200, "ComparisonAlarm".toList),
  (0x400, "ROCAlarm".toList),
  (0x800, "ReceivedAsBad".toList),
  (0x1000, "CalculatedValue".toList),
  (0x2000, "CalculationError".toList),
  (0x4000, "CalculationWarning".toList),
  (0x8000, "ReservedQualityFlag".toList),
  (0x10000, "BadTime".toList),
  (0x20000, "SuspectTime".toList),
  (0x40000, "LateTimeAlarm".toList),
  (0x80000, "FutureTimeAlarm".toList),
  (0x100000, "UpSampled".toList),
  (0x200000, "DownSampled".toList),
  (0x400000, "DiscardedValue".toList),
  (0x800000, "ReservedTimeFlag".toList),
  (0x1000000, "UserDefinedFlag1".toList),
  (0x2000000, "UserDefinedFlag2".toList),
  (0x4000000, "UserDefinedFlag3".toList),
  (0x8000000, "UserDefinedFlag4".toList),
  (0x10000000, "UserDefinedFlag5".toList),
  (0x20000000, "SystemError".toList),
  (0x40000000, "SystemWarning".toList),
  (0x80000000, "MeasurementError".toList)]

/-- `addFlag` (Constants.go L161-169), applied to the flags in order. -/
def addFlags (sfe : BitVec 32) : List (BitVec 32 × List Char) → List Char → List Char
  | [], image => image
  | (flag, name) :: rest, image =>
    if flag &&& sfe > 0 then
      addFlags sfe rest ((if image.length > 0 then image ++ [','] else image) ++ name)
    else addFlags sfe rest image

/-- `StateFlagsEnum.String` (Constants.go L153-205) -/
def stateFlagsString (sfe : BitVec 32) : List Char :=
  if sfe = 0 then "Normal".toList else addFlags sfe flagNames []

end Verif.Modes
