import Verif.Client.Address
import Verif.Connector.Model
import Verif.Format.Float
import Verif.Modes.Model

/-!
# Model of `sttp/Subscriber.go`, `sttp/Config.go` and `sttp/Settings.go`

The application's side of the subscriber: configuration, connecting, listening, requesting metadata, subscribing. What
`transport.DataSubscriber` does is taken from `Verif.Session` and `Verif.Modes`, the retry settings from `Verif.Connector`. One operation
runs at a time; the packets that arrive between two operations are operations of their own. Within one operation all writes to the
command channel have the same outcome. Message texts and the application's own callbacks are left out.
-/

namespace Verif.Client

open Verif.Session (Env St sendCommand cmdMetadataRefresh cmdSubscribe)

/-- `Config` (Config.go L27-80) -/
structure Config where
  maxRetries : BitVec 32
  retryInterval : BitVec 32
  maxRetryInterval : BitVec 32
  autoReconnect : Bool
  autoRequestMetadata : Bool
  autoSubscribe : Bool
  compressPayloadData : Bool
  compressMetadata : Bool
  compressSignalIndexCache : Bool
  metadataFilters : List Byte
  version : Byte
  rfcGuidEncoding : Bool
  deriving DecidableEq

/-- `configDefaults` (Config.go L83-95), as `NewConfig` (L98-101) gives them. -/
def configDefaults : Config where
  maxRetries := -1
  retryInterval := 1000
  maxRetryInterval := 30000
  autoReconnect := true
  autoRequestMetadata := true
  autoSubscribe := true
  compressPayloadData := true
  compressMetadata := true
  compressSignalIndexCache := true
  metadataFilters := []
  version := 2
  rfcGuidEncoding := true

/-- `Settings` (Settings.go L31-82); a `float64` is its 64 bits. -/
structure Settings where
  throttled : Bool
  publishInterval : BitVec 64
  udpPort : BitVec 16
  includeTime : Bool
  enableTimeReasonabilityCheck : Bool
  lagTime : BitVec 64
  leadTime : BitVec 64
  useLocalClockAsRealTime : Bool
  useMillisecondResolution : Bool
  requestNaNValueFilter : Bool
  startTime : List Byte
  stopTime : List Byte
  constraintParameters : List Byte
  processingInterval : BitVec 32
  extraParameters : List Byte
  deriving DecidableEq

/-- `settingsDefaults` (Settings.go L85-91): a publish interval of 1.0, a lag time of 10.0 and a lead time of 5.0. -/
def settingsDefaults : Settings where
  throttled := false
  publishInterval := 0x3FF0000000000000
  udpPort := 0
  includeTime := true
  enableTimeReasonabilityCheck := false
  lagTime := 0x4024000000000000
  leadTime := 0x4014000000000000
  useLocalClockAsRealTime := false
  useMillisecondResolution := false
  requestNaNValueFilter := false
  startTime := []
  stopTime := []
  constraintParameters := []
  processingInterval := -1
  extraParameters := []

/-- `SubscriptionInfo` (transport/SubscriptionInfo.go L27-94) -/
structure Subscription where
  filterExpression : List Byte
  throttled : Bool
  publishInterval : BitVec 64
  udpDataChannel : Bool
  dataChannelLocalPort : BitVec 16
  includeTime : Bool
  enableTimeReasonabilityCheck : Bool
  lagTime : BitVec 64
  leadTime : BitVec 64
  useLocalClockAsRealTime : Bool
  useMillisecondResolution : Bool
  requestNaNValueFilter : Bool
  startTime : List Byte
  stopTime : List Byte
  constraintParameters : List Byte
  processingInterval : BitVec 32
  extraParameters : List Byte
  deriving DecidableEq

/-- The subscription of `NewDataSubscriber` (DataSubscriber.go L174-179). -/
def Subscription.new : Subscription where
  filterExpression := []
  throttled := false
  publishInterval := 0x3FF0000000000000
  udpDataChannel := false
  dataChannelLocalPort := 0
  includeTime := true
  enableTimeReasonabilityCheck := false
  lagTime := 0x4024000000000000
  leadTime := 0x4014000000000000
  useLocalClockAsRealTime := false
  useMillisecondResolution := false
  requestNaNValueFilter := false
  startTime := []
  stopTime := []
  constraintParameters := []
  processingInterval := -1
  extraParameters := []

/-- `Subscriber` (Subscriber.go L50-72) with the fields of its `DataSubscriber` (DataSubscriber.go L49-164) and `SubscriberConnector`
(SubscriberConnector.go L39-77) that it sets or reads. -/
structure App where
  config : Config
  hostname : List Byte
  port : BitVec 16
  /-- `MaxRetries`, `RetryInterval`, `MaxRetryInterval` and `AutoReconnect` of the connector -/
  connector : Connector.Cfg
  /-- the connector's `cancel` flag -/
  cancel : Bool
  /-- `AutoReconnectCallback` is set -/
  reconnectCallback : Bool
  compressPayloadData : Bool
  compressMetadata : Bool
  compressSignalIndexCache : Bool
  version : Byte
  swapGuidEndianness : Bool
  sub : Subscription
  sourceInfo : List Byte
  versionInfo : List Byte
  updatedOnInfo : List Byte
  /-- `ConnectionEstablishedCallback` is `handleConnect` -/
  establishedCallback : Bool
  listening : Bool
  /-- received metadata whose goroutine (DataSubscriber.go L1027) has not run yet -/
  pending : Nat
  /-- notifications of a changed configuration whose goroutine (DataSubscriber.go L1186) has not run yet -/
  changes : Nat
  st : St

/-- `NewSubscriber` (Subscriber.go L74-84) with `NewDataSubscriber` (DataSubscriber.go L172-202) and the texts of version/Version.go L28-38. -/
def App.new : App where
  config := configDefaults
  hostname := []
  port := 0
  connector := ⟨0, 0, 0, false⟩
  cancel := false
  reconnectCallback := false
  compressPayloadData := true
  compressMetadata := true
  compressSignalIndexCache := true
  version := 2
  swapGuidEndianness := false
  sub := Subscription.new
  sourceInfo := Modes.ascii "STTP Go Library".toList
  versionInfo := Modes.ascii "0.9.0".toList
  updatedOnInfo := Modes.ascii "2022-12-09".toList
  establishedCallback := false
  listening := false
  pending := 0
  changes := 0
  st := Session.St.new

/-- What the surroundings contribute to one operation: the outcome of writes, and whether the UDP socket can be opened.
(transport/DataSubscriber.go L458-572, L1499-1533) -/
structure Net where
  env : Env
  udpOk : Bool

/-- GZip and AES-CBC. (transport/Common.go L36-66) -/
structure Lib where
  gunzip : List Byte → Option (List Byte)
  decipherAES : List Byte → List Byte → List Byte → Res (List Byte)

/-- The options response processing reads (DataSubscriber.go L126-140; SubscriptionInfo.go L54, L72). -/
def App.cfg (lib : Lib) (c : App) : Session.Cfg where
  version := c.version
  compressMetadata := c.compressMetadata
  compressSignalIndexCache := c.compressSignalIndexCache
  swapGuidEndianness := c.swapGuidEndianness
  includeTime := c.sub.includeTime
  useMillisecondResolution := c.sub.useMillisecondResolution
  gunzip := lib.gunzip
  decipherAES := lib.decipherAES

/-- The options `sendOperationalModes` reads. The encoding is UTF-8 and never changes (DataSubscriber.go L180). -/
def App.options (c : App) : Modes.Options :=
  ⟨c.version, Modes.utf8, c.compressPayloadData, c.compressMetadata, c.compressSignalIndexCache, c.sub.udpDataChannel⟩

/-- What `Subscribe` writes into the parameter string (DataSubscriber.go L476-551): numbers with six decimal places. -/
def App.info (c : App) : Modes.Info where
  throttled := c.sub.throttled
  publishInterval := Format.formatFloat c.sub.publishInterval 6
  includeTime := c.sub.includeTime
  enableTimeReasonabilityCheck := c.sub.enableTimeReasonabilityCheck
  lagTime := Format.formatFloat c.sub.lagTime 6
  leadTime := Format.formatFloat c.sub.leadTime 6
  useLocalClockAsRealTime := c.sub.useLocalClockAsRealTime
  processingInterval := c.sub.processingInterval
  useMillisecondResolution := c.sub.useMillisecondResolution
  requestNaNValueFilter := c.sub.requestNaNValueFilter
  sourceInfo := c.sourceInfo
  versionInfo := c.versionInfo
  updatedOnInfo := c.updatedOnInfo
  filterExpression := c.sub.filterExpression
  udpDataChannel := c.sub.udpDataChannel
  dataChannelLocalPort := c.sub.dataChannelLocalPort
  startTime := c.sub.startTime
  stopTime := c.sub.stopTime
  constraintParameters := c.sub.constraintParameters
  extraParameters := c.sub.extraParameters

/-! ## Commands -/

/-- A subscription there is is ended first (DataSubscriber.go L468-471). -/
def endSubscription (net : Net) (c : App) : Res St :=
  if c.st.subscribed then Session.unsubscribe net.env c.st else .ok c.st

/-- `DataSubscriber.Subscribe` (DataSubscriber.go L458-571); the truth value tells whether it returned no error. -/
def dsSubscribe (net : Net) (c : App) : Res (App × Bool) :=
  if !c.st.connected then .ok (c, false)
  else if decide (c.version ≥ 2) && !c.st.validated then .ok (c, false)
  else do
    let st ← endSubscription net c
    let st := { st with totalMeasurementsReceived := 0 }
    if c.sub.udpDataChannel && !net.udpOk then .ok ({ c with st := st }, false)
    else do
      let st ← sendCommand net.env cmdSubscribe (Modes.subscribePayload c.info) st
      .ok ({ c with st := { st with tsscResetRequested := true } }, true)

/-- What goes with the request for metadata (Subscriber.go L360-371): nothing, or the length of the filters in 32 bits and the filters. -/
def metadataPayload (filters : List Byte) : List Byte :=
  if filters.length = 0 then [] else beBytes 4 filters.length ++ filters

/-- `RequestMetadata` (Subscriber.go L357-372); `EncodeString` (DataSubscriber.go L263-270) gives the bytes of the text, the encoding being
UTF-8. -/
def requestMetadata (net : Net) (c : App) : Res App := do
  let st ← sendCommand net.env cmdMetadataRefresh (metadataPayload c.config.metadataFilters) c.st
  .ok { c with st := st }

/-- `handleConnect` (Subscriber.go L489-506); the error of `Subscribe` is dropped. -/
def handleConnect (net : Net) (c : App) : Res App :=
  if c.config.autoRequestMetadata then requestMetadata net c
  else if c.config.autoSubscribe then do
    let (c, _) ← dsSubscribe net c
    .ok c
  else .ok c

/-- `handleMetadataReceived` (Subscriber.go L517-541). Parsing and the registry (L519-526) are in `Verif.Xml`, `Verif.Data` and `Verif.Meta`. -/
def handleMetadataReceived (net : Net) (c : App) : Res App :=
  if c.config.autoRequestMetadata && c.config.autoSubscribe then do
    let (c, _) ← dsSubscribe net c
    .ok c
  else .ok c

/-- `handleConfigurationChanged` (Subscriber.go L665-677), the application's own callback left out. -/
def handleConfigurationChanged (net : Net) (c : App) : Res App :=
  if c.config.autoRequestMetadata then requestMetadata net c else .ok c

/-- The subscription set by `Subscribe` (Subscriber.go L402-427). -/
def setSubscription (filter : List Byte) (s : Settings) : Subscription where
  filterExpression := filter
  throttled := s.throttled
  publishInterval := s.publishInterval
  udpDataChannel := decide (s.udpPort > 0)
  dataChannelLocalPort := if s.udpPort > 0 then s.udpPort else 0
  includeTime := s.includeTime
  enableTimeReasonabilityCheck := s.enableTimeReasonabilityCheck
  lagTime := s.lagTime
  leadTime := s.leadTime
  useLocalClockAsRealTime := s.useLocalClockAsRealTime
  useMillisecondResolution := s.useMillisecondResolution
  requestNaNValueFilter := s.requestNaNValueFilter
  startTime := s.startTime
  stopTime := s.stopTime
  constraintParameters := s.constraintParameters
  processingInterval := s.processingInterval
  extraParameters := s.extraParameters

/-- `Subscribe` (Subscriber.go L394-431) -/
def subscribe (net : Net) (filter : List Byte) (settings : Option Settings) (c : App) : Res App :=
  let s := settings.getD settingsDefaults
  let c := { c with sub := setSubscription filter s }
  if c.st.connected then do
    let (c, _) ← dsSubscribe net c
    .ok c
  else .ok c

/-- `Unsubscribe` (Subscriber.go L434-436) -/
def unsubscribe (net : Net) (c : App) : Res App := do
  let st ← Session.unsubscribe net.env c.st
  .ok { c with st := st }

/-! ## Connecting -/

/-- `setupConnection` and `establishConnection` (DataSubscriber.go L370-424). -/
def establishConnection (net : Net) (c : App) : Res App := do
  let c := { c with st := Session.establish (Session.setupConnection c.st) }
  let st ← Modes.sendOperationalModes c.options net.env c.st
  let c := { c with st := st }
  if c.establishedCallback then handleConnect net c else .ok c

/-- The options `connect` (Subscriber.go L239-243) and `listen` (L323-327) copy. -/
def setOptions (c : App) : App :=
  { c with
    compressPayloadData := c.config.compressPayloadData
    compressMetadata := c.config.compressMetadata
    compressSignalIndexCache := c.config.compressSignalIndexCache
    version := c.config.version
    swapGuidEndianness := !c.config.rfcGuidEncoding }

/-- What the network makes of a connection sequence: after some attempts the publisher is reached, or it never is.
(transport/SubscriberConnector.go L190-242) -/
inductive Reached where
  | yes
  | no
  deriving DecidableEq

/-- Why an operation returned an error, if it did. (transport/DataSubscriber.go L321-368, L423-456, L458-572) -/
inductive Outcome where
  | success
  /-- refused before anything was changed -/
  | refused
  /-- "all connection attempts failed", or the listening socket could not be opened -/
  | failed
  /-- "connection canceled" -/
  | canceled
  deriving DecidableEq

/-- `connect` (Subscriber.go L219-275) with `SubscriberConnector.Connect` (SubscriberConnector.go L190-242), which does nothing when the cancel
flag is set. It registers the reconnect callback when `AutoReconnect` is set and never removes it. `early` happens between the establishment of the connection and `handleConnect` (L266): the response
thread is running by then. -/
def connect (net : Net) (r : Reached) (early : App → Res App) (host : List Byte) (port : BitVec 16) (c : App) : Res (App × Outcome) :=
  let c := setOptions { c with
    hostname := host
    port := port
    connector := ⟨c.config.maxRetries, c.config.retryInterval, c.config.maxRetryInterval, c.config.autoReconnect⟩ }
  if c.cancel then .ok (c, .canceled)
  else
    let c := { c with reconnectCallback := c.reconnectCallback || c.connector.autoReconnect }
    match r with
    | .no => .ok ({ c with st := Session.setupConnection c.st }, .failed)
    | .yes => do
      let c ← establishConnection net c
      let c ← early c
      let c ← handleConnect net c
      .ok (c, .success)

/-- `Dial` (Subscriber.go L187-217) -/
def dial (net : Net) (r : Reached) (early : App → Res App) (address : List Byte) (config : Option Config) (c : App) :
    Res (App × Outcome) :=
  if c.st.connected then .ok (c, .refused)
  else if c.listening then .ok (c, .refused)
  else match readAddress address with
    | none => .ok (c, .refused)
    | some (host, port) => connect net r early host port { c with config := config.getD c.config }

/-- `Listen` and `listen` (Subscriber.go L284-348) with `DataSubscriber.Listen` (DataSubscriber.go L426-455); `opened` tells whether the
listening socket could be opened. -/
def listen (opened : Bool) (address : List Byte) (config : Option Config) (c : App) : App × Outcome :=
  if c.listening then (c, .refused)
  else if c.st.connected then (c, .refused)
  else match readAddress address with
    | none => (c, .refused)
    | some _ =>
      let c := setOptions { c with config := config.getD c.config }
      let c := { c with establishedCallback := true }
      if opened then ({ c with listening := true }, .success) else (c, .failed)

/-- A publisher connects to the listening socket (`runListeningSocketAcceptThread`, DataSubscriber.go L752-800): only one at a time. -/
def accept (net : Net) (c : App) : Res App :=
  if !c.listening then .ok c
  else if c.st.connected then .ok c
  else establishConnection net c

/-- `Disconnect` (Subscriber.go L351-353; DataSubscriber.go L597-722), run to its end: the connector's cancel flag is set and stays set. -/
def disconnect (c : App) : App :=
  if c.st.disconnecting then c
  else { c with st := Session.disconnectDone (Session.disconnect c.st), listening := false, cancel := true }

/-- The connection is lost: `disconnect(false, true, false)` (DataSubscriber.go L197-199). -/
def lost (c : App) : App := { c with st := Session.disconnectDone (Session.disconnect c.st) }

/-- The reconnect goroutine (SubscriberConnector.go L79-130) after a lost connection, with `handleReconnect` (Subscriber.go L508-515). It cannot
succeed while listening (DataSubscriber.go L331-333), nor during another connection (L327-329), when it keeps trying. -/
def reconnect (net : Net) (r : Reached) (early : App → Res App) (c : App) : Res App :=
  if !c.reconnectCallback || c.cancel || c.st.connected then .ok c
  else match if c.listening then .no else r with
  | .yes => do
    let c ← establishConnection net c
    let c ← early c
    if c.st.connected then handleConnect net c else .ok (disconnect c)
  | .no => .ok (disconnect c)

/-! ## Packets -/

/-- How many of the events are metadata for the callback. (transport/DataSubscriber.go L1005-1029) -/
def metadataCount (l : List Session.Event) : Nat :=
  l.countP fun e => match e with | .metadata _ => true | _ => false

/-- How many of the events are notifications of a changed configuration. (transport/DataSubscriber.go L1180-1190) -/
def changeCount (l : List Session.Event) : Nat :=
  l.countP fun e => match e with | .configurationChanged => true | _ => false

/-- A packet from the publisher; metadata starts a goroutine for `handleMetadataReceived` (DataSubscriber.go L1027), a changed configuration one
for `handleConfigurationChanged` (L1186). -/
def packet (lib : Lib) (env : Env) (body : List Byte) (c : App) : Res App := do
  let st ← Session.receive (c.cfg lib) env body c.st
  .ok { c with
    st := st
    pending := c.pending + metadataCount (st.log.drop c.st.log.length)
    changes := c.changes + changeCount (st.log.drop c.st.log.length) }

/-- Successive packets. (transport/DataSubscriber.go L801-807) -/
def packets (lib : Lib) : List (Env × List Byte) → App → Res App
  | [], c => .ok c
  | (env, body) :: rest, c => do
    let c ← packet lib env body c
    packets lib rest c

/-- One of the goroutines for received metadata runs. (transport/DataSubscriber.go L1026) -/
def metadataGoroutine (net : Net) (c : App) : Res App :=
  match c.pending with
  | 0 => .ok c
  | n + 1 => handleMetadataReceived net { c with pending := n }

/-- One of the goroutines for a changed configuration runs. (transport/DataSubscriber.go L1186) -/
def changedGoroutine (net : Net) (c : App) : Res App :=
  match c.changes with
  | 0 => .ok c
  | n + 1 => handleConfigurationChanged net { c with changes := n }

/-! ## Histories -/

/-- What the application, the network and the publisher can do. (the exported methods of transport/DataSubscriber.go L321-606) -/
inductive Action where
  | dial (net : Net) (r : Reached) (early : List (Env × List Byte)) (address : List Byte) (config : Option Config)
  | listen (opened : Bool) (address : List Byte) (config : Option Config)
  | accept (net : Net)
  | disconnect
  | lost
  | reconnect (net : Net) (r : Reached) (early : List (Env × List Byte))
  | packet (env : Env) (body : List Byte)
  | metadata (net : Net)
  | changed (net : Net)
  | requestMetadata (net : Net)
  | subscribe (net : Net) (filter : List Byte) (settings : Option Settings)
  | unsubscribe (net : Net)

/-- the exported methods of transport/DataSubscriber.go L321-606 -/
def Action.run (lib : Lib) (c : App) : Action → Res App
  | .dial net r early a cfg => do
    let (c, _) ← Client.dial net r (packets lib early) a cfg c
    .ok c
  | .listen opened a cfg => .ok (Client.listen opened a cfg c).1
  | .accept net => Client.accept net c
  | .disconnect => .ok (Client.disconnect c)
  | .lost => .ok (Client.lost c)
  | .reconnect net r early => Client.reconnect net r (packets lib early) c
  | .packet env body => Client.packet lib env body c
  | .metadata net => metadataGoroutine net c
  | .changed net => changedGoroutine net c
  | .requestMetadata net => Client.requestMetadata net c
  | .subscribe net f s => Client.subscribe net f s c
  | .unsubscribe net => Client.unsubscribe net c

/-- the exported methods of transport/DataSubscriber.go L321-606 -/
def run (lib : Lib) : List Action → App → Res App
  | [], c => .ok c
  | a :: as, c => do
    let c ← a.run lib c
    run lib as c

end Verif.Client
