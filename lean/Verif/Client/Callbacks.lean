/-!
# Callbacks of the subscriber

The callbacks an application can assign (`Set...`, Subscriber.go L721-841), where they are kept, under which mutex they are assigned and called,
and how: on the goroutine of the event, or on a new one (`go`). There are three objects with callbacks: the `Subscriber`, its `DataSubscriber`
and the `SubscriberConnector` of that one.

A callback is a number, `nil` is `none`. What callbacks do is left out. Messages about the events themselves ("Received ... bytes of metadata") are
events of their own here.
-/

namespace Verif.Client.Callbacks

/-- What an application can assign: one for each `Set...` method. (Subscriber.go L721-841) -/
inductive Slot where
  | status | error | metadata | subscriptionUpdated | dataStartTime | configurationChanged | newMeasurements | newBufferBlocks
  | notification | historicalReadComplete | connectionEstablished | connectionTerminated
  deriving DecidableEq, Repr

/-- The callback fields of the three objects that matter here. (Subscriber.go L56-66, DataSubscriber.go L86-124, SubscriberConnector.go L41-45) -/
structure Fields where
  /-- fields of `Subscriber` (Subscriber.go L59-65) -/
  sbStatus : Option Nat
  sbError : Option Nat
  sbMetadata : Option Nat
  sbDataStartTime : Option Nat
  sbConfigurationChanged : Option Nat
  sbHistoricalReadComplete : Option Nat
  sbConnectionEstablished : Option Nat
  /-- fields of `DataSubscriber` that hold a callback of the application (DataSubscriber.go L86-124) -/
  dsStatus : Option Nat
  dsError : Option Nat
  dsSubscriptionUpdated : Option Nat
  dsNewMeasurements : Option Nat
  dsNewBufferBlocks : Option Nat
  dsNotification : Option Nat
  dsConnectionTerminated : Option Nat
  /-- fields of `DataSubscriber` that hold a handler of the `Subscriber`, once it has connected or listened: `MetadataReceivedCallback`,
  `DataStartTimeCallback`, `ConfigurationChangedCallback`, `ProcessingCompleteCallback` (always set together) -/
  dsHandlers : Bool
  /-- `ErrorMessageCallback` of `SubscriberConnector` -/
  conError : Option Nat

/-- The defaults: `DefaultStatusMessageLogger` and so on. (Subscriber.go L73-84, L692-722) -/
def default : Slot → Option Nat
  | .status => some 0
  | .error => some 1
  | .connectionEstablished => some 2
  | .connectionTerminated => some 3
  | _ => none

/-- `NewSubscriber` (Subscriber.go L73-84). -/
def new : Fields where
  sbStatus := some 0
  sbError := some 1
  sbMetadata := none
  sbDataStartTime := none
  sbConfigurationChanged := none
  sbHistoricalReadComplete := none
  sbConnectionEstablished := some 2
  dsStatus := none
  dsError := none
  dsSubscriptionUpdated := none
  dsNewMeasurements := none
  dsNewBufferBlocks := none
  dsNotification := none
  dsConnectionTerminated := some 3
  dsHandlers := false
  conError := none

/-- The `Set...` methods (Subscriber.go L728-841). -/
def set (c : Fields) (f : Option Nat) : Slot → Fields
  | .status => { c with sbStatus := f }
  | .error => { c with sbError := f }
  | .metadata => { c with sbMetadata := f }
  | .subscriptionUpdated => { c with dsSubscriptionUpdated := f }
  | .dataStartTime => { c with sbDataStartTime := f }
  | .configurationChanged => { c with sbConfigurationChanged := f }
  | .newMeasurements => { c with dsNewMeasurements := f }
  | .newBufferBlocks => { c with dsNewBufferBlocks := f }
  | .notification => { c with dsNotification := f }
  | .historicalReadComplete => { c with sbHistoricalReadComplete := f }
  | .connectionEstablished => { c with sbConnectionEstablished := f }
  | .connectionTerminated => { c with dsConnectionTerminated := f }

/-- What `connect` assigns (Subscriber.go L241-259). -/
def connect (c : Fields) : Fields :=
  { c with conError := c.sbError, dsStatus := c.sbStatus, dsError := c.sbError, dsHandlers := true }

/-- What `listen` assigns (Subscriber.go L326-343). -/
def listen (c : Fields) : Fields :=
  { c with dsStatus := c.sbStatus, dsError := c.sbError, dsHandlers := true }

/-- What an application does. (Subscriber.go L200-343, L728-841) -/
inductive Op where
  | set (s : Slot) (f : Option Nat)
  | connect
  | listen

/-- One action of the application. (Subscriber.go L200-343, L728-841) -/
def act (c : Fields) : Op → Fields
  | .set s f => set c f s
  | .connect => connect c
  | .listen => listen c

/-- What happens. -/
inductive Event where
  /-- a message of the `Subscriber` itself: `StatusMessage`, `ErrorMessage` (Subscriber.go L466-486) -/
  | sbStatus | sbError
  /-- a message of the `DataSubscriber`: `dispatchStatusMessage`, `dispatchErrorMessage` (DataSubscriber.go L732-750) -/
  | dsStatus | dsError
  /-- a message of the connector: `dispatchErrorMessage` (SubscriberConnector.go L271-279) -/
  | conError
  /-- metadata arrived that can (`true`) or cannot be parsed (DataSubscriber.go L1005-1029) -/
  | metadata (parsed : Bool)
  /-- a signal index cache arrived (DataSubscriber.go L1096-1102) -/
  | subscriptionUpdated
  /-- DataSubscriber.go L1031-1041 -/
  | dataStartTime
  /-- DataSubscriber.go L1180-1190 -/
  | configurationChanged
  /-- DataSubscriber.go L1253-1261 -/
  | newMeasurements
  /-- DataSubscriber.go L1447-1455 -/
  | newBufferBlocks
  /-- DataSubscriber.go L1476-1482 -/
  | notification
  /-- DataSubscriber.go L1043-1051 -/
  | processingComplete
  /-- `handleConnect` (Subscriber.go L489-506) -/
  | connectionEstablished
  /-- DataSubscriber.go L695-701 -/
  | connectionTerminated
  deriving DecidableEq

/-- One callback, called when it is not nil: the slot the application knows it by, and the callback. (The `if ... != nil` of all dispatches,
for example Subscriber.go L469-471) -/
def call (s : Slot) : Option Nat → List (Slot × Nat)
  | none => []
  | some f => [(s, f)]

/-- `handleMetadataReceived` (Subscriber.go L517-543): the error message, the summary of `showMetadataSummary` (L593-651), the receiver. -/
def handleMetadataReceived (c : Fields) (parsed : Bool) : List (Slot × Nat) :=
  (if parsed then [] else call .error c.sbError) ++ call .status c.sbStatus ++ call .metadata c.sbMetadata

/-- `handleProcessingComplete` (Subscriber.go L678-689). -/
def handleProcessingComplete (c : Fields) : List (Slot × Nat) :=
  call .status c.sbStatus ++ call .historicalReadComplete c.sbHistoricalReadComplete

/-- The callbacks called because of an event, in order. (The lines at `Event`, and the handlers Subscriber.go L466-689) -/
def dispatch (c : Fields) : Event → List (Slot × Nat)
  | .sbStatus => call .status c.sbStatus
  | .sbError => call .error c.sbError
  | .dsStatus => call .status c.dsStatus
  | .dsError => call .error c.dsError
  | .conError => call .error c.conError
  | .metadata parsed => if c.dsHandlers then handleMetadataReceived c parsed else []
  | .subscriptionUpdated => call .subscriptionUpdated c.dsSubscriptionUpdated
  | .dataStartTime => if c.dsHandlers then call .dataStartTime c.sbDataStartTime else []
  | .configurationChanged => if c.dsHandlers then call .configurationChanged c.sbConfigurationChanged else []
  | .newMeasurements => call .newMeasurements c.dsNewMeasurements
  | .newBufferBlocks => call .newBufferBlocks c.dsNewBufferBlocks
  | .notification => call .notification c.dsNotification
  | .processingComplete => if c.dsHandlers then handleProcessingComplete c else []
  | .connectionEstablished => call .connectionEstablished c.sbConnectionEstablished
  | .connectionTerminated => call .connectionTerminated c.dsConnectionTerminated

/-! ## Assignment against dispatch

One callback field, any number of goroutines assigning it and any number dispatching it. -/

/-- How a field is guarded: are the mutex of the `Set...` method and the mutex of the dispatch the same one, and is the callback called on the
goroutine that holds the mutex (`inline`) or by `go`? (Subscriber.go L728-841 and the lines at `Event`) -/
structure Guard where
  same : Bool
  inline : Bool

/-- The guards of the slots. `SetSubscriptionUpdatedReceiver` locks the mutex of the `Subscriber` (Subscriber.go L757-761), the dispatch that of
the `DataSubscriber` (DataSubscriber.go L1096-1102). All others have one mutex: that of the `Subscriber` for status, error (as far as
messages of the `Subscriber` itself go), metadata, dataStartTime, configurationChanged, historicalReadComplete and connectionEstablished
(Subscriber.go L466-543, L655-689, L728-841), that of the `DataSubscriber` for the other four (Subscriber.go L786-810, L834-841,
DataSubscriber.go L695-701, L1253-1261, L1447-1455, L1476-1482). -/
def guard : Slot → Guard
  | .subscriptionUpdated => ⟨false, false⟩
  | .notification => ⟨true, false⟩
  | _ => ⟨true, true⟩

/-- Where a goroutine is. -/
inductive Th where
  /-- not there (yet) -/
  | idle
  /-- a `Set...` call: before `Lock`, holding it, after the assignment, returned -/
  | set0 (v : Option Nat)
  | set1 (v : Option Nat)
  | set2 (v : Option Nat)
  | returned
  /-- a dispatch: before `RLock`, holding it, after the test for nil, in the callback, before `RUnlock`, done -/
  | disp0
  | disp1
  | disp2
  | running (f : Nat)
  | disp3
  | done
  /-- a callback started by `go`: not yet running, running, ended -/
  | spawned (f : Nat)
  | calling (f : Nat)
  | ended
  /-- called nil -/
  | panicked
  deriving DecidableEq

/-- Holds the write side. (Subscriber.go L443-446, L458-461, DataSubscriber.go L217-219, L232-234) -/
def Th.writes : Th → Bool
  | .set1 _ | .set2 _ => true
  | _ => false

/-- Holds the read side. (Subscriber.go L448-456, DataSubscriber.go L222-229) -/
def Th.reads : Th → Bool
  | .disp1 | .disp2 | .running _ | .disp3 => true
  | _ => false

/-- The field and the goroutines. (Subscriber.go L56-70, DataSubscriber.go L86-124) -/
structure St where
  field : Option Nat
  th : Nat → Th

/-- Goroutine `p` goes to `t`. -/
def St.go (s : St) (p : Nat) (t : Th) : St := { s with th := fun q => if q = p then t else s.th q }

/-- One action of goroutine `p`: the `Set...` methods (for example Subscriber.go L786-792) and the dispatches (for example DataSubscriber.go
L1253-1261, L1476-1482). The mutex is `sync.RWMutex`: `Lock` waits until nobody holds it, `RLock` until nobody writes; that a waiting writer
keeps new readers out is left out here (see `Sync/Callback`). -/
inductive Step (g : Guard) (s : St) : Nat → St → Prop where
  | lock {p v} : s.th p = .set0 v → (∀ q, (s.th q).writes = false) → (g.same = true → ∀ q, (s.th q).reads = false) → Step g s p (s.go p (.set1 v))
  | assign {p v} : s.th p = .set1 v → Step g s p ({ s with field := v }.go p (.set2 v))
  | unlock {p v} : s.th p = .set2 v → Step g s p (s.go p .returned)
  | rlock {p} : s.th p = .disp0 → (g.same = true → ∀ q, (s.th q).writes = false) → Step g s p (s.go p .disp1)
  | isNil {p} : s.th p = .disp1 → s.field = none → Step g s p (s.go p .disp3)
  | notNil {p f} : s.th p = .disp1 → s.field = some f → Step g s p (s.go p .disp2)
  | begin_ {p f} : s.th p = .disp2 → s.field = some f → g.inline = true → Step g s p (s.go p (.running f))
  | end_ {p f} : s.th p = .running f → Step g s p (s.go p .disp3)
  | spawn {p q f} : s.th p = .disp2 → s.field = some f → g.inline = false → s.th q = .idle → p ≠ q →
      Step g s p ((s.go p .disp3).go q (.spawned f))
  | panic {p} : s.th p = .disp2 → s.field = none → Step g s p (s.go p .panicked)
  | runlock {p} : s.th p = .disp3 → Step g s p (s.go p .done)
  | call {p f} : s.th p = .spawned f → Step g s p (s.go p (.calling f))
  | return_ {p f} : s.th p = .calling f → Step g s p (s.go p .ended)

/-- Any number of actions of goroutines with property `P`. -/
inductive Steps (g : Guard) (P : Nat → Prop) : St → St → Prop where
  | refl {s} : Steps g P s s
  | step {s t u p} : Steps g P s t → P p → Step g t p u → Steps g P s u

/-- Goroutines that are about to assign or to dispatch, or not there. (Any number of calls of the `Set...` methods and of dispatches) -/
def Begins (s : St) : Prop := ∀ p, s.th p = .idle ∨ s.th p = .disp0 ∨ ∃ v, s.th p = .set0 v

/-! ## The order of delivery

What one goroutine, the reader of the command channel, dispatches: inline or by `go`. -/

/-- Events dispatched and not yet handled, and the log of the callback. (DataSubscriber.go L732-750, L1096-1102, L1476-1482: `go`; L1031-1041,
L1253-1261, L1447-1455: inline) -/
structure Log where
  pending : List Nat
  log : List Nat

/-- What can happen: an event is dispatched (and its callback called at once if `inline`), or the `i`-th of the goroutines that were started gets
to run its callback. (DataSubscriber.go L732-750, L1031-1041, L1096-1102, L1253-1261, L1447-1455, L1476-1482) -/
inductive Act where
  | event (e : Nat)
  | run (i : Nat)

/-- One action; a callback is one action here: callbacks started by `go` may also overlap. (DataSubscriber.go L732-750, L1031-1041, L1096-1102,
L1253-1261, L1447-1455, L1476-1482) -/
def Log.act (inline : Bool) (l : Log) : Act → Log
  | .event e => if inline then { l with log := l.log ++ [e] } else { l with pending := l.pending ++ [e] }
  | .run i =>
    match l.pending[i]? with
    | some e => ⟨l.pending.eraseIdx i, l.log ++ [e]⟩
    | none => l

end Verif.Client.Callbacks
