import Verif.Common.Basic

/-!
# `Cancel` against a running connection sequence

`SubscriberConnector.Cancel` (SubscriberConnector.go L245-263) racing with one connection sequence: either the
`Connect` call of a user or the reconnect goroutine of `autoReconnect`. A transition system: one step is one atomic
action (a read or write of a flag, taking over the shared timer pointer, the firing of the timer, a dial). Outcomes of
dials, the retry limit and the `connectionRefused` flag are choices of the schedule. One `Cancel` call, the `disposing`
flag stays off, and the `AutoReconnect` of a previous connection is the only thing that starts the goroutine. The
retry interval is positive, so that a failed dial is always followed by a wait (L223), and the goroutine of an earlier
reconnect has ended, so that the `Join` of L91-93 does not wait.
-/

namespace Verif.Connector.Cancel

/-- Where the connection sequence is. (SubscriberConnector.go L79-264) -/
inductive GPc where
  /-- `Connect` before its test of the cancel flag (SubscriberConnector.go L191) -/
  | connectCheck
  /-- `autoReconnect` before its test of the cancel flag (L82) -/
  | autoCheck
  /-- storing the new thread and starting it (L126-130) -/
  | launch
  /-- the goroutine before its first action (Thread.go L93) -/
  | started
  /-- the reset of L97-99 -/
  | reset
  /-- the limit test of L101 -/
  | autoLimit
  /-- `waitForRetry` of L106: creating, storing and awaiting the timer (L180-186) -/
  | autoArm
  | autoStore
  | autoWait
  /-- the test of L108 -/
  | autoTest
  /-- the start of `connect` (L205) -/
  | enter
  /-- the loop head (L207-213) -/
  | loop
  /-- the reset in `DataSubscriber.connect` (DataSubscriber.go L354-356) -/
  | dialReset
  /-- `net.Dial` (DataSubscriber.go L361) -/
  | dial
  /-- `waitForRetry` of L225 -/
  | arm
  | store
  | wait
  /-- the test of L227 -/
  | test
  /-- the sequence is over -/
  | ended
  deriving DecidableEq

/-- Where the caller of `Cancel` is (SubscriberConnector.go L245-263). -/
inductive CPc where
  | idle
  /-- the flag is set (L246) -/
  | flagged
  /-- the timer pointer is read (L248-250) -/
  | copied
  /-- the timer is stopped (L252-254) -/
  | stopped
  /-- waiting in `Join` (L261, Thread.go L80) -/
  | joining
  | returned
  deriving DecidableEq

/-- State of the latest timer. (SubscriberConnector.go L133-187) -/
inductive Timer where
  | pending
  | fired
  | stopped
  deriving DecidableEq

/-- The connector (SubscriberConnector.go L67-77), the sequence and the canceller. -/
structure St where
  cancel : Bool
  /-- number of timers created so far: the identity of the latest one -/
  timers : Nat
  timer : Timer
  /-- `waitTimer` -/
  stored : Option Nat
  /-- `reconnectThread` is set and its function is running -/
  running : Bool
  auto : Bool
  /-- number of `net.Dial` calls -/
  dials : Nat
  g : GPc
  c : CPc
  copy : Option Nat
  /-- `Cancel` waited for the thread -/
  joined : Bool
  deriving DecidableEq

/-- A user calls `Connect`; `used` timers of earlier sequences are around. (SubscriberConnector.go L190-196) -/
def initConnect (used : Nat) : St :=
  ⟨false, used, .fired, if used = 0 then none else some used, false, false, 0, .connectCheck, .idle, none, false⟩

/-- A connection ended and `autoReconnect` is called. (SubscriberConnector.go L79-131) -/
def initAuto (used : Nat) : St :=
  ⟨false, used, .fired, if used = 0 then none else some used, false, true, 0, .autoCheck, .idle, none, false⟩

/-- Choices the code does not make itself. (SubscriberConnector.go L79-264) -/
inductive Choice where
  | no
  | yes
  deriving DecidableEq

/-- The actions: the next one of the sequence, the next one of the canceller, the expiry of the timer. (SubscriberConnector.go L79-264) -/
inductive Act where
  | go (ch : Choice)
  | cancel
  | fire
  deriving DecidableEq

/-- The end of the sequence; the flag of the thread is cleared (Thread.go L90). -/
def St.finish (s : St) : St := { s with g := .ended, running := false }

/-- One action, `none` when not enabled (SubscriberConnector.go L79-263). -/
def step (s : St) : Act → Option St
  | .fire => if s.timer = .pending then some { s with timer := .fired } else none
  | .go ch =>
    match s.g with
    | .connectCheck => some (if s.cancel then s.finish else { s with g := .enter })
    | .autoCheck => some (if s.cancel then s.finish else { s with g := .launch })
    | .launch => some { s with g := .started }
    | .started => some { s with g := .reset, running := true }
    | .reset => some (if ch = .yes then { s with g := .autoLimit } else { s with g := .autoLimit, cancel := false })
    | .autoLimit => some (if ch = .yes then s.finish else { s with g := .autoArm })
    | .autoArm => some { s with g := .autoStore, timers := s.timers + 1, timer := .pending }
    | .autoStore => some { s with g := .autoWait, stored := some s.timers }
    | .autoWait => if s.timer = .fired then some { s with g := .autoTest } else none
    | .autoTest => some (if s.cancel then s.finish else { s with g := .enter })
    | .enter => some { s with g := .loop, cancel := false }
    | .loop => some (if ch = .yes then s.finish else { s with g := .dialReset })
    | .dialReset => some (if s.auto then { s with g := .dial } else { s with g := .dial, cancel := false })
    | .dial =>
      let s := { s with dials := s.dials + 1 }
      some (if ch = .yes then s.finish else { s with g := .arm, auto := true })
    | .arm => some { s with g := .store, timers := s.timers + 1, timer := .pending }
    | .store => some { s with g := .wait, stored := some s.timers }
    | .wait => if s.timer = .fired then some { s with g := .test } else none
    | .test => some (if s.cancel then s.finish else { s with g := .loop })
    | .ended => none
  | .cancel =>
    match s.c with
    | .idle => some { s with c := .flagged, cancel := true }
    | .flagged => some { s with c := .copied, copy := s.stored }
    | .copied =>
      some { s with c := .stopped,
                    timer := if s.copy = some s.timers ∧ s.timer = .pending then .stopped else s.timer }
    | .stopped => some { s with c := if s.running then .joining else .returned }
    | .joining => if s.running = false then some { s with c := .returned, joined := true } else none
    | .returned => none

/-- A schedule. (SubscriberConnector.go L79-264) -/
def exec (s : St) : List Act → Option St
  | [] => some s
  | a :: as => (step s a).bind (fun t => exec t as)

/-- SubscriberConnector.go L79-264 -/
def Leads (s t : St) : Prop := ∃ as, exec s as = some t

/-- Reachable from the start of a connection sequence. (SubscriberConnector.go L79-264) -/
def Reach (s : St) : Prop := ∃ used, Leads (initConnect used) s ∨ Leads (initAuto used) s

end Verif.Connector.Cancel
