import Verif.Common.Basic

/-!
# The retry cycle of the subscriber connector

`sttp/transport/SubscriberConnector.go` (`waitForRetry`, `Connect`, `connect`, `autoReconnect`, `ResetConnection`)
together with the part of `DataSubscriber.connect` that changes the attempt counter. One sequential run: nobody
calls `Cancel`, `Disconnect` or `Dispose` meanwhile (the races with `Cancel` are in `Verif.Connector.Cancel`). The
network is an arbitrary list of outcomes, one per dial.
-/

namespace Verif.Connector

/-- The retry settings (SubscriberConnector.go L53-65): `int32` values, `MaxRetries` -1 for no limit. -/
structure Cfg where
  maxRetries : BitVec 32
  retryInterval : BitVec 32
  maxRetryInterval : BitVec 32
  autoReconnect : Bool
  deriving DecidableEq

/-- The exponent of the back-off (SubscriberConnector.go L137-141); only read when the counter is positive, so
the conversion to `float64` of a negative counter does not matter. -/
def exponent (attempt : BitVec 32) : Nat :=
  if attempt.toInt > 13 then 12 else attempt.toInt.toNat

/-- The time `waitForRetry` waits, in milliseconds (SubscriberConnector.go L133-187). `math.Pow(2, n)` is exact for
these exponents, and the product wraps as `int32`. The message text is not kept. -/
def waitTime (c : Cfg) (attempt : BitVec 32) : BitVec 32 :=
  let scaled := if attempt.toInt > 0 then c.retryInterval * BitVec.ofNat 32 (2 ^ exponent attempt) else 0
  let capped := if scaled.toInt > c.maxRetryInterval.toInt then c.maxRetryInterval else scaled
  if capped.toInt > 0 then capped else c.retryInterval

/-- The limit test (SubscriberConnector.go L101 and L208): `MaxRetries != -1 && connectAttempt >= MaxRetries`. -/
def limited (c : Cfg) (attempt : BitVec 32) : Bool :=
  decide (c.maxRetries ≠ -1#32) && decide (attempt.toInt ≥ c.maxRetries.toInt)

/-- What the network does with one dial: no connection; a connection the publisher refuses
(DataSubscriber.go L986) and that ends; a connection that is accepted and ends later. -/
inductive Outcome where
  | unreachable
  | refused
  | dropped
  deriving DecidableEq

/-- `ConnectStatus` (Constants.go L698-720), without `Canceled`, which needs a concurrent call. -/
inductive Status where
  | success
  | failed
  deriving DecidableEq

/-- Who runs `connect`: the caller of `Connect` or the reconnect goroutine. (SubscriberConnector.go L190-242) -/
inductive Caller where
  | user
  | reconnect
  deriving DecidableEq

/-- Observable events. (SubscriberConnector.go L79-242) -/
inductive Event where
  /-- `net.Dial` (DataSubscriber.go L361) -/
  | dial
  /-- the timer of `waitForRetry`, in milliseconds -/
  | wait (ms : BitVec 32)
  /-- the "Maximum connection retries attempted" message, with the counter at that time -/
  | limitReached (attempt : BitVec 32)
  /-- `Connect` returns -/
  | returned (s : Status)
  /-- `ReconnectCallback` (SubscriberConnector.go L117-123) -/
  | reconnectCallback
  deriving DecidableEq

/-- The end of `connect` for its caller (SubscriberConnector.go L237-241 and L112-123). -/
def finish (who : Caller) (s : Status) : Event :=
  match who with
  | .user => .returned s
  | .reconnect => .reconnectCallback

/-- `autoReconnect` after a connection ended (SubscriberConnector.go L95-112), with `k` the `connect` call it makes:
the counter is reset unless the publisher refused the connection. -/
def reconnect (c : Cfg) (refused : Bool) (attempt : BitVec 32) (k : BitVec 32 → List Event) : List Event :=
  if c.autoReconnect then
    let attempt := if refused then attempt else 0
    if limited c attempt then [.limitReached attempt]
    else .wait (waitTime c attempt) :: k attempt
  else []

/-- `connect` (SubscriberConnector.go L198-242) with counter `attempt`, and everything the reconnect goroutines do
after it. `DataSubscriber.connect` sets the counter to zero when `auto` is off (DataSubscriber.go L354-356). The
run is cut when the outcomes are used up. -/
def connect (c : Cfg) : List Outcome → Caller → BitVec 32 → Bool → List Event
  | [], who, attempt, _ =>
    if limited c attempt then [.limitReached attempt, finish who .failed] else []
  | o :: os, who, attempt, auto =>
    if limited c attempt then [.limitReached attempt, finish who .failed] else
    let attempt := attempt + 1
    let attempt := if auto then attempt else 0
    .dial ::
      match o with
      | .unreachable =>
        if c.retryInterval.toInt > 0 then .wait (waitTime c attempt) :: connect c os who attempt true
        else connect c os who attempt auto
      | .refused => finish who .success :: reconnect c true attempt (fun a => connect c os .reconnect a true)
      | .dropped => finish who .success :: reconnect c false attempt (fun a => connect c os .reconnect a true)

/-- `Connect` (SubscriberConnector.go L190-196), the cancel flag being off, with counter `attempt`. -/
def userConnect (c : Cfg) (attempt : BitVec 32) (os : List Outcome) : List Event := connect c os .user attempt false

end Verif.Connector
