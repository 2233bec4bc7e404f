import Mathlib.Logic.Function.Basic

/-!
# Closing a subscriber

A subscriber that dials once (`Subscriber.Dial`, Subscriber.go L187-225, SubscriberConnector.go L198-243, DataSubscriber.go L326-420) and is closed once
(`Subscriber.Close`, Subscriber.go L88-92, `Dispose`, DataSubscriber.go L206-214) by another goroutine at any time, while the publisher sends, and leaves
at any time: the response goroutine (L801-877), the connection termination thread (L197, L728-730) and the disconnect threads (L608-725). One step is one
action on a flag, a socket, a pointer to a thread, a mutex, or one end of a wait.

Left out: `AutoReconnect` is off (see `Verif.Sync.Reconnect`, `Verif.Connector.Cancel`), so that `connector.Cancel` returns at once and a dial that fails
is the last; the callback lock and what callbacks do; `Subscribe` and `Unsubscribe`, the data channel, validation, writes. A packet is read in one
action.
-/

namespace Verif.Sync.Close

open Function (update)

/-- `Dial` down to `establishConnection`. -/
inductive NPc where
  | idle
  /-- the tests of `disposing` (SubscriberConnector.go L207-217) and of DataSubscriber.go L327 -/
  | test
  /-- reading the pointer to the disconnect thread (L336-338) -/
  | copy
  /-- joining it (L340-342) -/
  | join (k : Option Nat)
  /-- at `connectActionMutex.Lock` (L346) and `setupConnection` (L352) -/
  | lock
  /-- `net.Dial` (L361) -/
  | dial
  /-- L403-406 -/
  | set
  /-- L409 -/
  | start
  /-- L347 -/
  | unlock
  | over
  deriving DecidableEq

/-- The response goroutine (DataSubscriber.go L801-877). -/
inductive RPc where
  | none
  /-- started, not running yet: `Join` does not wait for it (Thread.go L75-77) -/
  | launched
  /-- the test of L804 -/
  | loop
  /-- in `ReadFull` (L805) -/
  | read
  /-- a packet has been read or reading failed; the test of L810 -/
  | header (ok : Bool)
  /-- the test of L862 -/
  | body
  /-- in `processServerResponse` (L874) -/
  | process
  /-- `TryStart` of the termination thread (L729): its test of `running` (Thread.go L65) -/
  | dispatch
  /-- at the mutex of that thread (Thread.go L53) -/
  | starting
  | ended
  deriving DecidableEq

/-- The connection termination thread, `disconnect(false, true, false)` (DataSubscriber.go L197, L608-649). -/
inductive TPc where
  | idle
  | launched
  /-- the test of L610 -/
  | check
  /-- L628 -/
  | set
  /-- L629-636 -/
  | unconnect
  /-- L638-645 -/
  | start
  deriving DecidableEq

/-- A disconnect thread (DataSubscriber.go L651-725). -/
inductive DPc where
  | idle
  /-- started, not running yet -/
  | launched
  /-- joining the termination thread (L655), unless started by it -/
  | joinTerm
  /-- at `connectActionMutex.Lock` (L656) -/
  | lock
  /-- closing the command channel (L666-670) -/
  | close
  /-- the test of the pointer to the response goroutine (L684) -/
  | test
  /-- reading the pointer once more and calling `Join` (L685) -/
  | load
  /-- in `Join` -/
  | wait
  /-- L686 -/
  | forget
  /-- `ConnectionTerminatedCallback` (L695-701) -/
  | callback
  /-- L704 -/
  | mark
  /-- L705 -/
  | clear
  /-- L723 -/
  | unlock
  | ended
  deriving DecidableEq

/-- `Close` (DataSubscriber.go L206-214 with L608-649 for `disconnect(true, false, true)`). -/
inductive CPc where
  | idle
  /-- the test of L610 -/
  | check
  /-- L615-617: a disconnect is under way -/
  | copy
  /-- L619-621: joining it -/
  | busy (k : Option Nat)
  /-- L628 -/
  | set
  /-- L629-636 -/
  | unconnect
  /-- L638-645 -/
  | start
  /-- L647-649: joining the thread -/
  | join (k : Nat)
  /-- `Join` has found the thread running and waits for its mutex -/
  | wait (k : Nat)
  | returned
  deriving DecidableEq

/-- Who holds `connectActionMutex` (DataSubscriber.go L346, L656). -/
inductive Owner where
  | dial
  | dis (k : Nat)
  deriving DecidableEq

/-- The flags, the pointers and the goroutines (DataSubscriber.go L50-165). -/
structure St where
  connected : Bool
  disconnecting : Bool
  disconnected : Bool
  disposing : Bool
  /-- `commandChannelSocket` is not nil -/
  socket : Bool
  /-- closed by this side -/
  closed : Bool
  /-- closed by the publisher -/
  gone : Bool
  action : Option Owner
  /-- `commandChannelResponseThread` is not nil -/
  ptr : Bool
  n : NPc
  r : RPc
  t : TPc
  c : CPc
  d : Nat → DPc
  /-- started by `Close` rather than by the termination thread -/
  user : Nat → Bool
  nd : Nat
  /-- `disconnectThread` -/
  dptr : Option Nat
  /-- packets handed to the application -/
  delivered : Nat
  /-- the disconnect threads that have called `ConnectionTerminatedCallback` -/
  called : List Nat
  /-- `Join` was called on a nil pointer: the program ends -/
  crashed : Bool

/-- A new subscriber (DataSubscriber.go L167-203). -/
def init : St where
  connected := false
  disconnecting := false
  disconnected := false
  disposing := false
  socket := false
  closed := false
  gone := false
  action := none
  ptr := false
  n := .idle
  r := .none
  t := .idle
  c := .idle
  d := fun _ => .idle
  user := fun _ => false
  nd := 0
  dptr := none
  delivered := 0
  called := []
  crashed := false

/-- The actions (DataSubscriber.go L206-214, L326-420, L608-725, L801-877). -/
inductive Act where
  /-- the next action of `Dial`; the outcome of `net.Dial` -/
  | dial (ok : Bool)
  /-- the next action of the response goroutine -/
  | resp
  | term
  | dis (k : Nat)
  | close
  /-- the publisher closes the connection -/
  | leave
  deriving DecidableEq

/-- `Join` of a disconnect thread returns at once (Thread.go L75-77). -/
def DPc.quiet : DPc → Bool
  | .idle | .launched | .ended => true
  | _ => false

/-- `Join` of the response goroutine returns at once (Thread.go L75-77). -/
def RPc.quiet : RPc → Bool
  | .none | .launched | .ended => true
  | _ => false

/-- `Join` of a disconnect thread, if there is one, returns. (Thread.go L74-83) -/
def St.joined (s : St) : Option Nat → Bool
  | none => true
  | some k => (s.d k).quiet

/-- `Dial` (SubscriberConnector.go L198-243, DataSubscriber.go L326-420). -/
def stepDial (s : St) (ok : Bool) : Option St :=
  match s.n with
  | .idle => some { s with n := .test }
  | .test => some { s with n := if s.disposing || s.connected then .over else .copy }
  | .copy => some { s with n := .join s.dptr }
  | .join k => if s.joined k then some { s with n := .lock } else none
  | .lock => if s.action = none then some { s with n := .dial, action := some .dial, disconnected := false } else none
  | .dial => some (if ok then { s with n := .set } else { s with n := .unlock })
  | .set => some { s with n := .start, socket := true, ptr := true, connected := true }
  | .start => some { s with n := .unlock, r := .launched }
  | .unlock => some { s with n := .over, action := none }
  | .over => none

/-- The response goroutine (DataSubscriber.go L801-877, L728-730). -/
def stepResp (s : St) : Option St :=
  match s.r with
  | .none => none
  | .launched => some { s with r := .loop }
  | .loop => some { s with r := if s.connected then .read else .ended }
  | .read => some { s with r := .header !(s.closed || s.gone) }
  | .header ok => some { s with r := if s.disconnecting then .loop else if ok then .body else .dispatch }
  | .body => some { s with r := if s.disconnecting then .loop else .process }
  | .process => some { s with r := .loop, delivered := s.delivered + 1 }
  | .dispatch => some { s with r := if s.t = .idle ∨ s.t = .launched then .starting else .loop }
  | .starting => if s.t = .idle then some { s with r := .loop, t := .launched } else none
  | .ended => none

/-- Starting a disconnect thread (DataSubscriber.go L638-645). -/
def St.spawn (s : St) (user : Bool) : St :=
  { s with d := update s.d s.nd .launched, user := update s.user s.nd user, dptr := some s.nd, nd := s.nd + 1 }

/-- The termination thread (DataSubscriber.go L197, L608-649). -/
def stepTerm (s : St) : Option St :=
  match s.t with
  | .idle => none
  | .launched => some { s with t := .check }
  | .check => some { s with t := if s.disconnecting then .idle else .set }
  | .set => some { s with t := .unconnect, disconnecting := true }
  | .unconnect => some { s with t := .start, connected := false }
  | .start => some { s.spawn false with t := .idle }

/-- A disconnect thread (DataSubscriber.go L651-725). -/
def stepDis (s : St) (k : Nat) : Option St :=
  match s.d k with
  | .idle => none
  | .launched => some { s with d := update s.d k (if s.user k then .joinTerm else .close) }
  | .joinTerm => if s.t = .idle ∨ s.t = .launched then some { s with d := update s.d k .lock } else none
  | .lock => if s.action = none then some { s with d := update s.d k .close, action := some (.dis k) } else none
  | .close => some { s with d := update s.d k .test, closed := s.closed || s.socket }
  | .test => some { s with d := update s.d k (if s.ptr then .load else .callback) }
  | .load =>
    some (if s.ptr then { s with d := update s.d k (if s.r.quiet then .forget else .wait) } else { s with crashed := true })
  | .wait => if s.r = .ended then some { s with d := update s.d k .forget } else none
  | .forget => some { s with d := update s.d k .callback, ptr := false }
  | .callback => some { s with d := update s.d k .mark, called := s.called ++ [k] }
  | .mark => some { s with d := update s.d k .clear, disconnected := true }
  | .clear => some { s with d := update s.d k (if s.user k then .unlock else .ended), disconnecting := false }
  | .unlock => some { s with d := update s.d k .ended, action := none }
  | .ended => none

/-- `Close` (DataSubscriber.go L206-214, L608-649). -/
def stepClose (s : St) : Option St :=
  match s.c with
  | .idle => some { s with c := .check, disposing := true }
  | .check => some { s with c := if s.disconnecting then .copy else .set }
  | .copy => some { s with c := .busy s.dptr }
  | .busy k => if s.disconnected || s.joined k then some { s with c := .returned } else none
  | .set => some { s with c := .unconnect, disconnecting := true }
  | .unconnect => some { s with c := .start, connected := false }
  | .start => some { s.spawn true with c := .join s.nd }
  | .join k => some { s with c := if (s.d k).quiet then .returned else .wait k }
  | .wait k => if s.d k = .ended then some { s with c := .returned } else none
  | .returned => none

/-- One action, `none` when it is not possible; none is after a crash. (DataSubscriber.go L206-214, L326-420, L608-725, L801-877) -/
def step (s : St) (a : Act) : Option St :=
  if s.crashed then none
  else match a with
    | .dial ok => stepDial s ok
    | .resp => stepResp s
    | .term => stepTerm s
    | .dis k => stepDis s k
    | .close => stepClose s
    | .leave => some { s with gone := true }

/-- A schedule. (DataSubscriber.go L206-214, L326-420, L608-725, L801-877) -/
def exec (s : St) : List Act → Option St
  | [] => some s
  | a :: as => (step s a).bind (fun t => exec t as)

end Verif.Sync.Close
