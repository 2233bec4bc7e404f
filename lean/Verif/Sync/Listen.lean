import Mathlib.Logic.Function.Basic

/-!
# Listening for publishers

The goroutines of a subscriber that listens: the accept thread (DataSubscriber.go L752-798) with `setupConnection` and `establishConnection` (L370-420),
the response goroutine of each connection (L801-877), the connection termination thread (L197, L728-730) and the disconnect threads (L590-725). One step
is one action on a flag, a socket, a pointer to a thread, `connectActionMutex`, or one end of a wait. Connections are numbered in the order in which
they are accepted, and so are their response goroutines.

Left out: the callback lock (see `Verif.Sync.Reconnect`) and what callbacks do, `Subscribe` and `Unsubscribe`, the data channel, validation, writes, errors
of `Accept` other than those of a closed socket. The listener has started (`Listen`, L423-456); nothing has connected before, so there is no
`AutoReconnectCallback`. `connector.Cancel` is taken to return (see `Verif.Connector.Cancel`). A start of the termination
thread while one is due counts once, and that thread runs in one action, so that joining it (L655) never waits.
-/

namespace Verif.Sync.Listen

open Function (update)

/-- The accept thread (DataSubscriber.go L752-798). -/
inductive APc where
  /-- the test of L753 -/
  | loop
  /-- in `Accept` (L754) -/
  | accept
  /-- connection `k` has been accepted; the test of L766 -/
  | test (k : Nat)
  /-- at `connectActionMutex.Lock` (L788) -/
  | lock (k : Nat)
  /-- `setupConnection` and the assignments of L403-404 -/
  | assign (k : Nat)
  /-- L406 -/
  | set (k : Nat)
  /-- L409 -/
  | start (k : Nat)
  /-- L796 -/
  | unlock
  | ended
  deriving DecidableEq

/-- The response goroutine of a connection (DataSubscriber.go L801-877). -/
inductive RPc where
  | none
  /-- started, not running yet: `Join` does not wait for it (Thread.go L75-77) -/
  | launched
  /-- the test of L804 -/
  | loop
  /-- in `ReadFull` (L805) -/
  | read
  /-- a packet of connection `c` has been read (`some c`) or reading failed; the test of L810 -/
  | header (c : Option Nat)
  /-- at `dispatchConnectionTerminated` (L816) -/
  | dispatch
  | ended
  deriving DecidableEq

/-- A disconnect thread (DataSubscriber.go L651-725). -/
inductive DPc where
  | idle
  /-- at `connectActionMutex.Lock` (L656) -/
  | lock
  /-- closing the listening socket (L660-664) -/
  | closeL
  /-- closing the command channel (L666-670) -/
  | closeC
  /-- joining the accept thread (L679-682) -/
  | joinA
  /-- joining the response goroutine (L684-687) -/
  | joinR
  /-- `ConnectionTerminatedCallback` (L695-701) -/
  | callback
  /-- L704-705, L720 -/
  | clear
  | ended
  deriving DecidableEq

/-- Who has `connectActionMutex`. (DataSubscriber.go L656, L788) -/
inductive Who where
  | acceptor
  | dis (i : Nat)
  deriving DecidableEq

/-- The flags, the sockets and the goroutines. (DataSubscriber.go L50-92) -/
structure St where
  connected : Bool
  disconnecting : Bool
  listening : Bool
  /-- `connectActionMutex` -/
  action : Option Who
  /-- the listening socket is open -/
  listenOpen : Bool
  acc : APc
  /-- connections accepted so far -/
  next : Nat
  /-- the subscriber has closed a connection -/
  closed : Nat → Bool
  /-- the publisher has left -/
  gone : Nat → Bool
  /-- `commandChannelSocket` -/
  socket : Option Nat
  /-- the connection `ds.reader` reads from -/
  stream : Option Nat
  /-- `commandChannelResponseThread` -/
  thread : Option Nat
  r : Nat → RPc
  /-- the termination thread has been started -/
  term : Bool
  d : Nat → DPc
  /-- disconnect thread `i` was started by `Disconnect` and not by the termination thread -/
  user : Nat → Bool
  /-- disconnect threads so far -/
  nd : Nat
  /-- the connections that were served, in order -/
  served : List Nat
  /-- the connections that were refused, in order -/
  refused : List Nat
  /-- the connections packets have been processed of, in order -/
  got : List Nat

/-- `Listen` has returned (DataSubscriber.go L423-456). -/
def init : St := ⟨false, false, true, none, true, .loop, 0, fun _ => false, fun _ => false, none, none, none, fun _ => .none, false, fun _ => .idle,
  fun _ => false, 0, [], [], []⟩

/-- The actions. (DataSubscriber.go L590-725, L752-877) -/
inductive Act where
  /-- the next action of the accept thread; in `Accept`, a publisher connects or the socket is closed -/
  | acc
  /-- the publisher of connection `k` leaves -/
  | leave (k : Nat)
  /-- the next action of response goroutine `k`; when it reads and can do so, a packet has arrived -/
  | resp (k : Nat)
  /-- the termination thread runs -/
  | term
  /-- the next action of disconnect thread `i` -/
  | dis (i : Nat)
  /-- a user calls `Disconnect` -/
  | user
  deriving DecidableEq

/-- The accept thread (DataSubscriber.go L752-798, L370-420). -/
def stepAcc (s : St) : Option St :=
  match s.acc with
  | .loop => some { s with acc := if s.listening then .accept else .ended }
  | .accept => some (if s.listenOpen then { s with acc := .test s.next, next := s.next + 1 } else { s with acc := .loop })
  | .test k =>
    some (if s.connected then { s with acc := .loop, closed := update s.closed k true, refused := s.refused ++ [k] } else { s with acc := .lock k })
  | .lock k => if s.action = none then some { s with acc := .assign k, action := some .acceptor } else none
  | .assign k => some { s with acc := .set k, socket := some k, thread := some k, served := s.served ++ [k] }
  | .set k => some { s with acc := .start k, connected := true }
  | .start k => some { s with acc := .unlock, r := update s.r k .launched }
  | .unlock => some { s with acc := .loop, action := none }
  | .ended => none

/-- Reading from `ds.reader`: an error when the connection is closed by either side (DataSubscriber.go L805, L858). -/
def St.readable (s : St) : Option Nat :=
  match s.stream with
  | none => none
  | some c => if s.closed c || s.gone c then none else some c

/-- A response goroutine (DataSubscriber.go L801-877). -/
def stepR (s : St) (k : Nat) : Option St :=
  match s.r k with
  | .none => none
  | .launched => some { s with stream := s.socket, r := update s.r k .loop }
  | .loop => some { s with r := update s.r k (if s.connected then .read else .ended) }
  | .read => some { s with r := update s.r k (.header s.readable) }
  | .header (some c) =>
    some (if s.disconnecting then { s with r := update s.r k .loop } else { s with r := update s.r k .loop, got := s.got ++ [c] })
  | .header none => some { s with r := update s.r k (if s.disconnecting then .loop else .dispatch) }
  | .dispatch => some { s with term := true, r := update s.r k .loop }
  | .ended => none

/-- `disconnect(false, true, false)` (DataSubscriber.go L608-649): nothing while a disconnect is under way. -/
def stepTerm (s : St) : Option St :=
  if s.term = false then none
  else if s.disconnecting then some { s with term := false }
  else some { s with term := false, disconnecting := true, connected := false, d := update s.d s.nd .closeC, nd := s.nd + 1 }

/-- `Disconnect` (DataSubscriber.go L594-649): nothing while a disconnect is under way. -/
def stepUser (s : St) : Option St :=
  if s.disconnecting then some s
  else some { s with disconnecting := true, connected := false, listening := false, d := update s.d s.nd .lock, user := update s.user s.nd true,
                     nd := s.nd + 1 }

/-- `Join` of the accept thread returns (Thread.go L74-83). -/
def APc.quiet : APc → Bool
  | .ended => true
  | _ => false

/-- `Join` of a response goroutine returns (Thread.go L74-83). -/
def RPc.quiet : RPc → Bool
  | .none | .launched | .ended => true
  | _ => false

/-- `Join` of the response goroutine, if there is one. (DataSubscriber.go L684-687) -/
def St.joined (s : St) : Bool :=
  match s.thread with
  | none => true
  | some k => (s.r k).quiet

/-- Close of the command channel, if there is one. (DataSubscriber.go L666-670) -/
def St.hangUp (s : St) : Nat → Bool :=
  match s.socket with
  | none => s.closed
  | some c => update s.closed c true

/-- A disconnect thread (DataSubscriber.go L651-725). -/
def stepD (s : St) (i : Nat) : Option St :=
  match s.d i with
  | .idle => none
  | .lock => if s.action = none then some { s with d := update s.d i .closeL, action := some (.dis i) } else none
  | .closeL => some { s with d := update s.d i .closeC, listenOpen := false }
  | .closeC => some { s with d := update s.d i (if s.user i then .joinA else .joinR), closed := s.hangUp }
  | .joinA => if s.acc.quiet then some { s with d := update s.d i .joinR } else none
  | .joinR => if s.joined then some { s with d := update s.d i .callback, thread := none } else none
  | .callback => some { s with d := update s.d i .clear }
  | .clear => some { s with d := update s.d i .ended, disconnecting := false, action := if s.user i then none else s.action }
  | .ended => none

/-- One action, `none` when it is not possible. (DataSubscriber.go L590-725, L752-877) -/
def step (s : St) : Act → Option St
  | .acc => stepAcc s
  | .leave k => if k < s.next then some { s with gone := update s.gone k true } else none
  | .resp k => stepR s k
  | .term => stepTerm s
  | .dis i => stepD s i
  | .user => stepUser s

/-- A schedule. (DataSubscriber.go L590-725, L752-877) -/
def exec (s : St) : List Act → Option St
  | [] => some s
  | a :: as => (step s a).bind (fun t => exec t as)

end Verif.Sync.Listen
