import Mathlib.Logic.Function.Basic

/-!
# The sockets of the data channel

What `Subscribe`, `Unsubscribe` and `Disconnect` of a `DataSubscriber` do with the UDP socket and the goroutine that reads it (DataSubscriber.go L458-606,
L651-725, L879-897). One step is one of these calls up to its `Join`, the end of a `Join`, an answer of the publisher, or an action of a goroutine
that reads a socket. Sockets and goroutines are numbered in the order in which they are opened and started.

One such call is running at a time, and answers arrive while connected. Left out are the command channel, the commands sent, the callbacks, and the time a call takes before its `Join`.
-/

namespace Verif.Sync.DataSocket

open Function (update)

/-- `dataChannelSocket` (DataSubscriber.go L66), an interface. -/
inductive Chan where
  | none
  /-- what is left after `ListenUDP` has failed (L518): an interface that is not nil but holds a nil pointer -/
  | failed
  | sock (i : Nat)
  deriving DecidableEq

/-- A goroutine of `runDataChannelResponseThread` (DataSubscriber.go L879-897). -/
inductive RPc where
  | none
  /-- started, not running yet: `Join` does not wait for it (Thread.go L75-77) -/
  | launched
  /-- in `Read` of socket `i` (L884) -/
  | reading (i : Nat)
  | ended
  deriving DecidableEq

/-- The call that is running; it is at its `Join` (DataSubscriber.go L589-591, L689-692). -/
inductive Call where
  | idle
  | unsubscribe
  /-- the `Unsubscribe` within `Subscribe` (L468-470), with the data channel wanted and whether its port is free as far as other programs go -/
  | subscribe (port : Option (BitVec 16)) (free : Bool)
  | disconnect
  deriving DecidableEq

/-- The flags, the sockets and their goroutines. (DataSubscriber.go L52-92) -/
structure St where
  connected : Bool
  validated : Bool
  subscribed : Bool
  call : Call
  /-- sockets opened so far -/
  sockets : Nat
  port : Nat → BitVec 16
  isOpen : Nat → Bool
  current : Chan
  /-- goroutines started so far -/
  threads : Nat
  /-- `dataChannelResponseThread` -/
  thread : Option Nat
  r : Nat → RPc
  /-- error messages about closing the data channel (L584-586, L672-676) -/
  reports : Nat
  /-- the sockets datagrams have been processed of, in order -/
  got : List Nat
  /-- the program has ended -/
  crashed : Bool

/-- `NewDataSubscriber` (DataSubscriber.go L172-202): validated from the start. -/
def init : St := ⟨false, true, false, .idle, 0, fun _ => 0, fun _ => false, .none, 0, none, fun _ => .none, 0, [], false⟩

/-- What can happen. (DataSubscriber.go L321-606, L879-897) -/
inductive Act where
  /-- `setupConnection` and `establishConnection` (L370-420) -/
  | establish
  /-- the publisher is found to be one (L841-843, L911) -/
  | validate
  /-- the publisher confirms `Subscribe` (`true`) or `Unsubscribe` (L951-956) -/
  | answer (sub : Bool)
  /-- `Subscribe` (L458-571), for a data channel at a port or for none; `free`: no other program has the port -/
  | subscribe (port : Option (BitVec 16)) (free : Bool)
  /-- `Unsubscribe` (L574-595) -/
  | unsubscribe
  /-- `Disconnect`, or the end of a lost connection (L597-725) -/
  | disconnect
  /-- `Join` returns and the call goes on to its end -/
  | proceed
  /-- goroutine `t` starts to run (L880-883, Thread.go L93) -/
  | begins (t : Nat)
  /-- `Read` of goroutine `t` gives a datagram (L884-896) -/
  | datagram (t : Nat)
  /-- `Read` of goroutine `t` fails, the socket being closed (L886-889) -/
  | fails (t : Nat)
  deriving DecidableEq

/-- `dataChannelSocket.Close` if there is one (DataSubscriber.go L583-587, L672-676). Closing a socket again is an error; whether `Close` of the nil
pointer left by a failed `ListenUDP` is one or ends the program is up to Go (`nilPanics`). -/
def close (nilPanics : Bool) (s : St) : St :=
  match s.current with
  | .none => s
  | .failed => if nilPanics then { s with crashed := true } else { s with reports := s.reports + 1 }
  | .sock i => if s.isOpen i then { s with isOpen := update s.isOpen i false } else { s with reports := s.reports + 1 }

/-- The port can be had: no other program has it, and no socket of ours (DataSubscriber.go L518). Port 0 stands for any port. -/
def available (s : St) (port : BitVec 16) (free : Bool) : Bool :=
  free && (port == 0 || (List.range s.sockets).all fun i => !s.isOpen i || s.port i != port)

/-- The part of `Subscribe` that opens the data channel (DataSubscriber.go L510-531). -/
def openChannel (s : St) (port : Option (BitVec 16)) (free : Bool) : St :=
  match port with
  | none => s
  | some p =>
    if available s p free then
      { s with
        sockets := s.sockets + 1, port := update s.port s.sockets p, isOpen := update s.isOpen s.sockets true, current := .sock s.sockets
        threads := s.threads + 1, thread := some s.threads, r := update s.r s.threads .launched }
    else { s with current := .failed }

/-- `Thread.Join` of `dataChannelResponseThread` waits (Thread.go L75-83): it is there and running. -/
def St.waits (s : St) : Bool :=
  match s.thread with
  | none => false
  | some t => match s.r t with
    | .reading _ => true
    | _ => false

/-- `Subscribe` up to its end or the `Join` of the `Unsubscribe` in it (DataSubscriber.go L458-571). -/
def subscribe (v2 nilPanics : Bool) (s : St) (port : Option (BitVec 16)) (free : Bool) : St :=
  if !s.connected then s
  else if v2 && !s.validated then s
  else if s.subscribed && s.validated then { close nilPanics s with call := .subscribe port free }
  else openChannel s port free

/-- One action, `none` when it is not enabled (DataSubscriber.go L321-606, L879-897); `v2`: the protocol version is 2 or later. -/
def step (v2 nilPanics : Bool) (s : St) (a : Act) : Option St :=
  if s.crashed then none else
  match a with
  | .establish => if s.call = .idle ∧ s.connected = false then some { s with connected := true, subscribed := false } else none
  | .validate => if s.connected then some { s with validated := true } else none
  | .answer sub => if s.connected ∧ s.validated then some { s with subscribed := sub } else none
  | .subscribe port free => if s.call = .idle then some (subscribe v2 nilPanics s port free) else none
  | .unsubscribe =>
    if s.call = .idle then
      some (if !s.connected || !s.validated then s else { close nilPanics s with call := .unsubscribe })
    else none
  | .disconnect =>
    if s.call = .idle then
      some { close nilPanics { s with connected := false, validated := false, subscribed := false } with call := .disconnect }
    else none
  | .proceed =>
    if s.waits then none else
    match s.call with
    | .idle => none
    | .unsubscribe => some { s with call := .idle }
    | .subscribe port free => some (openChannel { s with call := .idle } port free)
    | .disconnect => some { s with call := .idle, thread := none }
  | .begins t =>
    if s.r t = .launched then
      some (if s.connected then
          match s.current with
          | .sock i => { s with r := update s.r t (.reading i) }
          | .failed => if nilPanics then { s with crashed := true } else { s with r := update s.r t .ended }
          | .none => { s with r := update s.r t .ended }
        else { s with r := update s.r t .ended })
    else none
  | .datagram t =>
    match s.r t with
    | .reading i =>
      if s.isOpen i then
        some { s with got := s.got ++ [i], r := update s.r t (if s.connected then .reading i else .ended) }
      else none
    | _ => none
  | .fails t =>
    match s.r t with
    | .reading i => if s.isOpen i then none else some { s with r := update s.r t .ended }
    | _ => none

/-- A schedule. (DataSubscriber.go L321-606, L879-897) -/
def exec (v2 nilPanics : Bool) (s : St) : List Act → Option St
  | [] => some s
  | a :: as => (step v2 nilPanics s a).bind (fun t => exec v2 nilPanics t as)

end Verif.Sync.DataSocket
