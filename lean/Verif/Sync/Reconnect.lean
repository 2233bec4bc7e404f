import Mathlib.Logic.Function.Basic

/-!
# Losing a connection and reconnecting

The goroutines that end a lost connection and make the next one, and how they wait for each other: `dispatchConnectionTerminated` and the connection
termination thread (DataSubscriber.go L197, L731-733), the disconnect threads (L608-725), `autoReconnect` and its reconnect threads
(SubscriberConnector.go L79-131), `connect` (L198-243, DataSubscriber.go L326-368), commands that fail to be sent (DataSubscriber.go L1501-1533) and
the callback lock (L217-234, a `sync.RWMutex`). One step is one action on a flag, a pointer to a thread, the lock, or one end of a wait.

Left out: users' own `Connect` and `Disconnect` calls apart from a `Connect` within `ConnectionTerminatedCallback`; `Cancel` and `Dispose` (see
`Verif.Connector.Cancel`); `connectActionMutex`, which reconnect threads contend for only with each other; the listening socket. Callbacks take no
lock and return, other than as given here. `AutoReconnect` is on.
-/

namespace Verif.Sync.Reconnect

open Function (update)

/-- A disconnect thread started by the termination thread (`runDisconnectThread(true, false)`, DataSubscriber.go L651-725). -/
inductive DPc where
  | idle
  /-- closing sockets, joining the readers (L660-692) -/
  | begun
  /-- at `BeginCallbackSync` of L695 -/
  | askT
  /-- in `ConnectionTerminatedCallback` (L697-699), holding the read side -/
  | inT
  /-- in `ConnectionTerminatedCallback`, which has called `Connect`, which joins disconnect thread `k` (L337-343) -/
  | inConnect (k : Nat)
  /-- L704-705 -/
  | clear
  /-- at `BeginCallbackSync` of L711 -/
  | askA
  /-- in `autoReconnect`, reading the pointer to the reconnect thread (SubscriberConnector.go L87-89), holding the read side -/
  | copy
  /-- joining that thread, if there is one (L91-93) -/
  | join (k : Option Nat)
  /-- storing and starting a new reconnect thread (L126-130) -/
  | launch
  /-- at `EndCallbackSync` (DataSubscriber.go L717) -/
  | leave
  | ended
  deriving DecidableEq

/-- A reconnect thread (SubscriberConnector.go L95-124). -/
inductive RPc where
  | idle
  /-- started, not running yet: `Join` does not wait for it (Thread.go L75-77) -/
  | launched
  /-- the limit test and `waitForRetry` (L97-110) -/
  | wait
  /-- at `BeginCallbackAssignment` (L200) -/
  | lock
  /-- at `EndCallbackAssignment` (L202) -/
  | unlock
  /-- in `DataSubscriber.connect`, reading the pointer to the disconnect thread (DataSubscriber.go L336-338) -/
  | loop
  /-- joining that thread, if there is one (L340-342) -/
  | join (k : Option Nat)
  /-- `net.Dial` (L361) -/
  | dial
  /-- at `BeginCallbackSync` of `establishConnection` (L413) -/
  | askE
  /-- in `ConnectionEstablishedCallback` (L415-417) -/
  | inE
  | ended
  deriving DecidableEq

/-- Who wants the write side: a reconnect thread or a user assigning a callback. (DataSubscriber.go L217-222) -/
inductive Who where
  | recon (i : Nat)
  | user
  deriving DecidableEq

/-- The write side of the callback lock. (DataSubscriber.go L217-222) -/
inductive Writer where
  | none
  /-- inside `Lock`, readers are kept out -/
  | announced (w : Who)
  | holding (w : Who)
  deriving DecidableEq

/-- The flags (DataSubscriber.go L86-92), the callback lock, the threads in the order of their start, and what is under way. -/
structure St where
  connected : Bool
  disconnecting : Bool
  writer : Writer
  d : Nat → DPc
  /-- disconnect threads so far; the pointer is to the last one -/
  nd : Nat
  r : Nat → RPc
  /-- reconnect threads so far; the pointer is to the last one -/
  nr : Nat
  /-- sends and reads that have found the connection up and have not returned -/
  pending : Nat
  /-- the termination thread has been started -/
  term : Bool

/-- A user has connected: the response goroutine reads. (DataSubscriber.go L326-368) -/
def init : St := ⟨true, false, .none, fun _ => .idle, 0, fun _ => .idle, 0, 0, false⟩

/-- The last one of `n` threads. (DataSubscriber.go L642-645, SubscriberConnector.go L126-128) -/
def last : Nat → Option Nat
  | 0 => none
  | n + 1 => some n

/-- `Join` of a disconnect thread returns (Thread.go L74-83). -/
def DPc.quiet : DPc → Bool
  | .idle | .ended => true
  | _ => false

/-- `Join` of a reconnect thread returns (Thread.go L74-83). -/
def RPc.quiet : RPc → Bool
  | .idle | .launched | .ended => true
  | _ => false

/-- `Join` if there is a thread. (SubscriberConnector.go L91-93, DataSubscriber.go L340-342) -/
def joined {α : Type} (quiet : α → Bool) (t : Nat → α) : Option Nat → Bool
  | none => true
  | some k => quiet (t k)

/-- What the code does not decide: whether the callback calls `Connect`, the retry limit is reached, the dial fails.
(DataSubscriber.go L361, L697-699, SubscriberConnector.go L101-104) -/
inductive Choice where
  | no
  | yes
  deriving DecidableEq

/-- The actions. (DataSubscriber.go L608-733, L801-840, L1501-1533, SubscriberConnector.go L79-131) -/
inductive Act where
  /-- a send or a read finds the connection up (DataSubscriber.go L804, L1502) -/
  | try_
  /-- such a send or read returns without an error -/
  | fine
  /-- such a send or read fails: `dispatchConnectionTerminated` (L813, L1531) -/
  | fail
  /-- the termination thread runs -/
  | term
  /-- the next action of disconnect thread `i` -/
  | dis (i : Nat) (c : Choice)
  /-- the next action of reconnect thread `i` -/
  | con (i : Nat) (c : Choice)
  /-- the next action of a user assigning a callback -/
  | assign
  deriving DecidableEq

/-- Between `BeginCallbackSync` and `EndCallbackSync` (DataSubscriber.go L695-701, L711-717). -/
def DPc.holds : DPc → Bool
  | .inT | .inConnect _ | .copy | .join _ | .launch | .leave => true
  | _ => false

/-- Between `BeginCallbackSync` and `EndCallbackSync` (DataSubscriber.go L413-419). -/
def RPc.holds : RPc → Bool
  | .inE => true
  | _ => false

/-- No goroutine has the read side (DataSubscriber.go L228-234). -/
def St.free (s : St) : Bool :=
  (List.range s.nd).all (fun i => !(s.d i).holds) && (List.range s.nr).all (fun i => !(s.r i).holds)

/-- The read side can be had: there is no writer (`RLock`, DataSubscriber.go L228-230). `t` is the state afterwards. -/
def St.rlock (s t : St) : Option St := if s.writer = .none then some t else none

/-- One disconnect thread goes on to `p`. (DataSubscriber.go L651-725) -/
def St.setD (s : St) (i : Nat) (p : DPc) : St := { s with d := update s.d i p }

/-- One reconnect thread goes on to `p`. (SubscriberConnector.go L95-124) -/
def St.setR (s : St) (i : Nat) (p : RPc) : St := { s with r := update s.r i p }

/-- `disconnect(false, true, false)` (DataSubscriber.go L608-649): nothing while a disconnect is under way. -/
def stepTerm (s : St) : Option St :=
  if s.term = false then none
  else if s.disconnecting then some { s with term := false }
  else some ({ s with term := false, disconnecting := true, connected := false, nd := s.nd + 1 }.setD s.nd .begun)

/-- A disconnect thread (DataSubscriber.go L651-725). -/
def stepD (s : St) (i : Nat) (c : Choice) : Option St :=
  match s.d i with
  | .idle => none
  | .begun => some (s.setD i .askT)
  | .askT => s.rlock (s.setD i .inT)
  | .inT =>
    some (match c with
      | .no => s.setD i .clear
      | .yes => match last s.nd with
        | some k => s.setD i (.inConnect k)
        | none => s)
  | .inConnect k => if (s.d k).quiet then some (s.setD i .inT) else none
  | .clear => some ({ s with disconnecting := false }.setD i .askA)
  | .askA => s.rlock (s.setD i .copy)
  | .copy => some (s.setD i (.join (last s.nr)))
  | .join k => if joined RPc.quiet s.r k then some (s.setD i .launch) else none
  | .launch => some (({ s with nr := s.nr + 1 }.setR s.nr .launched).setD i .leave)
  | .leave => some (s.setD i .ended)
  | .ended => none

/-- The write side (DataSubscriber.go L217-219); `t` is the state with the lock held. -/
def St.wlock (s : St) (w : Who) (t : St) : Option St :=
  match s.writer with
  | .none => some { s with writer := .announced w }
  | .announced v => if v = w ∧ s.free = true then some { t with writer := .holding w } else none
  | .holding _ => none

/-- A reconnect thread (SubscriberConnector.go L95-124, L198-243, DataSubscriber.go L326-368). -/
def stepR (s : St) (i : Nat) (c : Choice) : Option St :=
  match s.r i with
  | .idle => none
  | .launched => some (s.setR i .wait)
  | .wait => some (s.setR i (match c with | .no => .lock | .yes => .ended))
  | .lock => s.wlock (.recon i) (s.setR i .unlock)
  | .unlock => if s.writer = .holding (.recon i) then some ({ s with writer := .none }.setR i .loop) else none
  | .loop => some (s.setR i (.join (last s.nd)))
  | .join k => if joined DPc.quiet s.d k then some (s.setR i .dial) else none
  | .dial =>
    some (match c with
      | .no => { s with connected := true }.setR i .askE
      | .yes => s.setR i .loop)
  | .askE => s.rlock (s.setR i .inE)
  | .inE => some (s.setR i .ended)
  | .ended => none

/-- A user's `BeginCallbackAssignment` and `EndCallbackAssignment` (DataSubscriber.go L217-224). -/
def stepAssign (s : St) : Option St :=
  if s.writer = .holding .user then some { s with writer := .none } else s.wlock .user s

/-- One action, `none` when it is not possible. (DataSubscriber.go L608-733, L1501-1533, SubscriberConnector.go L79-131) -/
def step (s : St) : Act → Option St
  | .try_ => if s.connected then some { s with pending := s.pending + 1 } else none
  | .fine => if 0 < s.pending then some { s with pending := s.pending - 1 } else none
  | .fail => if 0 < s.pending then some { s with pending := s.pending - 1, term := true } else none
  | .term => stepTerm s
  | .dis i c => stepD s i c
  | .con i c => stepR s i c
  | .assign => stepAssign s

/-- A schedule. (DataSubscriber.go L608-733, L1501-1533, SubscriberConnector.go L79-131) -/
def exec (s : St) : List Act → Option St
  | [] => some s
  | a :: as => (step s a).bind (fun t => exec t as)

end Verif.Sync.Reconnect
