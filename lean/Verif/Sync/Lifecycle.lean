import Mathlib.Logic.Function.Basic
import Mathlib.Data.List.Nodup
import Mathlib.Data.List.Perm.Subperm

/-!
# Connection life cycle under concurrent disconnects

`DataSubscriber`'s connect, response goroutine, connection termination goroutine and disconnect sequence
(DataSubscriber.go L326-424, L584-725, L801-877 and L946-979) as a transition system. One step is one atomic action on the
shared flags, a lock, a thread start or join, or a callback. Left out: `Listen`, `Subscribe`/`Unsubscribe` calls (the latter
also toggles the `disconnecting` flag), and the data channel. A new connection is only made when the response goroutine of
the last one has ended. `connector.Cancel` is taken to return (see `Verif.Connector.Cancel`). The mutex and the flag of the
termination thread are released together.
-/

namespace Verif.Sync.Lifecycle

open Function (update)

/-- The response goroutine of the latest connection (L801-877). -/
inductive RPc where
  | none
  /-- started (L406), not running yet -/
  | launched
  /-- the test of the loop (L804) -/
  | loop
  /-- the header has been read or could not be; the test of L810 -/
  | header
  /-- a successful answer to Subscribe (`true`) or Unsubscribe has been read; the test of L862 -/
  | body (b : Bool)
  /-- before `handleSucceeded` sets the flag (L952-956) -/
  | apply (b : Bool)
  /-- in `dispatchConnectionTerminated` (L728), before the test of `TryStart` -/
  | dispatch
  /-- in `Start`, waiting for the mutex of the termination thread -/
  | starting
  | ended
  deriving DecidableEq

/-- The connection termination thread (L197: `disconnect(false, true, false)`). -/
inductive TPc where
  | idle
  /-- started, holding its mutex, not running yet -/
  | launched
  /-- running disconnect call `id` -/
  | calling (id : Nat)
  deriving DecidableEq

/-- A `disconnect` call (L608-649) and the disconnect thread it starts (L651-722). -/
inductive CPc where
  | idle
  /-- the test of L610 -/
  | check
  /-- L628 to L637 -/
  | set
  | unconnect
  | unvalidate
  | unsubscribe
  /-- starting the thread (L640-645) -/
  | start
  /-- the thread, L653-657 -/
  | lock
  /-- closing the sockets (L660-676) -/
  | close
  /-- joining the response goroutine (L684-687) -/
  | join
  /-- `ConnectionTerminatedCallback` (L695-701) -/
  | callback
  /-- L704-705 -/
  | mark
  | clear
  | finished
  /-- the call found a disconnect going on and returned -/
  | refused
  deriving DecidableEq

/-- The flags and the goroutines. (DataSubscriber.go L608-726) -/
structure St where
  connected : Bool
  validated : Bool
  subscribed : Bool
  disconnecting : Bool
  disconnected : Bool
  /-- `connectActionMutex` -/
  action : Bool
  resp : RPc
  term : TPc
  call : Nat → CPc
  /-- the call comes from the termination thread (`autoReconnecting`) -/
  auto : Nat → Bool
  /-- number of calls so far: the next call's number -/
  next : Nat
  /-- number of connections established so far -/
  established : Nat
  /-- the calls whose thread has invoked `ConnectionTerminatedCallback`, in order -/
  terminated : List Nat

/-- A new subscriber (`NewDataSubscriber`, L167-205). -/
def init : St := ⟨false, true, false, false, false, false, .none, .idle, fun _ => .idle, fun _ => false, 0, 0, []⟩

/-- What the response goroutine reads. (DataSubscriber.go L608-726) -/
inductive Input where
  | error
  /-- success of Subscribe (`true`) or of Unsubscribe -/
  | answer (b : Bool)
  | other
  deriving DecidableEq

/-- DataSubscriber.go L608-726 -/
inductive Act where
  /-- `connect` (L326) up to `net.Dial` -/
  | connectBegin
  /-- the dial succeeds: `establishConnection` -/
  | connectOk
  /-- the dial fails -/
  | connectFail
  /-- the next action of the response goroutine -/
  | resp (i : Input)
  /-- the next action of the termination thread -/
  | term
  /-- a user calls `Disconnect` or `Dispose` -/
  | user
  /-- the next action of disconnect call `id` -/
  | call (id : Nat)
  deriving DecidableEq

/-- The response goroutine (L801-877, L728). -/
def stepResp (s : St) (i : Input) : Option St :=
  match s.resp with
  | .none => none
  | .launched => some { s with resp := .loop }
  | .loop => some { s with resp := if s.connected then .header else .ended }
  | .header =>
    some { s with resp := if s.disconnecting then .loop else
                    match i with
                    | .error => .dispatch
                    | .answer b => .body b
                    | .other => .loop }
  | .body b => some { s with resp := if s.disconnecting then .loop else .apply b }
  | .apply b => some { s with resp := .loop, subscribed := b }
  | .dispatch => some { s with resp := match s.term with | .calling _ => .loop | _ => .starting }
  | .starting => if s.term = .idle then some { s with resp := .loop, term := .launched } else none
  | .ended => none

/-- The part of a disconnect call run by the caller itself is over. (DataSubscriber.go L608-726) -/
def CPc.returned : CPc → Bool
  | .idle | .check | .set | .unconnect | .unvalidate | .unsubscribe | .start => false
  | _ => true

/-- The termination thread (Thread.go L89-95 around L197). -/
def stepTerm (s : St) : Option St :=
  match s.term with
  | .idle => none
  | .launched =>
    some { s with term := .calling s.next, call := update s.call s.next .check, auto := update s.auto s.next true,
                  next := s.next + 1 }
  | .calling id => if (s.call id).returned then some { s with term := .idle } else none

/-- The response goroutine is not running: `Join` returns at once. (DataSubscriber.go L608-726) -/
def RPc.quiet : RPc → Bool
  | .none | .launched | .ended => true
  | _ => false

/-- A disconnect call and its thread (L608-722). -/
def stepCall (s : St) (id : Nat) : Option St :=
  match s.call id with
  | .idle => none
  | .check => some { s with call := update s.call id (if s.disconnecting then .refused else .set) }
  | .set => some { s with disconnecting := true, call := update s.call id .unconnect }
  | .unconnect => some { s with connected := false, call := update s.call id .unvalidate }
  | .unvalidate => some { s with validated := false, call := update s.call id .unsubscribe }
  | .unsubscribe => some { s with subscribed := false, call := update s.call id .start }
  | .start => some { s with call := update s.call id .lock }
  | .lock =>
    if s.auto id then some { s with call := update s.call id .close }
    else match s.term with
      | .calling _ => none
      | _ => if s.action then none else some { s with action := true, call := update s.call id .close }
  | .close => some { s with call := update s.call id .join }
  | .join => if s.resp.quiet then some { s with call := update s.call id .callback } else none
  | .callback => some { s with terminated := s.terminated ++ [id], call := update s.call id .mark }
  | .mark => some { s with disconnected := true, call := update s.call id .clear }
  | .clear =>
    some { s with disconnecting := false, action := if s.auto id then s.action else false,
                  call := update s.call id .finished }
  | .finished => none
  | .refused => none

/-- One action, `none` when not possible. (DataSubscriber.go L608-726) -/
def step (s : St) : Act → Option St
  | .connectBegin =>
    if s.connected = false ∧ s.action = false then
      some { s with action := true, disconnected := false, subscribed := false }
    else none
  | .connectOk =>
    if s.action = true ∧ s.disconnected = false ∧ (s.resp = .none ∨ s.resp = .ended) then
      some { s with action := false, connected := true, established := s.established + 1, resp := .launched }
    else none
  | .connectFail =>
    if s.action = true ∧ s.disconnected = false then some { s with action := false } else none
  | .resp i => stepResp s i
  | .term => stepTerm s
  | .user => some { s with call := update s.call s.next .check, auto := update s.auto s.next false, next := s.next + 1 }
  | .call id => stepCall s id

/-- A schedule. (DataSubscriber.go L608-726) -/
def exec (s : St) : List Act → Option St
  | [] => some s
  | a :: as => (step s a).bind (fun t => exec t as)

theorem exec_append (s : St) (as bs : List Act) : exec s (as ++ bs) = (exec s as).bind (fun t => exec t bs) := by
  induction as generalizing s with
  | nil => rfl
  | cons a as ih =>
    rw [List.cons_append, exec, exec, Option.bind_assoc]
    congr 1
    funext t
    exact ih t

/-! ## What does not hold -/

/-- A successful answer to a Subscribe already past the tests of the `disconnecting` flag is applied after the disconnect
has cleared the subscription flag. -/
def lateAnswer : List Act :=
  [.connectBegin, .connectOk, .resp .other, .resp .other, .resp (.answer true), .resp .other,
   .user, .call 0, .call 0, .call 0, .call 0, .call 0, .resp .other, .call 0, .resp .other,
   .call 0, .call 0, .call 0, .call 0, .call 0, .call 0]

/-- **C36, false as stated**: the subscriber can be left disconnected, the disconnect complete and the response goroutine
ended, with the subscription flag set. -/
theorem C36_subscribed_while_disconnected_false :
    ∃ s, exec init lateAnswer = some s ∧ s.call 0 = .finished ∧ s.disconnected = true ∧ s.connected = false ∧
      s.resp = .ended ∧ s.subscribed = true :=
  ⟨_, rfl, rfl, rfl, rfl, rfl, rfl⟩

/-- `Disconnect` on a subscriber that never connected. -/
def neverConnected : List Act := .user :: List.replicate 12 (.call 0)

/-- **C36, false as stated**: the connection terminated callback is invoked though no connection was ever established. -/
theorem C36_terminated_without_connection_false :
    ∃ s, exec init neverConnected = some s ∧ s.established = 0 ∧ s.terminated = [0] :=
  ⟨_, rfl, rfl, rfl⟩

/-- The connection breaks: the response goroutine fails twice before the termination thread has cleared `connected`. -/
def brokenTwice : List Act :=
  [.connectBegin, .connectOk, .resp .other, .resp .other, .resp .error, .resp .other, .resp .other,
   .resp .other, .resp .error, .resp .other] ++
  [.term] ++ List.replicate 6 (.call 0) ++ [.term, .resp .other, .resp .other] ++ List.replicate 6 (.call 0) ++
  [.term] ++ List.replicate 12 (.call 1)

/-- **C36, false as stated**: one connection, lost once and without any user call, can invoke the connection terminated
callback twice. -/
theorem C36_terminated_twice_false :
    ∃ s, exec init brokenTwice = some s ∧ s.established = 1 ∧ s.terminated = [0, 1] :=
  ⟨_, rfl, rfl, rfl⟩

/-- Calling `Disconnect` again after a disconnect invokes the callback again. -/
theorem C36_disconnect_again_false :
    ∃ s, exec init ([.connectBegin, .connectOk, .user] ++ List.replicate 12 (.call 0) ++ [.user] ++
        List.replicate 12 (.call 1)) = some s ∧ s.established = 1 ∧ s.terminated = [0, 1] :=
  ⟨_, rfl, rfl, rfl⟩

/-! ## What holds -/

/-- The call has invoked the callback. -/
def CPc.fired : CPc → Bool
  | .mark | .clear | .finished => true
  | _ => false

/-- Callbacks and calls. -/
structure Inv (s : St) : Prop where
  fired : ∀ id, id ∈ s.terminated ↔ (s.call id).fired = true
  nodup : s.terminated.Nodup
  fresh : ∀ id, s.next ≤ id → s.call id = .idle

theorem inv_init : Inv init := ⟨fun _ => by simp [init, CPc.fired], List.nodup_nil, fun _ _ => rfl⟩

theorem stepResp_call {s t : St} {i : Input} (h : stepResp s i = some t) :
    t.call = s.call ∧ t.terminated = s.terminated ∧ t.next = s.next := by
  unfold stepResp at h
  split at h <;> first | cases h <;> exact ⟨rfl, rfl, rfl⟩ | skip
  split at h <;> cases h
  exact ⟨rfl, rfl, rfl⟩

theorem Inv.move {s t : St} (hi : Inv s) {id : Nat} {p : CPc} (hc : t.call = update s.call id p)
    (ht : t.terminated = s.terminated) (hn : t.next = s.next) (hne : s.call id ≠ .idle)
    (hf : p.fired = (s.call id).fired) : Inv t := by
  refine ⟨fun j => ?_, ht ▸ hi.nodup, fun j hj => ?_⟩
  · rw [ht, hi.fired, hc]
    by_cases hj : j = id
    · subst hj; rw [Function.update_self, hf]
    · rw [Function.update_of_ne hj]
  · rw [hc]
    by_cases hji : j = id
    · subst hji; exact absurd (hi.fresh j (hn ▸ hj)) hne
    · rw [Function.update_of_ne hji]; exact hi.fresh j (hn ▸ hj)

theorem inv_stepCall {s t : St} {id : Nat} (hi : Inv s) (h : stepCall s id = some t) : Inv t := by
  unfold stepCall at h
  split at h
  · cases h
  · next hc => cases h; exact hi.move rfl rfl rfl (by rw [hc]; decide) (by rw [hc]; split <;> rfl)
  · next hc => cases h; exact hi.move rfl rfl rfl (by rw [hc]; decide) (by rw [hc]; rfl)
  · next hc => cases h; exact hi.move rfl rfl rfl (by rw [hc]; decide) (by rw [hc]; rfl)
  · next hc => cases h; exact hi.move rfl rfl rfl (by rw [hc]; decide) (by rw [hc]; rfl)
  · next hc => cases h; exact hi.move rfl rfl rfl (by rw [hc]; decide) (by rw [hc]; rfl)
  · next hc => cases h; exact hi.move rfl rfl rfl (by rw [hc]; decide) (by rw [hc]; rfl)
  · next hc =>
    split at h
    · cases h; exact hi.move rfl rfl rfl (by rw [hc]; decide) (by rw [hc]; rfl)
    · split at h
      · cases h
      · split at h
        · cases h
        · cases h; exact hi.move rfl rfl rfl (by rw [hc]; decide) (by rw [hc]; rfl)
  · next hc => cases h; exact hi.move rfl rfl rfl (by rw [hc]; decide) (by rw [hc]; rfl)
  · next hc =>
    split at h
    · cases h; exact hi.move rfl rfl rfl (by rw [hc]; decide) (by rw [hc]; rfl)
    · cases h
  · next hc =>
    cases h
    refine ⟨fun j => ?_, ?_, fun j hj => ?_⟩
    · simp only [List.mem_append, List.mem_singleton, hi.fired]
      by_cases hj : j = id
      · subst hj; simp [CPc.fired]
      · simp [Function.update_of_ne hj, hj]
    · refine List.nodup_append.2 ⟨hi.nodup, List.nodup_singleton _, fun a ha b hb => ?_⟩
      rw [List.mem_singleton] at hb
      subst hb
      intro hab
      subst hab
      have := (hi.fired a).1 ha
      rw [hc] at this
      cases this
    · have hji : j ≠ id := by
        intro e; subst e
        have := hi.fresh j hj
        rw [hc] at this
        cases this
      exact (Function.update_of_ne hji _ _).trans (hi.fresh j hj)
  · next hc => cases h; exact hi.move rfl rfl rfl (by rw [hc]; decide) (by rw [hc]; rfl)
  · next hc => cases h; exact hi.move rfl rfl rfl (by rw [hc]; decide) (by rw [hc]; rfl)
  · cases h
  · cases h

theorem Inv.fresh_call {s t : St} (hi : Inv s) (hc : t.call = update s.call s.next .check)
    (ht : t.terminated = s.terminated) (hn : t.next = s.next + 1) : Inv t := by
  refine ⟨fun j => ?_, ht ▸ hi.nodup, fun j hj => ?_⟩
  · rw [ht, hi.fired, hc]
    by_cases hj : j = s.next
    · subst hj; rw [Function.update_self, hi.fresh _ (Nat.le_refl _)]; rfl
    · rw [Function.update_of_ne hj]
  · rw [hc, Function.update_of_ne (by omega)]; exact hi.fresh j (by omega)

theorem Inv.keep {s t : St} (hi : Inv s) (hc : t.call = s.call) (ht : t.terminated = s.terminated)
    (hn : t.next = s.next) : Inv t :=
  ⟨fun j => by rw [ht, hc]; exact hi.fired j, ht ▸ hi.nodup, fun j hj => by rw [hc]; exact hi.fresh j (hn ▸ hj)⟩

theorem inv_step {s t : St} {a : Act} (hi : Inv s) (h : step s a = some t) : Inv t := by
  cases a with
  | connectBegin => simp only [step] at h; split at h <;> cases h; exact hi.keep rfl rfl rfl
  | connectOk => simp only [step] at h; split at h <;> cases h; exact hi.keep rfl rfl rfl
  | connectFail => simp only [step] at h; split at h <;> cases h; exact hi.keep rfl rfl rfl
  | resp i => obtain ⟨a, b, c⟩ := stepResp_call h; exact hi.keep a b c
  | term =>
    simp only [step, stepTerm] at h
    split at h
    · cases h
    · cases h; exact hi.fresh_call rfl rfl rfl
    · split at h <;> cases h; exact hi.keep rfl rfl rfl
  | user => cases h; exact hi.fresh_call rfl rfl rfl
  | call id => exact inv_stepCall hi h

theorem inv_exec {s t : St} {as : List Act} (hi : Inv s) (h : exec s as = some t) : Inv t := by
  induction as generalizing s with
  | nil => cases h; exact hi
  | cons a as ih =>
    obtain ⟨u, hu, h⟩ := Option.bind_eq_some_iff.1 h
    exact ih (inv_step hi hu) h

/-- The response goroutine is about to start the termination thread. -/
def RPc.pending : RPc → Nat
  | .dispatch | .starting => 1
  | _ => 0

/-- The termination thread is about to call `disconnect`. -/
def TPc.pending : TPc → Nat
  | .launched => 1
  | _ => 0

/-- Terminations on their way: a read error seen but no call made yet. -/
def pending (s : St) : Nat := s.resp.pending + s.term.pending

/-- What an action can contribute: a user call or a read error. -/
def Act.cause : Act → Nat
  | .user => 1
  | .resp .error => 1
  | _ => 0

theorem stepCall_frame {s t : St} {id : Nat} (h : stepCall s id = some t) :
    t.resp = s.resp ∧ t.term = s.term ∧ t.next = s.next := by
  unfold stepCall at h
  split at h <;> first | cases h <;> exact ⟨rfl, rfl, rfl⟩ | skip
  · split at h
    · cases h; exact ⟨rfl, rfl, rfl⟩
    · split at h
      · cases h
      · split at h <;> cases h; exact ⟨rfl, rfl, rfl⟩
  · split at h <;> cases h; exact ⟨rfl, rfl, rfl⟩

theorem pending_step {s t : St} {a : Act} (h : step s a = some t) :
    t.next + pending t ≤ s.next + pending s + a.cause := by
  cases a with
  | connectBegin => simp only [step] at h; split at h <;> cases h; exact Nat.le_add_right _ _
  | connectOk =>
    simp only [step] at h
    split at h <;> cases h
    next hc => simp only [pending, RPc.pending]; omega
  | connectFail => simp only [step] at h; split at h <;> cases h; exact Nat.le_add_right _ _
  | resp i =>
    simp only [step, stepResp] at h
    split at h
    · cases h
    · next hr => cases h; simp only [pending, hr, RPc.pending]; omega
    · next hr => cases h; simp only [pending, hr]; cases s.connected <;> simp [RPc.pending]
    · next hr =>
      cases h
      simp only [pending, hr]
      cases s.disconnecting <;> cases i <;> simp [RPc.pending, Act.cause] <;> omega
    · next hr => cases h; simp only [pending, hr]; cases s.disconnecting <;> simp [RPc.pending]
    · next hr => cases h; simp only [pending, hr]; simp [RPc.pending]
    · next hr =>
      cases h
      simp only [pending, hr]
      cases s.term <;> simp only [RPc.pending, TPc.pending] <;> omega
    · next hr =>
      split at h <;> cases h
      next ht => simp only [pending, hr, ht, RPc.pending, TPc.pending]; omega
    · cases h
  | term =>
    simp only [step, stepTerm] at h
    split at h
    · cases h
    · next ht => cases h; simp only [pending, ht, TPc.pending]; omega
    · next ht => split at h <;> cases h; simp only [pending, ht, TPc.pending]; omega
  | user => cases h; simp only [pending, Act.cause]; omega
  | call id =>
    obtain ⟨a, b, c⟩ := stepCall_frame h
    simp only [pending, a, b, c]
    omega

theorem pending_exec {s t : St} {as : List Act} (h : exec s as = some t) :
    t.next + pending t ≤ s.next + pending s + (as.map Act.cause).sum := by
  induction as generalizing s with
  | nil => cases h; simp
  | cons a as ih =>
    obtain ⟨u, hu, h⟩ := Option.bind_eq_some_iff.1 h
    have h1 := ih h
    have h2 := pending_step hu
    simp only [List.map_cons, List.sum_cons]
    omega

theorem sum_cause (as : List Act) : (as.map Act.cause).sum = as.count .user + as.count (.resp .error) := by
  induction as with
  | nil => rfl
  | cons a as ih =>
    simp only [List.map_cons, List.sum_cons, List.count_cons, ih]
    cases a with
    | resp i => cases i <;> simp [Act.cause] <;> omega
    | _ => simp [Act.cause] <;> omega

/-- **C36** (part): in every schedule from a new subscriber, no disconnect call invokes the connection terminated callback
twice, and the callback is invoked at most once for each `Disconnect` call by the user and each failed read. The full claim,
once per connection lost or ended, does not hold: see `C36_terminated_twice_false`, `C36_disconnect_again_false` and
`C36_terminated_without_connection_false`. -/
theorem C36_callbacks_partial {as : List Act} {t : St} (h : exec init as = some t) :
    t.terminated.Nodup ∧ t.terminated.length ≤ as.count .user + as.count (.resp .error) := by
  have hi := inv_exec inv_init h
  refine ⟨hi.nodup, ?_⟩
  have hl : t.terminated.length ≤ t.next := by
    have hsub : t.terminated ⊆ List.range t.next := by
      intro j hj
      rw [List.mem_range]
      by_contra hc
      have := (hi.fired j).1 hj
      rw [hi.fresh j (by omega)] at this
      cases this
    have := (List.subperm_of_subset hi.nodup hsub).length_le
    rwa [List.length_range] at this
  have hp := pending_exec h
  rw [sum_cause] at hp
  have h0 : init.next = 0 := rfl
  have h1 : pending init = 0 := rfl
  omega

/-- A schedule meeting the bound: two failed reads, two callbacks. -/
example : ∃ t, exec init brokenTwice = some t ∧
    t.terminated.length = brokenTwice.count .user + brokenTwice.count (.resp .error) := ⟨_, rfl, rfl⟩

/-! ### The subscription flag after a disconnect -/

/-- A call that is not between its test and the end of its thread. -/
def CPc.quiet : CPc → Bool
  | .idle | .check | .finished | .refused => true
  | _ => false

/-- Disconnect call `id` has cleared the flags and its thread has not passed the join. -/
def CPc.cleared : CPc → Bool
  | .start | .lock | .close | .join => true
  | _ => false

/-- The flag stays clear: the response goroutine cannot get past its tests any more. -/
structure Down (id : Nat) (s : St) : Prop where
  connected : s.connected = false
  subscribed : s.subscribed = false
  body : ∀ b, s.resp ≠ .body b
  apply : ∀ b, s.resp ≠ .apply b
  header : s.resp = .header → s.disconnecting = true ∧ (s.call id).cleared = true ∧
    (∀ j, j ≠ id → (s.call j).quiet = true) ∧ id < s.next

def Act.isConnect : Act → Bool
  | .connectBegin | .connectOk | .connectFail => true
  | _ => false

theorem down_call {id j : Nat} {s t : St} (hd : Down id s) (h : stepCall s j = some t) : Down id t := by
  have hr := (stepCall_frame h).1
  have hn := (stepCall_frame h).2.2
  have hcs : t.connected = false ∧ t.subscribed = false := by
    unfold stepCall at h
    split at h <;> first | (cases h; first | exact ⟨hd.connected, hd.subscribed⟩ | exact ⟨rfl, hd.subscribed⟩ | exact ⟨hd.connected, rfl⟩; done) | (cases h; done) | skip
    · split at h
      · cases h; exact ⟨hd.connected, hd.subscribed⟩
      · split at h
        · cases h
        · split at h <;> cases h; exact ⟨hd.connected, hd.subscribed⟩
    · split at h <;> cases h; exact ⟨hd.connected, hd.subscribed⟩
  refine ⟨hcs.1, hcs.2, fun b => hr ▸ hd.body b, fun b => hr ▸ hd.apply b, fun hh => ?_⟩
  rw [hr] at hh
  obtain ⟨hdis, hcl, hq, hlt⟩ := hd.header hh
  rw [hn]
  by_cases hji : j = id
  · subst hji
    unfold stepCall at h
    split at h
    case h_10 => rw [hh] at h; cases h
    case h_7 => cases h; exact ⟨hdis, by simp [CPc.cleared], fun k hk => by simpa [Function.update_of_ne hk] using hq k hk, hlt⟩
    case h_8 =>
      split at h
      · cases h; exact ⟨hdis, by simp [CPc.cleared], fun k hk => by simpa [Function.update_of_ne hk] using hq k hk, hlt⟩
      · split at h
        · cases h
        · split at h <;> cases h
          exact ⟨hdis, by simp [CPc.cleared], fun k hk => by simpa [Function.update_of_ne hk] using hq k hk, hlt⟩
    case h_9 => cases h; exact ⟨hdis, by simp [CPc.cleared], fun k hk => by simpa [Function.update_of_ne hk] using hq k hk, hlt⟩
    all_goals
      next hc => rw [hc] at hcl; cases hcl
  · have hqj := hq j hji
    unfold stepCall at h
    split at h
    case h_2 =>
      cases h
      refine ⟨hdis, by simpa [Function.update_of_ne (Ne.symm hji)] using hcl, fun k hk => ?_, hlt⟩
      by_cases hkj : k = j
      · subst hkj; simp [hdis, CPc.quiet]
      · simpa [Function.update_of_ne hkj] using hq k hk
    case h_1 => cases h
    case h_14 => cases h
    case h_15 => cases h
    all_goals
      next hc => rw [hc] at hqj; cases hqj

theorem Down.fresh_call {id : Nat} {s t : St} (hd : Down id s) (hc : t.call = update s.call s.next .check)
    (h1 : t.connected = s.connected) (h2 : t.subscribed = s.subscribed) (h3 : t.resp = s.resp)
    (h4 : t.disconnecting = s.disconnecting) (hn : t.next = s.next + 1) : Down id t := by
  refine ⟨h1 ▸ hd.connected, h2 ▸ hd.subscribed, fun b => h3 ▸ hd.body b, fun b => h3 ▸ hd.apply b, fun hh => ?_⟩
  rw [h3] at hh
  obtain ⟨hdis, hcl, hq, hlt⟩ := hd.header hh
  refine ⟨h4 ▸ hdis, ?_, fun k hk => ?_, by omega⟩
  · rw [hc, Function.update_of_ne (by omega)]; exact hcl
  · rw [hc]
    by_cases hkn : k = s.next
    · subst hkn; rw [Function.update_self]; rfl
    · rw [Function.update_of_ne hkn]; exact hq k hk

theorem down_step {id : Nat} {s t : St} {a : Act} (hd : Down id s) (ha : a.isConnect = false)
    (h : step s a = some t) : Down id t := by
  cases a with
  | connectBegin => cases ha
  | connectOk => cases ha
  | connectFail => cases ha
  | resp i =>
    simp only [step, stepResp] at h
    split at h
    · cases h
    · cases h; exact ⟨hd.connected, hd.subscribed, fun b h => (by cases h), fun b h => (by cases h), fun h => (by cases h)⟩
    · cases h
      rw [if_neg (by rw [hd.connected]; decide)]
      exact ⟨hd.connected, hd.subscribed, fun b h => (by cases h), fun b h => (by cases h), fun h => (by cases h)⟩
    · next hr =>
      cases h
      rw [if_pos (hd.header hr).1]
      exact ⟨hd.connected, hd.subscribed, fun b h => (by cases h), fun b h => (by cases h), fun h => (by cases h)⟩
    · next b hr => exact absurd hr (hd.body b)
    · next b hr => exact absurd hr (hd.apply b)
    · cases h
      cases s.term <;>
        exact ⟨hd.connected, hd.subscribed, fun b h => (by cases h), fun b h => (by cases h), fun h => (by cases h)⟩
    · split at h <;> cases h
      exact ⟨hd.connected, hd.subscribed, fun b h => (by cases h), fun b h => (by cases h), fun h => (by cases h)⟩
    · cases h
  | term =>
    simp only [step, stepTerm] at h
    split at h
    · cases h
    · cases h; exact hd.fresh_call rfl rfl rfl rfl rfl rfl
    · split at h <;> cases h; exact ⟨hd.connected, hd.subscribed, hd.body, hd.apply, hd.header⟩
  | user => cases h; exact hd.fresh_call rfl rfl rfl rfl rfl rfl
  | call j => exact down_call hd h

/-- **C36** (part): let disconnect call `id` have cleared the flags, with no other disconnect past its own test and with the
response goroutine not between reading a successful answer and applying it. Then, in every schedule without a new connection
attempt, the subscription flag stays clear. The full claim, without the hypothesis on the response goroutine, does not hold:
see `C36_subscribed_while_disconnected_false`. -/
theorem C36_subscribed_partial {id : Nat} {s t : St} {as : List Act} (hpc : s.call id = .start) (hlt : id < s.next)
    (hc : s.connected = false) (hs : s.subscribed = false) (hdis : s.disconnecting = true)
    (hq : ∀ j, j ≠ id → (s.call j).quiet = true) (hb : ∀ b, s.resp ≠ .body b) (hap : ∀ b, s.resp ≠ .apply b)
    (has : ∀ a ∈ as, a.isConnect = false) (h : exec s as = some t) :
    t.subscribed = false ∧ t.connected = false := by
  have hd : Down id s := ⟨hc, hs, hb, hap, fun _ => ⟨hdis, by rw [hpc]; rfl, hq, hlt⟩⟩
  have : Down id t := by
    clear hpc hlt hc hs hdis hq hb hap
    induction as generalizing s with
    | nil => cases h; exact hd
    | cons a as ih =>
      obtain ⟨u, hu, h⟩ := Option.bind_eq_some_iff.1 h
      exact ih (fun b hb => has b (List.mem_cons_of_mem _ hb)) h (down_step hd (has a (List.mem_cons_self ..)) hu)
  exact ⟨this.subscribed, this.connected⟩

/-- A subscribed connection being disconnected while its goroutine waits for a packet: the hypotheses hold, and the schedule
runs to the end with an answer arriving in between. -/
example : ∃ s t, exec init ([.connectBegin, .connectOk, .resp .other, .resp .other, .resp (.answer true), .resp .other,
      .resp .other, .resp .other, .user] ++ List.replicate 5 (.call 0)) = some s ∧
    s.call 0 = .start ∧ s.resp = .header ∧ s.connected = false ∧ s.subscribed = false ∧ s.disconnecting = true ∧
    exec s ([.call 0, .resp (.answer true), .resp .other] ++ List.replicate 6 (.call 0)) = some t ∧
    t.call 0 = .finished ∧ t.resp = .ended ∧ t.terminated = [0] :=
  ⟨_, _, rfl, rfl, rfl, rfl, rfl, rfl, rfl, rfl, rfl, rfl⟩

/-- A success of Subscribe is set as subscription flag, or is on its way there. -/
def St.granted (s : St) : Prop := s.subscribed = true ∨ s.resp = .body true ∨ s.resp = .apply true

theorem granted_step {s t : St} {a : Act} (h : step s a = some t) (ht : t.granted) : s.granted ∨ a = .resp (.answer true) := by
  unfold St.granted at ht ⊢
  cases a with
  | connectBegin =>
    simp only [step] at h
    split at h <;> cases h
    simp only [Bool.false_eq_true, false_or] at ht
    exact .inl (.inr ht)
  | connectOk =>
    simp only [step] at h
    split at h <;> cases h
    simp only [reduceCtorEq, or_false] at ht
    exact .inl (.inl ht)
  | connectFail =>
    simp only [step] at h
    split at h <;> cases h
    exact .inl ht
  | resp i =>
    simp only [step, stepResp] at h
    split at h <;> rename_i hr
    · cases h
    · cases h; simp at ht; simp [ht]
    · cases h
      cases hc : s.connected <;> simp [hc] at ht <;> simp [ht]
    · cases h
      cases hc : s.disconnecting <;> cases i <;> simp [hc] at ht <;> simp [ht]
      rcases ht with ht | ht <;> simp [ht]
    · cases h
      rename_i b
      cases hc : s.disconnecting <;> simp [hc] at ht <;> simp [hr, ht]
    · cases h
      rename_i b
      simp at ht
      simp [hr, ht]
    · cases h
      cases hc : s.term <;> simp [hc] at ht <;> simp [ht]
    · split at h <;> cases h
      simp at ht
      simp [ht]
    · cases h
  | term =>
    simp only [step, stepTerm] at h
    split at h
    · cases h
    · cases h; exact .inl ht
    · split at h <;> cases h; exact .inl ht
  | user => cases h; exact .inl ht
  | call j =>
    have hr := (stepCall_frame h).1
    rw [hr] at ht
    have hs : t.subscribed = true → s.subscribed = true := by
      simp only [step, stepCall] at h
      intro h1
      split at h <;> (try (repeat' split at h)) <;> cases h <;> first | exact h1 | cases h1
    exact .inl (ht.imp_left hs)

/-- The flag is only ever set by a success of Subscribe that the response goroutine has read. -/
theorem C36_granted {as : List Act} {t : St} (h : exec init as = some t) (ht : t.subscribed = true) : .resp (.answer true) ∈ as := by
  have : ∀ (as : List Act) (s t : St), exec s as = some t → t.granted → s.granted ∨ .resp (.answer true) ∈ as := by
    intro as
    induction as with
    | nil => intro s t h ht; cases h; exact .inl ht
    | cons a as ih =>
      intro s t h ht
      obtain ⟨u, hu, h⟩ := Option.bind_eq_some_iff.1 h
      rcases ih u t h ht with h1 | h1
      · rcases granted_step hu h1 with h2 | h2
        · exact .inl h2
        · exact .inr (by simp [h2])
      · exact .inr (by simp [h1])
  rcases this as init t h (.inl ht) with h1 | h1
  · rcases h1 with h1 | h1 | h1 <;> cases h1
  · exact h1

example : (exec init [.connectBegin, .connectOk, .resp .other, .resp .other, .resp (.answer true), .resp .other, .resp .other]).map St.subscribed =
    some true := rfl

end Verif.Sync.Lifecycle
