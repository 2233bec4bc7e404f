import Mathlib.Data.List.Basic

/-!
# C135: Disconnect and Close called from a callback

The library runs some callbacks on goroutines of its own (DataSubscriber.go L416, L698, L1037, L1258, L1452; SubscriberConnector.go L120), the others on a
new goroutine each (L736, L746, L1027, L1047, L1099, L1186, L1479). Here is the goroutine that runs one callback, of any of these kinds, in which the application
calls `Disconnect` (L596-606) or `Close`, that is `Dispose` (L205-214), and the disconnect thread (L651-725), which waits for the other goroutines. `Disconnect`
is said to be made for this case (L601-604), of `Close` nothing is said.

A `Join` (Thread.go L74-83) returns at once when the goroutine does not yet have its flag `running`, so the flag and the wait are two steps; the end of `run`
(L91-92) is one. There is one call, the callback lock has no writers (C39 has them), the peer stays as it is (C117, C108 have the other cases), the threads that do
not run the callback are over or end when the sockets are closed, and the callback returns when its call has returned.
-/

namespace Verif.Sync.Inside

/-- Where the callback runs. -/
inductive Place where
  /-- on the goroutine of a channel: measurements, buffer blocks, start time (DataSubscriber.go L1037, L1258, L1452) -/
  | stream
  /-- on the goroutine of the application, within `Connect`: connection established (L346-361, L416) -/
  | established
  /-- on the goroutine that accepts connections (L789-797, L416) -/
  | accepted
  /-- on the reconnect thread, within `connect`: connection established (L346-361, L416; SubscriberConnector.go L112) -/
  | reestablished
  /-- on the reconnect thread: reconnected (SubscriberConnector.go L120) -/
  | reconnected
  /-- on the disconnect thread after a `Disconnect` of somebody else: connection terminated (DataSubscriber.go L698) -/
  | terminated
  /-- on the disconnect thread after the peer has gone: connection terminated (L698) -/
  | lost
  /-- on a goroutine of its own (L736, L746, L1027, L1047, L1099, L1186, L1479) -/
  | own
  deriving DecidableEq, Repr

/-- What the callback calls. (DataSubscriber.go L205, L596) -/
inductive Call where
  | disconnect
  | close
  deriving DecidableEq, Repr

/-- The goroutine that runs the callback. (DataSubscriber.go L205-214, L596-649) -/
inductive KPc where
  /-- before the first statement of the call (L207, L597) -/
  | enter
  /-- in `Cancel`, before `Join` of the reconnect thread has returned (L208; SubscriberConnector.go L260-262) -/
  | cancel
  /-- before the test of `disconnecting` in `disconnect` (L610) -/
  | test
  /-- in the `Cancel` of a second disconnect (L612) -/
  | again
  /-- before `Join` of the disconnect thread has looked at `running` (L620, L647) -/
  | join
  /-- waiting in `Join` of the disconnect thread -/
  | wait
  /-- in the wait of ten milliseconds (L211-213) -/
  | timer
  /-- the call has returned, the callback has not -/
  | back
  /-- the callback has returned -/
  | left
  /-- the goroutine has ended -/
  | gone
  deriving DecidableEq, Repr

/-- The disconnect thread. (DataSubscriber.go L651-725) -/
inductive DPc where
  /-- there is none -/
  | absent
  /-- started, `running` is not set (Thread.go L54-55) -/
  | made
  /-- in `Cancel`, before `Join` of the reconnect thread has returned (L654) -/
  | cancel
  /-- before `connectActionMutex` is taken (L656) -/
  | lock
  /-- before the sockets are closed (L660-676) -/
  | close
  /-- before `Join` of the goroutine that accepts has returned (L680) -/
  | accept
  /-- before `Join` of the goroutines of the channels has returned (L685, L690) -/
  | resp
  /-- before the connection terminated callback (L695) -/
  | sync
  /-- in the connection terminated callback, which is the callback looked at here (L698) -/
  | inside
  /-- before the flags (L704-705) -/
  | flags
  | over
  deriving DecidableEq, Repr

/-- The two goroutines and what they share. (DataSubscriber.go L56-75) -/
structure St where
  place : Place
  call : Call
  k : KPc
  d : DPc
  connected : Bool
  disconnecting : Bool
  disconnected : Bool
  disposing : Bool
  /-- `autoReconnect` has started a reconnect thread (L713-715; SubscriberConnector.go L79-130) -/
  reconnecting : Bool
  deriving DecidableEq, Repr

/-- The callback runs on the disconnect thread. (DataSubscriber.go L698) -/
def onDisconnect : Place → Bool
  | .terminated | .lost => true
  | _ => false

/-- The callback runs on the reconnect thread. (SubscriberConnector.go L95-124) -/
def onReconnect : Place → Bool
  | .reestablished | .reconnected => true
  | _ => false

/-- The goroutine of the callback holds `connectActionMutex`. (DataSubscriber.go L346-347, L789) -/
def holdsAction : Place → Bool
  | .established | .accepted | .reestablished => true
  | _ => false

/-- The callback begins. (DataSubscriber.go L413-419, L608-626, L695) -/
def init (p : Place) (c : Call) : St :=
  ⟨p, c, .enter, if onDisconnect p then .inside else .absent, !onDisconnect p, onDisconnect p, false, false, false⟩

/-- The callback has returned. -/
def KPc.out : KPc → Bool
  | .left | .gone => true
  | _ => false

/-- `Join` of the reconnect thread returns. (SubscriberConnector.go L260-262) -/
def reconnectOver (s : St) : Bool := !onReconnect s.place || s.k == .gone

/-- `running` of the disconnect thread is set. (Thread.go L91-95) -/
def DPc.running : DPc → Bool
  | .absent | .made | .over => false
  | _ => true

/-- `disconnect(join, false, true)` where no other one is in progress. (DataSubscriber.go L626-648) -/
def begin (s : St) : St :=
  { s with disconnecting := true, connected := false, d := .made, k := if s.call = .close then .join else .back }

/-- After `disconnect` has returned: `Dispose` waits a moment. (DataSubscriber.go L606, L211-213) -/
def after : Call → KPc
  | .close => .timer
  | .disconnect => .back

/-- The first statements of the call. (DataSubscriber.go L207-208, L597-599) -/
def enter (s : St) : St :=
  match s.call with
  | .close => { s with disposing := true, k := .cancel }
  | .disconnect => if s.disconnecting then { s with k := .back } else { s with k := .test }

/-- The goroutine of the callback goes on. (DataSubscriber.go L205-214, L596-649) -/
def stepK (s : St) : Option St :=
  match s.k with
  | .enter => some (enter s)
  | .cancel => if reconnectOver s then some { s with k := .test } else none
  | .test => if s.disconnecting then some { s with k := .again } else some (begin s)
  | .again =>
    if reconnectOver s then some { s with k := if s.call = .close ∧ s.disconnected = false then .join else after s.call } else none
  | .join => some { s with k := if s.d.running then .wait else after s.call }
  | .wait => if s.d = .over then some { s with k := after s.call } else none
  | .timer => some { s with k := .back }
  | .back => some { s with k := .left }
  | .left => if onDisconnect s.place && s.d != .over then none else some { s with k := .gone }
  | .gone => none

/-- The flags, and what follows them: a disconnect that the loss of the connection has caused starts a reconnect, unless `Cancel` or `Dispose` was called.
(DataSubscriber.go L704-724; SubscriberConnector.go L82-84) -/
def finish (s : St) : St :=
  { s with d := .over, disconnected := true, disconnecting := false, reconnecting := s.place = .lost && !s.disposing }

/-- The disconnect thread goes on. (DataSubscriber.go L651-725) -/
def stepD (s : St) : Option St :=
  match s.d with
  | .absent => none
  | .made => some { s with d := .cancel }
  | .cancel => if reconnectOver s then some { s with d := .lock } else none
  | .lock => if holdsAction s.place && !s.k.out then none else some { s with d := .close }
  | .close => some { s with d := .accept }
  | .accept => if s.place = .accepted ∧ s.k ≠ .gone then none else some { s with d := .resp }
  | .resp => if s.place = .stream ∧ s.k ≠ .gone then none else some { s with d := .sync }
  | .sync => some { s with d := .flags }
  | .inside => if s.k.out then some { s with d := .flags } else none
  | .flags => some (finish s)
  | .over => none

/-- One of the two goes on. (DataSubscriber.go L205-214, L596-725) -/
inductive Step : St → St → Prop
  | callback {s t} : stepK s = some t → Step s t
  | thread {s t} : stepD s = some t → Step s t

/-- Any number of steps, in any order. -/
inductive Reach (s : St) : St → Prop
  | refl : Reach s s
  | tail {t u} : Reach s t → Step t u → Reach s u

/-- Nobody can go on. -/
def Stuck (s : St) : Prop := ∀ t, ¬ Step s t

/-- The states after one step. -/
def next (s : St) : List St := (stepK s).toList ++ (stepD s).toList

theorem step_next {s t : St} (h : Step s t) : t ∈ next s := by
  cases h with
  | callback h => simp [next, h]
  | thread h => simp [next, h]

theorem next_step {s t : St} (h : t ∈ next s) : Step s t := by
  rcases List.mem_append.1 h with h | h
  · exact .callback (by simpa using h)
  · exact .thread (by simpa using h)

/-- The flags follow from where the two goroutines are. -/
def mk (p : Place) (c : Call) (k : KPc) (d : DPc) : St :=
  ⟨p, c, k, d, !onDisconnect p && d == .absent, if onDisconnect p then d != .over else d != .absent && d != .over, d == .over,
    c == .close && k != .enter, p == .lost && d == .over && !(c == .close && k != .enter)⟩

/-- Steps that the goroutine of the callback has left, at most. -/
def KPc.rank : KPc → Nat
  | .enter => 9 | .cancel => 8 | .test => 7 | .again => 6 | .join => 5 | .wait => 4 | .timer => 3 | .back => 2 | .left => 1 | .gone => 0

/-- Steps that the disconnect thread has left, at most. -/
def DPc.rank : DPc → Nat
  | .absent => 9 | .made => 8 | .cancel => 7 | .lock => 6 | .close => 5 | .accept => 4 | .resp => 3 | .sync => 2 | .inside => 2 | .flags => 1 | .over => 0

/-- The disconnect thread is no further than the goroutine of the callback lets it. -/
def behind (p : Place) (k : KPc) (d : DPc) : Bool :=
  (!(onReconnect p && d.rank < 7) || k == .gone) && (!(holdsAction p && d.rank < 6) || k.out) &&
    (!(p == .accepted && d.rank < 4) || k == .gone) && (!(p == .stream && d.rank < 3) || k == .gone)

/-- Where the two goroutines can be. -/
def good (p : Place) (c : Call) (k : KPc) (d : DPc) : Bool :=
  match onDisconnect p, c with
  | true, .disconnect => match k with
    | .enter | .back => d == .inside
    | .left => d == .inside || d == .flags || d == .over
    | .gone => d == .over
    | _ => false
  | true, .close => d == .inside && k.rank ≥ 4
  | false, .disconnect => match k with
    | .enter | .test => d == .absent
    | .back | .left | .gone => d != .absent && d != .inside && behind p k d
    | _ => false
  | false, .close => match k with
    | .enter | .cancel => d == .absent
    | .test => d == .absent && !onReconnect p
    | .again => false
    | .wait => d != .absent && d != .inside && d != .made && !onReconnect p && behind p k d
    | _ => d != .absent && d != .inside && !onReconnect p && behind p k d

/-- Everything, for the decisions below. -/
def everywhere (P : Place → Call → KPc → DPc → Bool) : Bool :=
  [Place.stream, .established, .accepted, .reestablished, .reconnected, .terminated, .lost, .own].all fun p =>
    [Call.disconnect, .close].all fun c =>
      [KPc.enter, .cancel, .test, .again, .join, .wait, .timer, .back, .left, .gone].all fun k =>
        [DPc.absent, .made, .cancel, .lock, .close, .accept, .resp, .sync, .inside, .flags, .over].all fun d => P p c k d

theorem everywhere_apply {P : Place → Call → KPc → DPc → Bool} (h : everywhere P = true) (p : Place) (c : Call) (k : KPc) (d : DPc) : P p c k d = true := by
  unfold everywhere at h
  have h1 := List.all_eq_true.1 h p (by cases p <;> decide)
  have h2 := List.all_eq_true.1 h1 c (by cases c <;> decide)
  have h3 := List.all_eq_true.1 h2 k (by cases k <;> decide)
  exact List.all_eq_true.1 h3 d (by cases d <;> decide)

theorem good_next : everywhere (fun p c k d => !good p c k d || (next (mk p c k d)).all fun t => decide (t = mk p c t.k t.d) && good p c t.k t.d) = true := by
  decide +kernel

/-- Whatever the order of steps, the flags and the two goroutines agree. -/
theorem reach_good {p : Place} {c : Call} {s : St} (h : Reach (init p c) s) : s = mk p c s.k s.d ∧ good p c s.k s.d = true := by
  induction h with
  | refl => cases p <;> cases c <;> decide
  | @tail t u _ hs ih =>
    have h1 := everywhere_apply good_next p c t.k t.d
    rw [ih.2, ← ih.1] at h1
    have h2 := List.all_eq_true.1 (by simpa only [Bool.not_true, Bool.false_or] using h1) u (step_next hs)
    simpa using h2

theorem stuck_iff (s : St) : Stuck s ↔ next s = [] := by
  constructor
  · intro h
    rcases hn : next s with _ | ⟨t, l⟩
    · rfl
    · exact absurd (next_step (s := s) (t := t) (by simp [hn])) (h t)
  · intro h t ht
    have := step_next ht
    simp [h] at this

theorem decided {P : Place → Call → St → Bool} (h : everywhere (fun p c k d => !good p c k d || P p c (mk p c k d)) = true) {p : Place} {c : Call} {s : St}
    (hs : Reach (init p c) s) : P p c s = true := by
  have h1 := everywhere_apply h p c s.k s.d
  obtain ⟨e, g⟩ := reach_good hs
  rw [g, ← e] at h1
  simpa only [Bool.not_true, Bool.false_or] using h1

/-! ## Everything ends -/

/-- Each step uses up one of at most eighteen, so there is no endless run and whoever does not get on waits. -/
theorem C135_bounded {p : Place} {c : Call} {s t : St} (h : Reach (init p c) s) (hs : Step s t) :
    t.k.rank + t.d.rank < s.k.rank + s.d.rank ∧ (init p c).k.rank + (init p c).d.rank ≤ 18 := by
  have h1 := decided (P := fun _ _ s => (next s).all fun t => decide (t.k.rank + t.d.rank < s.k.rank + s.d.rank)) (by decide +kernel) h
  have h2 := List.all_eq_true.1 h1 _ (step_next hs)
  refine ⟨by simpa using h2, ?_⟩
  cases p <;> cases c <;> decide

/-! ## Disconnect -/

/-- `Disconnect` may be called from every callback: its goroutine always can go on until the callback has returned, and when nothing more happens, the
goroutine has ended, the disconnect is complete and the connection is closed. -/
theorem C135_disconnect {p : Place} {s : St} (h : Reach (init p .disconnect) s) :
    (s.k.out = false → ∃ t, stepK s = some t) ∧
    (Stuck s → s.k = .gone ∧ s.d = .over ∧ s.disconnected = true ∧ s.connected = false ∧ s.disconnecting = false) := by
  have h1 := decided (P := fun _ c s => decide (c = .disconnect →
      (s.k.out = false → (stepK s).isSome = true) ∧
      (next s = [] → s.k = .gone ∧ s.d = .over ∧ s.disconnected = true ∧ s.connected = false ∧ s.disconnecting = false))) (by decide +kernel) h
  obtain ⟨h2, h3⟩ := of_decide_eq_true h1 rfl
  exact ⟨fun hk => Option.isSome_iff_exists.1 (h2 hk), fun hst => h3 ((stuck_iff s).1 hst)⟩

/-- After `Disconnect` the subscriber stays disconnected, unless it was called from the connection terminated callback after the peer has gone: then the
call does nothing, and a reconnect follows all the same. -/
theorem C135_ignored {p : Place} {s : St} (h : Reach (init p .disconnect) s) (hs : Stuck s) : s.reconnecting = true ↔ p = .lost := by
  exact of_decide_eq_true (decided (P := fun p c s => decide (c = .disconnect → next s = [] → (s.reconnecting = true ↔ p = .lost))) (by decide +kernel) h) rfl
    ((stuck_iff s).1 hs)

/-! ## Close -/

/-- Called on a goroutine of its own, `Close` returns whatever the order of steps, and the disconnect completes. -/
theorem C135_close_own {s : St} (h : Reach (init .own .close) s) (hs : Stuck s) :
    s.k = .gone ∧ s.d = .over ∧ s.disconnected = true ∧ s.connected = false := by
  exact of_decide_eq_true (decided (P := fun p c s => decide (p = .own → c = .close → next s = [] →
      s.k = .gone ∧ s.d = .over ∧ s.disconnected = true ∧ s.connected = false)) (by decide +kernel) h) rfl rfl ((stuck_iff s).1 hs)

/-- However `Close` ends, no reconnect follows it. -/
theorem C135_close_final {p : Place} {s : St} (h : Reach (init p .close) s) : s.reconnecting = false := by
  exact of_decide_eq_true (decided (P := fun _ c s => decide (c = .close → s.reconnecting = false)) (by decide +kernel) h) rfl

/-- Called from a callback on a goroutine of the library, or on the one within `Connect`, `Close` never returns with the subscriber disconnected: whenever the
callback has its call back, the disconnect is not complete. -/
theorem C135_close_never {p : Place} (hp : p ≠ .own) {s : St} (h : Reach (init p .close) s) (hk : s.k = .back) : s.disconnected = false := by
  exact of_decide_eq_true (decided (P := fun p c s => decide (c = .close → p ≠ .own → s.k = .back → s.disconnected = false)) (by decide +kernel) h) rfl hp hk

/-- On the reconnect thread and on the disconnect thread `Close` waits for the goroutine that it runs on: it returns under no order of steps, the callback
neither, and the disconnect is never complete. -/
theorem C135_close_self {p : Place} (hp : onReconnect p = true ∨ onDisconnect p = true) {s : St} (h : Reach (init p .close) s) :
    s.k ∈ [.enter, .cancel, .test, .again, .join, .wait] ∧ s.disconnected = false := by
  exact of_decide_eq_true (decided (P := fun p c s => decide (c = .close → (onReconnect p = true ∨ onDisconnect p = true) →
      s.k ∈ [.enter, .cancel, .test, .again, .join, .wait] ∧ s.disconnected = false)) (by decide +kernel) h) rfl hp

/-- On the other goroutines of the library it depends on the disconnect thread: once `Join` has seen it running, both wait for ever, the callback for the
thread and the thread for the goroutine of the callback or for the mutex that it holds. -/
theorem C135_close_waits {p : Place} (hp : p ≠ .own) {s t : St} (h : Reach (init p .close) s) (hk : s.k = .wait) (ht : Reach s t) :
    t.k = .wait ∧ t.disconnected = false := by
  have one : ∀ u, Reach (init p .close) u → u.k = .wait → u.disconnected = false ∧ (next u).all (fun t => t.k = .wait) = true := by
    intro u hu hk
    exact of_decide_eq_true (decided (P := fun p c s => decide (c = .close → p ≠ .own → s.k = .wait →
      s.disconnected = false ∧ (next s).all (fun t => t.k = .wait) = true)) (by decide +kernel) hu) rfl hp hk
  have all : Reach (init p .close) t ∧ t.k = .wait := by
    induction ht with
    | refl => exact ⟨h, hk⟩
    | tail _ hs ih => exact ⟨ih.1.tail hs, by simpa using List.all_eq_true.1 (one _ ih.1 ih.2).2 _ (step_next hs)⟩
  exact ⟨all.2, (one _ all.1 all.2).1⟩

theorem reach_trans {s t u : St} (h : Reach s t) (h' : Reach t u) : Reach s u := by
  induction h' with
  | refl => exact h
  | tail _ hs ih => exact ih.tail hs

/-- Every run comes to an end. -/
theorem ends {p : Place} {c : Call} : ∀ {n : Nat} {s : St}, Reach (init p c) s → s.k.rank + s.d.rank ≤ n → ∃ t, Reach s t ∧ Stuck t := by
  intro n
  induction n with
  | zero =>
    intro s h hn
    refine ⟨s, .refl, fun t ht => ?_⟩
    have := (C135_bounded h ht).1
    omega
  | succ n ih =>
    intro s h hn
    by_cases hs : Stuck s
    · exact ⟨s, .refl, hs⟩
    · simp only [Stuck, not_forall, not_not] at hs
      obtain ⟨t, ht⟩ := hs
      have := (C135_bounded h ht).1
      obtain ⟨u, hu, hst⟩ := ih (h.tail ht) (by omega)
      exact ⟨u, reach_trans (Reach.refl.tail ht) hu, hst⟩

/-- A run given as a list: `true` is a step of the goroutine of the callback, `false` one of the disconnect thread. -/
theorem reach_of_list : ∀ (l : List Bool) {s t : St}, l.foldlM (fun s b => if b then stepK s else stepD s) s = some t → Reach s t
  | [], s, t, h => by cases h; exact .refl
  | b :: l, s, t, h => by
    rw [List.foldlM_cons] at h
    cases b with
    | true =>
      cases hk : stepK s with
      | none => simp [hk] at h
      | some u => simp only [hk, if_true] at h; exact reach_trans (Reach.refl.tail (.callback hk)) (reach_of_list l h)
    | false =>
      cases hk : stepD s with
      | none => simp [hk] at h
      | some u =>
        simp only [hk, Bool.false_eq_true, if_false] at h
        exact reach_trans (Reach.refl.tail (.thread hk)) (reach_of_list l h)

/-- The order of steps under which `Close` does not return. -/
def bad : Place → List Bool
  | .stream => [true, true, true, false, true, false, false, false, false]
  | .established | .accepted => [true, true, true, false, true, false]
  | .reestablished | .reconnected => [true]
  | .terminated | .lost => [true, true, true, true, true]
  | .own => []

/-- `Close` returns under every order of steps exactly when it is called on a goroutine of its own. -/
theorem C135_close_iff (p : Place) : (∀ s, Reach (init p .close) s → Stuck s → s.k = .gone) ↔ p = .own := by
  constructor
  · intro h
    by_contra hp
    have key : ∃ s, (bad p).foldlM (fun s b => if b then stepK s else stepD s) (init p .close) = some s ∧ next s = [] ∧ s.k ≠ .gone := by
      revert hp
      cases p <;> intro hp <;> first | exact absurd rfl hp | exact ⟨_, rfl, by decide +kernel, by decide +kernel⟩
    obtain ⟨s, hs, hn, hk⟩ := key
    exact hk (h s (reach_of_list _ hs) ((stuck_iff s).2 hn))
  · rintro rfl s h hs
    exact (C135_close_own h hs).1

/-- The property is false of the code: a `Close` within the callback for measurements that finds the disconnect thread running waits for ever. -/
theorem C135_close_false : ∃ s, Reach (init .stream .close) s ∧ Stuck s ∧ s.k = .wait ∧ s.d = .resp ∧ s.disconnected = false := by
  refine ⟨⟨.stream, .close, .wait, .resp, false, true, false, true, false⟩, reach_of_list (bad .stream) (by decide +kernel), ?_, rfl, rfl, rfl⟩
  exact (stuck_iff _).2 (by decide +kernel)

/-- So is it of `Disconnect` in the connection terminated callback: the connection that the peer has ended is made again. -/
theorem C135_ignored_false : ∃ s, Reach (init .lost .disconnect) s ∧ Stuck s ∧ s.reconnecting = true := by
  obtain ⟨s, h, hs⟩ := ends (p := .lost) (c := .disconnect) .refl (Nat.le_refl _)
  exact ⟨s, h, hs, (C135_ignored h hs).2 rfl⟩

/-- `Disconnect` from every callback, `Close` from those that have a goroutine of their own, end and leave the subscriber disconnected; what is missing for the
property is `Close` from the others (`C135_close_iff`) and that no reconnect follows (`C135_ignored`). -/
theorem C135_partial {p : Place} {c : Call} (hpc : c = .disconnect ∨ p = .own) :
    (∃ s, Reach (init p c) s ∧ Stuck s) ∧ ∀ s, Reach (init p c) s → Stuck s →
      s.k = .gone ∧ s.d = .over ∧ s.disconnected = true ∧ s.connected = false := by
  refine ⟨ends .refl (Nat.le_refl _), fun s h hs => ?_⟩
  rcases hpc with rfl | rfl
  · obtain ⟨a, b, d, e, _⟩ := (C135_disconnect h).2 hs
    exact ⟨a, b, d, e⟩
  · cases c with
    | close => exact C135_close_own h hs
    | disconnect => obtain ⟨a, b, d, e, _⟩ := (C135_disconnect h).2 hs; exact ⟨a, b, d, e⟩

/-- `Disconnect` from the callback for measurements: the disconnect thread waits for the callback, then all ends. -/
example : Reach (init .stream .disconnect) ⟨.stream, .disconnect, .gone, .over, false, false, true, false, false⟩ :=
  reach_of_list [true, true, true, true, false, false, false, false, false, false, false, false] (by decide +kernel)

/-- `Close` from the callback for measurements may come back before the disconnect thread runs; the subscriber is not disconnected then. -/
example : Reach (init .stream .close) ⟨.stream, .close, .back, .made, false, true, false, true, false⟩ :=
  reach_of_list [true, true, true, true, true] (by decide +kernel)

/-- `Close` from the connection terminated callback has the disconnect thread wait for itself. -/
example : Reach (init .lost .close) ⟨.lost, .close, .wait, .inside, false, true, false, true, false⟩ :=
  reach_of_list (bad .lost) (by decide +kernel)

end Verif.Sync.Inside
