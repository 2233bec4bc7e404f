import Verif.Client.Callbacks
import Mathlib.Data.List.Perm.Basic

/-! # C109: the callback that was assigned is the one that is called -/

namespace Verif.Client.Callbacks

/-- The callback last assigned to a slot, as the application sees it. -/
def assigned (s : Slot) : List Op → Option Nat
  | [] => default s
  | .set s' f :: before => if s' = s then f else assigned s before
  | _ :: before => assigned s before

/-- The same, as of the last time the application connected or listened. -/
def assignedAtConnect (s : Slot) : List Op → Option Nat
  | [] => none
  | .set _ _ :: before => assignedAtConnect s before
  | _ :: before => assigned s before

/-- The same, as of the last time the application connected. -/
def assignedAtDial (s : Slot) : List Op → Option Nat
  | [] => none
  | .connect :: before => assigned s before
  | _ :: before => assignedAtDial s before

/-- Has the application connected or listened? -/
def started : List Op → Bool
  | [] => false
  | .set _ _ :: before => started before
  | _ :: _ => true

/-- The fields after what an application did (last action first). -/
def after : List Op → Fields
  | [] => new
  | o :: before => act (after before) o

theorem after_fields (ops : List Op) :
    (after ops).sbStatus = assigned .status ops ∧ (after ops).sbError = assigned .error ops ∧
    (after ops).sbMetadata = assigned .metadata ops ∧ (after ops).sbDataStartTime = assigned .dataStartTime ops ∧
    (after ops).sbConfigurationChanged = assigned .configurationChanged ops ∧
    (after ops).sbHistoricalReadComplete = assigned .historicalReadComplete ops ∧
    (after ops).sbConnectionEstablished = assigned .connectionEstablished ops ∧
    (after ops).dsStatus = assignedAtConnect .status ops ∧ (after ops).dsError = assignedAtConnect .error ops ∧
    (after ops).dsSubscriptionUpdated = assigned .subscriptionUpdated ops ∧ (after ops).dsNewMeasurements = assigned .newMeasurements ops ∧
    (after ops).dsNewBufferBlocks = assigned .newBufferBlocks ops ∧ (after ops).dsNotification = assigned .notification ops ∧
    (after ops).dsConnectionTerminated = assigned .connectionTerminated ops ∧ (after ops).dsHandlers = started ops ∧
    (after ops).conError = assignedAtDial .error ops := by
  induction ops with
  | nil => refine ⟨rfl, rfl, rfl, rfl, rfl, rfl, rfl, rfl, rfl, rfl, rfl, rfl, rfl, rfl, rfl, rfl⟩
  | cons o before ih =>
    obtain ⟨h1, h2, h3, h4, h5, h6, h7, h8, h9, h10, h11, h12, h13, h14, h15, h16⟩ := ih
    cases o with
    | set s f =>
      cases s <;> simp_all [after, act, set, assigned, assignedAtConnect, assignedAtDial, started]
    | connect => simp_all [after, act, connect, assigned, assignedAtConnect, assignedAtDial, started]
    | listen => simp_all [after, act, listen, assigned, assignedAtConnect, assignedAtDial, started]

/-- The receiver an event is for. -/
def receiver : Event → Option Slot
  | .metadata _ => some .metadata
  | .subscriptionUpdated => some .subscriptionUpdated
  | .dataStartTime => some .dataStartTime
  | .configurationChanged => some .configurationChanged
  | .newMeasurements => some .newMeasurements
  | .newBufferBlocks => some .newBufferBlocks
  | .notification => some .notification
  | .processingComplete => some .historicalReadComplete
  | .connectionEstablished => some .connectionEstablished
  | .connectionTerminated => some .connectionTerminated
  | _ => none

/-- C109: whatever an application assigned in whatever order, once it has connected or listened an event is handed to the receiver last assigned
for it, once, and to no other receiver; no receiver is called when nil was assigned. -/
theorem C109_receivers (ops : List Op) (hs : started ops = true) (e : Event) (s : Slot) (he : receiver e = some s) :
    (dispatch (after ops) e).filter (fun c => c.1 ≠ .status ∧ c.1 ≠ .error) = (assigned s ops).toList.map (fun f => (s, f)) := by
  obtain ⟨h1, h2, h3, h4, h5, h6, h7, h8, h9, h10, h11, h12, h13, h14, h15, h16⟩ := after_fields ops
  rw [hs] at h15
  have key : ∀ (s : Slot) (x : Option Nat), s ≠ .status → s ≠ .error →
      (call s x).filter (fun c => c.1 ≠ .status ∧ c.1 ≠ .error) = x.toList.map (fun f => (s, f)) := by
    intro s x hs he
    cases x <;> simp [call, hs, he]
  have key1 : ∀ x, (call .status x).filter (fun c => c.1 ≠ .status ∧ c.1 ≠ .error) = [] := by intro x; cases x <;> simp [call]
  have key2 : ∀ x, (call .error x).filter (fun c => c.1 ≠ .status ∧ c.1 ≠ .error) = [] := by intro x; cases x <;> simp [call]
  cases e <;> simp only [receiver, reduceCtorEq, Option.some.injEq] at he <;> subst he <;> unfold dispatch <;> dsimp only
  case metadata parsed =>
    rw [if_pos h15, handleMetadataReceived, h3]
    cases parsed
    · rw [if_neg (by simp), List.filter_append, List.filter_append, key1, key2, key _ _ (by simp) (by simp)]; rfl
    · rw [if_pos rfl, List.nil_append, List.filter_append, key1, key _ _ (by simp) (by simp)]; rfl
  case processingComplete =>
    rw [if_pos h15, handleProcessingComplete, h6, List.filter_append, key1, key _ _ (by simp) (by simp)]; rfl
  case subscriptionUpdated => rw [h10]; exact key _ _ (by simp) (by simp)
  case dataStartTime => rw [if_pos h15, h4]; exact key _ _ (by simp) (by simp)
  case configurationChanged => rw [if_pos h15, h5]; exact key _ _ (by simp) (by simp)
  case newMeasurements => rw [h11]; exact key _ _ (by simp) (by simp)
  case newBufferBlocks => rw [h12]; exact key _ _ (by simp) (by simp)
  case notification => rw [h13]; exact key _ _ (by simp) (by simp)
  case connectionEstablished => rw [h7]; exact key _ _ (by simp) (by simp)
  case connectionTerminated => rw [h14]; exact key _ _ (by simp) (by simp)

/-- The receiver of measurements assigned last, after connecting, gets them. -/
example : dispatch (after [.set .newMeasurements (some 9), .connect, .set .newMeasurements (some 8)]) .newMeasurements =
    [(.newMeasurements, 9)] := by decide +kernel

/-- C109, as far as messages go (the part that fails is `C109_logger_late_false`): a message of the `Subscriber` itself goes to the logger
assigned last; one of the transport layer goes to the logger that was assigned when the application last connected or listened (or last
connected, for errors of the connector). -/
theorem C109_loggers_partial (ops : List Op) :
    dispatch (after ops) .sbStatus = (assigned .status ops).toList.map (fun f => (.status, f)) ∧
    dispatch (after ops) .sbError = (assigned .error ops).toList.map (fun f => (.error, f)) ∧
    dispatch (after ops) .dsStatus = (assignedAtConnect .status ops).toList.map (fun f => (.status, f)) ∧
    dispatch (after ops) .dsError = (assignedAtConnect .error ops).toList.map (fun f => (.error, f)) ∧
    dispatch (after ops) .conError = (assignedAtDial .error ops).toList.map (fun f => (.error, f)) := by
  obtain ⟨h1, h2, h3, h4, h5, h6, h7, h8, h9, h10, h11, h12, h13, h14, h15, h16⟩ := after_fields ops
  have key : ∀ (s : Slot) (x : Option Nat), call s x = x.toList.map (fun f => (s, f)) := by
    intro s x; cases x <;> rfl
  unfold dispatch
  rw [h1, h2, h8, h9, h16]
  exact ⟨key _ _, key _ _, key _ _, key _ _, key _ _⟩

/-- An application that assigns its loggers before connecting has all messages logged by them. -/
example : dispatch (after [.connect, .set .error (some 7), .set .status (some 6)]) .dsStatus = [(.status, 6)] ∧
    dispatch (after [.connect, .set .error (some 7), .set .status (some 6)]) .conError = [(.error, 7)] := by decide +kernel

/-- C109 fails for the loggers: "Assignment will take effect immediately, even while subscription is active" (Subscriber.go L728-737), but a
logger assigned while connected gets none of the messages of the transport layer: they still go to the one before, until the next `Dial` or
`Listen`. -/
theorem C109_logger_late_false (before : List Op) (f g : Nat) (hf : assigned .error before = some f) :
    dispatch (after (.set .error (some g) :: .connect :: before)) .dsError = [(.error, f)] ∧
    dispatch (after (.set .error (some g) :: .connect :: before)) .conError = [(.error, f)] ∧
    dispatch (after (.set .error (some g) :: .connect :: before)) .sbError = [(.error, g)] := by
  obtain ⟨-, h2, -, h4, h5⟩ := C109_loggers_partial (.set .error (some g) :: .connect :: before)
  rw [h2, h4, h5]
  simp [assigned, assignedAtConnect, assignedAtDial, hf]

/-- With the default logger 1 in use, the newly assigned logger 9 does not get the errors of the transport layer. -/
example : assigned .error [] = some 1 ∧ dispatch (after [.set .error (some 9), .connect]) .dsError = [(.error, 1)] := by decide +kernel

/-! ## Assignment against dispatch -/

theorem go_same (s : St) (p : Nat) (t : Th) : (s.go p t).th p = t := if_pos rfl
theorem go_other {p q : Nat} (s : St) (t : Th) (h : q ≠ p) : (s.go p t).th q = s.th q := if_neg h
theorem go_field (s : St) (p : Nat) (t : Th) : (s.go p t).field = s.field := rfl

/-- What holds always when there is one mutex. -/
structure Inv (g : Guard) (s : St) : Prop where
  excl : ∀ p q, (s.th p).writes = true → (s.th q).reads = true → False
  two : ∀ p q, (s.th p).writes = true → (s.th q).writes = true → p = q
  tested : ∀ p, s.th p = .disp2 → ∃ f, s.field = some f
  now : ∀ p f, s.th p = .running f → s.field = some f
  fine : ∀ p, s.th p ≠ .panicked
  wrote : ∀ p v, s.th p = .set2 v → s.field = v
  goes : g.inline = true → ∀ p f, s.th p ≠ .spawned f ∧ s.th p ≠ .calling f

/-- A goroutine moves and touches neither the field nor any mutex that it did not hold. -/
theorem Inv.move {g : Guard} {s : St} (h : Inv g s) (p : Nat) (t : Th)
    (hw : t.writes = true → (s.th p).writes = true) (hr : t.reads = true → (s.th p).reads = true)
    (h2 : t = .disp2 → ∃ f, s.field = some f) (hn : ∀ f, t = .running f → s.field = some f) (hp : t ≠ .panicked)
    (h3 : ∀ v, t = .set2 v → s.field = v) (hg : g.inline = true → ∀ f, t ≠ .spawned f ∧ t ≠ .calling f) : Inv g (s.go p t) := by
  have back : ∀ q, (s.go p t).th q = t ∧ q = p ∨ (s.go p t).th q = s.th q ∧ q ≠ p := by
    intro q
    by_cases e : q = p
    · subst e; exact .inl ⟨go_same .., rfl⟩
    · exact .inr ⟨go_other _ _ e, e⟩
  have bw : ∀ q, ((s.go p t).th q).writes = true → (s.th q).writes = true := by
    intro q hq
    rcases back q with ⟨e, e'⟩ | ⟨e, -⟩
    · rw [e] at hq; rw [e']; exact hw hq
    · rwa [e] at hq
  have br : ∀ q, ((s.go p t).th q).reads = true → (s.th q).reads = true := by
    intro q hq
    rcases back q with ⟨e, e'⟩ | ⟨e, -⟩
    · rw [e] at hq; rw [e']; exact hr hq
    · rwa [e] at hq
  refine ⟨fun q r hq hr => h.excl q r (bw q hq) (br r hr), fun q r hq hr => h.two q r (bw q hq) (bw r hr), fun q hq => ?_, fun q f hq => ?_,
    fun q hq => ?_, fun q v hq => ?_, fun hi q f => ?_⟩
  · rcases back q with ⟨e, -⟩ | ⟨e, -⟩
    · exact h2 (e.symm.trans hq)
    · exact h.tested q (e.symm.trans hq)
  · rcases back q with ⟨e, -⟩ | ⟨e, -⟩
    · exact hn f (e.symm.trans hq)
    · exact h.now q f (e.symm.trans hq)
  · rcases back q with ⟨e, -⟩ | ⟨e, -⟩
    · exact hp (e.symm.trans hq)
    · exact h.fine q (e.symm.trans hq)
  · rcases back q with ⟨e, -⟩ | ⟨e, -⟩
    · exact h3 v (e.symm.trans hq)
    · exact h.wrote q v (e.symm.trans hq)
  · rcases back q with ⟨e, -⟩ | ⟨e, -⟩
    · rw [e]; exact hg hi f
    · rw [e]; exact h.goes hi q f

theorem Inv.step {g : Guard} (hg : g.same = true) {s t : St} {p : Nat} (h : Inv g s) (st : Step g s p t) : Inv g t := by
  cases st with
  | @lock v hp hw hr =>
    have hr := hr hg
    refine ⟨fun a b ha hb => ?_, fun a b ha hb => ?_, fun a ha => ?_, fun a f ha => ?_, fun a ha => ?_, fun a w ha => ?_, fun hi a f => ?_⟩
    · by_cases e : b = p
      · subst e; rw [go_same] at hb; simp [Th.reads] at hb
      · rw [go_other _ _ e, hr b] at hb; simp at hb
    · by_cases e : a = p
      · by_cases e' : b = p
        · rw [e, e']
        · rw [go_other _ _ e', hw b] at hb; simp at hb
      · rw [go_other _ _ e, hw a] at ha; simp at ha
    · by_cases e : a = p
      · subst e; rw [go_same] at ha; simp at ha
      · rw [go_other _ _ e] at ha; exact h.tested a ha
    · by_cases e : a = p
      · subst e; rw [go_same] at ha; simp at ha
      · rw [go_other _ _ e] at ha; exact h.now a f ha
    · by_cases e : a = p
      · subst e; rw [go_same] at ha; simp at ha
      · rw [go_other _ _ e] at ha; exact h.fine a ha
    · by_cases e : a = p
      · subst e; rw [go_same] at ha; simp at ha
      · rw [go_other _ _ e] at ha; exact h.wrote a w ha
    · by_cases e : a = p
      · subst e; rw [go_same]; exact ⟨by simp, by simp⟩
      · rw [go_other _ _ e]; exact h.goes hi a f
  | @assign v hp =>
    have hpw : (s.th p).writes = true := by rw [hp]; rfl
    refine ⟨fun a b ha hb => ?_, fun a b ha hb => ?_, fun a ha => ?_, fun a f ha => ?_, fun a ha => ?_, fun a w ha => ?_, fun hi a f => ?_⟩
    · have hb' : (s.th b).reads = true := by
        by_cases e : b = p
        · subst e; rw [go_same] at hb; simp [Th.reads] at hb
        · rwa [go_other _ _ e] at hb
      exact h.excl p b hpw hb'
    · have : ∀ a, (({ s with field := v } : St).go p (.set2 v)).th a |>.writes → a = p := by
        intro a ha
        by_cases e : a = p
        · exact e
        · rw [go_other _ _ e] at ha; exact h.two a p ha hpw
      rw [this a ha, this b hb]
    · by_cases e : a = p
      · subst e; rw [go_same] at ha; simp at ha
      · rw [go_other _ _ e] at ha
        have : s.th a = .disp2 := ha
        exact absurd (h.excl p a hpw (by rw [this]; rfl)) id
    · by_cases e : a = p
      · subst e; rw [go_same] at ha; simp at ha
      · rw [go_other _ _ e] at ha
        have : s.th a = .running f := ha
        exact absurd (h.excl p a hpw (by rw [this]; rfl)) id
    · by_cases e : a = p
      · subst e; rw [go_same] at ha; simp at ha
      · rw [go_other _ _ e] at ha; exact h.fine a ha
    · by_cases e : a = p
      · subst e; rw [go_same] at ha; injection ha
      · rw [go_other _ _ e] at ha
        have : s.th a = .set2 w := ha
        exact absurd (h.two a p (by rw [this]; rfl) hpw) e
    · by_cases e : a = p
      · subst e; rw [go_same]; exact ⟨by simp, by simp⟩
      · rw [go_other _ _ e]; exact h.goes hi a f
  | unlock hp => exact h.move p _ (by simp [Th.writes]) (by simp [Th.reads]) (by simp) (by simp) (by simp) (by simp) (by simp)
  | rlock hp hw =>
    have hw := hw hg
    refine ⟨fun a b ha hb => ?_, fun a b ha hb => ?_, fun a ha => ?_, fun a f ha => ?_, fun a ha => ?_, fun a w ha => ?_, fun hi a f => ?_⟩
    · by_cases e : a = p
      · subst e; rw [go_same] at ha; simp [Th.writes] at ha
      · rw [go_other _ _ e, hw a] at ha; simp at ha
    · by_cases e : a = p
      · subst e; rw [go_same] at ha; simp [Th.writes] at ha
      · rw [go_other _ _ e, hw a] at ha; simp at ha
    · by_cases e : a = p
      · subst e; rw [go_same] at ha; simp at ha
      · rw [go_other _ _ e] at ha; exact h.tested a ha
    · by_cases e : a = p
      · subst e; rw [go_same] at ha; simp at ha
      · rw [go_other _ _ e] at ha; exact h.now a f ha
    · by_cases e : a = p
      · subst e; rw [go_same] at ha; simp at ha
      · rw [go_other _ _ e] at ha; exact h.fine a ha
    · by_cases e : a = p
      · subst e; rw [go_same] at ha; simp at ha
      · rw [go_other _ _ e] at ha; exact h.wrote a w ha
    · by_cases e : a = p
      · subst e; rw [go_same]; exact ⟨by simp, by simp⟩
      · rw [go_other _ _ e]; exact h.goes hi a f
  | isNil hp _ =>
    exact h.move p _ (by simp [Th.writes]) (by rw [hp]; simp [Th.reads]) (by simp) (by simp) (by simp) (by simp) (by simp)
  | notNil hp hf =>
    exact h.move p _ (by simp [Th.writes]) (by rw [hp]; simp [Th.reads]) (fun _ => ⟨_, hf⟩) (by simp) (by simp) (by simp) (by simp)
  | begin_ hp hf _ =>
    exact h.move p _ (by simp [Th.writes]) (by rw [hp]; simp [Th.reads]) (by simp) (fun f e => by injection e with e; rw [← e]; exact hf)
      (by simp) (by simp) (by simp)
  | end_ hp =>
    exact h.move p _ (by simp [Th.writes]) (by rw [hp]; simp [Th.reads]) (by simp) (by simp) (by simp) (by simp) (by simp)
  | @spawn q f hp hf hi hq hne =>
    have h1 : Inv g (s.go p .disp3) :=
      h.move p _ (by simp [Th.writes]) (by rw [hp]; simp [Th.reads]) (by simp) (by simp) (by simp) (by simp) (by simp)
    exact h1.move q _ (by simp [Th.writes]) (by simp [Th.reads]) (by simp) (by simp) (by simp) (by simp) (by rw [hi]; simp)
  | panic hp hf => obtain ⟨f, e⟩ := h.tested p hp; rw [hf] at e; simp at e
  | runlock hp => exact h.move p _ (by simp [Th.writes]) (by simp [Th.reads]) (by simp) (by simp) (by simp) (by simp) (by simp)
  | @call f hp =>
    exact h.move p _ (by simp [Th.writes]) (by simp [Th.reads]) (by simp) (by simp) (by simp) (by simp)
      (fun hi => absurd hp (h.goes hi p f).1)
  | return_ hp => exact h.move p _ (by simp [Th.writes]) (by simp [Th.reads]) (by simp) (by simp) (by simp) (by simp) (by simp)

theorem begins_inv {g : Guard} {s : St} (h : Begins s) : Inv g s := by
  refine ⟨fun a b ha hb => ?_, fun a b ha hb => ?_, fun a ha => ?_, fun a f ha => ?_, fun a ha => ?_, fun a w ha => ?_, fun hi a f => ?_⟩
  all_goals rcases h a with e | e | ⟨v, e⟩
  all_goals first | rw [e] at ha | rw [e]
  all_goals first | (simp [Th.writes] at ha; done) | (simp at ha; done) | simp

theorem steps_inv {g : Guard} (hg : g.same = true) {P : Nat → Prop} {s t : St} (h : Inv g s) (st : Steps g P s t) : Inv g t := by
  induction st with
  | refl => exact h
  | step _ _ st ih => exact ih.step hg st

/-- C109: of every callback but the one for new subscriptions, nil is never called, however assignments (also of nil) and events coincide. -/
theorem C109_no_nil_call (x : Slot) (hx : x ≠ .subscriptionUpdated) {s t : St} (h : Begins s) (st : Steps (guard x) (fun _ => True) s t) (p : Nat) :
    t.th p ≠ .panicked :=
  (steps_inv (by cases x <;> first | rfl | exact absurd rfl hx) (begins_inv h) st).fine p

/-- A step that is not an assignment leaves the field as it is. -/
theorem field_kept {g : Guard} {s t : St} {p : Nat} (st : Step g s p t) (hp : ∀ v, s.th p ≠ .set1 v) : t.field = s.field := by
  cases st with
  | assign h => exact absurd h (hp _)
  | _ => rfl

/-- A setter that has assigned is a setter that returns. -/
theorem set2_next {g : Guard} {s t : St} {p : Nat} {v : Option Nat} (st : Step g s p t) (h : s.th p = .set2 v) : t.th p = .returned := by
  cases st with
  | unlock _ => exact go_same ..
  | spawn h' _ _ _ hne => rw [h] at h'; simp at h'
  | _ => simp_all

theorem returned_stuck {g : Guard} {s t : St} {p : Nat} (st : Step g s p t) (h : s.th p = .returned) : False := by
  cases st <;> simp_all

/-- Where a goroutine other than the one that acts is: where it was, or it has just been started. -/
theorem others {g : Guard} {s t : St} {p q : Nat} (st : Step g s p t) (hq : q ≠ p) :
    t.th q = s.th q ∨ s.th q = .idle ∧ ∃ f, t.th q = .spawned f ∧ s.field = some f := by
  cases st with
  | @spawn r f h hf hi hr hne =>
    by_cases e : q = r
    · subst e; exact .inr ⟨hr, f, go_same .., hf⟩
    · left; rw [go_other _ _ e, go_other _ _ hq]
  | _ => left; rw [go_other _ _ hq]

/-- Goroutines that do not assign do not come to assign. -/
theorem no_setter {g : Guard} {s t : St} {p q : Nat} (st : Step g s p t) (h : ∀ v, s.th q ≠ .set1 v ∧ s.th q ≠ .set0 v) :
    ∀ v, t.th q ≠ .set1 v ∧ t.th q ≠ .set0 v := by
  intro v
  by_cases e : q = p
  · subst e
    cases st with
    | lock h' => exact absurd h' (h _).2
    | spawn _ _ _ _ hne => rw [go_other _ _ hne, go_same]; simp
    | _ => rw [go_same]; simp
  · rcases others st e with e | ⟨-, f, e, -⟩
    · rw [e]; exact h v
    · rw [e]; simp

/-- C109: assignment takes effect immediately. A call of a `Set...` method has assigned `v`; from then on, as long as no other assignment is made,
whatever is dispatched, every call of the callback that is under way on the goroutine of its event is one of `v`, and every goroutine that is
started for the callback is started with `v`. This is for all callbacks but the one for new subscriptions. -/
theorem C109_immediate (x : Slot) (hx : x ≠ .subscriptionUpdated) {s t u : St} (h : Begins s) (st : Steps (guard x) (fun _ => True) s t)
    {p : Nat} {v : Option Nat} (hp : t.th p = .set2 v) (P : Nat → Prop) (hP : ∀ q, P q → ∀ w, t.th q ≠ .set0 w ∧ t.th q ≠ .set1 w)
    (su : Steps (guard x) P t u) (q f : Nat) :
    (u.th q = .running f → v = some f) ∧ (u.th q = .spawned f → t.th q = .idle → v = some f) := by
  have hg : (guard x).same = true := by cases x <;> first | rfl | exact absurd rfl hx
  have hi := steps_inv hg (begins_inv h) st
  have key : Inv (guard x) u ∧ u.field = v ∧ (∀ q, P q → ∀ w, u.th q ≠ .set1 w ∧ u.th q ≠ .set0 w) ∧
      (∀ q f, u.th q = .spawned f → t.th q = .idle → v = some f) := by
    induction su with
    | refl => exact ⟨hi, hi.wrote p v hp, fun q hq w => ⟨(hP q hq w).2, (hP q hq w).1⟩, fun q f h1 h2 => by rw [h1] at h2; simp at h2⟩
    | @step t' u r su hr step ih =>
      obtain ⟨i1, i2, i3, i4⟩ := ih
      refine ⟨i1.step hg step, (field_kept step (fun w => (i3 r hr w).1)).trans i2, fun q hq => no_setter step (i3 q hq), fun q f h1 h2 => ?_⟩
      by_cases e : q = r
      · subst e
        cases step with
        | spawn _ _ _ _ hne => rw [go_other _ _ hne, go_same] at h1; simp at h1
        | _ => rw [go_same] at h1; simp at h1
      · rcases others step e with e | ⟨-, f', e, hf⟩
        · exact i4 q f (e.symm.trans h1) h2
        · rw [e] at h1; injection h1 with h1; rw [← h1, ← hf]; exact i2.symm
  exact ⟨fun hq => key.2.1.symm.trans (key.1.now q f hq), fun h1 h2 => key.2.2.2 q f h1 h2⟩

/-- C109: and for callbacks called on the goroutine of their event, when a `Set...` method has assigned `v` the old callback is not running: all
callbacks but those for new subscriptions and notifications (and messages of the transport layer). -/
theorem C109_old_is_over (x : Slot) (hx : x ≠ .subscriptionUpdated) (hn : x ≠ .notification) {s t : St} (h : Begins s)
    (st : Steps (guard x) (fun _ => True) s t) {p : Nat} {v : Option Nat} (hp : t.th p = .set2 v) (q f : Nat) :
    t.th q ≠ .running f ∧ t.th q ≠ .spawned f ∧ t.th q ≠ .calling f := by
  have hi := steps_inv (show (guard x).same = true by cases x <;> first | rfl | exact absurd rfl hx) (begins_inv h) st
  have hg : (guard x).inline = true := by cases x <;> first | rfl | exact absurd rfl hx | exact absurd rfl hn
  exact ⟨fun hq => hi.excl p q (by rw [hp]; rfl) (by rw [hq]; rfl), hi.goes hg q f⟩

/-- Two goroutines, 0 dispatching and 1 assigning `v`. -/
def two (f : Option Nat) (v : Option Nat) : St := ⟨f, fun p => if p = 0 then .disp0 else if p = 1 then .set0 v else .idle⟩

theorem two_begins (f v : Option Nat) : Begins (two f v) := by
  intro p
  unfold two
  dsimp only
  split
  · exact .inr (.inl rfl)
  · split
    · exact .inr (.inr ⟨v, rfl⟩)
    · exact .inl rfl

theorem snoc {g : Guard} {s t u : St} (h : Steps g (fun _ => True) s t) (p : Nat) (st : Step g t p u) : Steps g (fun _ => True) s u :=
  .step h trivial st

/-- The hypotheses of `C109_immediate` and `C109_old_is_over` are met: an assignment of 8 over 7. -/
example : ∃ t, Steps (guard .newMeasurements) (fun _ => True) (two (some 7) (some 8)) t ∧ t.th 1 = .set2 (some 8) := by
  refine ⟨_, snoc (snoc .refl 1 (.lock (v := some 8) rfl ?_ ?_)) 1 (.assign (v := some 8) rfl), rfl⟩
  · intro q; unfold two; dsimp only; split
    · rfl
    · split <;> rfl
  · intro _ q; unfold two; dsimp only; split
    · rfl
    · split <;> rfl

/-- C109 fails for the callback for new subscriptions: `SetSubscriptionUpdatedReceiver` (Subscriber.go L757-761) locks another mutex than the
dispatch (DataSubscriber.go L1096-1102), so nil can be assigned between the test and the call, and the process ends with a panic. -/
theorem C109_subscription_updated_panics :
    ∃ t, Steps (guard .subscriptionUpdated) (fun _ => True) (two (some 7) none) t ∧ t.th 0 = .panicked := by
  refine ⟨_, snoc (snoc (snoc (snoc (snoc .refl 0 (.rlock rfl ?_)) 0 (.notNil (f := 7) rfl rfl)) 1 (.lock (v := none) rfl ?_ ?_)) 1
    (.assign (v := none) rfl)) 0 (.panic rfl rfl), rfl⟩
  · intro h; exact absurd h (by decide)
  · intro q
    unfold two St.go; dsimp only
    repeat' split
    all_goals rfl
  · intro h; exact absurd h (by decide)

/-- C109 fails for notifications: they are handed over by `go` (DataSubscriber.go L1479), so after `SetNotificationReceiver` has returned, the receiver
assigned before it can still be called, for the first time. -/
theorem C109_notification_after_set_false :
    ∃ t u, Steps (guard .notification) (fun _ => True) (two (some 7) (some 8)) t ∧ t.th 1 = .returned ∧ (∀ q, t.th q ≠ .calling 7) ∧
      Step (guard .notification) t 2 u ∧ u.th 2 = .calling 7 := by
  refine ⟨_, _, snoc (snoc (snoc (snoc (snoc (snoc (snoc .refl 0 (.rlock rfl ?_)) 0 (.notNil (f := 7) rfl rfl))
    0 (.spawn (q := 2) (f := 7) rfl rfl rfl rfl (by decide))) 0 (.runlock rfl)) 1 (.lock (v := some 8) rfl ?_ ?_)) 1 (.assign (v := some 8) rfl))
    1 (.unlock rfl), rfl, ?_, .call (f := 7) rfl, rfl⟩
  · intro _ q; unfold two; dsimp only; split
    · rfl
    · split <;> rfl
  all_goals
    intros
    unfold two St.go; dsimp only
    repeat' split
    all_goals first | rfl | simp

/-! ## The order of delivery -/

/-- C109: events that are handed over on the goroutine of the reader (measurements, buffer blocks, start times) are handed over in the order in
which they came, each once. -/
theorem C109_inline_in_order (acts : List Act) :
    (acts.foldl (Log.act true) ⟨[], []⟩).log = acts.filterMap (fun | .event e => some e | .run _ => none) := by
  have key : ∀ (l : Log), l.pending = [] →
      (acts.foldl (Log.act true) l).log = l.log ++ acts.filterMap (fun | .event e => some e | .run _ => none) := by
    induction acts with
    | nil => intro l _; simp
    | cons a rest ih =>
      intro l hl
      cases a with
      | event e =>
        rw [List.foldl_cons, ih _ (by simp [Log.act, hl])]
        simp [Log.act]
      | run i =>
        have : Log.act true l (.run i) = l := by simp [Log.act, hl]
        rw [List.foldl_cons, this, ih _ hl]
        rfl
  simpa using key ⟨[], []⟩ rfl

/-- C109: events handed over by `go` (messages, notifications, new subscriptions) are handed over at most once each, and when no goroutine is
left to run, each exactly once. -/
theorem C109_go_once (acts : List Act) :
    let l := acts.foldl (Log.act false) ⟨[], []⟩
    List.Perm (l.log ++ l.pending) (acts.filterMap (fun | .event e => some e | .run _ => none)) := by
  have key : ∀ (l : Log), List.Perm ((acts.foldl (Log.act false) l).log ++ (acts.foldl (Log.act false) l).pending)
      (l.log ++ l.pending ++ acts.filterMap (fun | .event e => some e | .run _ => none)) := by
    induction acts with
    | nil => intro l; simp
    | cons a rest ih =>
      intro l
      rw [List.foldl_cons]
      refine (ih _).trans ?_
      cases a with
      | event e => simp [Log.act]
      | run i =>
        rw [List.filterMap_cons_none rfl]
        refine List.Perm.append_right _ ?_
        rcases hc : l.pending[i]? with _ | e
        · rw [show Log.act false l (.run i) = l by simp [Log.act, hc]]
        · rw [show Log.act false l (.run i) = ⟨l.pending.eraseIdx i, l.log ++ [e]⟩ by simp [Log.act, hc]]
          dsimp only
          rw [List.append_assoc]
          refine List.Perm.append_left _ ?_
          obtain ⟨hlt, rfl⟩ := List.getElem?_eq_some_iff.mp hc
          exact List.getElem_cons_eraseIdx_perm hlt
  exact key ⟨[], []⟩

/-- C109 fails for the order of events handed over by `go`: every order of delivery is possible, whatever the order in which the events came.
Notifications may be received in the wrong order, and of two signal index caches the older one may be handed over last. -/
theorem C109_go_any_order_false (events order : List Nat) (h : List.Perm order events) :
    ∃ runs : List Act, ((events.map Act.event ++ runs).foldl (Log.act false) ⟨[], []⟩) = ⟨[], order⟩ := by
  have h1 : ∀ (l : Log), (events.map Act.event).foldl (Log.act false) l = ⟨l.pending ++ events, l.log⟩ := by
    clear h
    induction events with
    | nil => intro l; simp
    | cons e rest ih => intro l; rw [List.map_cons, List.foldl_cons, ih]; simp [Log.act]
  have h2 : ∀ (order : List Nat) (l : Log), List.Perm order l.pending →
      ∃ runs : List Act, runs.foldl (Log.act false) l = ⟨[], l.log ++ order⟩ := by
    intro order
    induction order with
    | nil => intro l hl; exact ⟨[], by have := hl.nil_eq; obtain ⟨p, q⟩ := l; simp_all⟩
    | cons e rest ih =>
      intro l hl
      obtain ⟨i, hi, he⟩ := List.getElem_of_mem (hl.mem_iff.mp (List.mem_cons_self))
      have hact : Log.act false l (.run i) = ⟨l.pending.eraseIdx i, l.log ++ [e]⟩ := by
        simp [Log.act, List.getElem?_eq_getElem hi, he]
      have hp : List.Perm rest (l.pending.eraseIdx i) := by
        have := List.getElem_cons_eraseIdx_perm hi
        rw [he] at this
        exact (List.perm_cons e).mp (hl.trans this.symm)
      obtain ⟨runs, hr⟩ := ih (Log.act false l (.run i)) (by rw [hact]; exact hp)
      refine ⟨.run i :: runs, ?_⟩
      rw [List.foldl_cons, hr, hact]
      simp
  obtain ⟨runs, hr⟩ := h2 order ⟨events, []⟩ h
  refine ⟨runs, ?_⟩
  rw [List.foldl_append, h1]
  simpa using hr

example : List.Perm [2, 1] [1, 2] := by decide

end Verif.Client.Callbacks
