import Mathlib.Logic.Function.Basic

/-!
# C128: stopping to read measurements

A `MeasurementReader` (sttp/MeasurementReader.go) is fed by a callback that the goroutine of the command channel runs, holding the read side of the
callback lock (DataSubscriber.go L1253-1261): it hands over a measurement at a time on a channel without buffer and waits for somebody to call
`NextMeasurement`. Here are that goroutine, any number of readers, each with any number of goroutines in `NextMeasurement`, `Close` of readers, the
disconnect thread (L651-725), which waits for that goroutine to end, and the assignment of another receiver (Subscriber.go L784-790 and `ReadMeasurements`,
L439-441), which takes the write side of the lock. `sync.RWMutex`: `Lock` announces the writer, from then on `RLock` waits, and the writer waits for those
that hold the read side. Batches come from the command channel as long as its socket is open; other responses take no part. The connection is
established, and one `Disconnect` is made (C117 and C108 have more of them); the callbacks other than that of a reader return.
-/

namespace Verif.Sync.Stop

open Function (update)

/-- The goroutine of the command channel. (DataSubscriber.go L801-877, L1253-1261) -/
inductive RPc (μ : Type) where
  /-- before the test of `connected` (L804) -/
  | loop
  /-- reading (L805, L852) -/
  | read
  /-- a batch is decoded, before `BeginCallbackSync` (L1253) -/
  | lock (batch : List μ)
  /-- in the callback of reader `c`, with these measurements still to send (L1258; MeasurementReader.go L41-45) -/
  | send (c : Nat) (rest : List μ)
  | ended

/-- The disconnect thread. (DataSubscriber.go L651-725) -/
inductive DPc where
  | idle
  /-- before closing the socket (L666) -/
  | close
  /-- before `Join` of the goroutine of the command channel has returned (L684) -/
  | join
  /-- before `BeginCallbackSync` (L695) -/
  | sync
  | done
  deriving DecidableEq

/-- The assignment of a receiver: `none` is a receiver that is no reader. (Subscriber.go L784-790) -/
inductive WPc where
  | idle
  /-- in `Lock`, announced -/
  | pending (c : Option Nat)
  | holding (c : Option Nat)
  deriving DecidableEq

/-- The goroutines and what they share. (DataSubscriber.go L56-75, MeasurementReader.go L32-34) -/
structure St (μ : Type) where
  r : RPc μ
  d : DPc
  w : WPc
  /-- batches that the publisher has sent or will send -/
  batches : List (List μ)
  connected : Bool
  /-- the socket of the command channel is open -/
  socket : Bool
  /-- the reader whose callback is assigned -/
  recv : Option Nat
  /-- how many goroutines are in `NextMeasurement` of a reader -/
  waiting : Nat → Nat
  /-- readers closed -/
  closed : Nat → Bool
  /-- a send on a closed channel, or a second close of one, has ended the program -/
  crashed : Bool
  /-- what `NextMeasurement` returned, of which reader -/
  log : List (Nat × μ)

variable {μ : Type}

/-- A connection is established, no receiver is assigned. (DataSubscriber.go L400-420) -/
def init (batches : List (List μ)) : St μ :=
  ⟨.loop, .idle, .idle, batches, true, true, none, fun _ => 0, fun _ => false, false, []⟩

/-- What may happen next. (DataSubscriber.go L651-725, L801-877; Subscriber.go L784-790; MeasurementReader.go L37-69) -/
inductive Act where
  /-- the goroutine of the command channel goes on -/
  | resp
  /-- the disconnect thread goes on -/
  | dis
  /-- the assignment goes on -/
  | writer
  /-- `NextMeasurement` of reader `c` is called -/
  | call (c : Nat)
  /-- a call of `NextMeasurement` returns without a measurement -/
  | leave (c : Nat)
  /-- `Close` of reader `c` -/
  | closeReader (c : Nat)
  /-- `Disconnect` -/
  | disconnect
  /-- `SetNewMeasurementsReceiver`, `ReadMeasurements` -/
  | assign (c : Option Nat)
  deriving DecidableEq

/-- `Lock` has been called, so that `RLock` waits (`sync.RWMutex`, DataSubscriber.go L216-224). -/
def WPc.busy : WPc → Bool
  | .idle => false
  | _ => true

/-- The callback begins: that of the reader assigned, if any. (DataSubscriber.go L1255-1258) -/
def begin (recv : Option Nat) (batch : List μ) : RPc μ :=
  match recv with
  | some c => .send c batch
  | none => .send 0 []

/-- Sending a measurement on the channel of reader `c`. (MeasurementReader.go L43, L60) -/
def hand (s : St μ) (c : Nat) (m : μ) (ms : List μ) : Option (St μ) :=
  if s.closed c then some { s with crashed := true }
  else if s.waiting c = 0 then none
  else some { s with r := .send c ms, waiting := update s.waiting c (s.waiting c - 1), log := s.log ++ [(c, m)] }

/-- The goroutine of the command channel. (DataSubscriber.go L801-877, L1253-1261) -/
def stepR (s : St μ) : Option (St μ) :=
  match s.r with
  | .loop => some { s with r := if s.connected then .read else .ended }
  | .read =>
    if s.socket then
      match s.batches with
      | [] => none
      | b :: bs => some { s with r := if s.connected then .lock b else .loop, batches := bs }
    else some { s with r := .loop }
  | .lock b => if s.w.busy then none else some { s with r := begin s.recv b }
  | .send c (m :: ms) => hand s c m ms
  | .send _ [] => some { s with r := .loop }
  | .ended => none

/-- `Join` of the goroutine of the command channel returns. (DataSubscriber.go L684) -/
def RPc.over : RPc μ → Bool
  | .ended => true
  | _ => false

/-- The goroutine of the command channel holds the read side of the lock. (DataSubscriber.go L1253-1261) -/
def RPc.inside : RPc μ → Bool
  | .send _ _ => true
  | _ => false

/-- The disconnect thread; the callback of L697-699 and the flags of L704-705 are one step with the lock. (DataSubscriber.go L651-725) -/
def stepD (s : St μ) : Option (St μ) :=
  match s.d with
  | .idle => none
  | .close => some { s with d := .join, socket := false }
  | .join => if s.r.over then some { s with d := .sync } else none
  | .sync => if s.w.busy then none else some { s with d := .done }
  | .done => none

/-- The assignment. (Subscriber.go L784-790, DataSubscriber.go L216-219, L231-234) -/
def stepW (s : St μ) : Option (St μ) :=
  match s.w with
  | .idle => none
  | .pending c => if s.r.inside then none else some { s with w := .holding c }
  | .holding c => some { s with w := .idle, recv := c }

/-- One action, `none` when it is not possible; none is after a crash. (DataSubscriber.go L590-725, L801-877; MeasurementReader.go L37-69) -/
def step (s : St μ) (a : Act) : Option (St μ) :=
  if s.crashed then none
  else match a with
    | .resp => stepR s
    | .dis => stepD s
    | .writer => stepW s
    | .call c => some { s with waiting := update s.waiting c (s.waiting c + 1) }
    | .leave c => if s.waiting c = 0 then none else some { s with waiting := update s.waiting c (s.waiting c - 1) }
    | .closeReader c => some (if s.closed c then { s with crashed := true } else { s with closed := update s.closed c true })
    | .disconnect => if s.d = .idle then some { s with d := .close, connected := false } else none
    | .assign c => if s.w = .idle then some { s with w := .pending c } else none

/-- A schedule. (DataSubscriber.go L590-725, L801-877; MeasurementReader.go L37-69) -/
def exec (s : St μ) : List Act → Option (St μ)
  | [] => some s
  | a :: as => (step s a).bind (fun t => exec t as)

/-! ## Specification -/

/-- Actions of the goroutines of the package, as against those of the application. -/
def Act.own : Act → Bool
  | .resp | .dis | .writer => true
  | _ => false

/-- An assignment begins. -/
def Act.assigns : Act → Bool
  | .assign _ => true
  | _ => false

/-- The callback of reader `c` has `m` to hand over, the reader is open, and nobody is in its `NextMeasurement`. -/
def Blocked (s : St μ) (c : Nat) : Prop := (∃ m ms, s.r = .send c (m :: ms)) ∧ s.closed c = false ∧ s.waiting c = 0

/-- Everything is over: the connection is closed, its goroutine has ended, and no assignment is under way. -/
def Complete (s : St μ) : Prop := s.d = .done ∧ s.w = .idle ∧ s.r.over = true

/-- What the goroutine of the command channel has decoded and not handed over yet. -/
def RPc.inHand : RPc μ → List μ
  | .lock b => b
  | .send _ rest => rest
  | _ => []

/-- That, and what is to come. -/
def todo (s : St μ) : List μ := s.r.inHand ++ s.batches.flatten

/-! ## Lemmas -/

/-- What holds in every state. -/
structure Inv (s : St μ) : Prop where
  conn : s.connected = true ↔ s.d = .idle
  sock : s.socket = true ↔ s.d = .idle ∨ s.d = .close
  over : s.d = .sync ∨ s.d = .done → s.r.over = true
  hold : ∀ c, s.w = .holding c → s.r.inside = false

theorem inv_init (batches : List (List μ)) : Inv (init batches) := by
  constructor <;> simp [init]

theorem hand_cases {s t : St μ} {c : Nat} {m : μ} {ms : List μ} (h : hand s c m ms = some t) :
    (s.closed c = true ∧ t = { s with crashed := true }) ∨
    (s.closed c = false ∧ s.waiting c ≠ 0 ∧
      t = { s with r := .send c ms, waiting := update s.waiting c (s.waiting c - 1), log := s.log ++ [(c, m)] }) := by
  unfold hand at h
  split at h
  · rename_i hc; injection h with h; exact Or.inl ⟨hc, h.symm⟩
  · rename_i hc
    split at h
    · cases h
    · rename_i hw; injection h with h; exact Or.inr ⟨by simpa using hc, hw, h.symm⟩

/-- The steps of the goroutine of the command channel, one by one. -/
theorem stepR_cases {s t : St μ} (h : stepR s = some t) :
    (s.r = .loop ∧ t = { s with r := if s.connected then .read else .ended }) ∨
    (s.r = .read ∧ s.socket = false ∧ t = { s with r := .loop }) ∨
    (∃ b bs, s.r = .read ∧ s.socket = true ∧ s.batches = b :: bs ∧ t = { s with r := if s.connected then .lock b else .loop, batches := bs }) ∨
    (∃ b, s.r = .lock b ∧ s.w.busy = false ∧ t = { s with r := begin s.recv b }) ∨
    (∃ c m ms, s.r = .send c (m :: ms) ∧ hand s c m ms = some t) ∨
    (∃ c, s.r = .send c [] ∧ t = { s with r := .loop }) := by
  unfold stepR at h
  split at h
  · rename_i hr; injection h with h; exact Or.inl ⟨hr, h.symm⟩
  · rename_i hr
    split at h
    · rename_i hs
      split at h
      · cases h
      · rename_i b bs hb; injection h with h; exact Or.inr (Or.inr (Or.inl ⟨b, bs, hr, hs, hb, h.symm⟩))
    · rename_i hs; injection h with h; exact Or.inr (Or.inl ⟨hr, by simpa using hs, h.symm⟩)
  · rename_i b hr
    split at h
    · cases h
    · rename_i hw; injection h with h; exact Or.inr (Or.inr (Or.inr (Or.inl ⟨b, hr, by simpa using hw, h.symm⟩)))
  · rename_i c m ms hr; exact Or.inr (Or.inr (Or.inr (Or.inr (Or.inl ⟨c, m, ms, hr, h⟩))))
  · rename_i c hr; injection h with h; exact Or.inr (Or.inr (Or.inr (Or.inr (Or.inr ⟨c, hr, h.symm⟩))))
  · cases h

theorem stepD_cases {s t : St μ} (h : stepD s = some t) :
    (s.d = .close ∧ t = { s with d := .join, socket := false }) ∨
    (s.d = .join ∧ s.r.over = true ∧ t = { s with d := .sync }) ∨
    (s.d = .sync ∧ s.w.busy = false ∧ t = { s with d := .done }) := by
  unfold stepD at h
  split at h
  · cases h
  · rename_i hd; injection h with h; exact Or.inl ⟨hd, h.symm⟩
  · rename_i hd
    split at h
    · rename_i ho; injection h with h; exact Or.inr (Or.inl ⟨hd, ho, h.symm⟩)
    · cases h
  · rename_i hd
    split at h
    · cases h
    · rename_i ho; injection h with h; exact Or.inr (Or.inr ⟨hd, by simpa using ho, h.symm⟩)
  · cases h

theorem stepW_cases {s t : St μ} (h : stepW s = some t) :
    (∃ c, s.w = .pending c ∧ s.r.inside = false ∧ t = { s with w := .holding c }) ∨
    (∃ c, s.w = .holding c ∧ t = { s with w := .idle, recv := c }) := by
  unfold stepW at h
  split at h
  · cases h
  · rename_i c hw
    split at h
    · cases h
    · rename_i hi; injection h with h; exact Or.inl ⟨c, hw, by simpa using hi, h.symm⟩
  · rename_i c hw; injection h with h; exact Or.inr ⟨c, hw, h.symm⟩

theorem begin_inside (recv : Option Nat) (b : List μ) : (begin recv b).inside = true := by
  cases recv <;> rfl

theorem begin_over (recv : Option Nat) (b : List μ) : (begin recv b).over = false := by
  cases recv <;> rfl

theorem inv_step {s t : St μ} {a : Act} (hi : Inv s) (h : step s a = some t) : Inv t := by
  obtain ⟨i1, i2, i3, i4⟩ := hi
  unfold step at h
  split at h
  · cases h
  cases a with
  | resp =>
    rcases stepR_cases h with ⟨hr, rfl⟩ | ⟨hr, hs, rfl⟩ | ⟨b, bs, hr, hs, hb, rfl⟩ | ⟨b, hr, hw, rfl⟩ | ⟨c, m, ms, hr, hh⟩ | ⟨c, hr, rfl⟩
    · refine ⟨i1, i2, fun hd => ?_, fun c hc => ?_⟩
      · have := i3 hd; rw [hr] at this; cases this
      · dsimp only; split <;> rfl
    · refine ⟨i1, i2, fun hd => ?_, fun c hc => rfl⟩
      have := i3 hd; rw [hr] at this; cases this
    · refine ⟨i1, i2, fun hd => ?_, fun c hc => ?_⟩
      · have := i3 hd; rw [hr] at this; cases this
      · dsimp only; split <;> rfl
    · refine ⟨i1, i2, fun hd => ?_, fun c hc => ?_⟩
      · have := i3 hd; rw [hr] at this; cases this
      · dsimp only at hc; rw [hc] at hw; cases hw
    · rcases hand_cases hh with ⟨-, rfl⟩ | ⟨-, -, rfl⟩
      · exact ⟨i1, i2, i3, i4⟩
      · refine ⟨i1, i2, fun hd => ?_, fun c' hc => ?_⟩
        · have := i3 hd; rw [hr] at this; cases this
        · have := i4 c' hc; rw [hr] at this; cases this
    · refine ⟨i1, i2, fun hd => ?_, fun c hc => rfl⟩
      have := i3 hd; rw [hr] at this; cases this
  | dis =>
    rcases stepD_cases h with ⟨hd, rfl⟩ | ⟨hd, ho, rfl⟩ | ⟨hd, ho, rfl⟩
    · exact ⟨by simp [i1, hd], by simp, by simp, i4⟩
    · exact ⟨by simp [i1, hd], by simp [i2, hd], fun _ => ho, i4⟩
    · exact ⟨by simp [i1, hd], by simp [i2, hd], fun _ => i3 (Or.inl hd), i4⟩
  | writer =>
    rcases stepW_cases h with ⟨c, hw, hr, rfl⟩ | ⟨c, hw, rfl⟩
    · exact ⟨i1, i2, i3, fun _ _ => hr⟩
    · exact ⟨i1, i2, i3, fun _ hc => by cases hc⟩
  | call c => injection h with h; subst h; exact ⟨i1, i2, i3, i4⟩
  | leave c =>
    dsimp only at h
    split at h
    · cases h
    · injection h with h; subst h; exact ⟨i1, i2, i3, i4⟩
  | closeReader c =>
    injection h with h; subst h
    split <;> exact ⟨i1, i2, i3, i4⟩
  | disconnect =>
    dsimp only at h
    split at h
    · rename_i hd
      injection h with h; subst h
      exact ⟨by simp, by simp [i2, hd], by simp, i4⟩
    · cases h
  | assign c =>
    dsimp only at h
    split at h
    · rename_i hw
      injection h with h; subst h
      exact ⟨i1, i2, i3, by simp⟩
    · cases h

theorem inv_exec {s t : St μ} {as : List Act} (hi : Inv s) (h : exec s as = some t) : Inv t := by
  induction as generalizing s with
  | nil => injection h with h; subst h; exact hi
  | cons a as ih =>
    unfold exec at h
    cases hs : step s a with
    | none => rw [hs] at h; cases h
    | some u => rw [hs] at h; exact ih (inv_step hi hs) h

/-- How many steps there may still be, of the goroutine of the command channel, of the disconnect thread and of the assignment. -/
def RPc.left : RPc μ → Nat
  | .loop => 1
  | .read => 2
  | .lock b => b.length + 3
  | .send _ rest => rest.length + 2
  | .ended => 0

def DPc.left : DPc → Nat
  | .idle => 4
  | .close => 3
  | .join => 2
  | .sync => 1
  | .done => 0

def WPc.left : WPc → Nat
  | .idle => 0
  | .pending _ => 2
  | .holding _ => 1

def St.left (s : St μ) : Nat := s.r.left + s.d.left + s.w.left + (if s.crashed then 0 else 1)

theorem begin_left (recv : Option Nat) (b : List μ) : (begin recv b).left < (RPc.lock b).left := by
  cases recv <;> simp [begin, RPc.left]

/-- A step of the package takes one off, those of the application none, but for an assignment. -/
theorem left_step {s t : St μ} {a : Act} (hc : s.connected = false) (hi : Inv s) (h : step s a = some t) :
    t.connected = false ∧ t.left + (if a.own then 1 else 0) ≤ s.left + (if a.assigns then 2 else 0) := by
  unfold step at h
  split at h
  · cases h
  rename_i hcr
  have hcr : s.crashed = false := by simpa using hcr
  cases a with
  | resp =>
    simp only [Act.own, Act.assigns, if_true, Bool.false_eq_true, if_false]
    rcases stepR_cases h with ⟨hr, rfl⟩ | ⟨hr, hs, rfl⟩ | ⟨b, bs, hr, hs, hb, rfl⟩ | ⟨b, hr, hw, rfl⟩ | ⟨c, m, ms, hr, hh⟩ | ⟨c, hr, rfl⟩
    · refine ⟨hc, ?_⟩; simp [St.left, hr, hc, RPc.left]; omega
    · refine ⟨hc, ?_⟩; simp [St.left, hr, RPc.left]; omega
    · refine ⟨hc, ?_⟩; simp [St.left, hr, hc, RPc.left]; omega
    · refine ⟨hc, ?_⟩
      have := begin_left s.recv b
      simp only [St.left, hr]; omega
    · rcases hand_cases hh with ⟨-, rfl⟩ | ⟨-, -, rfl⟩
      · refine ⟨hc, ?_⟩; simp [St.left, hcr]
      · refine ⟨hc, ?_⟩; simp [St.left, hr, RPc.left]; omega
    · refine ⟨hc, ?_⟩; simp [St.left, hr, RPc.left]; omega
  | dis =>
    simp only [Act.own, Act.assigns, if_true, Bool.false_eq_true, if_false]
    rcases stepD_cases h with ⟨hd, rfl⟩ | ⟨hd, ho, rfl⟩ | ⟨hd, ho, rfl⟩ <;>
    · refine ⟨hc, ?_⟩; simp [St.left, hd, DPc.left]; omega
  | writer =>
    simp only [Act.own, Act.assigns, if_true, Bool.false_eq_true, if_false]
    rcases stepW_cases h with ⟨c, hw, hr, rfl⟩ | ⟨c, hw, rfl⟩ <;>
    · refine ⟨hc, ?_⟩; simp [St.left, hw, WPc.left]; omega
  | call c => injection h with h; subst h; exact ⟨hc, by simp [Act.own, Act.assigns, St.left]⟩
  | leave c =>
    dsimp only at h
    split at h
    · cases h
    · injection h with h; subst h; exact ⟨hc, by simp [Act.own, Act.assigns, St.left]⟩
  | closeReader c =>
    injection h with h; subst h
    split
    · exact ⟨hc, by simp [Act.own, Act.assigns, St.left, hcr]⟩
    · exact ⟨hc, by simp [Act.own, Act.assigns, St.left]⟩
  | disconnect =>
    dsimp only at h
    split at h
    · rename_i hd
      have := hi.conn.mpr hd
      rw [hc] at this; cases this
    · cases h
  | assign c =>
    dsimp only at h
    split at h
    · rename_i hw
      injection h with h; subst h
      refine ⟨hc, ?_⟩
      simp [Act.own, Act.assigns, St.left, hw, WPc.left]; omega
    · cases h

/-- Once disconnected and out of the callback, the goroutine hands over nothing. -/
theorem over_log {s t : St μ} {as : List Act} (hi : Inv s) (hc : s.connected = false) (hr : s.r = .loop ∨ s.r = .ended) (h : exec s as = some t) :
    t.log = s.log := by
  induction as generalizing s with
  | nil => injection h with h; subst h; rfl
  | cons a as ih =>
    unfold exec at h
    cases hs : step s a with
    | none => rw [hs] at h; cases h
    | some u =>
      rw [hs] at h
      obtain ⟨hc', -⟩ := left_step hc hi hs
      have key : (u.r = .loop ∨ u.r = .ended) ∧ u.log = s.log := by
        unfold step at hs
        split at hs
        · cases hs
        cases a with
        | resp =>
          rcases hr with hr | hr
          · rw [stepR, hr] at hs
            injection hs with hs; subst hs
            exact ⟨Or.inr (by dsimp only; rw [if_neg (by simp [hc])]), rfl⟩
          · rw [stepR, hr] at hs; cases hs
        | dis => rcases stepD_cases hs with ⟨hd, rfl⟩ | ⟨hd, ho, rfl⟩ | ⟨hd, ho, rfl⟩ <;> exact ⟨hr, rfl⟩
        | writer => rcases stepW_cases hs with ⟨c', hw', hin, rfl⟩ | ⟨c', hw', rfl⟩ <;> exact ⟨hr, rfl⟩
        | call c => injection hs with hs; subst hs; exact ⟨hr, rfl⟩
        | leave c =>
          dsimp only at hs
          split at hs
          · cases hs
          · injection hs with hs; subst hs; exact ⟨hr, rfl⟩
        | closeReader c => injection hs with hs; subst hs; split <;> exact ⟨hr, rfl⟩
        | disconnect =>
          dsimp only at hs
          split at hs
          · injection hs with hs; subst hs; exact ⟨hr, rfl⟩
          · cases hs
        | assign c =>
          dsimp only at hs
          split at hs
          · injection hs with hs; subst hs; exact ⟨hr, rfl⟩
          · cases hs
      rw [ih (inv_step hi hs) hc' key.1 h, key.2]

/-! ## C128 -/

/-- After `Disconnect` the goroutines of the package do no more than nine steps and one for each measurement decoded and not handed over, two more for each assignment begun later,
whatever the application does meanwhile. -/
theorem C128_bounded (batches : List (List μ)) (pre as : List Act) (s t : St μ) (hs : exec (init batches) pre = some s)
    (hc : s.connected = false) (h : exec s as = some t) :
    as.countP Act.own ≤ s.r.inHand.length + 9 + 2 * as.countP Act.assigns := by
  have key : ∀ (as : List Act) (s : St μ), Inv s → s.connected = false → exec s as = some t →
      t.left + as.countP Act.own ≤ s.left + 2 * as.countP Act.assigns := by
    intro as
    induction as with
    | nil => intro s _ _ h; injection h with h; subst h; simp
    | cons a as ih =>
      intro s hi hc h
      unfold exec at h
      cases hs : step s a with
      | none => rw [hs] at h; cases h
      | some u =>
        rw [hs] at h
        obtain ⟨h1, h2⟩ := left_step hc hi hs
        have := ih u (inv_step hi hs) h1 h
        rw [List.countP_cons, List.countP_cons]
        cases ho : a.own <;> cases hg : a.assigns <;> rw [ho, hg] at h2 <;> simp at h2 ⊢ <;> omega
  have := key as s (inv_exec (inv_init batches) hs) hc h
  have h1 : s.r.left ≤ s.r.inHand.length + 3 := by cases s.r <;> simp [RPc.left, RPc.inHand]
  have h2 : s.d.left ≤ 3 := by
    have hne : s.d ≠ .idle := fun hd => by
      have := (inv_exec (inv_init batches) hs).conn.mpr hd
      rw [hc] at this; cases this
    cases hd : s.d <;> simp_all [DPc.left]
  have h3 : s.w.left ≤ 2 := by cases s.w <;> simp [WPc.left]
  have h4 : (if s.crashed then 0 else 1) ≤ 1 := by split <;> omega
  simp only [St.left] at this
  omega

/-- C128, partial: after `Disconnect`, when none of the goroutines of the package can go on, the connection is closed and any assignment has been made,
or a callback has a measurement for a reader whose `NextMeasurement` nobody is in (or the program has ended). With `C128_bounded`: unless readers are
called until the callback has handed over what it has, nothing else keeps `Disconnect` and assignments from completing. Missing from the full statement:
the reader that is no longer called, see `C128_stop_false`. -/
theorem C128_progress_partial (batches : List (List μ)) (pre : List Act) (s : St μ) (hs : exec (init batches) pre = some s)
    (hc : s.connected = false) (hstuck : ∀ a : Act, a.own = true → step s a = none) :
    s.crashed = true ∨ Complete s ∨ ∃ c, Blocked s c := by
  obtain ⟨i1, i2, i3, i4⟩ := inv_exec (inv_init batches) hs
  cases hcr : s.crashed with
  | true => exact Or.inl rfl
  | false =>
    right
    have hR := hstuck .resp rfl
    have hD := hstuck .dis rfl
    have hW := hstuck .writer rfl
    simp only [step, hcr, Bool.false_eq_true, if_false] at hR hD hW
    have hidle : s.d ≠ .idle := fun hd => by have := i1.mpr hd; rw [hc] at this; cases this
    -- an assignment waits for the callback only
    have hw : s.r.inside = false → s.w = .idle := by
      intro hin
      unfold stepW at hW
      split at hW
      · assumption
      · rw [hin] at hW; cases hW
      · cases hW
    cases hr : s.r with
    | loop => rw [stepR, hr] at hR; cases hR
    | read =>
      rw [stepR, hr] at hR
      dsimp only at hR
      split at hR
      · rename_i hso
        rcases i2.mp hso with hd | hd
        · exact absurd hd hidle
        · rw [stepD, hd] at hD; cases hD
      · cases hR
    | lock b =>
      rw [stepR, hr] at hR
      dsimp only at hR
      rw [hw (by rw [hr]; rfl)] at hR
      cases hR
    | send c rest =>
      cases rest with
      | nil => rw [stepR, hr] at hR; cases hR
      | cons m ms =>
        rw [stepR, hr] at hR
        dsimp only [hand] at hR
        refine Or.inr ⟨c, ⟨m, ms, hr⟩, ?_, ?_⟩
        · split at hR
          · cases hR
          · rename_i h; simpa using h
        · split at hR
          · cases hR
          · split at hR
            · assumption
            · cases hR
    | ended =>
      have hwi := hw (by rw [hr]; rfl)
      refine Or.inl ⟨?_, hwi, by rw [hr]; rfl⟩
      unfold stepD at hD
      split at hD
      · rename_i hd; exact absurd hd hidle
      · cases hD
      · rw [hr] at hD; cases hD
      · rw [hwi] at hD; cases hD
      · assumption

/-- C128 is false: as long as nobody calls `NextMeasurement` of the reader that the callback has a measurement for, and the reader is not closed, the
callback does not return, whatever else happens, so `Disconnect` does not complete, the goroutine does not end, and no other receiver is assigned. -/
theorem C128_blocked (batches : List (List μ)) (pre as : List Act) (s t : St μ) (c : Nat) (hs : exec (init batches) pre = some s)
    (hb : Blocked s c) (hcall : Act.call c ∉ as) (hclose : Act.closeReader c ∉ as) (h : exec s as = some t) :
    Blocked t c ∧ t.r = s.r ∧ t.recv = s.recv ∧ t.d ≠ .done := by
  have hi := inv_exec (inv_init batches) hs
  clear hs
  induction as generalizing s with
  | nil =>
    injection h with h; subst h
    obtain ⟨⟨m, ms, hr⟩, h2, h3⟩ := hb
    refine ⟨⟨⟨m, ms, hr⟩, h2, h3⟩, rfl, rfl, fun hd => ?_⟩
    have := hi.over (Or.inr hd)
    rw [hr] at this; cases this
  | cons a as ih =>
    unfold exec at h
    cases hs : step s a with
    | none => rw [hs] at h; cases h
    | some u =>
      rw [hs] at h
      simp only [List.mem_cons, not_or] at hcall hclose
      have hiu := inv_step hi hs
      have key : Blocked u c ∧ u.r = s.r ∧ u.recv = s.recv := by
        obtain ⟨⟨m, ms, hr⟩, h2, h3⟩ := hb
        unfold step at hs
        split at hs
        · cases hs
        cases a with
        | resp =>
          dsimp only [stepR] at hs
          rw [hr] at hs
          dsimp only [hand] at hs
          rw [if_neg (by simp [h2]), if_pos h3] at hs
          cases hs
        | dis =>
          rcases stepD_cases hs with ⟨hd, rfl⟩ | ⟨hd, ho, rfl⟩ | ⟨hd, ho, rfl⟩
          · exact ⟨⟨⟨m, ms, hr⟩, h2, h3⟩, rfl, rfl⟩
          · rw [hr] at ho; cases ho
          · exact ⟨⟨⟨m, ms, hr⟩, h2, h3⟩, rfl, rfl⟩
        | writer =>
          rcases stepW_cases hs with ⟨c', hw, hin, rfl⟩ | ⟨c', hw, rfl⟩
          · rw [hr] at hin; cases hin
          · have := hi.hold c' hw; rw [hr] at this; cases this
        | call c' =>
          injection hs with hs; subst hs
          have hne : c ≠ c' := fun e => hcall.1 (by rw [e])
          exact ⟨⟨⟨m, ms, hr⟩, h2, by dsimp only; rw [Function.update_of_ne hne]; exact h3⟩, rfl, rfl⟩
        | leave c' =>
          dsimp only at hs
          split at hs
          · cases hs
          · rename_i hw
            injection hs with hs; subst hs
            have hne : c ≠ c' := fun e => hw (by rw [← e]; exact h3)
            exact ⟨⟨⟨m, ms, hr⟩, h2, by dsimp only; rw [Function.update_of_ne hne]; exact h3⟩, rfl, rfl⟩
        | closeReader c' =>
          have hne : c ≠ c' := fun e => hclose.1 (by rw [e])
          injection hs with hs; subst hs
          split
          · exact ⟨⟨⟨m, ms, hr⟩, h2, h3⟩, rfl, rfl⟩
          · exact ⟨⟨⟨m, ms, hr⟩, by dsimp only; rw [Function.update_of_ne hne]; exact h2, h3⟩, rfl, rfl⟩
        | disconnect =>
          dsimp only at hs
          split at hs
          · injection hs with hs; subst hs; exact ⟨⟨⟨m, ms, hr⟩, h2, h3⟩, rfl, rfl⟩
          · cases hs
        | assign c' =>
          dsimp only at hs
          split at hs
          · injection hs with hs; subst hs; exact ⟨⟨⟨m, ms, hr⟩, h2, h3⟩, rfl, rfl⟩
          · cases hs
      obtain ⟨k1, k2, k3⟩ := key
      obtain ⟨q1, q2, q3, q4⟩ := ih u k1 hcall.2 hclose.2 h hiu
      exact ⟨q1, q2.trans k2, q3.trans k3, q4⟩

/-- Closing the reader in that state ends the program as soon as the callback goes on. -/
theorem C128_close_crashes (s : St μ) (c : Nat) (hcr : s.crashed = false) (hb : Blocked s c) :
    ∃ t, exec s [.closeReader c, .resp] = some t ∧ t.crashed = true := by
  obtain ⟨⟨m, ms, hr⟩, h2, -⟩ := hb
  refine ⟨{ s with closed := update s.closed c true, crashed := true }, ?_, rfl⟩
  simp [exec, step, stepR, hand, hcr, h2, hr]

/-- C128 is false, with a run: a reader is set up, a batch of two arrives, the application reads one of them and no more, then disconnects and sets up
another reader. Whatever happens from then on, other than calls of the first reader, the connection is never closed and the second reader never set up;
and when the first reader is closed instead, the program ends. -/
theorem C128_stop_false (m₁ m₂ : μ) :
    ∃ s, exec (init [[m₁, m₂]]) [.assign (some 0), .writer, .writer, .call 0, .resp, .resp, .resp, .resp, .disconnect, .dis, .assign (some 1)] = some s ∧
      s.log = [(0, m₁)] ∧ s.connected = false ∧
      (∀ as t, .call 0 ∉ as → .closeReader 0 ∉ as → exec s as = some t → t.d ≠ .done ∧ t.recv = some 0) ∧
      ∃ t, exec s [.closeReader 0, .resp] = some t ∧ t.crashed = true := by
  obtain ⟨s, hs⟩ : ∃ s, exec (init [[m₁, m₂]])
      [.assign (some 0), .writer, .writer, .call 0, .resp, .resp, .resp, .resp, .disconnect, .dis, .assign (some 1)] = some s := ⟨_, rfl⟩
  have hs' := hs
  injection hs' with hs'
  have hb : Blocked s 0 := by rw [← hs']; exact ⟨⟨m₂, [], rfl⟩, rfl, rfl⟩
  refine ⟨s, hs, by rw [← hs']; rfl, by rw [← hs'], fun as t h1 h2 h => ?_, ?_⟩
  · obtain ⟨-, -, q3, q4⟩ := C128_blocked _ _ as s t 0 hs hb h1 h2 h
    exact ⟨q4, by rw [q3, ← hs']⟩
  · exact C128_close_crashes s 0 (by rw [← hs']; rfl) hb

/-- While reader `c` is the one assigned and no other assignment is made, only its `NextMeasurement` returns measurements, and these are those that
arrive, each once and in order. -/
theorem C128_in_order (batches : List (List μ)) (pre : List Act) (c : Nat) (s t : St μ) (as : List Act) (hs : exec (init batches) pre = some s) (hrecv : s.recv = some c) (hw : s.w = .idle)
    (hr : ∀ c' m ms, s.r = .send c' (m :: ms) → c' = c) (has : ∀ c', Act.assign c' ∉ as) (h : exec s as = some t) :
    ∃ l, t.log = s.log ++ l.map (fun m => (c, m)) ∧ l <+: todo s := by
  have hi := inv_exec (inv_init batches) hs
  clear hs
  induction as generalizing s with
  | nil => injection h with h; subst h; exact ⟨[], by simp, by simp⟩
  | cons a as ih =>
    unfold exec at h
    cases hs : step s a with
    | none => rw [hs] at h; cases h
    | some u =>
      rw [hs] at h
      have hiu := inv_step hi hs
      have has' : ∀ c', Act.assign c' ∉ as := fun c' hm => has c' (by simp [hm])
      have ha : ∀ c', a ≠ .assign c' := fun c' e => has c' (by simp [e])
      -- nothing handed over, and no more to do than before
      have go : u.recv = s.recv → u.w = s.w → u.log = s.log → (∀ c' m ms, u.r = .send c' (m :: ms) → c' = c) → todo u <+: todo s →
          ∃ l, t.log = s.log ++ l.map (fun m => (c, m)) ∧ l <+: todo s := by
        intro e1 e2 e3 e4 e5
        obtain ⟨l, q1, q2⟩ := ih u (e1.trans hrecv) (e2.trans hw) e4 has' h hiu
        exact ⟨l, by rw [q1, e3], q2.trans e5⟩
      unfold step at hs
      split at hs
      · cases hs
      cases a with
      | resp =>
        rcases stepR_cases hs with ⟨hr', rfl⟩ | ⟨hr', hso, rfl⟩ | ⟨b, bs, hr', hso, hb, rfl⟩ | ⟨b, hr', hw', rfl⟩ | ⟨c', m, ms, hr', hh⟩ | ⟨c', hr', rfl⟩
        · refine go rfl rfl rfl (fun c' m ms e => ?_) ?_
          · dsimp only at e; split at e <;> cases e
          · simp only [todo, hr']; cases s.connected <;> simp [RPc.inHand]
        · exact go rfl rfl rfl (fun c' m ms e => by cases e) (by simp [todo, RPc.inHand, hr'])
        · by_cases hc : s.connected = true
          · refine go rfl rfl rfl (fun c' m ms e => ?_) ?_
            · dsimp only at e; rw [if_pos hc] at e; cases e
            · simp [todo, RPc.inHand, hr', hc, hb]
          · -- a batch read after `Disconnect` is dropped; nothing is handed over any more
            have := over_log hiu (by simpa using hc) (Or.inl (by dsimp only; rw [if_neg hc])) h
            exact ⟨[], by rw [this]; simp, by simp⟩
        · refine go rfl rfl rfl (fun c' m ms e => ?_) ?_
          · dsimp only [begin] at e; rw [hrecv] at e; injection e with e _; exact e.symm
          · simp [todo, RPc.inHand, hr', begin, hrecv]
        · rcases hand_cases hh with ⟨-, rfl⟩ | ⟨-, -, rfl⟩
          · exact go rfl rfl rfl hr (by simp [todo])
          · have hcc : c' = c := hr c' m ms hr'
            subst hcc
            obtain ⟨l, q1, q2⟩ := ih { s with r := .send c' ms, waiting := update s.waiting c' (s.waiting c' - 1), log := s.log ++ [(c', m)] }
              hrecv hw (fun c'' m' ms' e => by injection e with e _; exact e.symm) has' h hiu
            refine ⟨m :: l, by rw [q1]; simp, ?_⟩
            simpa [todo, RPc.inHand, hr'] using q2
        · exact go rfl rfl rfl (fun c' m ms e => by cases e) (by simp [todo, RPc.inHand, hr'])
      | dis =>
        rcases stepD_cases hs with ⟨hd, rfl⟩ | ⟨hd, ho, rfl⟩ | ⟨hd, ho, rfl⟩ <;> exact go rfl rfl rfl hr (by simp [todo])
      | writer =>
        rcases stepW_cases hs with ⟨c', hw', hin, rfl⟩ | ⟨c', hw', rfl⟩ <;> · rw [hw] at hw'; cases hw'
      | call c' => injection hs with hs; subst hs; exact go rfl rfl rfl hr (by simp [todo])
      | leave c' =>
        dsimp only at hs
        split at hs
        · cases hs
        · injection hs with hs; subst hs; exact go rfl rfl rfl hr (by simp [todo])
      | closeReader c' =>
        injection hs with hs
        by_cases hcl : s.closed c' = true
        · rw [if_pos hcl] at hs; subst hs; exact go rfl rfl rfl hr (by simp [todo])
        · rw [if_neg hcl] at hs; subst hs; exact go rfl rfl rfl hr (by simp [todo])
      | disconnect =>
        dsimp only at hs
        split at hs
        · injection hs with hs; subst hs; exact go rfl rfl rfl hr (by simp [todo])
        · cases hs
      | assign c' => exact absurd rfl (ha c')

/-- One batch read whole, then disconnected: everything is complete. -/
example : ∃ s, exec (init [[1, 2]]) [.assign (some 0), .writer, .writer, .call 0, .call 0, .resp, .resp, .resp, .resp, .disconnect, .resp, .dis,
      .resp, .resp, .dis, .dis] = some s ∧ s.connected = false ∧ s.log = [(0, 1), (0, 2)] ∧ Complete s ∧ ∀ a : Act, a.own = true → step s a = none := by
  refine ⟨_, rfl, rfl, rfl, ⟨rfl, rfl, rfl⟩, fun a ha => ?_⟩
  cases a <;> first | rfl | cases ha

/-- A second reader takes over between batches. -/
example : ∃ s, exec (init [[1], [2]]) [.assign (some 0), .writer, .writer, .call 0, .call 1, .resp, .resp, .resp, .resp, .resp, .assign (some 1), .writer,
      .writer, .resp, .resp, .resp, .resp] = some s ∧ s.recv = some 1 ∧ s.w = .idle ∧ s.log = [(0, 1), (1, 2)] :=
  ⟨_, rfl, rfl, rfl, rfl⟩

end Verif.Sync.Stop
