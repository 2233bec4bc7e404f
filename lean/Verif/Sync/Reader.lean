import Mathlib.Logic.Function.Basic

/-!
# The measurement reader

`sttp/MeasurementReader.go`: the callback that puts received measurements into an unbuffered channel one by one (L41-45),
`NextMeasurement` (L53-64) and `Close` (L67-69), as a transition system. Measurements are handed over when the callback and
a caller of `NextMeasurement` meet. Batches are processed one after the other (the callback runs on the goroutine that
reads the socket, DataSubscriber.go L1253-1261). Any number of goroutines may call `NextMeasurement`. The loop variable of
L42 is a new variable in each round (go.mod: go 1.22), so the pointers sent differ.
-/

namespace Verif.Sync.Reader

open Function (update)

/-- The channel, the producer and the readers. `μ` is the type of measurements. (MeasurementReader.go L37-72) -/
structure St (μ : Type) where
  /-- what the callback has still to send of the current batch -/
  sending : List μ
  /-- batches not yet received -/
  batches : List (List μ)
  closed : Bool
  /-- a send on the closed channel or a second `Close` ends the program -/
  panicked : Bool
  /-- goroutine `j` is inside `NextMeasurement` -/
  waiting : Nat → Bool
  /-- what the calls of `NextMeasurement` returned so far: who, the measurement (`none` for nil) and the completed state -/
  log : List (Nat × Option μ × Bool)

/-- MeasurementReader.go L37-72 -/
def init {μ : Type} (batches : List (List μ)) : St μ := ⟨[], batches, false, false, fun _ => false, []⟩

/-- MeasurementReader.go L37-72 -/
inductive Act where
  /-- the next batch arrives -/
  | batch
  /-- goroutine `j` calls `NextMeasurement` -/
  | call (j : Nat)
  /-- the callback and reader `j` meet (L43 and L60) -/
  | meet (j : Nat)
  /-- the context of reader `j` is done (L58) -/
  | done (j : Nat)
  /-- `Close` (L67) -/
  | close
  /-- reader `j` receives from the closed channel -/
  | drained (j : Nat)
  /-- the callback sends on the closed channel -/
  | sendClosed
  deriving DecidableEq

variable {μ : Type}

/-- One action (MeasurementReader.go L37-69); `none` when it is not possible. After a panic there are no more. -/
def step (s : St μ) (a : Act) : Option (St μ) :=
  if s.panicked then none else
  match a with
  | .batch =>
    match s.sending, s.batches with
    | [], b :: bs => some { s with sending := b, batches := bs }
    | _, _ => none
  | .call j => if s.waiting j then none else some { s with waiting := update s.waiting j true }
  | .meet j =>
    match s.sending with
    | m :: ms =>
      if s.waiting j && !s.closed then
        some { s with sending := ms, waiting := update s.waiting j false, log := s.log ++ [(j, some m, false)] }
      else none
    | [] => none
  | .done j =>
    if s.waiting j then some { s with waiting := update s.waiting j false, log := s.log ++ [(j, none, true)] } else none
  | .close => if s.closed then some { s with panicked := true } else some { s with closed := true }
  | .drained j =>
    if s.waiting j && s.closed then
      some { s with waiting := update s.waiting j false, log := s.log ++ [(j, none, false)] }
    else none
  | .sendClosed =>
    match s.sending with
    | _ :: _ => if s.closed then some { s with panicked := true } else none
    | [] => none

/-- A schedule. (MeasurementReader.go L37-72) -/
def exec (s : St μ) : List Act → Option (St μ)
  | [] => some s
  | a :: as => (step s a).bind (fun t => exec t as)

/-! ## C38 -/

/-- The measurements returned so far, by whichever reader, in order. (MeasurementReader.go L37-72) -/
def received (log : List (Nat × Option μ × Bool)) : List μ := log.filterMap (fun e => e.2.1)

theorem received_append (a b : List (Nat × Option μ × Bool)) : received (a ++ b) = received a ++ received b := by
  simp [received, List.filterMap_append]

theorem step_conserves {s t : St μ} {a : Act} (h : step s a = some t) :
    received t.log ++ t.sending ++ t.batches.flatten = received s.log ++ s.sending ++ s.batches.flatten := by
  unfold step at h
  split at h
  · cases h
  · cases a with
    | batch =>
      dsimp only at h
      split at h
      · rename_i hs hb
        injection h with h; subst h
        simp [hs, hb]
      · cases h
    | call j => 
      dsimp only at h
      split at h
      · cases h
      · injection h with h; subst h; rfl
    | meet j =>
      dsimp only at h
      split at h
      · rename_i hs
        split at h
        · injection h with h; subst h
          simp [received_append, hs, received]
        · cases h
      · cases h
    | done j =>
      dsimp only at h
      split at h
      · injection h with h; subst h; simp [received_append, received]
      · cases h
    | close => dsimp only at h; split at h <;> (injection h with h; subst h; rfl)
    | drained j =>
      dsimp only at h
      split at h
      · injection h with h; subst h; simp [received_append, received]
      · cases h
    | sendClosed =>
      dsimp only at h
      split at h
      · split at h
        · injection h with h; subst h; rfl
        · cases h
      · cases h

theorem exec_conserves {s t : St μ} {as : List Act} (h : exec s as = some t) :
    received t.log ++ t.sending ++ t.batches.flatten = received s.log ++ s.sending ++ s.batches.flatten := by
  induction as generalizing s with
  | nil => rw [exec] at h; injection h with h; rw [h]
  | cons a as ih =>
    rw [exec, Option.bind_eq_some_iff] at h
    obtain ⟨u, h1, h2⟩ := h
    rw [ih h2, step_conserves h1]

theorem exec_append (s : St μ) (as bs : List Act) :
    exec s (as ++ bs) = (exec s as).bind (fun t => exec t bs) := by
  induction as generalizing s with
  | nil => rfl
  | cons a as ih =>
    rw [List.cons_append, exec, exec, Option.bind_assoc]
    exact Option.bind_congr (fun t _ => ih t)

/-- Nothing but `Close` closes the channel or crashes the program. -/
theorem step_open {s t : St μ} {a : Act} (h : step s a = some t) (ha : a ≠ .close) (hc : s.closed = false)
    (hp : s.panicked = false) : t.closed = false ∧ t.panicked = false := by
  unfold step at h
  rw [if_neg (by rw [hp]; decide)] at h
  cases a with
  | close => exact absurd rfl ha
  | batch =>
    dsimp only at h
    split at h
    · injection h with h; subst h; exact ⟨hc, hp⟩
    · cases h
  | call j => 
    dsimp only at h
    split at h
    · cases h
    · injection h with h; subst h; exact ⟨hc, hp⟩
  | meet j =>
    dsimp only at h
    split at h
    · split at h
      · injection h with h; subst h; exact ⟨hc, hp⟩
      · cases h
    · cases h
  | done j =>
    dsimp only at h
    split at h
    · injection h with h; subst h; exact ⟨hc, hp⟩
    · cases h
  | drained j =>
    dsimp only at h
    rw [hc] at h
    simp at h
  | sendClosed =>
    dsimp only at h
    split at h
    · rw [hc] at h; simp at h
    · cases h

theorem exec_open {s t : St μ} {as : List Act} (h : exec s as = some t) (ha : Act.close ∉ as) (hc : s.closed = false)
    (hp : s.panicked = false) : t.closed = false ∧ t.panicked = false := by
  induction as generalizing s with
  | nil => rw [exec] at h; injection h with h; subst h; exact ⟨hc, hp⟩
  | cons a as ih =>
    rw [exec, Option.bind_eq_some_iff] at h
    obtain ⟨u, h1, h2⟩ := h
    obtain ⟨hu1, hu2⟩ := step_open h1 (fun e => ha (by simp [e])) hc hp
    exact ih h2 (fun e => ha (by simp [e])) hu1 hu2

/-- A reader that keeps calling gets all that is left. -/
theorem drain (s : St μ) (hc : s.closed = false) (hp : s.panicked = false) :
    ∃ as t, exec s as = some t ∧ Act.close ∉ as ∧ t.sending = [] ∧ t.batches = [] := by
  obtain ⟨sending, batches, closed, panicked, waiting, log⟩ := s
  dsimp only at hc hp
  subst hc hp
  induction batches generalizing sending waiting log with
  | nil =>
    induction sending generalizing waiting log with
    | nil => exact ⟨[], _, rfl, by simp, rfl, rfl⟩
    | cons m ms ih =>
      by_cases hw : waiting 0 = true
      · obtain ⟨as, t, h1, h2, h3⟩ := ih (update waiting 0 false) (log ++ [(0, some m, false)])
        refine ⟨.meet 0 :: as, t, ?_, by simp [h2], h3⟩
        rw [exec, step]
        simp only [Bool.false_eq_true, if_false, hw, Bool.not_false, Bool.and_self, if_true, Option.bind_some]
        exact h1
      · obtain ⟨as, t, h1, h2, h3⟩ := ih (update (update waiting 0 true) 0 false) (log ++ [(0, some m, false)])
        refine ⟨.call 0 :: .meet 0 :: as, t, ?_, by simp [h2], h3⟩
        rw [exec, step]
        simp only [Bool.false_eq_true, if_false, hw, Option.bind_some]
        rw [exec, step]
        simp only [Bool.false_eq_true, if_false, Function.update_self, Bool.not_false, Bool.and_self, if_true,
          Option.bind_some]
        exact h1
  | cons b bs ihb =>
    induction sending generalizing waiting log with
    | nil =>
      obtain ⟨as, t, h1, h2, h3⟩ := ihb b waiting log
      exact ⟨.batch :: as, t, h1, by simp [h2], h3⟩
    | cons m ms ih =>
      by_cases hw : waiting 0 = true
      · obtain ⟨as, t, h1, h2, h3⟩ := ih (update waiting 0 false) (log ++ [(0, some m, false)])
        refine ⟨.meet 0 :: as, t, ?_, by simp [h2], h3⟩
        rw [exec, step]
        simp only [Bool.false_eq_true, if_false, hw, Bool.not_false, Bool.and_self, if_true, Option.bind_some]
        exact h1
      · obtain ⟨as, t, h1, h2, h3⟩ := ih (update (update waiting 0 true) 0 false) (log ++ [(0, some m, false)])
        refine ⟨.call 0 :: .meet 0 :: as, t, ?_, by simp [h2], h3⟩
        rw [exec, step]
        simp only [Bool.false_eq_true, if_false, hw, Option.bind_some]
        rw [exec, step]
        simp only [Bool.false_eq_true, if_false, Function.update_self, Bool.not_false, Bool.and_self, if_true,
          Option.bind_some]
        exact h1

/-- C38 without `Close`, for every sequence of batches, any number of readers and every schedule, contexts ending at any
time: at every moment the measurements returned, in the order they were returned, followed by those still to be sent, are
the batches one after the other (so nothing is lost, repeated or reordered); the program has not crashed; and from every
moment on a reader that keeps calling is given all the rest. Missing from the full statement: `Close`, see
`C38_close_crashes_false`. -/
theorem C38_in_order_partial (batches : List (List μ)) (as : List Act) (ha : Act.close ∉ as) (s : St μ)
    (h : exec (init batches) as = some s) :
    received s.log ++ s.sending ++ s.batches.flatten = batches.flatten ∧ s.panicked = false ∧
    ∃ bs t, exec s bs = some t ∧ received t.log = batches.flatten := by
  have hcons := exec_conserves h
  have hopen := exec_open h ha rfl rfl
  refine ⟨by simpa [init, received] using hcons, hopen.2, ?_⟩
  obtain ⟨bs, t, h1, h2, h3, h4⟩ := drain s hopen.1 hopen.2
  refine ⟨bs, t, h1, ?_⟩
  have := exec_conserves h1
  rw [hcons, h3, h4] at this
  simpa [init, received] using this

/-- Even with `Close` nothing is returned twice or out of order: what was returned is the beginning of what was sent. -/
theorem C38_prefix (batches : List (List μ)) (as : List Act) (s : St μ) (h : exec (init batches) as = some s) :
    ∃ rest, received s.log ++ rest = batches.flatten :=
  ⟨s.sending ++ s.batches.flatten, by
    have := exec_conserves h
    simpa [init, received, List.append_assoc] using this⟩

/-- C38 fails with `Close`: whenever the callback has a measurement to send, `Close` makes its send panic and the program
ends, and so does a second `Close`. -/
theorem C38_close_crashes_false (s : St μ) (m : μ) (ms : List μ) (hp : s.panicked = false) (hs : s.sending = m :: ms)
    (hc : s.closed = false) :
    (∃ t, exec s [.close, .sendClosed] = some t ∧ t.panicked = true) ∧
    (∃ t, exec s [.close, .close] = some t ∧ t.panicked = true) := by
  constructor
  · refine ⟨{ s with closed := true, panicked := true }, ?_, rfl⟩
    simp [exec, step, hp, hs, hc]
  · refine ⟨{ s with closed := true, panicked := true }, ?_, rfl⟩
    simp [exec, step, hp, hc]

/-- After `Close`, `NextMeasurement` returns at once, with no measurement but the state that says there was one. -/
theorem C38_closed_nil_false (s : St μ) (j : Nat) (hp : s.panicked = false) (hw : s.waiting j = false)
    (hc : s.closed = true) :
    ∃ t, exec s [.call j, .drained j] = some t ∧ t.log = s.log ++ [(j, none, false)] := by
  refine ⟨_, by simp [exec, step, hp, hw, hc]; rfl, rfl⟩

/-- Two batches, two readers, one of which gives up. -/
example : ∃ s, exec (init [[1, 2], [3]]) [.call 0, .batch, .call 1, .meet 1, .done 0, .call 1, .meet 1, .batch] = some s ∧
    received s.log = [1, 2] ∧ s.sending = [3] ∧ s.closed = false ∧ s.panicked = false := by
  refine ⟨_, by simp [exec, step, init]; rfl, ?_, ?_, ?_, ?_⟩ <;> simp [received]

end Verif.Sync.Reader
