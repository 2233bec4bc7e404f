import Mathlib.Logic.Function.Basic
import Mathlib.Algebra.BigOperators.Group.Finset.Piecewise
import Mathlib.Algebra.Order.BigOperators.Group.Finset

/-!
# Callback synchronisation

`BeginCallbackAssignment`/`EndCallbackAssignment` and `BeginCallbackSync`/`EndCallbackSync` (DataSubscriber.go L217-234,
SubscriberConnector.go L282-299) are the write and the read side of one `sync.RWMutex`. Goroutines are straight-line
programs over these four operations; whatever else they do takes no other lock and always finishes. `sync.RWMutex` as
documented: `Lock` first announces the writer (one at a time), from then on `RLock` waits; the announced writer proceeds
when all readers are gone.
-/

namespace Verif.Sync.Callback

open Function (update)

/-- The four operations. (DataSubscriber.go L217-235, SubscriberConnector.go L282-300) -/
inductive Op where
  /-- `BeginCallbackSync` -/
  | rlock
  /-- `EndCallbackSync` -/
  | runlock
  /-- `BeginCallbackAssignment` -/
  | lock
  /-- `EndCallbackAssignment` -/
  | unlock
  deriving DecidableEq

/-- State of the write side. (DataSubscriber.go L217-235, SubscriberConnector.go L282-300) -/
inductive Writer where
  | none
  /-- goroutine `p` is inside `Lock`, readers are kept out -/
  | announced (p : Nat)
  /-- goroutine `p` has the lock -/
  | holding (p : Nat)
  deriving DecidableEq

/-- The mutex and what each goroutine has still to do. (DataSubscriber.go L217-235, SubscriberConnector.go L282-300) -/
structure St where
  readers : Nat
  writer : Writer
  todo : Nat → List Op

/-- One action of goroutine `p` (`sync.RWMutex`); `none` when it has to wait or is finished.
(DataSubscriber.go L217-235, SubscriberConnector.go L282-300) -/
def step (s : St) (p : Nat) : Option St :=
  match s.todo p with
  | [] => none
  | .rlock :: rest =>
    if s.writer = .none then some { s with readers := s.readers + 1, todo := update s.todo p rest } else none
  | .runlock :: rest =>
    if s.readers > 0 then some { s with readers := s.readers - 1, todo := update s.todo p rest } else none
  | .lock :: rest =>
    match s.writer with
    | .none => some { s with writer := .announced p }
    | .announced q =>
      if q = p ∧ s.readers = 0 then some { s with writer := .holding p, todo := update s.todo p rest } else none
    | .holding _ => none
  | .unlock :: rest =>
    if s.writer = .holding p then some { s with writer := .none, todo := update s.todo p rest } else none

/-- A schedule. (DataSubscriber.go L217-235, SubscriberConnector.go L282-300) -/
def exec (s : St) : List Nat → Option St
  | [] => some s
  | p :: ps => (step s p).bind (fun t => exec t ps)

/-- Goroutine `p` starts with program `progs p`. (DataSubscriber.go L217-235, SubscriberConnector.go L282-300) -/
def init (progs : Nat → List Op) : St := ⟨0, .none, progs⟩

/-- Everybody is finished. (DataSubscriber.go L217-235, SubscriberConnector.go L282-300) -/
def St.Finished (s : St) : Prop := ∀ p, s.todo p = []

/-- Nobody can do anything, but not everybody is finished. (DataSubscriber.go L217-235, SubscriberConnector.go L282-300) -/
def St.Stuck (s : St) : Prop := (∀ p, step s p = none) ∧ ¬ s.Finished

/-! ## C39 -/

/-- C39 fails: a callback that is run by a goroutine holding the read side and that causes another dispatch (nested read
side), while another goroutine has begun to assign a callback: both wait for each other, for ever. This is, for example,
`ConnectionTerminatedCallback` (DataSubscriber.go L695-701) calling something that reports an error
(`dispatchErrorMessage`, L743) while a `Set...Receiver` call is under way. It needs no callback of the application: `handleConnect` holds the read
side of the mutex of the `Subscriber` (Subscriber.go L490) while its default receiver reports the connection by `StatusMessage`, which takes that
read side again (L466-474, L708-718), so any `Set...` call while a connection is made can hang both. -/
theorem C39_nested_sync_false :
    ∃ s, exec (init fun p => if p = 0 then [.rlock, .rlock, .runlock, .runlock]
        else if p = 1 then [.lock, .unlock] else []) [0, 1] = some s ∧ s.Stuck := by
  refine ⟨⟨1, .announced 1, fun p => if p = 0 then [.rlock, .runlock, .runlock]
      else if p = 1 then [.lock, .unlock] else []⟩, ?_, ?_, ?_⟩
  · simp only [exec, step, init, if_true, Option.bind_some, update]
    simp
    funext p
    split <;> simp_all
  · intro p
    by_cases h0 : p = 0
    · subst h0; rfl
    · by_cases h1 : p = 1
      · subst h1; rfl
      · simp [step, h0, h1]
  · intro h
    have := h 0
    simp at this

/-- C39 fails even with one goroutine: a callback run under the read side that assigns a callback waits for itself. -/
theorem C39_assign_in_callback_false :
    ∃ s, exec (init fun p => if p = 0 then [.rlock, .lock, .unlock, .runlock] else []) [0, 0] = some s ∧ s.Stuck := by
  refine ⟨⟨1, .announced 0, fun p => if p = 0 then [.lock, .unlock, .runlock] else []⟩, ?_, ?_, ?_⟩
  · simp only [exec, step, init, if_true, Option.bind_some, update]
    simp
    funext p
    split <;> simp_all
  · intro p
    by_cases h0 : p = 0
    · subst h0; rfl
    · simp [step, h0]
  · intro h
    have := h 0
    simp at this

/-- A program in which no section is opened inside another: callbacks do not call back. -/
inductive Flat : List Op → Prop
  | nil : Flat []
  | sync {rest : List Op} : Flat rest → Flat (.rlock :: .runlock :: rest)
  | assign {rest : List Op} : Flat rest → Flat (.lock :: .unlock :: rest)

/-- What is left of a flat program. -/
def Tail (l : List Op) : Prop :=
  Flat l ∨ (∃ rest, l = .runlock :: rest ∧ Flat rest) ∨ (∃ rest, l = .unlock :: rest ∧ Flat rest)

theorem Flat.head {l : List Op} (h : Flat l) :
    l = [] ∨ (∃ rest, l = .rlock :: .runlock :: rest ∧ Flat rest) ∨ (∃ rest, l = .lock :: .unlock :: rest ∧ Flat rest) := by
  cases h with
  | nil => exact .inl rfl
  | sync h => exact .inr (.inl ⟨_, rfl, h⟩)
  | assign h => exact .inr (.inr ⟨_, rfl, h⟩)

/-- One for a goroutine inside a read section. -/
def inSync (l : List Op) : Nat := if l.head? = some .runlock then 1 else 0

/-- What holds at every moment of a run of flat programs by goroutines `0 … n-1`. -/
structure Inv (n : Nat) (s : St) : Prop where
  tail : ∀ p, Tail (s.todo p)
  idle : ∀ p, n ≤ p → s.todo p = []
  readers : s.readers = (Finset.range n).sum (fun p => inSync (s.todo p))
  announced : ∀ p, s.writer = .announced p → ∃ rest, s.todo p = .lock :: rest
  holding : ∀ p, s.writer = .holding p ↔ ∃ rest, s.todo p = .unlock :: rest
  excluded : ∀ p, s.writer = .holding p → s.readers = 0

/-- All the operations left, an announced writer counting one less. -/
def left (n : Nat) (s : St) : Nat :=
  2 * ((Finset.range n).sum (fun p => (s.todo p).length)) + (if s.writer = .none then 1 else 0)

theorem sum_update (n p : Nat) (hp : p < n) (g : List Op → Nat) (todo : Nat → List Op) (l : List Op) :
    (Finset.range n).sum (fun q => g (update todo p l q)) + g (todo p) =
      (Finset.range n).sum (fun q => g (todo q)) + g l := by
  have h1 : (fun q => g (update todo p l q)) = update (fun q => g (todo q)) p (g l) := by
    funext q
    by_cases hq : q = p
    · subst hq; simp
    · simp [update, hq]
  have hm : p ∈ Finset.range n := Finset.mem_range.mpr hp
  rw [h1, Finset.sum_update_of_mem hm, Finset.sum_eq_add_sum_sdiff_singleton p (fun q => g (todo q)) (fun h => absurd hm h)]
  omega

theorem tail_of_cons {o : Op} {l : List Op} (h : Tail (o :: l)) :
    (o = .rlock ∧ ∃ rest, l = .runlock :: rest ∧ Flat rest) ∨ (o = .lock ∧ ∃ rest, l = .unlock :: rest ∧ Flat rest) ∨
    (o = .runlock ∧ Flat l) ∨ (o = .unlock ∧ Flat l) := by
  rcases h with h | ⟨rest, h, hf⟩ | ⟨rest, h, hf⟩
  · cases h with
    | sync h => exact .inl ⟨rfl, _, rfl, h⟩
    | assign h => exact .inr (.inl ⟨rfl, _, rfl, h⟩)
  · injection h with h1 h2; subst h1 h2; exact .inr (.inr (.inl ⟨rfl, hf⟩))
  · injection h with h1 h2; subst h1 h2; exact .inr (.inr (.inr ⟨rfl, hf⟩))

theorem flat_inSync {l : List Op} (h : Flat l) : inSync l = 0 := by cases h <;> rfl

theorem flat_not_unlock {l : List Op} (h : Flat l) : ¬ ∃ rest, l = .unlock :: rest := by
  rintro ⟨rest, rfl⟩
  cases h

theorem init_inv (n : Nat) (progs : Nat → List Op) (hf : ∀ p, Flat (progs p)) (hn : ∀ p, n ≤ p → progs p = []) :
    Inv n (init progs) where
  tail p := .inl (hf p)
  idle := hn
  readers := by
    change 0 = _
    rw [Finset.sum_eq_zero]
    intro p _
    exact flat_inSync (hf p)
  announced p h := by cases h
  holding p := ⟨fun h => (by cases h), fun h => absurd h (flat_not_unlock (hf p))⟩
  excluded p h := by cases h

/-- A step keeps the invariant and leaves less to do. -/
theorem step_inv {n : Nat} {s t : St} {p : Nat} (hi : Inv n s) (h : step s p = some t) : Inv n t ∧ left n t < left n s := by
  have hpn : p < n := by
    rcases Nat.lt_or_ge p n with h1 | h1
    · exact h1
    · rw [step, hi.idle p h1] at h; cases h
  have htail := hi.tail p
  unfold step at h
  cases htodo : s.todo p with
  | nil => rw [htodo] at h; cases h
  | cons o l =>
    rw [htodo] at h htail
    have upd : ∀ q, q ≠ p → update s.todo p l q = s.todo q := fun q hq => by simp [update, hq]
    have updp : update s.todo p l p = l := by simp
    have hidle : ∀ q, n ≤ q → update s.todo p l q = [] := fun q hq => by rw [upd q (by omega)]; exact hi.idle q hq
    have hlen := sum_update n p hpn List.length s.todo l
    have hsync := sum_update n p hpn inSync s.todo l
    rw [htodo] at hlen hsync
    simp only [List.length_cons] at hlen
    have htails : Tail l → ∀ q, Tail (update s.todo p l q) := fun hl q => by
      by_cases hq : q = p
      · subst hq; rw [updp]; exact hl
      · rw [upd q hq]; exact hi.tail q
    rcases tail_of_cons htail with ⟨rfl, rest, rfl, hf⟩ | ⟨rfl, rest, rfl, hf⟩ | ⟨rfl, hf⟩ | ⟨rfl, hf⟩
    · dsimp only at h
      split at h
      · rename_i hw
        injection h with h; subst h
        refine ⟨⟨htails (.inr (.inl ⟨_, rfl, hf⟩)), hidle, ?_, ?_, ?_, ?_⟩, ?_⟩
        · have := hi.readers
          simp only [inSync, List.head?_cons] at hsync this ⊢
          simp at hsync
          omega
        · intro q hq; rw [hw] at hq; cases hq
        · intro q
          by_cases hq : q = p
          · subst hq
            dsimp only
            rw [updp, hw]
            exact ⟨fun h => (by cases h), fun ⟨_, h⟩ => by cases h⟩
          · dsimp only
            rw [upd q hq]
            exact hi.holding q
        · intro q hq; rw [hw] at hq; cases hq
        · unfold left; dsimp only; omega
      · cases h
    · dsimp only at h
      split at h
      · rename_i hw
        injection h with h; subst h
        refine ⟨⟨hi.tail, hi.idle, hi.readers, ?_, ?_, ?_⟩, ?_⟩
        · intro q hq; injection hq with hq; subst hq; exact ⟨_, htodo⟩
        · intro q
          rw [← hi.holding q, hw]
          exact ⟨fun h => (by cases h), fun h => (by cases h)⟩
        · intro q hq; cases hq
        · unfold left; dsimp only; rw [hw]; simp
      · rename_i q hw
        split at h
        · rename_i hq
          obtain ⟨rfl, hr⟩ := hq
          injection h with h; subst h
          refine ⟨⟨htails (.inr (.inr ⟨_, rfl, hf⟩)), hidle, ?_, ?_, ?_, ?_⟩, ?_⟩
          · have := hi.readers
            simp only [inSync, List.head?_cons] at hsync this ⊢
            simp at hsync
            omega
          · intro q hq; cases hq
          · intro r
            by_cases hr : r = q
            · subst hr
              dsimp only
              rw [updp]
              exact ⟨fun _ => ⟨_, rfl⟩, fun _ => rfl⟩
            · dsimp only
              rw [upd r hr]
              constructor
              · intro h; injection h with h; exact absurd h.symm hr
              · intro h
                have := (hi.holding r).mpr h
                rw [hw] at this; cases this
          · intro _ _; exact hr
          · unfold left; dsimp only; rw [hw]; simp; omega
        · cases h
      · cases h
    · dsimp only at h
      split at h
      · rename_i hr
        injection h with h; subst h
        refine ⟨⟨htails (.inl hf), hidle, ?_, ?_, ?_, ?_⟩, ?_⟩
        · have := hi.readers
          have h0 := flat_inSync hf
          rw [h0] at hsync
          simp only [inSync, List.head?_cons] at hsync this ⊢
          simp at hsync
          omega
        · intro q hq
          obtain ⟨rest, hrest⟩ := hi.announced q hq
          by_cases hqp : q = p
          · subst hqp; rw [htodo] at hrest; cases hrest
          · exact ⟨rest, by dsimp only; rw [upd q hqp]; exact hrest⟩
        · intro q
          by_cases hq : q = p
          · subst hq
            dsimp only
            rw [updp, hi.holding q, htodo]
            exact ⟨fun ⟨_, h⟩ => (by cases h), fun h => absurd h (flat_not_unlock hf)⟩
          · dsimp only
            rw [upd q hq]
            exact hi.holding q
        · intro q hq
          have := hi.excluded q hq
          omega
        · unfold left; dsimp only; omega
      · cases h
    · dsimp only at h
      split at h
      · rename_i hw
        injection h with h; subst h
        refine ⟨⟨htails (.inl hf), hidle, ?_, ?_, ?_, ?_⟩, ?_⟩
        · have := hi.readers
          have h0 := flat_inSync hf
          rw [h0] at hsync
          simp only [inSync, List.head?_cons] at hsync this ⊢
          simp at hsync
          omega
        · intro q hq; cases hq
        · intro q
          by_cases hq : q = p
          · subst hq
            dsimp only
            rw [updp]
            exact ⟨fun h => (by cases h), fun h => absurd h (flat_not_unlock hf)⟩
          · dsimp only
            rw [upd q hq, ← hi.holding q, hw]
            constructor
            · intro h; cases h
            · intro h; injection h with h; exact absurd h.symm hq
        · intro q hq; cases hq
        · unfold left; dsimp only; rw [hw]; simp; omega
      · cases h

theorem exec_inv {n : Nat} {s t : St} {ps : List Nat} (hi : Inv n s) (h : exec s ps = some t) :
    Inv n t ∧ left n t + ps.length ≤ left n s := by
  induction ps generalizing s with
  | nil => rw [exec] at h; injection h with h; subst h; exact ⟨hi, by simp⟩
  | cons p ps ih =>
    rw [exec, Option.bind_eq_some_iff] at h
    obtain ⟨u, h1, h2⟩ := h
    obtain ⟨hu, hl⟩ := step_inv hi h1
    obtain ⟨ht, hl2⟩ := ih hu h2
    exact ⟨ht, by simp only [List.length_cons]; omega⟩

/-- As long as somebody is not finished, somebody can go on. -/
theorem progress {n : Nat} {s : St} (hi : Inv n s) (hs : ∀ p, step s p = none) : s.Finished := by
  -- nobody is inside a read section
  have hnr : ∀ p rest, s.todo p ≠ .runlock :: rest := by
    intro p rest hp
    have h0 := hs p
    unfold step at h0
    rw [hp] at h0
    dsimp only at h0
    split at h0
    · cases h0
    · rename_i hr
      have hpn : p < n := by
        rcases Nat.lt_or_ge p n with h1 | h1
        · exact h1
        · rw [hi.idle p h1] at hp; cases hp
      have h1 : inSync (s.todo p) ≤ (Finset.range n).sum (fun p => inSync (s.todo p)) :=
        Finset.single_le_sum (f := fun p => inSync (s.todo p)) (fun _ _ => Nat.zero_le _) (Finset.mem_range.mpr hpn)
      rw [← hi.readers, hp] at h1
      have : inSync (.runlock :: rest) = 1 := rfl
      omega
  have hr0 : s.readers = 0 := by
    rw [hi.readers]
    apply Finset.sum_eq_zero
    intro p _
    unfold inSync
    rw [if_neg]
    intro hh
    cases hp : s.todo p with
    | nil => rw [hp] at hh; cases hh
    | cons o l => rw [hp] at hh; injection hh with hh; subst hh; exact hnr p l hp
  -- nobody holds the write side
  have hnh : ∀ p, s.writer ≠ .holding p := by
    intro p hp
    obtain ⟨rest, hrest⟩ := (hi.holding p).mp hp
    have h0 := hs p
    unfold step at h0
    rw [hrest] at h0
    dsimp only at h0
    rw [if_pos hp] at h0
    cases h0
  -- nobody is announced
  have hna : ∀ p, s.writer ≠ .announced p := by
    intro p hp
    obtain ⟨rest, hrest⟩ := hi.announced p hp
    have h0 := hs p
    unfold step at h0
    rw [hrest] at h0
    dsimp only at h0
    rw [hp] at h0
    dsimp only at h0
    rw [if_pos ⟨rfl, hr0⟩] at h0
    cases h0
  have hw : s.writer = .none := by
    cases hw : s.writer with
    | none => rfl
    | announced p => exact absurd hw (hna p)
    | holding p => exact absurd hw (hnh p)
  intro p
  cases hp : s.todo p with
  | nil => rfl
  | cons o l =>
    exfalso
    have h0 := hs p
    have ht := hi.tail p
    unfold step at h0
    rw [hp] at h0 ht
    rcases tail_of_cons ht with ⟨rfl, -⟩ | ⟨rfl, -⟩ | ⟨rfl, -⟩ | ⟨rfl, -⟩
    · dsimp only at h0; rw [if_pos hw] at h0; cases h0
    · dsimp only at h0; rw [hw] at h0; cases h0
    · exact hnr p l hp
    · have := (hi.holding p).mpr ⟨l, hp⟩
      exact hnh p this

/-- C39 for callbacks that do not call back (no section is opened inside another): for any number of goroutines, any number
of dispatches and assignments in any order, and every schedule: nobody ever waits for ever. A run has at most as many
actions as there are left to do, and whenever nobody can go on everybody is finished. Missing from the full statement:
callbacks that call back, for which it is false (`C39_nested_sync_false`, `C39_assign_in_callback_false`). -/
theorem C39_flat_partial (n : Nat) (progs : Nat → List Op) (hf : ∀ p, Flat (progs p)) (hn : ∀ p, n ≤ p → progs p = [])
    (ps : List Nat) (s : St) (h : exec (init progs) ps = some s) :
    ¬ s.Stuck ∧ ps.length ≤ 2 * (Finset.range n).sum (fun p => (progs p).length) + 1 ∧
      ((∀ p, step s p = none) → s.Finished) := by
  obtain ⟨hi, hl⟩ := exec_inv (init_inv n progs hf hn) h
  refine ⟨fun hs => hs.2 (progress hi hs.1), ?_, progress hi⟩
  have : left n (init progs) = 2 * (Finset.range n).sum (fun p => (progs p).length) + 1 := rfl
  omega

/-- A dispatch, an assignment and a goroutine doing both, one after the other. -/
example : Flat [.rlock, .runlock] ∧ Flat [.lock, .unlock] ∧ Flat [.lock, .unlock, .rlock, .runlock] ∧
    ¬ Flat [.rlock, .rlock, .runlock, .runlock] ∧ ¬ Flat [.rlock, .lock, .unlock, .runlock] :=
  ⟨.sync .nil, .assign .nil, .assign (.sync .nil), fun h => (by cases h), fun h => (by cases h)⟩

end Verif.Sync.Callback
