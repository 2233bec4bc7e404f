import Mathlib.Logic.Function.Basic

/-!
# The metadata registry under concurrent lookups

`DataSubscriber.LookupMetadata` (DataSubscriber.go L284-298) as a transition system: any number of concurrent calls, each
for a signal of its choice. One step is one atomic action: the `Load` of L289, or the construction of a record followed by
the `LoadOrStore` of L296. A record is identified by the call that constructed it. The registry is not replaced meanwhile
(`setupConnection` does that with every connection, L380).
-/

namespace Verif.Sync.Registry

open Function (update)

/-- Where a call is. (DataSubscriber.go L284-301) -/
inductive Pc where
  | idle
  /-- `Load` found nothing (L290) -/
  | missed
  /-- returned the record constructed by call `r` (L297) -/
  | returned (r : Nat)
  deriving DecidableEq

/-- The registry (`measurementRegistry`, L144) and the calls. -/
structure St (κ : Type) where
  store : κ → Option Nat
  pc : Nat → Pc

/-- An empty registry, nobody calling. (DataSubscriber.go L284-301) -/
def init (κ : Type) : St κ := ⟨fun _ => none, fun _ => .idle⟩

/-- DataSubscriber.go L284-301 -/
inductive Act where
  | load (p : Nat)
  | insert (p : Nat)

variable {κ : Type} [DecidableEq κ]

/-- One action of a call; call `p` asks for signal `sig p` (DataSubscriber.go L284-298). The result of `LoadOrStore` is
not looked at: the call returns the record it made itself. -/
def step (sig : Nat → κ) (s : St κ) : Act → Option (St κ)
  | .load p =>
    if s.pc p = .idle then
      match s.store (sig p) with
      | some r => some { s with pc := update s.pc p (.returned r) }
      | none => some { s with pc := update s.pc p .missed }
    else none
  | .insert p =>
    if s.pc p = .missed then
      some { store := update s.store (sig p) (some ((s.store (sig p)).getD p)), pc := update s.pc p (.returned p) }
    else none

/-- A schedule. (DataSubscriber.go L284-301) -/
def exec (sig : Nat → κ) (s : St κ) : List Act → Option (St κ)
  | [] => some s
  | a :: as => (step sig s a).bind (fun t => exec sig t as)

/-! ## C37 -/

/-- C37 fails: two calls for the same signal that both look before either has stored get two different records, and only
the first is in the registry. -/
theorem C37_same_record_false (sig : Nat → κ) (p q : Nat) (hpq : p ≠ q) (hs : sig p = sig q) :
    ∃ s, exec sig (init κ) [.load p, .load q, .insert p, .insert q] = some s ∧
      s.pc p = .returned p ∧ s.pc q = .returned q ∧ s.store (sig p) = some p := by
  have h1 : update (update (fun _ : Nat => Pc.idle) p Pc.missed) q Pc.missed p = .missed := by simp [update, hpq]
  have h2 : update (update (update (fun _ : Nat => Pc.idle) p Pc.missed) q Pc.missed) p (.returned p) q = .missed := by
    simp [update, hpq.symm]
  refine ⟨⟨update (fun _ => none) (sig p) (some p),
    update (update (update (update (fun _ => .idle) p .missed) q .missed) p (.returned p)) q (.returned q)⟩, ?_, ?_, ?_, ?_⟩
  · simp [exec, step, init, hpq.symm, h1, h2, hs]
  · simp [update, hpq]
  · simp
  · simp

theorem exec_append (sig : Nat → κ) (s : St κ) (as bs : List Act) :
    exec sig s (as ++ bs) = (exec sig s as).bind (fun t => exec sig t bs) := by
  induction as generalizing s with
  | nil => rfl
  | cons a as ih =>
    rw [List.cons_append, exec, exec, Option.bind_assoc]
    exact Option.bind_congr (fun t _ => ih t)

/-- What is registered stays. -/
theorem step_store {sig : Nat → κ} {s t : St κ} {a : Act} (h : step sig s a = some t) {k : κ} {r : Nat}
    (hk : s.store k = some r) : t.store k = some r := by
  cases a with
  | load p =>
    rw [step] at h
    split at h
    · split at h <;> (injection h with h; subst h; exact hk)
    · cases h
  | insert p =>
    rw [step] at h
    split at h
    · injection h with h
      subst h
      by_cases hp : k = sig p
      · subst hp; simp [hk]
      · simp [update, hp, hk]
    · cases h

theorem exec_store {sig : Nat → κ} {s t : St κ} {as : List Act} (h : exec sig s as = some t) {k : κ} {r : Nat}
    (hk : s.store k = some r) : t.store k = some r := by
  induction as generalizing s with
  | nil => rw [exec] at h; injection h with h; rw [← h]; exact hk
  | cons a as ih =>
    rw [exec, Option.bind_eq_some_iff] at h
    obtain ⟨u, h1, h2⟩ := h
    exact ih h2 (step_store h1 hk)

/-- A call that begins once a record is registered returns that record. -/
theorem exec_late {sig : Nat → κ} {s t : St κ} {as : List Act} (h : exec sig s as = some t) {p r x : Nat}
    (hk : s.store (sig p) = some r) (hi : s.pc p = .idle ∨ s.pc p = .returned r) (hx : t.pc p = .returned x) : x = r := by
  induction as generalizing s with
  | nil =>
    rw [exec] at h; injection h with h; subst h
    rcases hi with hi | hi
    · rw [hi] at hx; cases hx
    · rw [hi] at hx; injection hx with hx; exact hx.symm
  | cons a as ih =>
    rw [exec, Option.bind_eq_some_iff] at h
    obtain ⟨u, h1, h2⟩ := h
    refine ih h2 (step_store h1 hk) ?_
    cases a with
    | load q =>
      rw [step] at h1
      split at h1
      · rename_i hq
        split at h1
        · rename_i r' hr'
          injection h1 with h1; subst h1
          by_cases hp : p = q
          · subst hp
            rw [hk] at hr'; injection hr' with hr'
            right; simp [hr']
          · simpa [update, hp] using hi
        · rename_i hr'
          injection h1 with h1; subst h1
          by_cases hp : p = q
          · subst hp; rw [hk] at hr'; cases hr'
          · simpa [update, hp] using hi
      · cases h1
    | insert q =>
      rw [step] at h1
      split at h1
      · rename_i hq
        injection h1 with h1; subst h1
        by_cases hp : p = q
        · subst hp
          rcases hi with hi | hi <;> rw [hi] at hq <;> cases hq
        · simpa [update, hp] using hi
      · cases h1

/-- A call that found nothing registered has or will return its own record; whoever has returned, there is a registered
record. -/
theorem returned_cases {sig : Nat → κ} {t : St κ} {as : List Act} (h : exec sig (init κ) as = some t) :
    (∀ p x, t.pc p = .returned x → (x = p ∨ t.store (sig p) = some x) ∧ (t.store (sig p)).isSome) := by
  suffices ∀ s : St κ, exec sig s as = some t →
      (∀ p x, s.pc p = .returned x → (x = p ∨ s.store (sig p) = some x) ∧ (s.store (sig p)).isSome) →
      (∀ p x, t.pc p = .returned x → (x = p ∨ t.store (sig p) = some x) ∧ (t.store (sig p)).isSome) from
    this _ h (fun p x hx => by cases hx)
  clear h
  induction as with
  | nil => intro s h hs; rw [exec] at h; injection h with h; subst h; exact hs
  | cons a as ih =>
    intro s h hs
    rw [exec, Option.bind_eq_some_iff] at h
    obtain ⟨u, h1, h2⟩ := h
    refine ih u h2 (fun p x hx => ?_)
    have keep : ∀ k, (s.store k).isSome → (u.store k).isSome := by
      intro k hk
      obtain ⟨r, hr⟩ := Option.isSome_iff_exists.mp hk
      rw [step_store h1 hr]; rfl
    have old : s.pc p = .returned x → (x = p ∨ u.store (sig p) = some x) ∧ (u.store (sig p)).isSome := by
      intro hp
      obtain ⟨h3, h4⟩ := hs p x hp
      exact ⟨h3.imp_right (step_store h1), keep _ h4⟩
    cases a with
    | load q =>
      rw [step] at h1
      split at h1
      · split at h1
        · rename_i r hr
          injection h1 with h1; subst h1
          by_cases hp : p = q
          · subst hp
            simp only [Function.update_self, Pc.returned.injEq] at hx
            subst hx
            exact ⟨.inr hr, by simp only; rw [hr]; rfl⟩
          · exact old (by simpa [update, hp] using hx)
        · injection h1 with h1; subst h1
          by_cases hp : p = q
          · subst hp; simp at hx
          · exact old (by simpa [update, hp] using hx)
      · cases h1
    | insert q =>
      rw [step] at h1
      split at h1
      · injection h1 with h1; subst h1
        by_cases hp : p = q
        · subst hp
          simp only [Function.update_self, Pc.returned.injEq] at hx
          exact ⟨.inl hx.symm, by simp⟩
        · exact old (by simpa [update, hp] using hx)
      · cases h1

/-- C37 as far as it holds, for every schedule of any number of calls for any signals. Of two moments of a run: if at the
first a call for signal `k` has returned, then some record is registered for `k`, it stays registered, and every call for
`k` that had not begun yet at the first moment returns exactly this record. Missing from the full statement: the calls
that began before, which may return records of their own (`C37_same_record_false`). -/
theorem C37_later_calls_partial (sig : Nat → κ) (as bs : List Act) (s t : St κ) (h1 : exec sig (init κ) as = some s)
    (h2 : exec sig s bs = some t) (p x : Nat) (hp : s.pc p = .returned x) :
    ∃ r, s.store (sig p) = some r ∧ t.store (sig p) = some r ∧
      ∀ q y, sig q = sig p → s.pc q = .idle → t.pc q = .returned y → y = r := by
  obtain ⟨r, hr⟩ := Option.isSome_iff_exists.mp ((returned_cases h1) p x hp).2
  refine ⟨r, hr, exec_store h2 hr, fun q y hq hi hy => ?_⟩
  exact exec_late h2 (by rw [hq]; exact hr) (.inl hi) hy

/-- Calls made one after the other, as one goroutine makes them, all get the same record. -/
theorem C37_sequential (sig : Nat → κ) (as bs : List Act) (s t : St κ) (h1 : exec sig (init κ) as = some s)
    (h2 : exec sig s bs = some t) (p q x y : Nat) (hs : sig p = sig q) (hp : s.pc p = .returned x)
    (hone : s.store (sig p) = some x) (hq : s.pc q = .idle) (hy : t.pc q = .returned y) : y = x := by
  obtain ⟨r, hr, -, h⟩ := C37_later_calls_partial sig as bs s t h1 h2 p x hp
  rw [hone] at hr
  injection hr with hr
  rw [hr]
  exact h q y hs.symm hq hy

/-- Three calls for one signal: the two racing ones differ, the late one gets the registered record. -/
example : ∃ s t, exec (fun _ : Nat => ()) (init Unit) [.load 0, .load 1, .insert 1, .insert 0] = some s ∧
    exec (fun _ => ()) s [.load 2] = some t ∧ s.pc 0 = .returned 0 ∧ s.pc 1 = .returned 1 ∧ s.pc 2 = .idle ∧
    s.store () = some 1 ∧ t.pc 2 = .returned 1 := by
  refine ⟨_, _, by simp [exec, step, init]; rfl, by simp [exec, step]; rfl, ?_, ?_, ?_, ?_, ?_⟩ <;> simp

end Verif.Sync.Registry
