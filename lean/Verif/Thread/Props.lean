import Verif.Thread.Model

/-!
# Property C09: executions of a thread do not overlap; what `Join` guarantees
-/

namespace Verif.Thread

open Function (update)

/-- The execution has begun and not yet returned. -/
def Executing (s : St) (p : Nat) : Prop := s.run p = .executing

/-- The function of launch `p` has returned. -/
def Completed (s : St) (p : Nat) : Prop := s.run p = .finished ∨ s.run p = .unlocked ∨ s.run p = .done

/-! ## Who holds the mutex -/

inductive Owner where
  | starter (p : Nat)
  | runner (p : Nat)
  | joiner (j : Nat)
  deriving DecidableEq

/-- The goroutine has the mutex its starter took. -/
def Holds (r : RPc) : Prop := r = .launched ∨ r = .executing ∨ r = .finished

structure Inv (s : St) (o : Option Owner) : Prop where
  mutex : s.mutex = o.isSome
  start : ∀ p, s.start p = .locked ↔ o = some (.starter p)
  run : ∀ p, Holds (s.run p) ↔ o = some (.runner p)
  join : ∀ j, s.join j = .holding ↔ o = some (.joiner j)
  fresh : ∀ p, s.start p ≠ .returned → s.run p = .none

theorem upd {α : Type} (f : Nat → α) (p q : Nat) (v : α) :
    update f p v q = if q = p then v else f q := by
  by_cases h : q = p
  · subst h; simp
  · simp [h]

theorem Inv.free {s : St} {o : Option Owner} (h : Inv s o) (hm : s.mutex = false) : o = none := by
  have := h.mutex
  rw [hm] at this
  cases o with
  | none => rfl
  | some _ => simp at this

theorem inv_init : Inv init none := by
  constructor <;> simp [init, Holds]

theorem inv_step {s t : St} {o : Option Owner} (h : Inv s o) (a : Act) (ht : step s a = some t) :
    ∃ o', Inv t o' := by
  cases a with
  | tryStart p =>
    simp only [step] at ht
    split at ht
    · rename_i hp
      obtain rfl := Option.some.inj ht
      refine ⟨o, h.mutex, fun q => ?_, h.run, h.join, fun q => ?_⟩ <;> dsimp only <;> rw [upd]
      · split
        · rename_i hq
          subst hq
          rw [← h.start, hp]
          cases s.running <;> simp
        · exact h.start q
      · split
        · rename_i hq
          subst hq
          exact fun _ => h.fresh q (by rw [hp]; simp)
        · exact h.fresh q
    · cases ht
  | startCheck p =>
    simp only [step] at ht
    split at ht
    · rename_i hp
      obtain rfl := Option.some.inj ht
      refine ⟨o, h.mutex, fun q => ?_, h.run, h.join, fun q => ?_⟩ <;> dsimp only <;> rw [upd]
      · split
        · rename_i hq
          subst hq
          rw [← h.start]
          rcases hp with hp | hp <;> rw [hp] <;> cases s.running <;> simp
        · exact h.start q
      · split
        · rename_i hq
          subst hq
          exact fun _ => h.fresh q (by rcases hp with hp | hp <;> rw [hp] <;> simp)
        · exact h.fresh q
    · cases ht
  | startLock p =>
    simp only [step] at ht
    split at ht
    · rename_i hp
      obtain rfl := Option.some.inj ht
      obtain rfl := h.free hp.2
      refine ⟨some (.starter p), rfl, fun q => ?_, fun q => ?_, fun q => ?_, fun q => ?_⟩ <;> dsimp only
      · rw [upd]
        split
        · rename_i hq; subst hq; simp
        · rename_i hq
          have := h.start q
          simp only [reduceCtorEq, iff_false] at this
          simp only [this, false_iff, Option.some.injEq, Owner.starter.injEq]
          exact fun e => hq e.symm
      · have := h.run q
        simp only [reduceCtorEq, iff_false] at this
        simp [this]
      · have := h.join q
        simp only [reduceCtorEq, iff_false] at this
        simp [this]
      · rw [upd]
        split
        · rename_i hq; subst hq; exact fun _ => h.fresh q (by rw [hp.1]; simp)
        · exact h.fresh q
    · cases ht
  | startGo p =>
    simp only [step] at ht
    split at ht
    · rename_i hp
      obtain rfl := Option.some.inj ht
      obtain rfl := (h.start p).1 hp
      refine ⟨some (.runner p), h.mutex, fun q => ?_, fun q => ?_, fun q => ?_, fun q => ?_⟩ <;> dsimp only
      · rw [upd]
        split
        · simp
        · rename_i hq
          have := h.start q
          simp only [Option.some.injEq, Owner.starter.injEq] at this
          simp only [reduceCtorEq, Option.some.injEq, iff_false]
          rw [this]
          exact fun e => hq e.symm
      · rw [upd]
        split
        · rename_i hq; subst hq; simp [Holds]
        · rename_i hq
          have := h.run q
          simp only [Option.some.injEq, reduceCtorEq, iff_false] at this
          simp only [this, false_iff, Option.some.injEq, Owner.runner.injEq]
          exact fun e => hq e.symm
      · have := h.join q
        simp only [Option.some.injEq, reduceCtorEq, iff_false] at this
        simp [this]
      · rw [upd, upd]
        split
        · simp
        · exact h.fresh q
    · cases ht
  | runSet p =>
    simp only [step] at ht
    split at ht
    · rename_i hp
      obtain rfl := Option.some.inj ht
      have ho := (h.run p).1 (by rw [hp]; simp [Holds])
      refine ⟨o, h.mutex, h.start, fun q => ?_, h.join, fun q hq => ?_⟩ <;> dsimp only at * <;> rw [upd]
      · split
        · rename_i hq; subst hq; simp [Holds, ho]
        · exact h.run q
      · split
        · rename_i hq'; subst hq'
          have := h.fresh q hq
          rw [hp] at this
          cases this
        · exact h.fresh q hq
    · cases ht
  | runEnd p =>
    simp only [step] at ht
    split at ht
    · rename_i hp
      obtain rfl := Option.some.inj ht
      have ho := (h.run p).1 (by rw [hp]; simp [Holds])
      refine ⟨o, h.mutex, h.start, fun q => ?_, h.join, fun q hq => ?_⟩ <;> dsimp only at * <;> rw [upd]
      · split
        · rename_i hq; subst hq; simp [Holds, ho]
        · exact h.run q
      · split
        · rename_i hq'; subst hq'
          have := h.fresh q hq
          rw [hp] at this
          cases this
        · exact h.fresh q hq
    · cases ht
  | runUnlock p =>
    simp only [step] at ht
    split at ht
    · rename_i hp
      obtain rfl := Option.some.inj ht
      obtain rfl := (h.run p).1 (by rw [hp]; simp [Holds])
      refine ⟨none, rfl, fun q => ?_, fun q => ?_, fun q => ?_, fun q hq => ?_⟩ <;> dsimp only at *
      · have := h.start q
        simp only [Option.some.injEq, reduceCtorEq, iff_false] at this
        simp [this]
      · rw [upd]
        split
        · simp [Holds]
        · rename_i hq
          have := h.run q
          simp only [Option.some.injEq, Owner.runner.injEq] at this
          simp only [reduceCtorEq, iff_false]
          rw [this]
          exact fun e => hq e.symm
      · have := h.join q
        simp only [Option.some.injEq, reduceCtorEq, iff_false] at this
        simp [this]
      · rw [upd]
        split
        · rename_i hq'; subst hq'
          have := h.fresh q hq
          rw [hp] at this
          cases this
        · exact h.fresh q hq
    · cases ht
  | runUnset p =>
    simp only [step] at ht
    split at ht
    · rename_i hp
      obtain rfl := Option.some.inj ht
      refine ⟨o, h.mutex, h.start, fun q => ?_, h.join, fun q hq => ?_⟩ <;> dsimp only at * <;> rw [upd]
      · split
        · rename_i hq; subst hq
          rw [← h.run, hp]
          simp [Holds]
        · exact h.run q
      · split
        · rename_i hq'; subst hq'
          have := h.fresh q hq
          rw [hp] at this
          cases this
        · exact h.fresh q hq
    · cases ht
  | joinCheck j =>
    simp only [step] at ht
    split at ht
    · rename_i hp
      obtain rfl := Option.some.inj ht
      refine ⟨o, h.mutex, h.start, h.run, fun q => ?_, h.fresh⟩
      dsimp only
      rw [upd]
      split
      · rename_i hq; subst hq
        rw [← h.join, hp]
        cases s.running <;> simp
      · exact h.join q
    · cases ht
  | joinLock j =>
    simp only [step] at ht
    split at ht
    · rename_i hp
      obtain rfl := Option.some.inj ht
      obtain rfl := h.free hp.2
      refine ⟨some (.joiner j), rfl, fun q => ?_, fun q => ?_, fun q => ?_, h.fresh⟩ <;> dsimp only
      · have := h.start q
        simp only [reduceCtorEq, iff_false] at this
        simp [this]
      · have := h.run q
        simp only [reduceCtorEq, iff_false] at this
        simp [this]
      · rw [upd]
        split
        · rename_i hq; subst hq; simp
        · rename_i hq
          have := h.join q
          simp only [reduceCtorEq, iff_false] at this
          simp only [this, false_iff, Option.some.injEq, Owner.joiner.injEq]
          exact fun e => hq e.symm
    · cases ht
  | joinUnlock j =>
    simp only [step] at ht
    split at ht
    · rename_i hp
      obtain rfl := Option.some.inj ht
      obtain rfl := (h.join j).1 hp
      refine ⟨none, rfl, fun q => ?_, fun q => ?_, fun q => ?_, h.fresh⟩ <;> dsimp only
      · have := h.start q
        simp only [Option.some.injEq, reduceCtorEq, iff_false] at this
        simp [this]
      · have := h.run q
        simp only [Option.some.injEq, reduceCtorEq, iff_false] at this
        simp [this]
      · rw [upd]
        split
        · simp
        · rename_i hq
          have := h.join q
          simp only [Option.some.injEq, Owner.joiner.injEq] at this
          simp only [reduceCtorEq, iff_false]
          rw [this]
          exact fun e => hq e.symm
    · cases ht

theorem inv_exec : ∀ {as : List Act} {s t : St} {o : Option Owner}, Inv s o → exec s as = some t → ∃ o', Inv t o' := by
  intro as
  induction as with
  | nil => intro s t o h ht; obtain rfl := Option.some.inj ht; exact ⟨o, h⟩
  | cons a as ih =>
    intro s t o h ht
    rw [exec] at ht
    obtain ⟨u, hu, ht⟩ := Option.bind_eq_some_iff.1 ht
    obtain ⟨o', h'⟩ := inv_step h a hu
    exact ih h' ht

theorem inv_reach {s : St} (h : Leads init s) : ∃ o, Inv s o :=
  let ⟨_, ht⟩ := h
  inv_exec inv_init ht

/-! ## Progress of a goroutine -/

/-- How far a goroutine is. -/
def rank : RPc → Nat
  | .none => 0
  | .launched => 1
  | .executing => 2
  | .finished => 3
  | .unlocked => 4
  | .done => 5

theorem rank_upd (f : Nat → RPc) (p q : Nat) (v : RPc) (h : rank (f p) ≤ rank v) :
    rank (f q) ≤ rank (update f p v q) := by
  rw [upd]
  split
  · rename_i hq; subst hq; exact h
  · exact Nat.le_refl _

/-- The part of a join that has taken the mutex, or returned after waiting, comes after the executions it saw. -/
theorem rank_step {s t : St} {o : Option Owner} (h : Inv s o) (a : Act) (ht : step s a = some t) (q : Nat) :
    rank (s.run q) ≤ rank (t.run q) := by
  cases a <;> simp only [step] at ht <;> split at ht <;>
    first
    | cases ht; done
    | (rename_i hp
       obtain rfl := Option.some.inj ht
       first
       | exact Nat.le_refl _
       | (dsimp only
          apply rank_upd
          first
          | (rw [hp]; decide)
          | (have := h.fresh _ (by rw [hp]; simp)
             rw [this]
             decide)))

/-- What a join that saw the flag on has learnt about launch `p`. -/
def Learnt (s : St) (j p : Nat) : Prop :=
  (s.join j = .waiting ∧ 1 ≤ rank (s.run p)) ∨ 4 ≤ rank (s.run p)

theorem learnt_step {s t : St} {o : Option Owner} (h : Inv s o) (a : Act) (ht : step s a = some t) (j p : Nat)
    (hl : Learnt s j p) : Learnt t j p := by
  have hr := rank_step h a ht p
  rcases hl with ⟨hj, h2⟩ | h4
  · cases a with
    | joinLock i =>
      simp only [step] at ht
      split at ht
      · rename_i hp
        obtain rfl := Option.some.inj ht
        obtain rfl := h.free hp.2
        right
        have := h.run p
        simp only [reduceCtorEq, iff_false] at this
        dsimp only
        cases hx : s.run p <;> rw [hx] at this h2 <;> simp [Holds, rank] at this h2 ⊢
      · cases ht
    | joinCheck i =>
      simp only [step] at ht
      split at ht
      · rename_i hp
        obtain rfl := Option.some.inj ht
        left
        refine ⟨?_, h2⟩
        dsimp only
        rw [upd, if_neg]
        · exact hj
        · rintro rfl; rw [hp] at hj; cases hj
      · cases ht
    | joinUnlock i =>
      simp only [step] at ht
      split at ht
      · rename_i hp
        obtain rfl := Option.some.inj ht
        left
        refine ⟨?_, h2⟩
        dsimp only
        rw [upd, if_neg]
        · exact hj
        · rintro rfl; rw [hp] at hj; cases hj
      · cases ht
    | _ =>
      left
      refine ⟨?_, by omega⟩
      simp only [step] at ht
      split at ht
      · obtain rfl := Option.some.inj ht; exact hj
      · cases ht
  · exact .inr (by omega)

theorem learnt_exec : ∀ {as : List Act} {s t : St} {o : Option Owner} (j p : Nat), Inv s o → exec s as = some t →
    Learnt s j p → Learnt t j p := by
  intro as
  induction as with
  | nil => intro s t o j p _ ht hl; obtain rfl := Option.some.inj ht; exact hl
  | cons a as ih =>
    intro s t o j p h ht hl
    rw [exec] at ht
    obtain ⟨u, hu, ht⟩ := Option.bind_eq_some_iff.1 ht
    obtain ⟨o', h'⟩ := inv_step h a hu
    exact ih j p h' ht (learnt_step h a hu j p hl)

/-! ## One start at a time -/

/-- Only starter `p` was ever used. -/
def Solo (p : Nat) (s : St) : Prop := ∀ q, q ≠ p → s.start q = .idle

/-- With a single start the flag is on exactly between `run` setting and clearing it. -/
theorem solo_running {p : Nat} : ∀ {as : List Act} {s t : St} {o : Option Owner}, Inv s o →
    (Solo p s → (s.running = true ↔ 2 ≤ rank (s.run p) ∧ rank (s.run p) ≤ 4)) → exec s as = some t → Solo p t →
    (t.running = true ↔ 2 ≤ rank (t.run p) ∧ rank (t.run p) ≤ 4) := by
  intro as
  induction as with
  | nil => intro s t o _ h0 ht hs; obtain rfl := Option.some.inj ht; exact h0 hs
  | cons a as ih =>
    intro s t o h h0 ht hs
    rw [exec] at ht
    obtain ⟨u, hu, ht⟩ := Option.bind_eq_some_iff.1 ht
    obtain ⟨o', h'⟩ := inv_step h a hu
    refine ih h' (fun hsu => ?_) ht hs
    have hidle : ∀ q, q ≠ p → s.run q = .none := by
      intro q hq
      by_contra hc
      have h1 : s.start q = .returned := by
        by_contra hx; exact hc (h.fresh q hx)
      have h2 := hsu q hq
      cases a <;> simp only [step] at hu <;> split at hu <;>
        first
        | cases hu; done
        | (rename_i hp
           obtain rfl := Option.some.inj hu
           dsimp only at h2
           first
           | (rw [h1] at h2; cases h2; done)
           | (rw [upd] at h2
              split at h2
              · rename_i hqp
                subst hqp
                rw [h1] at hp
                simp at hp
              · rw [h1] at h2; cases h2))
    have hss : Solo p s := by
      intro q hq
      have h2 := hsu q hq
      cases a <;> simp only [step] at hu <;> split at hu <;>
        first
        | cases hu; done
        | (rename_i hp
           obtain rfl := Option.some.inj hu
           dsimp only at h2
           first
           | exact h2
           | (rw [upd] at h2
              split at h2
              · first
                | cases h2; done
                | (cases hrun : s.running <;> rw [hrun] at h2 <;> simp at h2)
              · exact h2))
    have h1 := h0 hss
    have self : ∀ q, s.run q ≠ .none → q = p := by
      intro q hq
      by_contra hc
      exact hq (hidle q hc)
    cases a with
    | startGo q =>
      simp only [step] at hu
      split at hu
      · rename_i hp
        obtain rfl := Option.some.inj hu
        have hqp : q = p := by
          by_contra hc
          rw [hss q hc] at hp
          cases hp
        subst hqp
        dsimp only
        rw [upd, if_pos rfl, h1, h.fresh q (by rw [hp]; simp)]
        simp [rank]
      · cases hu
    | runSet q =>
      simp only [step] at hu
      split at hu
      · rename_i hp
        obtain rfl := Option.some.inj hu
        obtain rfl := self q (by rw [hp]; simp)
        dsimp only
        rw [upd, if_pos rfl]
        simp [rank]
      · cases hu
    | runEnd q =>
      simp only [step] at hu
      split at hu
      · rename_i hp
        obtain rfl := Option.some.inj hu
        obtain rfl := self q (by rw [hp]; simp)
        dsimp only
        rw [upd, if_pos rfl, h1, hp]
        simp [rank]
      · cases hu
    | runUnlock q =>
      simp only [step] at hu
      split at hu
      · rename_i hp
        obtain rfl := Option.some.inj hu
        obtain rfl := self q (by rw [hp]; simp)
        dsimp only
        rw [upd, if_pos rfl, h1, hp]
        simp [rank]
      · cases hu
    | runUnset q =>
      simp only [step] at hu
      split at hu
      · rename_i hp
        obtain rfl := Option.some.inj hu
        obtain rfl := self q (by rw [hp]; simp)
        dsimp only
        rw [upd, if_pos rfl]
        simp [rank]
      · cases hu
    | _ =>
      simp only [step] at hu
      split at hu
      · obtain rfl := Option.some.inj hu; exact h1
      · cases hu

/-! ## The property -/

/-- Executions of the function never overlap, whatever the schedule and the number of callers. -/
theorem C09_no_overlap (s : St) (h : Leads init s) (p q : Nat) (hp : Executing s p) (hq : Executing s q) : p = q := by
  obtain ⟨o, hi⟩ := inv_reach h
  have h1 := (hi.run p).1 (.inr (.inl hp))
  have h2 := (hi.run q).1 (.inr (.inl hq))
  rw [h1] at h2
  simpa using h2

/-- A goroutine is launched only by a start that was not refused. -/
theorem C09_once_per_start (s : St) (h : Leads init s) (p : Nat) (hp : s.run p ≠ .none) : s.start p = .returned := by
  obtain ⟨o, hi⟩ := inv_reach h
  by_contra hc
  exact hp (hi.fresh p hc)

theorem completed_of_rank {s : St} {p : Nat} (h : 4 ≤ rank (s.run p)) : Completed s p := by
  unfold Completed
  cases hx : s.run p <;> rw [hx] at h <;> simp [rank] at h ⊢

/-- A `Join` that finds the `running` flag on while the function executes returns only after that execution. -/
theorem C09_join_waits (s t u : St) (h : Leads init s) (j p : Nat) (hj : s.join j = .idle) (hx : Executing s p)
    (hr : s.running = true) (hc : step s (.joinCheck j) = some t) (hu : Leads t u) (hd : u.join j = .returned) :
    Completed u p := by
  obtain ⟨o, hi⟩ := inv_reach h
  obtain ⟨o', hi'⟩ := inv_step hi _ hc
  obtain ⟨as, hu⟩ := hu
  have hl : Learnt t j p := by
    simp only [step, if_pos hj, hr] at hc
    obtain rfl := Option.some.inj hc
    left
    refine ⟨by simp, ?_⟩
    dsimp only
    rw [show s.run p = .executing from hx]
    decide
  rcases learnt_exec j p hi' hu hl with ⟨h1, _⟩ | h4
  · rw [hd] at h1; cases h1
  · exact completed_of_rank h4

/-- **C09 (the part that holds).** Under every interleaving of any number of `Start`, `TryStart` and `Join` callers:
1. two executions of the function never overlap, and each belongs to one start that was not refused;
2. a `Join` that finds the `running` flag on while execution `p` is in progress does not return before `p` completed;
3. when the thread is started only once, every `Join` issued while the function executes finds the flag on, so it
   waits for the completion.

Missing: "a `Join` issued after `Start` returned waits", see `C09_join_after_start_false`; 3 for a thread that is
started by two callers, see `C09_join_during_execution_false`. -/
theorem C09_thread_partial :
    (∀ s, Leads init s → ∀ p q, Executing s p → Executing s q → p = q) ∧
    (∀ s, Leads init s → ∀ p, s.run p ≠ .none → s.start p = .returned) ∧
    (∀ s t u, Leads init s → ∀ j p, s.join j = .idle → Executing s p → s.running = true →
      step s (.joinCheck j) = some t → Leads t u → u.join j = .returned → Completed u p) ∧
    (∀ s t u, Leads init s → ∀ j p, Solo p s → s.join j = .idle → Executing s p →
      step s (.joinCheck j) = some t → Leads t u → u.join j = .returned → Completed u p) := by
  refine ⟨C09_no_overlap, C09_once_per_start, C09_join_waits, fun s t u h j p hs hj hx hc hu hd => ?_⟩
  refine C09_join_waits s t u h j p hj hx ?_ hc hu hd
  obtain ⟨as, has⟩ := h
  refine (solo_running inv_init (fun _ => by simp [init, rank]) has hs).2 ?_
  rw [show s.run p = .executing from hx]
  decide

/-- A start, a join during the execution, and its return after the execution. -/
example : ∃ s t u, Leads init s ∧ Solo 0 s ∧ s.join 7 = .idle ∧ Executing s 0 ∧ s.running = true ∧
    step s (.joinCheck 7) = some t ∧ Leads t u ∧ u.join 7 = .returned :=
  ⟨_, _, _, ⟨[.tryStart 0, .startCheck 0, .startLock 0, .startGo 0, .runSet 0], rfl⟩,
    fun q hq => by simp [init, hq], rfl, rfl, rfl, rfl,
    ⟨[.runEnd 0, .runUnlock 0, .joinLock 7, .joinUnlock 7], rfl⟩, rfl⟩

/-- **C09 is false of the code**: `Start` has returned, and a `Join` issued afterwards returns at once, because the
launched goroutine has not set the flag yet; the function begins only after that. -/
theorem C09_join_after_start_false :
    ∃ s t u, Leads init s ∧ s.start 0 = .returned ∧ s.join 0 = .idle ∧ step s (.joinCheck 0) = some t ∧
      t.join 0 = .returned ∧ ¬ Completed t 0 ∧ Leads t u ∧ Executing u 0 := by
  refine ⟨_, _, _, ⟨[.startCheck 0, .startLock 0, .startGo 0], rfl⟩, rfl, rfl, rfl, rfl, ?_, ⟨[.runSet 0], rfl⟩, rfl⟩
  rintro (h | h | h) <;> cases h

/-- **C09 is false of the code**: two callers pass the check before the first execution begins; when the first
execution clears the flag after the second one has begun, a `Join` issued during the second execution returns at
once. -/
theorem C09_join_during_execution_false :
    ∃ s t, Leads init s ∧ s.join 0 = .idle ∧ Executing s 1 ∧ step s (.joinCheck 0) = some t ∧
      t.join 0 = .returned ∧ Executing t 1 :=
  ⟨_, _, ⟨[.startCheck 0, .startCheck 1, .startLock 0, .startGo 0, .runSet 0, .runEnd 0, .runUnlock 0,
    .startLock 1, .startGo 1, .runSet 1, .runUnset 0], rfl⟩, rfl, rfl, rfl, rfl, rfl⟩

end Verif.Thread
