import Verif.Thread.Props

/-!
# C09: exactly when `Join` waits, and that nothing waits for ever
-/

namespace Verif.Thread

open Function (update)

/-- **When `Join` waits for an execution**: exactly when it finds the flag on, be it left on by an earlier execution that is about to clear it. -/
theorem C09_join_iff (s t : St) (h : Leads init s) (j p : Nat) (hj : s.join j = .idle) (hp : s.run p = .launched ∨ Executing s p)
    (hc : step s (.joinCheck j) = some t) : (∀ u, Leads t u → u.join j = .returned → Completed u p) ↔ s.running = true := by
  have hn : ¬ Completed t p := by
    have e : t.run p = s.run p := by
      simp only [step, if_pos hj] at hc
      obtain rfl := Option.some.inj hc
      rfl
    rintro (hx | hx | hx) <;> rw [e] at hx <;> rcases hp with hp | hp <;> rw [show s.run p = _ from hp] at hx <;> cases hx
  constructor
  · intro hw
    by_contra hr
    refine hn (hw t ⟨[], rfl⟩ ?_)
    simp only [step, if_pos hj, Bool.not_eq_true] at hc hr
    obtain rfl := Option.some.inj hc
    simp [hr]
  · rintro hr u ⟨as, hu⟩ hd
    obtain ⟨o, hi⟩ := inv_reach h
    obtain ⟨o', hi'⟩ := inv_step hi _ hc
    have hl : Learnt t j p := by
      simp only [step, if_pos hj, hr] at hc
      obtain rfl := Option.some.inj hc
      left
      refine ⟨by simp, ?_⟩
      dsimp only
      rcases hp with hp | hp <;> rw [show s.run p = _ from hp] <;> decide
    rcases learnt_exec j p hi' hu hl with ⟨h1, _⟩ | h4
    · rw [hd] at h1; cases h1
    · exact completed_of_rank h4

theorem begun_step (s : St) (a : Act) (t : St) (p : Nat) (h : s.start p = .returned → 1 ≤ rank (s.run p)) (o : Option Owner) (hi : Inv s o)
    (ht : step s a = some t) : t.start p = .returned → 1 ≤ rank (t.run p) := by
  have hr := rank_step hi a ht p
  intro hs
  by_cases hq : s.start p = .returned
  · have := h hq
    omega
  · cases a with
    | startGo q =>
      simp only [step] at ht
      split at ht
      · obtain rfl := Option.some.inj ht
        dsimp only at hs ⊢
        rw [upd] at hs ⊢
        split
        · decide
        · rename_i hpq
          rw [if_neg hpq] at hs
          exact absurd hs hq
      · cases ht
    | tryStart q =>
      simp only [step] at ht
      split at ht
      · obtain rfl := Option.some.inj ht
        dsimp only at hs
        rw [upd] at hs
        split at hs
        · split at hs <;> cases hs
        · exact absurd hs hq
      · cases ht
    | startCheck q =>
      simp only [step] at ht
      split at ht
      · obtain rfl := Option.some.inj ht
        dsimp only at hs
        rw [upd] at hs
        split at hs
        · split at hs <;> cases hs
        · exact absurd hs hq
      · cases ht
    | startLock q =>
      simp only [step] at ht
      split at ht
      · obtain rfl := Option.some.inj ht
        dsimp only at hs
        rw [upd] at hs
        split at hs
        · cases hs
        · exact absurd hs hq
      · cases ht
    | _ =>
      simp only [step] at ht
      split at ht
      · obtain rfl := Option.some.inj ht
        exact absurd hs hq
      · cases ht

/-- A start that has returned has launched a goroutine. -/
theorem begun {s : St} (h : Leads init s) (p : Nat) (hs : s.start p = .returned) : 1 ≤ rank (s.run p) := by
  obtain ⟨as, h⟩ := h
  have key : ∀ (as : List Act) (s t : St) (o : Option Owner), Inv s o → (s.start p = .returned → 1 ≤ rank (s.run p)) → exec s as = some t →
      t.start p = .returned → 1 ≤ rank (t.run p) := by
    intro as
    induction as with
    | nil => intro s t o _ h0 ht; obtain rfl := Option.some.inj ht; exact h0
    | cons a as ih =>
      intro s t o hi h0 ht
      rw [exec] at ht
      obtain ⟨u, hu, ht⟩ := Option.bind_eq_some_iff.1 ht
      obtain ⟨o', hi'⟩ := inv_step hi a hu
      exact ih u t o' hi' (begun_step s a u p h0 o hi hu) ht
  exact key as init s none inv_init (by simp [init]) h hs

/-- **With a single start**, a `Join` issued after `Start` returned, and before the execution completed, waits for it exactly when the goroutine has got as far as
setting its flag. -/
theorem C09_join_started_iff (s t : St) (h : Leads init s) (j p : Nat) (hs : Solo p s) (hj : s.join j = .idle) (hp : s.start p = .returned) (hn : ¬ Completed s p)
    (hc : step s (.joinCheck j) = some t) : (∀ u, Leads t u → u.join j = .returned → Completed u p) ↔ Executing s p := by
  have hrun : s.running = true ↔ 2 ≤ rank (s.run p) ∧ rank (s.run p) ≤ 4 := by
    obtain ⟨as, has⟩ := h
    exact solo_running inv_init (fun _ => by simp [init, rank]) has hs
  have hb := begun h p hp
  have hx : s.run p = .launched ∨ Executing s p := by
    unfold Completed at hn
    unfold Executing
    cases hx : s.run p <;> simp [hx, rank] at hn hb ⊢
  rw [C09_join_iff s t h j p hj hx hc, hrun]
  rcases hx with hx | hx
  · rw [hx]
    simp [Executing, hx, rank]
  · rw [show s.run p = .executing from hx]
    simp [hx, rank]

/-! ## Nothing waits for ever -/

/-- Whoever has the mutex can release it, and then nobody else has moved. -/
theorem frees {s : St} {o : Option Owner} (hi : Inv s o) :
    ∃ t, Leads s t ∧ t.mutex = false ∧ (∀ j, s.join j = .waiting → t.join j = .waiting) ∧ (∀ p, s.start p = .checked → t.start p = .checked) ∧
      ∀ j, s.join j = .holding → t.join j = .returned := by
  have nojoin : ∀ {w : Owner}, o = some w → (∀ j, w ≠ .joiner j) → ∀ j, s.join j ≠ .holding := by
    rintro w rfl hw j hj
    have := (hi.join j).1 hj
    injection this with this
    exact hw j this
  rcases Option.eq_none_or_eq_some o with rfl | ⟨w, rfl⟩
  · refine ⟨s, ⟨[], rfl⟩, by simpa using hi.mutex, fun _ h => h, fun _ h => h, fun j hj => ?_⟩
    have := (hi.join j).1 hj
    cases this
  · cases w with
    | starter p =>
      have hp := (hi.start p).2 rfl
      refine ⟨{ s with mutex := false, running := true, start := update s.start p .returned, run := update s.run p .unlocked },
        ⟨[.startGo p, .runSet p, .runEnd p, .runUnlock p], by simp [exec, step, hp]⟩, rfl, fun _ h => h, fun q hq => ?_,
        fun j hj => absurd hj (nojoin rfl (by simp) j)⟩
      dsimp only
      rw [upd, if_neg]
      · exact hq
      · rintro rfl
        rw [hp] at hq
        cases hq
    | runner p =>
      rcases (hi.run p).2 rfl with hp | hp | hp
      · exact ⟨{ s with mutex := false, running := true, run := update s.run p .unlocked },
          ⟨[.runSet p, .runEnd p, .runUnlock p], by simp [exec, step, hp]⟩, rfl, fun _ h => h, fun _ h => h,
          fun j hj => absurd hj (nojoin rfl (by simp) j)⟩
      · exact ⟨{ s with mutex := false, run := update s.run p .unlocked }, ⟨[.runEnd p, .runUnlock p], by simp [exec, step, hp]⟩, rfl, fun _ h => h, fun _ h => h,
          fun j hj => absurd hj (nojoin rfl (by simp) j)⟩
      · exact ⟨{ s with mutex := false, run := update s.run p .unlocked }, ⟨[.runUnlock p], by simp [exec, step, hp]⟩, rfl, fun _ h => h, fun _ h => h,
          fun j hj => absurd hj (nojoin rfl (by simp) j)⟩
    | joiner j =>
      have hj := (hi.join j).2 rfl
      refine ⟨{ s with mutex := false, join := update s.join j .returned }, ⟨[.joinUnlock j], by simp [exec, step, hj]⟩, rfl, fun k hk => ?_, fun _ h => h, fun k hk => ?_⟩
      · dsimp only
        rw [upd, if_neg]
        · exact hk
        · rintro rfl
          rw [hj] at hk
          cases hk
      · have := (hi.join k).1 hk
        injection this with this
        injection this with this
        subst this
        simp

theorem Leads.trans {s t u : St} (h : Leads s t) (h' : Leads t u) : Leads s u := by
  obtain ⟨as, h⟩ := h
  obtain ⟨bs, h'⟩ := h'
  refine ⟨as ++ bs, ?_⟩
  induction as generalizing s with
  | nil => obtain rfl := Option.some.inj h; exact h'
  | cons a as ih =>
    rw [exec] at h
    obtain ⟨v, hv, h⟩ := Option.bind_eq_some_iff.1 h
    rw [List.cons_append, exec, hv]
    exact ih h

/-- **No deadlock**: whatever has happened, a `Join` that waits can return, and a start that has passed its check can take the mutex and launch its goroutine, whose
function then runs. -/
theorem C09_no_deadlock (s : St) (h : Leads init s) :
    (∀ j, s.join j ≠ .idle → ∃ t, Leads s t ∧ t.join j = .returned) ∧
    ∀ p, s.start p = .checked ∨ s.start p = .locked → ∃ t, Leads s t ∧ t.start p = .returned ∧ Executing t p := by
  obtain ⟨o, hi⟩ := inv_reach h
  obtain ⟨t, h1, h2, h3, h4, h5⟩ := frees hi
  constructor
  · intro j hj
    cases hx : s.join j with
    | idle => exact absurd hx hj
    | waiting =>
      have hw := h3 j hx
      refine ⟨{ t with mutex := false, join := update t.join j .returned }, h1.trans ⟨[.joinLock j, .joinUnlock j], by simp [exec, step, hw, h2]⟩, by simp⟩
    | holding => exact ⟨t, h1, h5 j hx⟩
    | returned => exact ⟨s, ⟨[], rfl⟩, hx⟩
  · rintro p (hp | hp)
    · have hw := h4 p hp
      refine ⟨{ t with mutex := true, running := true, start := update t.start p .returned, run := update t.run p .executing },
        h1.trans ⟨[.startLock p, .startGo p, .runSet p], by simp [exec, step, hw, h2]⟩, by simp, by simp [Executing]⟩
    · exact ⟨{ s with running := true, start := update s.start p .returned, run := update s.run p .executing },
        ⟨[.startGo p, .runSet p], by simp [exec, step, hp]⟩, by simp, by simp [Executing]⟩

/-- `C09_join_iff`, `C09_join_started_iff`, `C09_no_deadlock`: one start, whose goroutine executes, and a second that passed its check before; a `Join` about to look. -/
example : ∃ s, Leads init s ∧ Executing s 0 ∧ s.start 1 = .checked ∧ s.join 7 = .idle ∧ s.running = true :=
  ⟨_, ⟨[.startCheck 0, .startCheck 1, .startLock 0, .startGo 0, .runSet 0], rfl⟩, rfl, rfl, rfl, rfl⟩

example : ∃ s, Leads init s ∧ Solo 0 s ∧ s.start 0 = .returned ∧ ¬ Completed s 0 ∧ s.join 7 = .idle ∧ ¬ Executing s 0 :=
  ⟨_, ⟨[.startCheck 0, .startLock 0, .startGo 0], rfl⟩, fun q hq => by simp [init, hq], rfl, by simp [Completed], rfl, by simp [Executing]⟩

end Verif.Thread
