import Verif.Sync.ReconnectProps

/-!
# C108: no callback is replaced while a callback runs

`BeginCallbackAssignment` takes the write side of the callback lock and `BeginCallbackSync` the read side
(DataSubscriber.go L217-234).
-/

namespace Verif.Sync.Reconnect

open Function (update)

/-- The lock has been respected so far. -/
structure Kept (s : St) : Prop where
  newD : ∀ i, s.nd ≤ i → s.d i = .idle
  newR : ∀ i, s.nr ≤ i → s.r i = .idle
  noD : ∀ w, s.writer = .holding w → ∀ i, (s.d i).holds = false
  noR : ∀ w, s.writer = .holding w → ∀ i, (s.r i).holds = false

theorem kept_init : Kept init :=
  ⟨fun _ _ => rfl, fun _ _ => rfl, fun _ h => (by cases h), fun _ h => (by cases h)⟩

theorem free_all {s : St} (h : s.free = true) (hd : ∀ i, s.nd ≤ i → s.d i = .idle) (hr : ∀ i, s.nr ≤ i → s.r i = .idle)
    (i : Nat) : (s.d i).holds = false ∧ (s.r i).holds = false := by
  unfold St.free at h
  rw [Bool.and_eq_true, List.all_eq_true, List.all_eq_true] at h
  refine ⟨?_, ?_⟩
  · by_cases hi : i < s.nd
    · simpa using h.1 i (List.mem_range.mpr hi)
    · rw [hd i (by omega)]; rfl
  · by_cases hi : i < s.nr
    · simpa using h.2 i (List.mem_range.mpr hi)
    · rw [hr i (by omega)]; rfl

/-- One disconnect thread that has been started goes on, and into a callback only while there is no writer. -/
theorem Kept.setD {s t : St} (h : Kept s) {i : Nat} {p : DPc} (hi : s.d i ≠ .idle) (hd : t.d = update s.d i p)
    (hnd : t.nd = s.nd) (hr : t.r = s.r) (hnr : t.nr = s.nr) (hw : t.writer = s.writer)
    (hp : s.writer = .none ∨ p.holds = (s.d i).holds ∨ p.holds = false) : Kept t := by
  refine ⟨fun j hj => ?_, fun j hj => ?_, fun w hh j => ?_, fun w hh j => ?_⟩
  · rw [hnd] at hj
    have hji : j ≠ i := fun e => hi (e ▸ h.newD j hj)
    rw [hd, Function.update_of_ne hji]; exact h.newD j hj
  · rw [hr]; rw [hnr] at hj; exact h.newR j hj
  · rw [hw] at hh
    rw [hd]
    by_cases hji : j = i
    · subst hji
      rw [Function.update_self]
      rcases hp with hp | hp | hp
      · rw [hp] at hh; cases hh
      · rw [hp]; exact h.noD w hh j
      · exact hp
    · rw [Function.update_of_ne hji]; exact h.noD w hh j
  · rw [hw] at hh; rw [hr]; exact h.noR w hh j

/-- One reconnect thread that has been started goes on, and into the callback only while there is no writer. -/
theorem Kept.setR {s t : St} (h : Kept s) {i : Nat} {p : RPc} (hi : s.r i ≠ .idle) (hr : t.r = update s.r i p)
    (hnr : t.nr = s.nr) (hd : t.d = s.d) (hnd : t.nd = s.nd) (hw : t.writer = s.writer ∨ t.writer = .none)
    (hp : s.writer = .none ∨ p.holds = false) : Kept t := by
  refine ⟨fun j hj => ?_, fun j hj => ?_, fun w hh j => ?_, fun w hh j => ?_⟩
  · rw [hd]; rw [hnd] at hj; exact h.newD j hj
  · rw [hnr] at hj
    have hji : j ≠ i := fun e => hi (e ▸ h.newR j hj)
    rw [hr, Function.update_of_ne hji]; exact h.newR j hj
  · rcases hw with hw | hw
    · rw [hw] at hh; rw [hd]; exact h.noD w hh j
    · rw [hw] at hh; cases hh
  · rcases hw with hw | hw
    · rw [hw] at hh
      rw [hr]
      by_cases hji : j = i
      · subst hji
        rw [Function.update_self]
        rcases hp with hp | hp
        · rw [hp] at hh; cases hh
        · exact hp
      · rw [Function.update_of_ne hji]; exact h.noR w hh j
    · rw [hw] at hh; cases hh

/-- The threads stay where they are and the writer does not get the lock. -/
theorem Kept.same {s t : St} (h : Kept s) (hd : t.d = s.d) (hnd : t.nd = s.nd) (hr : t.r = s.r) (hnr : t.nr = s.nr)
    (hw : t.writer = s.writer ∨ ∀ w, t.writer ≠ .holding w) : Kept t := by
  refine ⟨fun j hj => ?_, fun j hj => ?_, fun w hh j => ?_, fun w hh j => ?_⟩
  · rw [hd]; rw [hnd] at hj; exact h.newD j hj
  · rw [hr]; rw [hnr] at hj; exact h.newR j hj
  · rcases hw with hw | hw
    · rw [hw] at hh; rw [hd]; exact h.noD w hh j
    · exact absurd hh (hw w)
  · rcases hw with hw | hw
    · rw [hw] at hh; rw [hr]; exact h.noR w hh j
    · exact absurd hh (hw w)

theorem kept_stepD {s t : St} {i : Nat} {c : Choice} (hs : Kept s) (h : stepD s i c = some t) : Kept t := by
  unfold stepD at h
  split at h
  case h_1 => cases h
  case h_2 e => cases h; exact hs.setD (i := i) (p := .askT) (by rw [e]; nofun) rfl rfl rfl rfl rfl (.inr (.inr rfl))
  case h_3 e =>
    obtain ⟨hw, rfl⟩ := rlock_eq h
    exact hs.setD (i := i) (p := .inT) (by rw [e]; nofun) rfl rfl rfl rfl rfl (.inl hw)
  case h_4 e =>
    cases c with
    | no => cases h; exact hs.setD (i := i) (p := .clear) (by rw [e]; nofun) rfl rfl rfl rfl rfl (.inr (.inr rfl))
    | yes =>
      dsimp only at h
      split at h
      · next k _ =>
        cases h; exact hs.setD (i := i) (p := .inConnect k) (by rw [e]; nofun) rfl rfl rfl rfl rfl (.inr (.inl (by rw [e]; rfl)))
      · cases h; exact hs
  case h_5 e =>
    split at h
    · cases h; exact hs.setD (i := i) (p := .inT) (by rw [e]; nofun) rfl rfl rfl rfl rfl (.inr (.inl (by rw [e]; rfl)))
    · cases h
  case h_6 e => cases h; exact hs.setD (i := i) (p := .askA) (by rw [e]; nofun) rfl rfl rfl rfl rfl (.inr (.inr rfl))
  case h_7 e =>
    obtain ⟨hw, rfl⟩ := rlock_eq h
    exact hs.setD (i := i) (p := .copy) (by rw [e]; nofun) rfl rfl rfl rfl rfl (.inl hw)
  case h_8 e =>
    cases h; exact hs.setD (i := i) (p := .join (last s.nr)) (by rw [e]; nofun) rfl rfl rfl rfl rfl (.inr (.inl (by rw [e]; rfl)))
  case h_9 e =>
    split at h
    · cases h; exact hs.setD (i := i) (p := .launch) (by rw [e]; nofun) rfl rfl rfl rfl rfl (.inr (.inl (by rw [e]; rfl)))
    · cases h
  case h_10 e =>
    cases h
    have h1 : Kept ({ s with nr := s.nr + 1 }.setR s.nr .launched) := by
      refine ⟨hs.newD, fun j hj => ?_, hs.noD, fun w hh j => ?_⟩
      · have hj' : s.nr + 1 ≤ j := hj
        show update s.r s.nr RPc.launched j = .idle
        rw [Function.update_of_ne (by omega)]; exact hs.newR j (by omega)
      · show (update s.r s.nr RPc.launched j).holds = false
        by_cases hj : j = s.nr
        · subst hj; rw [Function.update_self]; rfl
        · rw [Function.update_of_ne hj]; exact hs.noR w hh j
    exact h1.setD (i := i) (p := .leave) (by show s.d i ≠ _; rw [e]; nofun) rfl rfl rfl rfl rfl
      (.inr (.inl (by show _ = (s.d i).holds; rw [e]; rfl)))
  case h_11 e => cases h; exact hs.setD (i := i) (p := .ended) (by rw [e]; nofun) rfl rfl rfl rfl rfl (.inr (.inr rfl))
  case h_12 => cases h

theorem kept_wlock {s t u : St} {w : Who} (hs : Kept s) (h : s.wlock w t = some u) (ht : Kept { t with writer := .announced w })
    (hd : ∀ i, (t.d i).holds = (s.d i).holds) (hr : ∀ i, (t.r i).holds = (s.r i).holds) : Kept u := by
  rcases wlock_cases h with ⟨_, rfl⟩ | ⟨_, hf, rfl⟩
  · exact hs.same rfl rfl rfl rfl (.inr (fun v e => by cases e))
  · refine ⟨ht.newD, ht.newR, fun v _ i => ?_, fun v _ i => ?_⟩
    · show (t.d i).holds = false
      rw [hd]; exact (free_all hf hs.newD hs.newR i).1
    · show (t.r i).holds = false
      rw [hr]; exact (free_all hf hs.newD hs.newR i).2

theorem kept_stepR {s t : St} {i : Nat} {c : Choice} (hs : Kept s) (h : stepR s i c = some t) : Kept t := by
  unfold stepR at h
  split at h
  case h_1 => cases h
  case h_2 e => cases h; exact hs.setR (i := i) (p := .wait) (by rw [e]; nofun) rfl rfl rfl rfl (.inl rfl) (.inr rfl)
  case h_3 e =>
    cases h
    exact hs.setR (i := i) (p := match c with | .no => .lock | .yes => .ended) (by rw [e]; nofun) rfl rfl rfl rfl (.inl rfl)
      (.inr (by cases c <;> rfl))
  case h_4 e =>
    have hk : Kept (s.setR i .unlock) := hs.setR (i := i) (p := .unlock) (by rw [e]; nofun) rfl rfl rfl rfl (.inl rfl) (.inr rfl)
    refine kept_wlock hs h (hk.same rfl rfl rfl rfl (.inr (fun v e => by cases e))) (fun _ => rfl) (fun j => ?_)
    show (update s.r i RPc.unlock j).holds = _
    by_cases hj : j = i
    · subst hj; rw [Function.update_self, e]; rfl
    · rw [Function.update_of_ne hj]
  case h_5 e =>
    split at h
    · cases h; exact hs.setR (i := i) (p := .loop) (by rw [e]; nofun) rfl rfl rfl rfl (.inr rfl) (.inr rfl)
    · cases h
  case h_6 e =>
    cases h; exact hs.setR (i := i) (p := .join (last s.nd)) (by rw [e]; nofun) rfl rfl rfl rfl (.inl rfl) (.inr rfl)
  case h_7 e =>
    split at h
    · cases h; exact hs.setR (i := i) (p := .dial) (by rw [e]; nofun) rfl rfl rfl rfl (.inl rfl) (.inr rfl)
    · cases h
  case h_8 e =>
    cases c with
    | no => cases h; exact hs.setR (i := i) (p := .askE) (by rw [e]; nofun) rfl rfl rfl rfl (.inl rfl) (.inr rfl)
    | yes => cases h; exact hs.setR (i := i) (p := .loop) (by rw [e]; nofun) rfl rfl rfl rfl (.inl rfl) (.inr rfl)
  case h_9 e =>
    obtain ⟨hw, rfl⟩ := rlock_eq h
    exact hs.setR (i := i) (p := .inE) (by rw [e]; nofun) rfl rfl rfl rfl (.inl rfl) (.inl hw)
  case h_10 e => cases h; exact hs.setR (i := i) (p := .ended) (by rw [e]; nofun) rfl rfl rfl rfl (.inl rfl) (.inr rfl)
  case h_11 => cases h

theorem kept_step {s t : St} {a : Act} (hs : Kept s) (h : step s a = some t) : Kept t := by
  cases a with
  | try_ => simp only [step] at h; split at h <;> cases h; exact hs.same rfl rfl rfl rfl (.inl rfl)
  | fine => simp only [step] at h; split at h <;> cases h; exact hs.same rfl rfl rfl rfl (.inl rfl)
  | fail => simp only [step] at h; split at h <;> cases h; exact hs.same rfl rfl rfl rfl (.inl rfl)
  | term =>
    simp only [step, stepTerm] at h
    split at h
    · cases h
    · split at h <;> cases h
      · exact hs.same rfl rfl rfl rfl (.inl rfl)
      · refine ⟨fun j hj => ?_, hs.newR, fun w hh j => ?_, hs.noR⟩
        · have hj' : s.nd + 1 ≤ j := hj
          show update s.d s.nd DPc.begun j = .idle
          rw [Function.update_of_ne (by omega)]; exact hs.newD j (by omega)
        · show (update s.d s.nd DPc.begun j).holds = false
          by_cases hj : j = s.nd
          · subst hj; rw [Function.update_self]; rfl
          · rw [Function.update_of_ne hj]; exact hs.noD w hh j
  | dis i c => exact kept_stepD hs h
  | con i c => exact kept_stepR hs h
  | assign =>
    simp only [step, stepAssign] at h
    split at h
    · cases h; exact hs.same rfl rfl rfl rfl (.inr (fun w e => by cases e))
    · exact kept_wlock hs h (hs.same rfl rfl rfl rfl (.inr (fun v e => by cases e))) (fun _ => rfl) (fun _ => rfl)

/-- **C108 (no callback is replaced while a callback runs).** In every execution, while somebody has the write side of the
callback lock — the user's program between `BeginCallbackAssignment` and `EndCallbackAssignment`, or a reconnect thread — no
disconnect thread is inside `ConnectionTerminatedCallback` or `AutoReconnectCallback` and no reconnect thread inside
`ConnectionEstablishedCallback`. -/
theorem C108_callbacks_apart (s : St) (hs : Leads init s) (w : Who) (hw : s.writer = .holding w) (i : Nat) :
    s.d i ≠ .inT ∧ (∀ k, s.d i ≠ .inConnect k) ∧ s.d i ≠ .copy ∧ (∀ k, s.d i ≠ .join k) ∧ s.d i ≠ .launch ∧ s.r i ≠ .inE := by
  have hk : Kept s := leads_keeps (fun _ _ _ h1 h2 => kept_step h1 h2) kept_init hs
  have h1 := hk.noD w hw i
  have h2 := hk.noR w hw i
  refine ⟨?_, ?_, ?_, ?_, ?_, ?_⟩
  · intro e; rw [e] at h1; cases h1
  · intro k e; rw [e] at h1; cases h1
  · intro e; rw [e] at h1; cases h1
  · intro k e; rw [e] at h1; cases h1
  · intro e; rw [e] at h1; cases h1
  · intro e; rw [e] at h2; cases h2

/-- A user assigns a callback after the connection has been lost and reconnected: the lock is had once
`ConnectionEstablishedCallback` has returned. -/
def lostAndBack : List Act :=
  [.try_, .fail, .term, .dis 0 .no, .dis 0 .no, .dis 0 .no, .dis 0 .no, .dis 0 .no, .dis 0 .no, .dis 0 .no, .dis 0 .no,
   .dis 0 .no, .con 0 .no, .con 0 .no, .con 0 .no, .con 0 .no, .con 0 .no, .con 0 .no, .con 0 .no, .con 0 .no, .con 0 .no,
   .assign]

example : ((exec init lostAndBack).map (fun s => (s.r 0, s.writer))) = some (.inE, .announced .user) := by decide +kernel
example : ((exec init (lostAndBack ++ [.assign])).map (fun s => s.nr)) = none := by decide +kernel
example : ((exec init (lostAndBack ++ [.con 0 .no, .assign])).map (fun s => (s.r 0, s.writer))) =
    some (.ended, .holding .user) := by decide +kernel

theorem stepD_counts {s t : St} {i : Nat} {c : Choice} (h : stepD s i c = some t) :
    t.pending = s.pending ∧ t.nd = s.nd ∧ t.term = s.term := by
  unfold stepD St.rlock at h
  cases c <;> (repeat' split at h) <;> cases h <;> exact ⟨rfl, rfl, rfl⟩

theorem stepR_counts {s t : St} {i : Nat} {c : Choice} (h : stepR s i c = some t) :
    t.pending = s.pending ∧ t.nd = s.nd ∧ t.term = s.term := by
  unfold stepR St.rlock St.wlock at h
  cases c <;> (repeat' split at h) <;> cases h <;> exact ⟨rfl, rfl, rfl⟩

theorem stepAssign_counts {s t : St} (h : stepAssign s = some t) :
    t.pending = s.pending ∧ t.nd = s.nd ∧ t.term = s.term := by
  unfold stepAssign St.wlock at h
  (repeat' split at h) <;> cases h <;> exact ⟨rfl, rfl, rfl⟩

theorem step_counts {s t : St} {a : Act} (h : step s a = some t) :
    t.pending + [a].count .fine + [a].count .fail = s.pending + [a].count .try_ ∧
    t.nd + t.term.toNat ≤ s.nd + s.term.toNat + [a].count .fail := by
  cases a with
  | try_ => simp only [step] at h; split at h <;> cases h; exact ⟨rfl, by simp⟩
  | fine =>
    simp only [step] at h; split at h <;> cases h
    refine ⟨?_, by simp⟩
    show s.pending - 1 + 1 + 0 = s.pending + 0
    omega
  | fail =>
    simp only [step] at h; split at h <;> cases h
    refine ⟨?_, ?_⟩
    · show s.pending - 1 + 0 + 1 = s.pending + 0
      omega
    · show s.nd + 1 ≤ s.nd + s.term.toNat + 1
      omega
  | term =>
    simp only [step, stepTerm] at h
    split at h
    · cases h
    · next ht =>
      have ht' : s.term = true := by simpa using ht
      split at h <;> cases h
      · exact ⟨rfl, by show s.nd + 0 ≤ _ + 0; omega⟩
      · refine ⟨rfl, ?_⟩
        show s.nd + 1 + 0 ≤ s.nd + s.term.toNat + 0
        rw [ht']; exact Nat.le_refl _
  | dis i c =>
    obtain ⟨h1, h2, h3⟩ := stepD_counts h
    rw [h1, h2, h3]; exact ⟨by simp, by simp⟩
  | con i c =>
    obtain ⟨h1, h2, h3⟩ := stepR_counts h
    rw [h1, h2, h3]; exact ⟨by simp, by simp⟩
  | assign =>
    obtain ⟨h1, h2, h3⟩ := stepAssign_counts h
    rw [h1, h2, h3]; exact ⟨by simp, by simp⟩

theorem exec_counts {s t : St} {as : List Act} (h : exec s as = some t) :
    t.pending + as.count .fine + as.count .fail = s.pending + as.count .try_ ∧
    t.nd + t.term.toNat ≤ s.nd + s.term.toNat + as.count .fail := by
  induction as generalizing s with
  | nil => cases h; exact ⟨rfl, Nat.le_refl _⟩
  | cons a as ih =>
    rw [exec] at h
    cases ha : step s a with
    | none => rw [ha] at h; cases h
    | some u =>
      rw [ha] at h
      have h1 := ih h
      have h2 := step_counts ha
      have hc : ∀ x, (a :: as).count x = [a].count x + as.count x := fun x => by
        rw [show a :: as = [a] ++ as from rfl, List.count_append]
      rw [hc, hc, hc]
      omega

/-- **C108 (every disconnect has its failed send or read).** In every execution each send and each read that has found the
connection up is still under way, has returned, or has failed; and there are no more disconnects than failures: a connection
on which everything works is never given up. -/
theorem C108_disconnects_counted (as : List Act) (s : St) (h : exec init as = some s) :
    as.count .try_ = s.pending + as.count .fine + as.count .fail ∧ s.nd ≤ as.count .fail ∧
    s.nd ≤ as.count .try_ ∧ (as.count .fail = 0 → s.nd = 0) := by
  obtain ⟨h1, h2⟩ := exec_counts h
  have h3 : init.pending = 0 := rfl
  have h4 : init.nd = 0 := rfl
  have h5 : init.term.toNat = 0 := rfl
  refine ⟨by omega, by omega, by omega, fun _ => by omega⟩

/-- Two sends fail, and there is one disconnect. -/
example : ((exec init [.try_, .try_, .try_, .fine, .fail, .term, .fail, .term]).map (fun s => (s.nd, s.pending))) =
    some (1, 0) := by decide +kernel

end Verif.Sync.Reconnect
