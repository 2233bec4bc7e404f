import Verif.Sync.Reconnect

/-!
# C108: a lost connection is followed by one reconnect, and nobody waits for ever
-/

namespace Verif.Sync.Reconnect

open Function (update)

/-- The states after a state. -/
def Leads (s t : St) : Prop := ∃ as, exec s as = some t

theorem leads_keeps {P : St → Prop} (hstep : ∀ s a t, P s → step s a = some t → P t) {s t : St} (hs : P s)
    (h : Leads s t) : P t := by
  obtain ⟨as, h⟩ := h
  induction as generalizing s with
  | nil => cases h; exact hs
  | cons a as ih =>
    rw [exec] at h
    cases ha : step s a with
    | none => rw [ha] at h; cases h
    | some u => rw [ha] at h; exact ih (hstep s a u hs ha) h

theorem wlock_cases {s t u : St} {w : Who} (h : s.wlock w t = some u) :
    (s.writer = .none ∧ u = { s with writer := .announced w }) ∨
    (s.writer = .announced w ∧ s.free = true ∧ u = { t with writer := .holding w }) := by
  unfold St.wlock at h
  split at h
  · next hw => cases h; exact .inl ⟨hw, rfl⟩
  · next v hw =>
    split at h
    · next hv => cases h; exact .inr ⟨hv.1 ▸ hw, hv.2, rfl⟩
    · cases h
  · cases h

theorem rlock_eq {s t u : St} (h : s.rlock t = some u) : s.writer = .none ∧ u = t := by
  unfold St.rlock at h
  split at h
  · next hw => cases h; exact ⟨hw, rfl⟩
  · cases h

/-- A disconnect thread moves only by its own actions and when it is started. -/
theorem step_d {s t : St} {a : Act} (h : step s a = some t) {i : Nat} (hi : i < s.nd) (ha : ∀ c, a ≠ .dis i c) :
    t.d i = s.d i ∧ s.nd ≤ t.nd := by
  cases a with
  | try_ => simp only [step] at h; split at h <;> cases h; exact ⟨rfl, Nat.le_refl _⟩
  | fine => simp only [step] at h; split at h <;> cases h; exact ⟨rfl, Nat.le_refl _⟩
  | fail => simp only [step] at h; split at h <;> cases h; exact ⟨rfl, Nat.le_refl _⟩
  | term =>
    simp only [step, stepTerm] at h
    split at h
    · cases h
    · split at h <;> cases h
      · exact ⟨rfl, Nat.le_refl _⟩
      · exact ⟨Function.update_of_ne (by omega) _ _, Nat.le_succ _⟩
  | dis j c =>
    have hij : i ≠ j := fun e => ha c (by rw [e])
    have key : ∀ p, update s.d j p i = s.d i := fun p => Function.update_of_ne hij _ _
    simp only [step, stepD] at h
    split at h
    · cases h
    · cases h; exact ⟨key _, Nat.le_refl _⟩
    · obtain ⟨_, rfl⟩ := rlock_eq h; exact ⟨key _, Nat.le_refl _⟩
    · cases h
      cases c with
      | no => exact ⟨key _, Nat.le_refl _⟩
      | yes =>
        cases last s.nd with
        | none => exact ⟨rfl, Nat.le_refl _⟩
        | some k => exact ⟨key _, Nat.le_refl _⟩
    · split at h <;> cases h; exact ⟨key _, Nat.le_refl _⟩
    · cases h; exact ⟨key _, Nat.le_refl _⟩
    · obtain ⟨_, rfl⟩ := rlock_eq h; exact ⟨key _, Nat.le_refl _⟩
    · cases h; exact ⟨key _, Nat.le_refl _⟩
    · split at h <;> cases h; exact ⟨key _, Nat.le_refl _⟩
    · cases h; exact ⟨key _, Nat.le_refl _⟩
    · cases h; exact ⟨key _, Nat.le_refl _⟩
    · cases h
  | con j c =>
    simp only [step, stepR] at h
    split at h
    · cases h
    · cases h; exact ⟨rfl, Nat.le_refl _⟩
    · cases h; exact ⟨rfl, Nat.le_refl _⟩
    · rcases wlock_cases h with ⟨_, rfl⟩ | ⟨_, _, rfl⟩ <;> exact ⟨rfl, Nat.le_refl _⟩
    · split at h <;> cases h; exact ⟨rfl, Nat.le_refl _⟩
    · cases h; exact ⟨rfl, Nat.le_refl _⟩
    · split at h <;> cases h; exact ⟨rfl, Nat.le_refl _⟩
    · cases h; cases c <;> exact ⟨rfl, Nat.le_refl _⟩
    · obtain ⟨_, rfl⟩ := rlock_eq h; exact ⟨rfl, Nat.le_refl _⟩
    · cases h; exact ⟨rfl, Nat.le_refl _⟩
    · cases h
  | assign =>
    simp only [step, stepAssign] at h
    split at h
    · cases h; exact ⟨rfl, Nat.le_refl _⟩
    · rcases wlock_cases h with ⟨_, rfl⟩ | ⟨_, _, rfl⟩ <;> exact ⟨rfl, Nat.le_refl _⟩

/-- A reconnect thread moves only by its own actions and when it is started. -/
theorem step_r {s t : St} {a : Act} (h : step s a = some t) {i : Nat} (hi : i < s.nr) (ha : ∀ c, a ≠ .con i c) :
    t.r i = s.r i ∧ s.nr ≤ t.nr := by
  cases a with
  | try_ => simp only [step] at h; split at h <;> cases h; exact ⟨rfl, Nat.le_refl _⟩
  | fine => simp only [step] at h; split at h <;> cases h; exact ⟨rfl, Nat.le_refl _⟩
  | fail => simp only [step] at h; split at h <;> cases h; exact ⟨rfl, Nat.le_refl _⟩
  | term =>
    simp only [step, stepTerm] at h
    split at h
    · cases h
    · split at h <;> cases h <;> exact ⟨rfl, Nat.le_refl _⟩
  | dis j c =>
    simp only [step, stepD] at h
    split at h
    · cases h
    · cases h; exact ⟨rfl, Nat.le_refl _⟩
    · obtain ⟨_, rfl⟩ := rlock_eq h; exact ⟨rfl, Nat.le_refl _⟩
    · cases h
      cases c with
      | no => exact ⟨rfl, Nat.le_refl _⟩
      | yes => cases last s.nd <;> exact ⟨rfl, Nat.le_refl _⟩
    · split at h <;> cases h; exact ⟨rfl, Nat.le_refl _⟩
    · cases h; exact ⟨rfl, Nat.le_refl _⟩
    · obtain ⟨_, rfl⟩ := rlock_eq h; exact ⟨rfl, Nat.le_refl _⟩
    · cases h; exact ⟨rfl, Nat.le_refl _⟩
    · split at h <;> cases h; exact ⟨rfl, Nat.le_refl _⟩
    · cases h; exact ⟨Function.update_of_ne (by omega) _ _, Nat.le_succ _⟩
    · cases h; exact ⟨rfl, Nat.le_refl _⟩
    · cases h
  | con j c =>
    have hij : i ≠ j := fun e => ha c (by rw [e])
    have key : ∀ p, update s.r j p i = s.r i := fun p => Function.update_of_ne hij _ _
    simp only [step, stepR] at h
    split at h
    · cases h
    · cases h; exact ⟨key _, Nat.le_refl _⟩
    · cases h; exact ⟨key _, Nat.le_refl _⟩
    · rcases wlock_cases h with ⟨_, rfl⟩ | ⟨_, _, rfl⟩
      · exact ⟨rfl, Nat.le_refl _⟩
      · exact ⟨key _, Nat.le_refl _⟩
    · split at h <;> cases h; exact ⟨key _, Nat.le_refl _⟩
    · cases h; exact ⟨key _, Nat.le_refl _⟩
    · split at h <;> cases h; exact ⟨key _, Nat.le_refl _⟩
    · cases h; cases c <;> exact ⟨key _, Nat.le_refl _⟩
    · obtain ⟨_, rfl⟩ := rlock_eq h; exact ⟨key _, Nat.le_refl _⟩
    · cases h; exact ⟨key _, Nat.le_refl _⟩
    · cases h
  | assign =>
    simp only [step, stepAssign] at h
    split at h
    · cases h; exact ⟨rfl, Nat.le_refl _⟩
    · rcases wlock_cases h with ⟨_, rfl⟩ | ⟨_, _, rfl⟩ <;> exact ⟨rfl, Nat.le_refl _⟩

theorem not_free {s : St} {i : Nat} (hi : i < s.nd) (h : (s.d i).holds = true) : s.free = false := by
  unfold St.free
  have : (List.range s.nd).all (fun i => !(s.d i).holds) = false := by
    rw [List.all_eq_false]
    exact ⟨i, List.mem_range.2 hi, by simp [h]⟩
  rw [this, Bool.false_and]

/-! ## What does not hold -/

/-- A disconnect thread that has the callback lock waits for a reconnect thread that waits for the callback lock. -/
structure LockHang (i k : Nat) (s : St) : Prop where
  hi : i < s.nd
  hk : k < s.nr
  d : s.d i = .join (some k)
  r : s.r k = .lock

theorem lockHang_step {i k : Nat} {s : St} {a : Act} {t : St} (hs : LockHang i k s) (h : step s a = some t) :
    LockHang i k t := by
  have hf : s.free = false := not_free hs.hi (by rw [hs.d]; rfl)
  by_cases hd : ∃ c, a = .dis i c
  · obtain ⟨c, rfl⟩ := hd
    simp only [step, stepD, hs.d, joined, hs.r, RPc.quiet] at h
    cases h
  · have h1 := step_d h hs.hi (fun c e => hd ⟨c, e⟩)
    by_cases hr : ∃ c, a = .con k c
    · obtain ⟨c, rfl⟩ := hr
      simp only [step, stepR, hs.r] at h
      rcases wlock_cases h with ⟨_, rfl⟩ | ⟨_, hf', _⟩
      · exact ⟨hs.hi, hs.hk, hs.d, hs.r⟩
      · rw [hf] at hf'; cases hf'
    · have h2 := step_r h hs.hk (fun c e => hr ⟨c, e⟩)
      exact ⟨Nat.lt_of_lt_of_le hs.hi h1.2, Nat.lt_of_lt_of_le hs.hk h2.2, h1.1 ▸ hs.d, h2.1 ▸ hs.r⟩

/-- A disconnect thread and a reconnect thread wait for each other to end. -/
structure JoinHang (i k : Nat) (s : St) : Prop where
  hi : i < s.nd
  hk : k < s.nr
  d : s.d i = .join (some k)
  r : s.r k = .join (some i)

theorem joinHang_step {i k : Nat} {s : St} {a : Act} {t : St} (hs : JoinHang i k s) (h : step s a = some t) :
    JoinHang i k t := by
  by_cases hd : ∃ c, a = .dis i c
  · obtain ⟨c, rfl⟩ := hd
    simp only [step, stepD, hs.d, joined, hs.r, RPc.quiet] at h
    cases h
  · have h1 := step_d h hs.hi (fun c e => hd ⟨c, e⟩)
    by_cases hr : ∃ c, a = .con k c
    · obtain ⟨c, rfl⟩ := hr
      simp only [step, stepR, hs.r, joined, hs.d, DPc.quiet] at h
      cases h
    · have h2 := step_r h hs.hk (fun c e => hr ⟨c, e⟩)
      exact ⟨Nat.lt_of_lt_of_le hs.hi h1.2, Nat.lt_of_lt_of_le hs.hk h2.2, h1.1 ▸ hs.d, h2.1 ▸ hs.r⟩

/-- A command is being sent when the connection is lost, and its failure is noticed when the disconnect is over: a second disconnect thread starts.
It waits for the reconnect thread while it has the callback lock, and the reconnect thread waits for that lock. -/
def staleSend : List Act :=
  [.try_, .try_, .fail, .term] ++ List.replicate 9 (.dis 0 .no) ++ [.con 0 .no, .fail, .term] ++ List.replicate 6 (.dis 1 .no) ++
  [.con 0 .no, .con 0 .no]

/-- **C108, false as stated**: a command that fails late leaves the subscriber in a state from which no schedule whatsoever ever gets the disconnect
thread or the reconnect thread any further: there is no reconnect. -/
theorem C108_stale_send_deadlock_false :
    ∃ s, exec init staleSend = some s ∧
      ∀ t, Leads s t → t.d 1 = .join (some 0) ∧ t.r 0 = .lock := by
  refine ⟨_, rfl, fun t ht => ?_⟩
  have := leads_keeps (P := LockHang 1 0) (fun s a t hs h => lockHang_step hs h) ⟨by decide, by decide, rfl, rfl⟩ ht
  exact ⟨this.d, this.r⟩

/-- The same a little later: the reconnect thread is past the lock and waits for the second disconnect thread. -/
def staleSendLater : List Act :=
  [.try_, .try_, .fail, .term] ++ List.replicate 9 (.dis 0 .no) ++ List.replicate 5 (.con 0 .no) ++ [.fail, .term] ++
  List.replicate 6 (.dis 1 .no) ++ [.con 0 .no]

/-- **C108, false as stated**: the two threads join each other. -/
theorem C108_mutual_join_deadlock_false :
    ∃ s, exec init staleSendLater = some s ∧
      ∀ t, Leads s t → t.d 1 = .join (some 0) ∧ t.r 0 = .join (some 1) := by
  refine ⟨_, rfl, fun t ht => ?_⟩
  have := leads_keeps (P := JoinHang 1 0) (fun s a t hs h => joinHang_step hs h) ⟨by decide, by decide, rfl, rfl⟩ ht
  exact ⟨this.d, this.r⟩

/-- A user waits to assign a callback, a reconnect thread that has just connected waits behind the user to invoke a callback, and the disconnect thread
that keeps the user waiting waits for the reconnect thread. -/
structure AssignHang (i k : Nat) (s : St) : Prop where
  hi : i < s.nd
  hk : k < s.nr
  d : s.d i = .join (some k)
  r : s.r k = .askE
  w : s.writer = .announced .user

theorem assignHang_step {i k : Nat} {s : St} {a : Act} {t : St} (hs : AssignHang i k s) (h : step s a = some t) :
    AssignHang i k t := by
  have hf : s.free = false := not_free hs.hi (by rw [hs.d]; rfl)
  by_cases hd : ∃ c, a = .dis i c
  · obtain ⟨c, rfl⟩ := hd
    simp only [step, stepD, hs.d, joined, hs.r, RPc.quiet] at h
    cases h
  · have h1 := step_d h hs.hi (fun c e => hd ⟨c, e⟩)
    by_cases hr : ∃ c, a = .con k c
    · obtain ⟨c, rfl⟩ := hr
      simp only [step, stepR, hs.r] at h
      have := (rlock_eq h).1
      rw [hs.w] at this; cases this
    · have h2 := step_r h hs.hk (fun c e => hr ⟨c, e⟩)
      refine ⟨Nat.lt_of_lt_of_le hs.hi h1.2, Nat.lt_of_lt_of_le hs.hk h2.2, h1.1 ▸ hs.d, h2.1 ▸ hs.r, ?_⟩
      cases a with
      | try_ => simp only [step] at h; split at h <;> cases h; exact hs.w
      | fine => simp only [step] at h; split at h <;> cases h; exact hs.w
      | fail => simp only [step] at h; split at h <;> cases h; exact hs.w
      | term =>
        simp only [step, stepTerm] at h
        split at h
        · cases h
        · split at h <;> cases h <;> exact hs.w
      | dis j c =>
        simp only [step, stepD] at h
        split at h
        · cases h
        · cases h; exact hs.w
        · obtain ⟨_, rfl⟩ := rlock_eq h; exact hs.w
        · cases h
          cases c with
          | no => exact hs.w
          | yes => cases last s.nd <;> exact hs.w
        · split at h <;> cases h; exact hs.w
        · cases h; exact hs.w
        · obtain ⟨_, rfl⟩ := rlock_eq h; exact hs.w
        · cases h; exact hs.w
        · split at h <;> cases h; exact hs.w
        · cases h; exact hs.w
        · cases h; exact hs.w
        · cases h
      | con j c =>
        simp only [step, stepR] at h
        split at h
        · cases h
        · cases h; exact hs.w
        · cases h; exact hs.w
        · rcases wlock_cases h with ⟨hw, rfl⟩ | ⟨hw, _, rfl⟩ <;> exact absurd (hs.w.symm.trans hw) (by simp)
        · next hw =>
          split at h
          · next hw => rw [hs.w] at hw; cases hw
          · cases h
        · cases h; exact hs.w
        · split at h <;> cases h; exact hs.w
        · cases h; cases c <;> exact hs.w
        · obtain ⟨_, rfl⟩ := rlock_eq h; exact hs.w
        · cases h; exact hs.w
        · cases h
      | assign =>
        simp only [step, stepAssign] at h
        split at h
        · next hw => rw [hs.w] at hw; cases hw
        · rcases wlock_cases h with ⟨hw, rfl⟩ | ⟨_, hf', rfl⟩
          · exact absurd (hs.w.symm.trans hw) (by simp)
          · rw [hf] at hf'; exact absurd hf' (by simp)

/-- The connection is lost again as soon as it is made, and a user assigns a callback. -/
def assignMeanwhile : List Act :=
  [.try_, .fail, .term] ++ List.replicate 9 (.dis 0 .no) ++ List.replicate 8 (.con 0 .no) ++ [.try_, .fail, .term] ++
  List.replicate 6 (.dis 1 .no) ++ [.assign]

/-- **C108, false as stated**: with no failure noticed late, but a user assigning a callback of the `DataSubscriber` at a bad moment, the user, the
reconnect thread and the disconnect thread wait for each other for ever. -/
theorem C108_assignment_deadlock_false :
    ∃ s, exec init assignMeanwhile = some s ∧
      ∀ t, Leads s t → t.d 1 = .join (some 0) ∧ t.r 0 = .askE ∧ t.writer = .announced .user := by
  refine ⟨_, rfl, fun t ht => ?_⟩
  have := leads_keeps (P := AssignHang 1 0) (fun s a t hs h => assignHang_step hs h) ⟨by decide, by decide, rfl, rfl, rfl⟩ ht
  exact ⟨this.d, this.r, this.w⟩

/-- The part of a disconnect thread up to the clearing of the flag. -/
def DPc.before : DPc → Bool
  | .begun | .askT | .inT | .inConnect _ | .clear => true
  | _ => false

/-- Only the last disconnect thread is in that part. -/
structure One (s : St) : Prop where
  new : ∀ i, s.nd ≤ i → s.d i = .idle
  before : ∀ i, (s.d i).before = true → i + 1 = s.nd ∧ s.disconnecting = true
  self : ∀ i k, s.d i = .inConnect k → k = i

theorem One.same {s t : St} (hs : One s) (hd : t.d = s.d) (hn : t.nd = s.nd) (hq : t.disconnecting = s.disconnecting) : One t :=
  ⟨fun i hi => by rw [hd]; exact hs.new i (hn ▸ hi), fun i hi => by rw [hn, hq]; exact hs.before i (hd ▸ hi),
    fun i k hi => hs.self i k (hd ▸ hi)⟩

theorem One.move {s t : St} (hs : One s) {i : Nat} {p : DPc} (hi : s.d i ≠ .idle) (hd : t.d = update s.d i p) (hn : t.nd = s.nd)
    (hq : p.before = true → (s.d i).before = true) (hk : ∀ k, p = .inConnect k → k = i)
    (hb : t.disconnecting = s.disconnecting ∨ ((s.d i).before = true ∧ p.before = false)) : One t := by
  refine ⟨fun j hj => ?_, fun j hj => ?_, fun j k hj => ?_⟩
  · rw [hd]
    by_cases hji : j = i
    · subst hji; exact absurd (hs.new j (hn ▸ hj)) hi
    · rw [Function.update_of_ne hji]; exact hs.new j (hn ▸ hj)
  · rw [hd] at hj
    by_cases hji : j = i
    · subst hji
      rw [Function.update_self] at hj
      rcases hb with hb | hb
      · rw [hn, hb]; exact hs.before j (hq hj)
      · rw [hb.2] at hj; cases hj
    · rw [Function.update_of_ne hji] at hj
      rcases hb with hb | hb
      · rw [hn, hb]; exact hs.before j hj
      · have h1 := hs.before j hj
        have h2 := hs.before i hb.1
        omega
  · rw [hd] at hj
    by_cases hji : j = i
    · subst hji; rw [Function.update_self] at hj; exact hk k hj
    · rw [Function.update_of_ne hji] at hj; exact hs.self j k hj

theorem one_step {s : St} {a : Act} {t : St} (hs : One s) (h : step s a = some t) : One t := by
  cases a with
  | try_ => simp only [step] at h; split at h <;> cases h; exact hs.same rfl rfl rfl
  | fine => simp only [step] at h; split at h <;> cases h; exact hs.same rfl rfl rfl
  | fail => simp only [step] at h; split at h <;> cases h; exact hs.same rfl rfl rfl
  | term =>
    simp only [step, stepTerm] at h
    split at h
    · cases h
    · split at h
      · cases h; exact hs.same rfl rfl rfl
      · next hq =>
        cases h
        refine ⟨fun j hj => ?_, fun j hj => ?_, fun j k hj => ?_⟩
        · have hj' : s.nd + 1 ≤ j := hj
          show update s.d s.nd .begun j = .idle
          rw [Function.update_of_ne (by omega)]
          exact hs.new j (by omega)
        · by_cases hjn : j = s.nd
          · subst hjn; exact ⟨rfl, rfl⟩
          · have hj' : (update s.d s.nd .begun j).before = true := hj
            rw [Function.update_of_ne hjn] at hj'
            exact absurd (hs.before j hj').2 hq
        · have hj' : update s.d s.nd .begun j = .inConnect k := hj
          by_cases hjn : j = s.nd
          · subst hjn; rw [Function.update_self] at hj'; cases hj'
          · rw [Function.update_of_ne hjn] at hj'
            exact hs.self j k hj'
  | dis i c =>
    simp only [step, stepD] at h
    split at h
    · cases h
    · next hp => cases h; exact hs.move (by rw [hp]; decide) rfl rfl (fun _ => by rw [hp]; rfl) (by simp) (.inl rfl)
    · next hp =>
      obtain ⟨_, rfl⟩ := rlock_eq h
      exact hs.move (by rw [hp]; decide) rfl rfl (fun _ => by rw [hp]; rfl) (by simp) (.inl rfl)
    · next hp =>
      have hb := hs.before i (by rw [hp]; rfl)
      cases h
      cases c with
      | no => exact hs.move (by rw [hp]; decide) rfl rfl (fun _ => by rw [hp]; rfl) (by simp) (.inl rfl)
      | yes =>
        rw [← hb.1]
        exact hs.move (by rw [hp]; decide) rfl rfl (fun _ => by rw [hp]; rfl) (fun k e => by cases e; rfl) (.inl rfl)
    · next hp =>
      split at h <;> cases h
      exact hs.move (by rw [hp]; simp) rfl rfl (fun _ => by rw [hp]; rfl) (by simp) (.inl rfl)
    · next hp =>
      cases h
      exact hs.move (by rw [hp]; decide) rfl rfl (fun h => by cases h) (by simp) (.inr ⟨by rw [hp]; rfl, rfl⟩)
    · next hp =>
      obtain ⟨_, rfl⟩ := rlock_eq h
      exact hs.move (by rw [hp]; decide) rfl rfl (fun h => by cases h) (by simp) (.inl rfl)
    · next hp => cases h; exact hs.move (by rw [hp]; decide) rfl rfl (fun h => by cases h) (by simp) (.inl rfl)
    · next hp =>
      split at h <;> cases h
      exact hs.move (by rw [hp]; simp) rfl rfl (fun h => by cases h) (by simp) (.inl rfl)
    · next hp => cases h; exact hs.move (by rw [hp]; decide) rfl rfl (fun h => by cases h) (by simp) (.inl rfl)
    · next hp => cases h; exact hs.move (by rw [hp]; decide) rfl rfl (fun h => by cases h) (by simp) (.inl rfl)
    · cases h
  | con j c =>
    simp only [step, stepR] at h
    split at h
    · cases h
    · cases h; exact hs.same rfl rfl rfl
    · cases h; exact hs.same rfl rfl rfl
    · rcases wlock_cases h with ⟨_, rfl⟩ | ⟨_, _, rfl⟩ <;> exact hs.same rfl rfl rfl
    · split at h <;> cases h; exact hs.same rfl rfl rfl
    · cases h; exact hs.same rfl rfl rfl
    · split at h <;> cases h; exact hs.same rfl rfl rfl
    · cases h; cases c <;> exact hs.same rfl rfl rfl
    · obtain ⟨_, rfl⟩ := rlock_eq h; exact hs.same rfl rfl rfl
    · cases h; exact hs.same rfl rfl rfl
    · cases h
  | assign =>
    simp only [step, stepAssign] at h
    split at h
    · cases h; exact hs.same rfl rfl rfl
    · rcases wlock_cases h with ⟨_, rfl⟩ | ⟨_, _, rfl⟩ <;> exact hs.same rfl rfl rfl

theorem one_init : One init := ⟨fun _ _ => rfl, fun _ h => (by cases h), fun _ _ h => (by cases h)⟩

/-- **C108, false as stated** (for every state that can be reached): the comment of `dispatchConnectionTerminated` promises that a user can reconnect
in the connection terminated callback without a goroutine of their own. A callback that calls `Connect` never returns, since `Connect` waits for the
disconnect thread that is running the callback; nor is the disconnect ever over. -/
theorem C108_connect_in_callback_hangs_false (s : St) (hs : Leads init s) (i : Nat) (hi : s.d i = .inT) :
    ∃ s', step s (.dis i .yes) = some s' ∧ ∀ t, Leads s' t → t.d i = .inConnect i ∧ t.disconnecting = true := by
  have ho := leads_keeps (fun s a t => one_step (s := s) (a := a) (t := t)) one_init hs
  have hb := ho.before i (by rw [hi]; rfl)
  have hstep : step s (.dis i .yes) = some (s.setD i (.inConnect i)) := by
    simp only [step, stepD, hi, ← hb.1, last]
  refine ⟨_, hstep, fun t ht => ?_⟩
  have key : One t ∧ t.d i = .inConnect i := by
    refine leads_keeps (P := fun u => One u ∧ u.d i = .inConnect i) (fun u a v hu h => ⟨one_step hu.1 h, ?_⟩)
      ⟨one_step ho hstep, Function.update_self _ _ _⟩ ht
    by_cases hd : ∃ c, a = .dis i c
    · obtain ⟨c, rfl⟩ := hd
      simp only [step, stepD, hu.2, DPc.quiet] at h
      cases h
    · have hlt : i < u.nd := by
        have := (hu.1.before i (by rw [hu.2]; rfl)).1
        omega
      rw [(step_d h hlt (fun c e => hd ⟨c, e⟩)).1, hu.2]
  exact ⟨key.2, (key.1.before i (by rw [key.2]; rfl)).2⟩

/-- Such a state: the connection is lost and the callback is invoked. -/
example : ∃ s, Leads init s ∧ s.d 0 = .inT := ⟨_, ⟨[.try_, .fail, .term, .dis 0 .no, .dis 0 .no], rfl⟩, rfl⟩

/-! ## What holds -/

/-- The last disconnect thread. -/
def St.curD (s : St) : DPc := match s.nd with | 0 => .ended | n + 1 => s.d n

/-- The last reconnect thread. -/
def St.curR (s : St) : RPc := match s.nr with | 0 => .ended | n + 1 => s.r n

/-- A reconnect thread that has connected. -/
def Late (R : RPc) : Prop := R = .ended ∨ R = .askE ∨ R = .inE

/-- A reconnect thread before or at the lock. -/
def Early (s : St) (R : RPc) : Prop :=
  ((R = .launched ∨ R = .wait ∨ R = .ended) ∧ s.writer = .none) ∨
  (R = .lock ∧ (s.writer = .none ∨ ∃ n, s.nr = n + 1 ∧ s.writer = .announced (.recon n)))

/-- How the two last threads can stand to each other when nobody notices failures late, assigns callbacks or connects in a callback. -/
inductive Ok (s : St) : DPc → RPc → Prop
  | up {R : RPc} : s.disconnecting = false → s.writer = .none → Late R → Ok s .ended R
  | down {D : DPc} {R : RPc} : D = .begun ∨ D = .askT ∨ D = .inT ∨ D = .clear → s.disconnecting = true → s.connected = false →
      s.writer = .none → Late R → Ok s D R
  | auto {D : DPc} {R : RPc} : D = .askA ∨ D = .copy ∨ D = .join (last s.nr) → s.disconnecting = false → s.connected = false →
      s.writer = .none → Late R → Ok s D R
  | launch : s.disconnecting = false → s.connected = false → s.writer = .none → Ok s .launch .ended
  | leave {R : RPc} : s.disconnecting = false → s.connected = false → Early s R → Ok s .leave R
  | early {R : RPc} : s.disconnecting = false → s.connected = false → Early s R → Ok s .ended R
  | unlock {n : Nat} : s.disconnecting = false → s.connected = false → s.nr = n + 1 → s.writer = .holding (.recon n) →
      Ok s .ended .unlock
  | dialling {R : RPc} : R = .loop ∨ R = .join (last s.nd) ∨ R = .dial → s.disconnecting = false → s.connected = false →
      s.writer = .none → Ok s .ended R

/-- All earlier threads have ended, and there is one reconnect thread for each disconnect thread. -/
structure Inv (s : St) : Prop where
  dnew : ∀ i, s.nd ≤ i → s.d i = .idle
  dold : ∀ i, i + 1 < s.nd → s.d i = .ended
  rnew : ∀ i, s.nr ≤ i → s.r i = .idle
  rold : ∀ i, i + 1 < s.nr → s.r i = .ended
  count : s.nr + (if s.curD = .leave ∨ s.curD = .ended then 0 else 1) = s.nd
  ok : Ok s s.curD s.curR

theorem inv_init : Inv init :=
  ⟨fun _ _ => rfl, fun _ _ => by simp_all [init], fun _ _ => rfl, fun _ _ => by simp_all [init], rfl, .up rfl rfl (.inl rfl)⟩

/-- A thread that can act is the last one. -/
theorem Inv.lastD {s : St} (h : Inv s) {i : Nat} (h1 : s.d i ≠ .idle) (h2 : s.d i ≠ .ended) : s.nd = i + 1 ∧ s.curD = s.d i := by
  have a : ¬ s.nd ≤ i := fun e => h1 (h.dnew i e)
  have b : ¬ i + 1 < s.nd := fun e => h2 (h.dold i e)
  have c : s.nd = i + 1 := by omega
  exact ⟨c, by unfold St.curD; rw [c]⟩

theorem Inv.lastR {s : St} (h : Inv s) {i : Nat} (h1 : s.r i ≠ .idle) (h2 : s.r i ≠ .ended) : s.nr = i + 1 ∧ s.curR = s.r i := by
  have a : ¬ s.nr ≤ i := fun e => h1 (h.rnew i e)
  have b : ¬ i + 1 < s.nr := fun e => h2 (h.rold i e)
  have c : s.nr = i + 1 := by omega
  exact ⟨c, by unfold St.curR; rw [c]⟩

/-- The last disconnect thread goes on. -/
theorem Inv.moveD {s t : St} (h : Inv s) {i : Nat} {p : DPc} (hn : s.nd = i + 1) (hd : t.d = update s.d i p) (hnd : t.nd = s.nd)
    (hr : t.r = s.r) (hnr : t.nr = s.nr) (hc : (p = .leave ∨ p = .ended) ↔ (s.curD = .leave ∨ s.curD = .ended)) (hok : Ok t p s.curR) : Inv t := by
  have hcur : t.curD = p := by unfold St.curD; rw [hnd, hn, hd]; exact Function.update_self _ _ _
  have hcurR : t.curR = s.curR := by unfold St.curR; rw [hnr, hr]
  refine ⟨fun j hj => ?_, fun j hj => ?_, fun j hj => ?_, fun j hj => ?_, ?_, by rw [hcur, hcurR]; exact hok⟩
  · rw [hd, Function.update_of_ne (by omega)]; exact h.dnew j (by omega)
  · rw [hd, Function.update_of_ne (by omega)]; exact h.dold j (by omega)
  · rw [hr]; exact h.rnew j (by omega)
  · rw [hr]; exact h.rold j (by omega)
  · rw [hcur, hnr, hnd, if_congr hc rfl rfl]; exact h.count

/-- The last reconnect thread goes on. -/
theorem Inv.moveR {s t : St} (h : Inv s) {i : Nat} {p : RPc} (hn : s.nr = i + 1) (hd : t.d = s.d) (hnd : t.nd = s.nd)
    (hr : t.r = update s.r i p) (hnr : t.nr = s.nr) (hok : Ok t s.curD p) : Inv t := by
  have hcur : t.curR = p := by unfold St.curR; rw [hnr, hn, hr]; exact Function.update_self _ _ _
  have hcurD : t.curD = s.curD := by unfold St.curD; rw [hnd, hd]
  refine ⟨fun j hj => ?_, fun j hj => ?_, fun j hj => ?_, fun j hj => ?_, ?_, by rw [hcur, hcurD]; exact hok⟩
  · rw [hd]; exact h.dnew j (by omega)
  · rw [hd]; exact h.dold j (by omega)
  · rw [hr, Function.update_of_ne (by omega)]; exact h.rnew j (by omega)
  · rw [hr, Function.update_of_ne (by omega)]; exact h.rold j (by omega)
  · rw [hcurD, hnr, hnd]; exact h.count

/-- Nothing but flags changes. -/
theorem Inv.flags {s t : St} (h : Inv s) (hd : t.d = s.d) (hnd : t.nd = s.nd) (hr : t.r = s.r) (hnr : t.nr = s.nr)
    (hok : Ok t s.curD s.curR) : Inv t := by
  have hcur : t.curR = s.curR := by unfold St.curR; rw [hnr, hr]
  have hcurD : t.curD = s.curD := by unfold St.curD; rw [hnd, hd]
  refine ⟨fun j hj => ?_, fun j hj => ?_, fun j hj => ?_, fun j hj => ?_, ?_, by rw [hcur, hcurD]; exact hok⟩
  · rw [hd]; exact h.dnew j (by omega)
  · rw [hd]; exact h.dold j (by omega)
  · rw [hr]; exact h.rnew j (by omega)
  · rw [hr]; exact h.rold j (by omega)
  · rw [hcurD, hnr, hnd]; exact h.count

theorem Ok.same {s t : St} {D : DPc} {R : RPc} (h : Ok s D R) (h1 : t.connected = s.connected) (h2 : t.disconnecting = s.disconnecting)
    (h3 : t.writer = s.writer) (h4 : t.nd = s.nd) (h5 : t.nr = s.nr) : Ok t D R := by
  have he : ∀ {R}, Early s R → Early t R := fun h => by unfold Early at *; rw [h3, h5]; exact h
  cases h with
  | up a b c => exact .up (h2 ▸ a) (h3 ▸ b) c
  | down a b c d e => exact .down a (h2 ▸ b) (h1 ▸ c) (h3 ▸ d) e
  | auto a b c d e => exact .auto (h5 ▸ a) (h2 ▸ b) (h1 ▸ c) (h3 ▸ d) e
  | launch a b c => exact .launch (h2 ▸ a) (h1 ▸ b) (h3 ▸ c)
  | leave a b c => exact .leave (h2 ▸ a) (h1 ▸ b) (he c)
  | early a b c => exact .early (h2 ▸ a) (h1 ▸ b) (he c)
  | unlock a b c d => exact .unlock (h2 ▸ a) (h1 ▸ b) (h5 ▸ c) (h3 ▸ d)
  | dialling a b c d => exact .dialling (h4 ▸ a) (h2 ▸ b) (h1 ▸ c) (h3 ▸ d)

/-- Nobody assigns a callback or connects in a callback, and a termination is only run while connected or during a disconnect: no failure is noticed
after the disconnect. -/
def Good (s : St) (a : Act) : Prop :=
  a ≠ .assign ∧ (∀ i, a ≠ .dis i .yes) ∧ (a = .term → s.disconnecting = false → s.connected = true)

/-- The ranks of the places of a disconnect thread. -/
def DPc.rank : DPc → Nat
  | .begun => 19 | .askT => 18 | .inT => 17 | .clear => 16 | .askA => 15 | .copy => 14 | .join _ => 13 | .launch => 12 | .leave => 1
  | _ => 0

/-- The ranks of the places of a reconnect thread. -/
def RPc.rank : RPc → Nat
  | .launched => 10 | .wait => 9 | .lock => 8 | .unlock => 7 | .loop => 5 | .join _ => 4 | .dial => 3 | .askE => 2 | .inE => 1
  | _ => 0

/-- What there is still to do. -/
def St.left (s : St) : Nat := s.curD.rank + s.curR.rank + (if s.writer = .none then 1 else 0)

/-- An action of a disconnect or reconnect thread. -/
def Act.inner : Act → Bool
  | .dis _ _ => true
  | .con _ _ => true
  | _ => false

/-- A choice of `yes`: a dial that fails or the retry limit. -/
def Act.yes : Act → Nat
  | .con _ .yes => 1
  | _ => 0

theorem moveD_left {s t : St} {i : Nat} {p : DPc} (hn : s.nd = i + 1) (hd : t.d = update s.d i p) (hnd : t.nd = s.nd)
    (hr : t.r = s.r) (hnr : t.nr = s.nr) (hw : t.writer = s.writer) (hp : p.rank < s.curD.rank) : t.left < s.left := by
  have hcur : t.curD = p := by unfold St.curD; rw [hnd, hn, hd]; exact Function.update_self _ _ _
  have hcurR : t.curR = s.curR := by unfold St.curR; rw [hnr, hr]
  unfold St.left
  rw [hcur, hcurR, hw]
  omega

theorem moveR_left {s t : St} {i : Nat} {p : RPc} (hn : s.nr = i + 1) (hd : t.d = s.d) (hnd : t.nd = s.nd)
    (hr : t.r = update s.r i p) (hnr : t.nr = s.nr) {k : Nat}
    (hp : p.rank + (if t.writer = .none then 1 else 0) < s.curR.rank + (if s.writer = .none then 1 else 0) + k) : t.left < s.left + k := by
  have hcur : t.curR = p := by unfold St.curR; rw [hnr, hn, hr]; exact Function.update_self _ _ _
  have hcurD : t.curD = s.curD := by unfold St.curD; rw [hnd, hd]
  unfold St.left
  rw [hcur, hcurD]
  omega

theorem moveR_less {s t : St} {i : Nat} {p : RPc} (hn : s.nr = i + 1) (hd : t.d = s.d) (hnd : t.nd = s.nd)
    (hr : t.r = update s.r i p) (hnr : t.nr = s.nr)
    (hp : p.rank + (if t.writer = .none then 1 else 0) < s.curR.rank + (if s.writer = .none then 1 else 0)) : t.left < s.left :=
  moveR_left (k := 0) hn hd hnd hr hnr hp

theorem Ok.at_down {s : St} {D : DPc} {R : RPc} (h : Ok s D R) (hD : D = .begun ∨ D = .askT ∨ D = .inT ∨ D = .clear) :
    s.disconnecting = true ∧ s.connected = false ∧ s.writer = .none ∧ Late R := by
  cases h with
  | down _ b c d e => exact ⟨b, c, d, e⟩
  | auto a b c d e => rcases a with rfl | rfl | rfl <;> simp at hD
  | up => simp at hD
  | launch => simp at hD
  | leave => simp at hD
  | early => simp at hD
  | unlock => simp at hD
  | dialling => simp at hD

theorem Ok.at_auto {s : St} {D : DPc} {R : RPc} (h : Ok s D R) (hD : D = .askA ∨ D = .copy ∨ ∃ k, D = .join k) :
    (∀ k, D = .join k → k = last s.nr) ∧ s.disconnecting = false ∧ s.connected = false ∧ s.writer = .none ∧ Late R := by
  cases h with
  | auto a b c d e =>
    refine ⟨fun k hk => ?_, b, c, d, e⟩
    rcases a with rfl | rfl | rfl <;> cases hk
    rfl
  | down a b c d e => rcases a with rfl | rfl | rfl | rfl <;> simp at hD
  | up => simp at hD
  | launch => simp at hD
  | leave => simp at hD
  | early => simp at hD
  | unlock => simp at hD
  | dialling => simp at hD

theorem Ok.at_launch {s : St} {R : RPc} (h : Ok s .launch R) :
    s.disconnecting = false ∧ s.connected = false ∧ s.writer = .none ∧ R = .ended := by
  cases h with
  | launch a b c => exact ⟨a, b, c, rfl⟩
  | auto a => simp at a
  | down a => simp at a

theorem Ok.at_leave {s : St} {R : RPc} (h : Ok s .leave R) : s.disconnecting = false ∧ s.connected = false ∧ Early s R := by
  cases h with
  | leave a b c => exact ⟨a, b, c⟩
  | auto a => simp at a
  | down a => simp at a

theorem Late.quiet {R : RPc} (h : Late R) (hq : R.quiet = true) : R = .ended := by
  rcases h with rfl | rfl | rfl
  · rfl
  · cases hq
  · cases hq

theorem Ok.no_connect {s : St} {k : Nat} {R : RPc} (h : Ok s (.inConnect k) R) : False := by
  cases h with
  | down a => simp at a
  | auto a => simp at a

theorem joined_last {s : St} (h : joined RPc.quiet s.r (last s.nr) = true) : s.curR.quiet = true := by
  unfold St.curR
  cases hn : s.nr with
  | zero => rfl
  | succ n => rw [hn] at h; exact h

theorem inv_stepD {s t : St} {i : Nat} (hi : Inv s) (h : stepD s i .no = some t) : Inv t ∧ t.left < s.left := by
  have hok := hi.ok
  unfold stepD at h
  split at h
  · cases h
  · next hp =>
    obtain ⟨hn, hc⟩ := hi.lastD (i := i) (by rw [hp]; decide) (by rw [hp]; decide)
    rw [hp] at hc
    rw [hc] at hok
    cases h
    obtain ⟨a, b, c, d⟩ := hok.at_down (by simp)
    exact ⟨hi.moveD hn rfl rfl rfl rfl (by rw [hc]; decide) (.down (by simp) a b c d), moveD_left hn rfl rfl rfl rfl rfl (by rw [hc]; decide)⟩
  · next hp =>
    obtain ⟨hn, hc⟩ := hi.lastD (i := i) (by rw [hp]; decide) (by rw [hp]; decide)
    rw [hp] at hc
    rw [hc] at hok
    obtain ⟨_, rfl⟩ := rlock_eq h
    obtain ⟨a, b, c, d⟩ := hok.at_down (by simp)
    exact ⟨hi.moveD hn rfl rfl rfl rfl (by rw [hc]; decide) (.down (by simp) a b c d), moveD_left hn rfl rfl rfl rfl rfl (by rw [hc]; decide)⟩
  · next hp =>
    obtain ⟨hn, hc⟩ := hi.lastD (i := i) (by rw [hp]; decide) (by rw [hp]; decide)
    rw [hp] at hc
    rw [hc] at hok
    cases h
    obtain ⟨a, b, c, d⟩ := hok.at_down (by simp)
    exact ⟨hi.moveD hn rfl rfl rfl rfl (by rw [hc]; decide) (.down (by simp) a b c d), moveD_left hn rfl rfl rfl rfl rfl (by rw [hc]; decide)⟩
  · next hp =>
    obtain ⟨hn, hc⟩ := hi.lastD (i := i) (by rw [hp]; simp) (by rw [hp]; simp)
    rw [hp] at hc
    rw [hc] at hok
    exact hok.no_connect.elim
  · next hp =>
    obtain ⟨hn, hc⟩ := hi.lastD (i := i) (by rw [hp]; decide) (by rw [hp]; decide)
    rw [hp] at hc
    rw [hc] at hok
    cases h
    obtain ⟨a, b, c, d⟩ := hok.at_down (by simp)
    exact ⟨hi.moveD hn rfl rfl rfl rfl (by rw [hc]; decide) (.auto (.inl rfl) rfl b c d),
      moveD_left hn rfl rfl rfl rfl rfl (by rw [hc]; decide)⟩
  · next hp =>
    obtain ⟨hn, hc⟩ := hi.lastD (i := i) (by rw [hp]; decide) (by rw [hp]; decide)
    rw [hp] at hc
    rw [hc] at hok
    obtain ⟨_, rfl⟩ := rlock_eq h
    obtain ⟨_, a, b, c, d⟩ := hok.at_auto (.inl rfl)
    exact ⟨hi.moveD hn rfl rfl rfl rfl (by rw [hc]; decide) (.auto (.inr (.inl rfl)) a b c d),
      moveD_left hn rfl rfl rfl rfl rfl (by rw [hc]; decide)⟩
  · next hp =>
    obtain ⟨hn, hc⟩ := hi.lastD (i := i) (by rw [hp]; decide) (by rw [hp]; decide)
    rw [hp] at hc
    rw [hc] at hok
    cases h
    obtain ⟨_, a, b, c, d⟩ := hok.at_auto (.inr (.inl rfl))
    exact ⟨hi.moveD hn rfl rfl rfl rfl (by rw [hc]; simp) (.auto (.inr (.inr rfl)) a b c d),
      moveD_left hn rfl rfl rfl rfl rfl (by rw [hc]; exact Nat.lt_succ_self _)⟩
  · next k hp =>
    obtain ⟨hn, hc⟩ := hi.lastD (i := i) (by rw [hp]; simp) (by rw [hp]; simp)
    rw [hp] at hc
    rw [hc] at hok
    obtain ⟨hk, a, b, c, d⟩ := hok.at_auto (.inr (.inr ⟨_, rfl⟩))
    rw [hk k rfl] at h
    split at h
    · next hj =>
      cases h
      have hR : s.curR = .ended := d.quiet (joined_last hj)
      refine ⟨hi.moveD hn rfl rfl rfl rfl (by rw [hc]; simp) (by rw [hR]; exact .launch a b c),
        moveD_left hn rfl rfl rfl rfl rfl (by rw [hc]; exact Nat.lt_succ_self _)⟩
    · cases h
  · next hp =>
    obtain ⟨hn, hc⟩ := hi.lastD (i := i) (by rw [hp]; decide) (by rw [hp]; decide)
    rw [hp] at hc
    rw [hc] at hok
    cases h
    obtain ⟨a, b, c, hR⟩ := hok.at_launch
    have hcur : ((({ s with nr := s.nr + 1 } : St).setR s.nr .launched).setD i .leave).curD = .leave := by
      unfold St.curD
      show (match s.nd with | 0 => DPc.ended | n + 1 => update s.d i .leave n) = .leave
      rw [hn]; exact Function.update_self _ _ _
    have hcurR : ((({ s with nr := s.nr + 1 } : St).setR s.nr .launched).setD i .leave).curR = .launched :=
      Function.update_self _ _ _
    refine ⟨⟨fun j hj => ?_, fun j hj => ?_, fun j hj => ?_, fun j hj => ?_, ?_, ?_⟩, ?_⟩
    · have hj' : s.nd ≤ j := hj
      show update s.d i _ j = _
      rw [Function.update_of_ne (by omega)]; exact hi.dnew j hj'
    · have hj' : j + 1 < s.nd := hj
      show update s.d i _ j = _
      rw [Function.update_of_ne (by omega)]; exact hi.dold j hj'
    · have hj' : s.nr + 1 ≤ j := hj
      show update s.r s.nr _ j = _
      rw [Function.update_of_ne (by omega)]; exact hi.rnew j (by omega)
    · have hj' : j + 1 < s.nr + 1 := hj
      show update s.r s.nr _ j = _
      rw [Function.update_of_ne (by omega)]
      by_cases hl : j + 1 < s.nr
      · exact hi.rold j hl
      · have : s.nr = j + 1 := by omega
        have hR' := hR
        unfold St.curR at hR'
        rw [this] at hR'
        exact hR'
    · rw [hcur]
      have := hi.count
      rw [hc] at this
      exact this
    · rw [hcur, hcurR]
      exact .leave a b (.inl ⟨.inl rfl, c⟩)
    · unfold St.left
      rw [hcur, hcurR, hc, hR]
      show 1 + 10 + (if s.writer = .none then 1 else 0) < 12 + 0 + (if s.writer = .none then 1 else 0)
      omega
  · next hp =>
    obtain ⟨hn, hc⟩ := hi.lastD (i := i) (by rw [hp]; decide) (by rw [hp]; decide)
    rw [hp] at hc
    rw [hc] at hok
    cases h
    obtain ⟨a, b, c⟩ := hok.at_leave
    exact ⟨hi.moveD hn rfl rfl rfl rfl (by rw [hc]; decide) (.early a b c), moveD_left hn rfl rfl rfl rfl rfl (by rw [hc]; decide)⟩
  · cases h

theorem Ok.at_early {s : St} {D : DPc} {R : RPc} (h : Ok s D R) (hR : R = .launched ∨ R = .wait ∨ R = .lock) :
    (D = .leave ∨ D = .ended) ∧ s.disconnecting = false ∧ s.connected = false ∧ Early s R := by
  have hl : ¬ Late R := by rcases hR with rfl | rfl | rfl <;> simp [Late]
  cases h with
  | leave a b c => exact ⟨.inl rfl, a, b, c⟩
  | early a b c => exact ⟨.inr rfl, a, b, c⟩
  | up _ _ c => exact absurd c hl
  | down _ _ _ _ c => exact absurd c hl
  | auto _ _ _ _ c => exact absurd c hl
  | launch => simp at hR
  | unlock => simp at hR
  | dialling a => rcases a with rfl | rfl | rfl <;> simp at hR

theorem Ok.of_early {s : St} {D : DPc} {R : RPc} (hD : D = .leave ∨ D = .ended) (h1 : s.disconnecting = false) (h2 : s.connected = false)
    (h3 : Early s R) : Ok s D R := by
  rcases hD with rfl | rfl
  · exact .leave h1 h2 h3
  · exact .early h1 h2 h3

theorem Ok.at_dialling {s : St} {D : DPc} {R : RPc} (h : Ok s D R) (hR : R = .loop ∨ R = .dial ∨ ∃ k, R = .join k) :
    D = .ended ∧ (∀ k, R = .join k → k = last s.nd) ∧ s.disconnecting = false ∧ s.connected = false ∧ s.writer = .none := by
  have hl : ¬ Late R := by rcases hR with rfl | rfl | ⟨_, rfl⟩ <;> simp [Late]
  have he : ¬ Early s R := by rcases hR with rfl | rfl | ⟨_, rfl⟩ <;> simp [Early]
  cases h with
  | leave a b c => exact absurd c he
  | early a b c => exact absurd c he
  | up _ _ c => exact absurd c hl
  | down _ _ _ _ c => exact absurd c hl
  | auto _ _ _ _ c => exact absurd c hl
  | launch => simp at hR
  | unlock => simp at hR
  | dialling a b c d =>
    refine ⟨rfl, fun k hk => ?_, b, c, d⟩
    rcases a with rfl | rfl | rfl <;> cases hk
    rfl

theorem Ok.at_unlock {s : St} {D : DPc} (h : Ok s D .unlock) :
    D = .ended ∧ s.disconnecting = false ∧ s.connected = false ∧ ∃ n, s.nr = n + 1 ∧ s.writer = .holding (.recon n) := by
  cases h with
  | unlock a b c d => exact ⟨rfl, a, b, _, c, d⟩
  | leave a b c => simp [Early] at c
  | early a b c => simp [Early] at c
  | up _ _ c => simp [Late] at c
  | down _ _ _ _ c => simp [Late] at c
  | auto _ _ _ _ c => simp [Late] at c
  | dialling a => simp at a

/-- After the dial the reconnect thread only goes on. -/
theorem Ok.after {s t : St} {D : DPc} {R P : RPc} (h : Ok s D R) (hR : R = .askE ∨ R = .inE) (hP : Late P) (h1 : t.connected = s.connected)
    (h2 : t.disconnecting = s.disconnecting) (h3 : t.writer = s.writer) (h5 : t.nr = s.nr) : Ok t D P ∧ s.writer = .none := by
  have he : ¬ Early s R := by rcases hR with rfl | rfl <;> simp [Early]
  cases h with
  | leave a b c => exact absurd c he
  | early a b c => exact absurd c he
  | up a b c => exact ⟨.up (h2 ▸ a) (h3 ▸ b) hP, b⟩
  | down a b c d e => exact ⟨.down a (h2 ▸ b) (h1 ▸ c) (h3 ▸ d) hP, d⟩
  | auto a b c d e => exact ⟨.auto (h5 ▸ a) (h2 ▸ b) (h1 ▸ c) (h3 ▸ d) hP, d⟩
  | launch => simp at hR
  | unlock => simp at hR
  | dialling a => rcases a with rfl | rfl | rfl <;> simp at hR

theorem inv_stepR {s t : St} {i : Nat} {c : Choice} (hi : Inv s) (h : stepR s i c = some t) :
    Inv t ∧ t.left < s.left + (if c = .yes then 3 else 0) := by
  have hok := hi.ok
  have weak : ∀ {a b : Nat}, a < b → a < b + (if c = .yes then 3 else 0) := fun h => Nat.lt_of_lt_of_le h (Nat.le_add_right _ _)
  unfold stepR at h
  split at h
  · cases h
  · next hp =>
    obtain ⟨hn, hc⟩ := hi.lastR (i := i) (by rw [hp]; decide) (by rw [hp]; decide)
    rw [hp] at hc
    rw [hc] at hok
    cases h
    obtain ⟨hD, a, b, e⟩ := hok.at_early (.inl rfl)
    have hw : s.writer = .none := by rcases e with e | e; exact e.2; cases e.1
    exact ⟨hi.moveR hn rfl rfl rfl rfl (.of_early hD a b (.inl ⟨.inr (.inl rfl), hw⟩)),
      weak (moveR_less hn rfl rfl rfl rfl (by rw [hc]; exact Nat.add_lt_add_right (by decide) _))⟩
  · next hp =>
    obtain ⟨hn, hc⟩ := hi.lastR (i := i) (by rw [hp]; decide) (by rw [hp]; decide)
    rw [hp] at hc
    rw [hc] at hok
    cases h
    obtain ⟨hD, a, b, e⟩ := hok.at_early (.inr (.inl rfl))
    have hw : s.writer = .none := by rcases e with e | e; exact e.2; cases e.1
    cases c with
    | no =>
      exact ⟨hi.moveR hn rfl rfl rfl rfl (.of_early hD a b (.inr ⟨rfl, .inl hw⟩)),
        weak (moveR_less hn rfl rfl rfl rfl (by rw [hc]; exact Nat.add_lt_add_right (by decide) _))⟩
    | yes =>
      exact ⟨hi.moveR hn rfl rfl rfl rfl (.of_early hD a b (.inl ⟨.inr (.inr rfl), hw⟩)),
        weak (moveR_less hn rfl rfl rfl rfl (by rw [hc]; exact Nat.add_lt_add_right (by decide) _))⟩
  · next hp =>
    obtain ⟨hn, hc⟩ := hi.lastR (i := i) (by rw [hp]; decide) (by rw [hp]; decide)
    rw [hp] at hc
    rw [hc] at hok
    obtain ⟨hD, a, b, e⟩ := hok.at_early (.inr (.inr rfl))
    rcases wlock_cases h with ⟨hw, rfl⟩ | ⟨hw, hf, rfl⟩
    · refine ⟨hi.flags rfl rfl rfl rfl (by rw [hc]; exact .of_early hD a b (.inr ⟨rfl, .inr ⟨i, hn, rfl⟩⟩)), weak ?_⟩
      show s.curD.rank + s.curR.rank + 0 < s.curD.rank + s.curR.rank + (if s.writer = .none then 1 else 0)
      rw [if_pos hw]; omega
    · have hDe : s.curD = .ended := by
        rcases hD with hD | hD
        · unfold St.curD at hD
          cases hnd : s.nd with
          | zero => rw [hnd] at hD; cases hD
          | succ n =>
            rw [hnd] at hD
            have := not_free (s := s) (i := n) (by omega) (by dsimp only at hD; rw [hD]; rfl)
            rw [this] at hf; cases hf
        · exact hD
      refine ⟨hi.moveR hn rfl rfl rfl rfl (by rw [hDe]; exact .unlock a b hn rfl), weak (moveR_less hn rfl rfl rfl rfl ?_)⟩
      rw [hc]
      show 7 + 0 < 8 + _
      omega
  · next hp =>
    obtain ⟨hn, hc⟩ := hi.lastR (i := i) (by rw [hp]; decide) (by rw [hp]; decide)
    rw [hp] at hc
    rw [hc] at hok
    obtain ⟨hD, a, b, n, hn', hw⟩ := hok.at_unlock
    split at h <;> cases h
    refine ⟨hi.moveR hn rfl rfl rfl rfl (by rw [hD]; exact .dialling (.inl rfl) a b rfl), weak (moveR_less hn rfl rfl rfl rfl ?_)⟩
    rw [hc, hw]
    show 5 + 1 < 7 + 0
    omega
  · next hp =>
    obtain ⟨hn, hc⟩ := hi.lastR (i := i) (by rw [hp]; decide) (by rw [hp]; decide)
    rw [hp] at hc
    rw [hc] at hok
    obtain ⟨hD, hk, a, b, w⟩ := hok.at_dialling (.inl rfl)
    cases h
    refine ⟨hi.moveR hn rfl rfl rfl rfl (by rw [hD]; exact .dialling (.inr (.inl rfl)) a b w),
      weak (moveR_less hn rfl rfl rfl rfl (by rw [hc]; exact Nat.add_lt_add_right (Nat.lt_succ_self 4) _))⟩
  · next k hp =>
    obtain ⟨hn, hc⟩ := hi.lastR (i := i) (by rw [hp]; simp) (by rw [hp]; simp)
    rw [hp] at hc
    rw [hc] at hok
    obtain ⟨hD, hk, a, b, w⟩ := hok.at_dialling (.inr (.inr ⟨_, rfl⟩))
    split at h <;> cases h
    refine ⟨hi.moveR hn rfl rfl rfl rfl (by rw [hD]; exact .dialling (.inr (.inr rfl)) a b w),
      weak (moveR_less hn rfl rfl rfl rfl (by rw [hc]; exact Nat.add_lt_add_right (Nat.lt_succ_self 3) _))⟩
  · next hp =>
    obtain ⟨hn, hc⟩ := hi.lastR (i := i) (by rw [hp]; simp) (by rw [hp]; simp)
    rw [hp] at hc
    rw [hc] at hok
    obtain ⟨hD, hk, a, b, w⟩ := hok.at_dialling (.inr (.inl rfl))
    cases h
    cases c with
    | no =>
      refine ⟨hi.moveR hn rfl rfl rfl rfl (by rw [hD]; exact .up a w (.inr (.inl rfl))),
        weak (moveR_less hn rfl rfl rfl rfl (by rw [hc]; exact Nat.add_lt_add_right (by decide) _))⟩
    | yes =>
      refine ⟨hi.moveR hn rfl rfl rfl rfl (by rw [hD]; exact .dialling (.inl rfl) a b w), moveR_left (t := s.setR i .loop) (k := 3) (p := .loop) hn rfl rfl rfl rfl ?_⟩
      rw [hc]
      show 5 + (if s.writer = .none then 1 else 0) < 3 + (if s.writer = .none then 1 else 0) + 3
      omega
  · next hp =>
    obtain ⟨hn, hc⟩ := hi.lastR (i := i) (by rw [hp]; simp) (by rw [hp]; simp)
    rw [hp] at hc
    rw [hc] at hok
    obtain ⟨_, rfl⟩ := rlock_eq h
    exact ⟨hi.moveR hn rfl rfl rfl rfl (hok.after (t := s.setR i .inE) (.inl rfl) (.inr (.inr rfl)) rfl rfl rfl rfl).1,
      weak (moveR_less hn rfl rfl rfl rfl (by rw [hc]; exact Nat.add_lt_add_right (by decide) _))⟩
  · next hp =>
    obtain ⟨hn, hc⟩ := hi.lastR (i := i) (by rw [hp]; simp) (by rw [hp]; simp)
    rw [hp] at hc
    rw [hc] at hok
    cases h
    exact ⟨hi.moveR hn rfl rfl rfl rfl (hok.after (t := s.setR i .ended) (.inr rfl) (.inl rfl) rfl rfl rfl rfl).1,
      weak (moveR_less hn rfl rfl rfl rfl (by rw [hc]; exact Nat.add_lt_add_right (by decide) _))⟩
  · cases h

theorem Ok.when_up {s : St} {D : DPc} {R : RPc} (h : Ok s D R) (hc : s.connected = true) : D = .ended ∧ s.writer = .none ∧ Late R := by
  cases h with
  | up a b c => exact ⟨rfl, b, c⟩
  | down _ _ c => rw [hc] at c; cases c
  | auto _ _ c => rw [hc] at c; cases c
  | launch _ c => rw [hc] at c; cases c
  | leave _ c => rw [hc] at c; cases c
  | early _ c => rw [hc] at c; cases c
  | unlock _ c => rw [hc] at c; cases c
  | dialling _ _ c => rw [hc] at c; cases c

theorem inv_step {s t : St} {a : Act} (hi : Inv s) (hg : Good s a) (h : step s a = some t) :
    Inv t ∧ (a.inner = true → t.left < s.left + 3 * a.yes) := by
  cases a with
  | try_ => simp only [step] at h; split at h <;> cases h; exact ⟨hi.flags rfl rfl rfl rfl (hi.ok.same rfl rfl rfl rfl rfl), by simp [Act.inner]⟩
  | fine => simp only [step] at h; split at h <;> cases h; exact ⟨hi.flags rfl rfl rfl rfl (hi.ok.same rfl rfl rfl rfl rfl), by simp [Act.inner]⟩
  | fail => simp only [step] at h; split at h <;> cases h; exact ⟨hi.flags rfl rfl rfl rfl (hi.ok.same rfl rfl rfl rfl rfl), by simp [Act.inner]⟩
  | term =>
    refine ⟨?_, by simp [Act.inner]⟩
    simp only [step, stepTerm] at h
    split at h
    · cases h
    · split at h
      · cases h; exact hi.flags rfl rfl rfl rfl (hi.ok.same rfl rfl rfl rfl rfl)
      · next hq =>
        cases h
        have hup := hg.2.2 rfl (Bool.not_eq_true _ ▸ hq)
        obtain ⟨hD, hw, hl⟩ := hi.ok.when_up hup
        have hcnt := hi.count
        rw [hD] at hcnt
        refine ⟨fun j hj => ?_, fun j hj => ?_, fun j hj => hi.rnew j hj, fun j hj => hi.rold j hj, ?_, ?_⟩
        · have hj' : s.nd + 1 ≤ j := hj
          show update s.d s.nd _ j = _
          rw [Function.update_of_ne (by omega)]; exact hi.dnew j (by omega)
        · have hj' : j + 1 < s.nd + 1 := hj
          show update s.d s.nd _ j = _
          rw [Function.update_of_ne (by omega)]
          by_cases hl : j + 1 < s.nd
          · exact hi.dold j hl
          · have hn : s.nd = j + 1 := by omega
            have hD' := hD
            unfold St.curD at hD'
            rw [hn] at hD'
            exact hD'
        · show s.nr + (if update s.d s.nd .begun s.nd = .leave ∨ update s.d s.nd .begun s.nd = .ended then 0 else 1) = s.nd + 1
          rw [Function.update_self]
          have : s.nr + 0 = s.nd := hcnt
          simp; omega
        · show Ok _ (update s.d s.nd .begun s.nd) s.curR
          rw [Function.update_self]
          exact .down (.inl rfl) rfl rfl hw hl
  | dis i c =>
    cases c with
    | yes => exact absurd rfl (hg.2.1 i)
    | no =>
      obtain ⟨h1, h2⟩ := inv_stepD hi h
      exact ⟨h1, fun _ => Nat.lt_of_lt_of_le h2 (Nat.le_add_right _ _)⟩
  | con i c =>
    obtain ⟨h1, h2⟩ := inv_stepR hi h
    refine ⟨h1, fun _ => ?_⟩
    cases c with
    | no => exact h2
    | yes => exact h2
  | assign => exact absurd rfl hg.1

theorem exec_append (s : St) (as bs : List Act) : exec s (as ++ bs) = (exec s as).bind (fun t => exec t bs) := by
  induction as generalizing s with
  | nil => rfl
  | cons a as ih =>
    rw [List.cons_append, exec, exec, Option.bind_assoc]
    congr 1
    funext t
    exact ih t

/-- The reconnect thread that can act. -/
theorem Inv.progressR {s : St} (hi : Inv s) (hr : ∀ i, stepR s i .no = none) (hD : s.curD.holds = false ∨ Late s.curR) : s.curR = .ended := by
  have hok := hi.ok
  cases hn : s.nr with
  | zero => unfold St.curR; rw [hn]
  | succ n =>
    have hc : s.curR = s.r n := by unfold St.curR; rw [hn]
    have h := hr n
    unfold stepR at h
    rw [hc] at hok hD ⊢
    cases hp : s.r n with
    | ended => rfl
    | idle =>
      exfalso
      rw [hp] at hok
      generalize s.curD = D at hok
      cases hok with
      | leave a b c => simp [Early] at c
      | early a b c => simp [Early] at c
      | up _ _ c => simp [Late] at c
      | down _ _ _ _ c => simp [Late] at c
      | auto _ _ _ _ c => simp [Late] at c
      | dialling a => simp at a
    | launched => rw [hp] at h; cases h
    | wait => rw [hp] at h; cases h
    | lock =>
      exfalso
      rw [hp] at h hok hD
      obtain ⟨hD', a, b, e⟩ := hok.at_early (.inr (.inr rfl))
      have hD0 : s.curD.holds = false := by
        rcases hD with hD | hD
        · exact hD
        · simp [Late] at hD
      have hDe : s.curD = .ended := by
        rcases hD' with hD' | hD'
        · rw [hD'] at hD0; exact absurd hD0 (by decide)
        · exact hD'
      dsimp only at h
      unfold St.wlock at h
      rcases e with e | ⟨_, hw | ⟨m, hm, hw⟩⟩
      · simp at e
      · rw [hw] at h; cases h
      · have hmn : m = n := by omega
        subst hmn
        rw [hw] at h
        have hf : s.free = true := by
          unfold St.free
          rw [Bool.and_eq_true, List.all_eq_true, List.all_eq_true]
          constructor
          · intro i him
            have hi' := List.mem_range.1 him
            by_cases hl : i + 1 < s.nd
            · rw [hi.dold i hl]; rfl
            · have : s.nd = i + 1 := by omega
              unfold St.curD at hDe
              rw [this] at hDe
              dsimp only at hDe
              rw [hDe]; rfl
          · intro i him
            have hi' := List.mem_range.1 him
            by_cases hl : i + 1 < s.nr
            · rw [hi.rold i hl]; rfl
            · have : i = m := by omega
              rw [this, hp]; rfl
        dsimp only at h
        rw [if_pos ⟨rfl, hf⟩] at h
        cases h
    | unlock =>
      exfalso
      rw [hp] at h hok
      obtain ⟨_, _, _, m, hm, hw⟩ := hok.at_unlock
      have hmn : m = n := by omega
      subst hmn
      dsimp only at h
      rw [if_pos hw] at h
      cases h
    | loop => rw [hp] at h; cases h
    | join k =>
      exfalso
      rw [hp] at h hok
      obtain ⟨hD', hk, _⟩ := hok.at_dialling (.inr (.inr ⟨_, rfl⟩))
      dsimp only at h
      rw [hk k rfl] at h
      have : joined DPc.quiet s.d (last s.nd) = true := by
        cases hnd : s.nd with
        | zero => rfl
        | succ j =>
          unfold St.curD at hD'
          rw [hnd] at hD'
          dsimp only at hD'
          show (s.d j).quiet = true
          rw [hD']; rfl
      rw [if_pos this] at h
      cases h
    | dial => rw [hp] at h; cases h
    | askE =>
      exfalso
      rw [hp] at h hok
      have hw := (hok.after (P := .ended) (t := s) (.inl rfl) (.inl rfl) rfl rfl rfl rfl).2
      dsimp only at h
      unfold St.rlock at h
      rw [if_pos hw] at h
      cases h
    | inE => rw [hp] at h; cases h

/-- When no thread can act, all have ended. -/
theorem Inv.progress {s : St} (hi : Inv s) (hd : ∀ i, stepD s i .no = none) (hr : ∀ i, stepR s i .no = none) :
    s.curD = .ended ∧ s.curR = .ended := by
  have hok := hi.ok
  have hD : s.curD = .ended := by
    cases hn : s.nd with
    | zero => unfold St.curD; rw [hn]
    | succ n =>
      have hc : s.curD = s.d n := by unfold St.curD; rw [hn]
      have h := hd n
      unfold stepD at h
      rw [hc] at hok ⊢
      cases hp : s.d n with
      | ended => rfl
      | idle =>
        exfalso
        rw [hp] at hok
        cases hok with
        | down a => simp at a
        | auto a => simp at a
      | begun => rw [hp] at h; cases h
      | askT =>
        exfalso
        rw [hp] at h hok
        have hw := (hok.at_down (by simp)).2.2.1
        dsimp only at h
        unfold St.rlock at h
        rw [if_pos hw] at h
        cases h
      | inT => rw [hp] at h; cases h
      | inConnect k => rw [hp] at hok; exact hok.no_connect.elim
      | clear => rw [hp] at h; cases h
      | askA =>
        exfalso
        rw [hp] at h hok
        have hw := (hok.at_auto (.inl rfl)).2.2.2.1
        dsimp only at h
        unfold St.rlock at h
        rw [if_pos hw] at h
        cases h
      | copy => rw [hp] at h; cases h
      | join k =>
        exfalso
        rw [hp] at h hok
        obtain ⟨hk, _, _, _, hl⟩ := hok.at_auto (.inr (.inr ⟨_, rfl⟩))
        have hR := hi.progressR hr (.inr hl)
        dsimp only at h
        rw [hk k rfl] at h
        have : joined RPc.quiet s.r (last s.nr) = true := by
          cases hnr : s.nr with
          | zero => rfl
          | succ j =>
            unfold St.curR at hR
            rw [hnr] at hR
            dsimp only at hR
            show (s.r j).quiet = true
            rw [hR]; rfl
        rw [if_pos this] at h
        cases h
      | launch => rw [hp] at h; cases h
      | leave => rw [hp] at h; cases h
  exact ⟨hD, hi.progressR hr (.inl (by rw [hD]; rfl))⟩

/-- Runs in which nobody assigns a callback or connects in a callback and no failure is noticed after the disconnect. -/
inductive GoodRun : St → List Act → St → Prop
  | nil (s : St) : GoodRun s [] s
  | cons {s t u : St} {a : Act} {as : List Act} : Good s a → step s a = some t → GoodRun t as u → GoodRun s (a :: as) u

theorem GoodRun.inv {s t : St} {as : List Act} (h : GoodRun s as t) (hi : Inv s) : Inv t := by
  induction h with
  | nil => exact hi
  | cons hg hst _ ih => exact ih (inv_step hi hg hst).1

theorem GoodRun.left {s t : St} {as : List Act} (h : GoodRun s as t) (hi : Inv s) (ha : ∀ a ∈ as, a.inner = true) :
    as.length + t.left ≤ s.left + 3 * (as.map Act.yes).sum := by
  induction h with
  | nil => simp
  | @cons s t u a as hg hst _ ih =>
    obtain ⟨h1, h2⟩ := inv_step hi hg hst
    have h3 := ih h1 (fun b hb => ha b (List.mem_cons_of_mem _ hb))
    have h4 := h2 (ha a List.mem_cons_self)
    rw [List.length_cons, List.map_cons, List.sum_cons]
    omega

theorem rank_le (s : St) : s.left ≤ 30 := by
  have h1 : s.curD.rank ≤ 19 := by cases s.curD <;> simp [DPc.rank]
  have h2 : s.curR.rank ≤ 10 := by cases s.curR <;> simp [RPc.rank]
  unfold St.left
  split <;> omega

/-- **C108, in part**: start from a connection that a user made. As long as nobody assigns a callback, no callback calls `Connect`, and no failure is
noticed after the disconnect it belongs to, the threads never wait for each other in a circle, however they are scheduled and however often the
connection is lost: their actions come to an end after at most 30, and three more for each failed dial, and when none of them can go on, every
disconnect and reconnect thread ever started has ended, and there has been exactly one reconnect thread for each lost connection. -/
theorem C108_reconnect_partial {s : St} {as : List Act} (h : GoodRun init as s) {bs : List Act} {t : St} (h' : GoodRun s bs t)
    (hb : ∀ b ∈ bs, b.inner = true) :
    bs.length ≤ 30 + 3 * (bs.map Act.yes).sum ∧
    ((∀ i c, step t (.dis i c) = none ∧ step t (.con i c) = none) →
      (∀ i, i < t.nd → t.d i = .ended) ∧ (∀ i, i < t.nr → t.r i = .ended) ∧ t.nr = t.nd) := by
  have hi := h.inv inv_init
  refine ⟨by have := h'.left hi hb; have := rank_le s; omega, fun hstop => ?_⟩
  have hit := h'.inv hi
  obtain ⟨hD, hR⟩ := hit.progress (fun i => (hstop i .no).1) (fun i => (hstop i .no).2)
  refine ⟨fun i hin => ?_, fun i hin => ?_, ?_⟩
  · by_cases hl : i + 1 < t.nd
    · exact hit.dold i hl
    · have : t.nd = i + 1 := by omega
      unfold St.curD at hD
      rw [this] at hD
      exact hD
  · by_cases hl : i + 1 < t.nr
    · exact hit.rold i hl
    · have : t.nr = i + 1 := by omega
      unfold St.curR at hR
      rw [this] at hR
      exact hR
  · have := hit.count
    rw [hD] at this
    exact this

theorem goodRun_of {s t : St} {as : List Act} (hg : ∀ a ∈ as, a ≠ .assign ∧ (∀ i, a ≠ .dis i .yes) ∧ a ≠ .term) (h : exec s as = some t) :
    GoodRun s as t := by
  induction as generalizing s with
  | nil => cases h; exact .nil _
  | cons a as ih =>
    rw [exec] at h
    cases ha : step s a with
    | none => rw [ha] at h; cases h
    | some u =>
      rw [ha] at h
      have := hg a List.mem_cons_self
      exact .cons ⟨this.1, this.2.1, fun e => absurd e this.2.2⟩ ha (ih (fun b hb => hg b (List.mem_cons_of_mem _ hb)) h)

/-- The connection is lost and made again after one failed dial. -/
example : ∃ s t, GoodRun init [.try_, .fail, .term] s ∧
    GoodRun s (List.replicate 9 (.dis 0 .no) ++ List.replicate 7 (.con 0 .no) ++ [.con 0 .yes] ++ List.replicate 5 (.con 0 .no)) t ∧
    t.connected = true ∧ t.r 0 = .ended ∧ t.nr = 1 :=
  ⟨_, _, .cons ⟨by simp, by simp, by simp⟩ rfl (.cons ⟨by simp, by simp, by simp⟩ rfl (.cons ⟨by simp, by simp, fun _ _ => rfl⟩ rfl (.nil _))),
    goodRun_of (by simp) rfl, rfl, rfl, rfl⟩

end Verif.Sync.Reconnect
