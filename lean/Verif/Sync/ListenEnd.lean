import Verif.Sync.ListenTurns

/-!
# C113: `Disconnect` ends listening

When nobody connects between the call and the closing of the listening socket. (Otherwise `C113_disconnect_false`.)
-/

namespace Verif.Sync.Listen

open Function (update)

/-! ## Specification -/

/-- Somebody connects: the listening socket is open and the accept thread waits for it. -/
def Connects (s : St) (a : Act) : Prop := a = .acc ∧ s.acc = .accept ∧ s.listenOpen = true

/-- Nobody connects and nobody calls `Disconnect`. -/
def Alone : St → List Act → Prop
  | _, [] => True
  | s, a :: as => a ≠ .user ∧ ¬ Connects s a ∧ ∀ t, step s a = some t → Alone t as

/-- An action of the publishers. -/
def Act.leaves : Act → Bool
  | .leave _ => true
  | _ => false

/-- Listening is over: the listening socket is closed, the accept thread and the response goroutines have ended, no connection is left open, the disconnect
thread is over and has given the mutex back. -/
structure Over (s : St) : Prop where
  connected : s.connected = false
  disconnecting : s.disconnecting = false
  listening : s.listening = false
  listenOpen : s.listenOpen = false
  acc : s.acc = .ended
  quiet : ∀ k, (s.r k).live = false
  threads : ∀ i, (s.d i).active = false
  action : s.action = none
  closed : ∀ c, s.socket = some c → s.closed c = true

/-! ## Lemmas -/

/-- `commandChannelResponseThread` is that of the connection. -/
theorem thread_socket {s : St} (h : Turns s) : (s.connected = true ∨ ∃ k, s.acc = .set k) → s.thread = s.socket := by
  induction h with
  | init => intro h; rcases h with h | ⟨k, h⟩ <;> cases h
  | @step s t a hs hp ht ih =>
    have hi := inv hs
    intro h
    cases a with
    | acc =>
      simp only [step, stepAcc] at ht
      split at ht
      · next hq => cases ht; exact ih (h.imp id (fun ⟨k, e⟩ => by dsimp only at e; split at e <;> cases e))
      · next hq =>
        cases ht
        split at h
        · rw [if_pos (by assumption)]; exact ih (h.imp id (fun ⟨k, e⟩ => by cases e))
        · rw [if_neg (by assumption)]; exact ih (h.imp id (fun ⟨k, e⟩ => by cases e))
      · next k hq =>
        cases ht
        split at h
        · rw [if_pos (by assumption)]; exact ih (h.imp id (fun ⟨k, e⟩ => by cases e))
        · rw [if_neg (by assumption)]; exact ih (h.imp id (fun ⟨k, e⟩ => by cases e))
      · next k hq => split at ht <;> cases ht; exact ih (h.imp id (fun ⟨k, e⟩ => by cases e))
      · cases ht; rfl
      · next k hq => cases ht; exact ih (Or.inr ⟨k, hq⟩)
      · cases ht; exact ih (h.imp id (fun ⟨k, e⟩ => by cases e))
      · cases ht; exact ih (h.imp id (fun ⟨k, e⟩ => by cases e))
      · cases ht
    | leave k => simp only [step] at ht; split at ht <;> cases ht; exact ih h
    | resp k =>
      obtain ⟨e1, e2, e3, -⟩ := resp_keeps ht
      have e4 : t.thread = s.thread := by
        simp only [step, stepR] at ht
        split at ht
        · cases ht
        · cases ht; rfl
        · cases ht; rfl
        · cases ht; rfl
        · cases ht; split <;> rfl
        · cases ht; rfl
        · cases ht; rfl
        · cases ht
      rw [e3, e4]
      rw [e1, e2] at h
      exact ih h
    | term =>
      simp only [step, stepTerm] at ht
      split at ht
      · cases ht
      · split at ht <;> cases ht
        · exact ih h
        · exact ih (h.imp (fun e => by cases e) id)
    | dis i =>
      have hact : (s.d i).active = true := by
        simp only [step, stepD] at ht
        split at ht
        · cases ht
        all_goals first | (next hp => rw [hp]; rfl) | (next hp => cases ht)
      obtain ⟨-, hd, -⟩ := hi.act i hact
      have hc := hi.stop hd
      have hn : ∀ k, s.acc ≠ .set k := fun k e => by
        have := (hi.pre (by rw [e]; rfl)).disconnecting
        rw [hd] at this; cases this
      obtain ⟨-, -, -, f1, -, -, f2⟩ := frame (a := .dis i) (by simp) ht
      rcases h with h | ⟨k, h⟩
      · have := f2 h; rw [hc] at this; cases this
      · rw [f1] at h; exact absurd h (hn k)
    | user => exact absurd rfl hp.1

/-- The disconnect thread is before this point: before `Join` of the response goroutine has returned. -/
def DPc.early : DPc → Bool
  | .lock | .closeL | .closeC | .joinA | .joinR => true
  | _ => false

/-- What holds while thread `i` disconnects and `c` is the only response goroutine there may be. -/
structure Ending (i c : Nat) (s : St) : Prop where
  connected : s.connected = false
  listening : s.listening = false
  term : s.term = false
  acc : s.acc = .accept ∨ s.acc = .loop ∨ s.acc = .ended
  user : s.user i = true
  others : ∀ j, j ≠ i → (s.d j).active = false
  begun : s.d i ≠ .idle
  action : s.action = if s.d i = .lock ∨ s.d i = .ended then none else some (.dis i)
  disc : s.disconnecting = false ↔ s.d i = .ended
  opened : s.listenOpen = true → s.d i = .lock ∨ s.d i = .closeL
  joined : s.d i = .joinR ∨ (s.d i).early = false → s.acc = .ended
  calm : s.r c ≠ .dispatch
  only : ∀ j, (s.r j).live = true → j = c
  thread : (s.d i).early = true → (s.r c).live = true → s.thread = some c
  past : (s.d i).early = false → s.r c = .none ∨ s.r c = .launched ∨ s.r c = .loop ∨ s.r c = .ended
  closed : s.d i ≠ .lock → s.d i ≠ .closeL → s.d i ≠ .closeC → ∀ k, s.socket = some k → s.closed k = true

theorem ending_acc {i c : Nat} {s t : St} (hs : Ending i c s) (hn : ¬ Connects s .acc) (h : step s .acc = some t) : Ending i c t := by
  obtain ⟨h1, h2, h3, h4, h5, h6, h7, h8, h9, h10, h11, h12, h13, h14, h15, h16⟩ := hs
  rcases h4 with hq | hq | hq
  · have ho : s.listenOpen = false := by
      cases ho : s.listenOpen with
      | false => rfl
      | true => exact absurd ⟨rfl, hq, ho⟩ hn
    have h' : step s .acc = some { s with acc := .loop } := by simp [step, stepAcc, hq, ho]
    rw [h'] at h
    cases h
    exact ⟨h1, h2, h3, by simp, h5, h6, h7, h8, h9, h10, (fun e => (by have := h11 e; rw [hq] at this; cases this)), h12, h13, h14, h15, h16⟩
  · have h' : step s .acc = some { s with acc := .ended } := by simp [step, stepAcc, hq, h2]
    rw [h'] at h
    cases h
    exact ⟨h1, h2, h3, by simp, h5, h6, h7, h8, h9, h10, fun _ => rfl, h12, h13, h14, h15, h16⟩
  · simp only [step, stepAcc, hq] at h; cases h

theorem ending_leave {i c k : Nat} {s t : St} (hs : Ending i c s) (h : step s (.leave k) = some t) : Ending i c t := by
  obtain ⟨h1, h2, h3, h4, h5, h6, h7, h8, h9, h10, h11, h12, h13, h14, h15, h16⟩ := hs
  simp only [step] at h
  split at h <;> cases h
  exact ⟨h1, h2, h3, h4, h5, h6, h7, h8, h9, h10, h11, h12, h13, h14, h15, h16⟩

/-- The response goroutine goes from one point to another. -/
theorem ending_move {i c : Nat} {s : St} (hs : Ending i c s) (p : RPc) (hl : (s.r c).live = true) (hp : p ≠ .dispatch)
    (hpast : (s.d i).early = false → p = .loop ∨ p = .ended) : Ending i c { s with r := update s.r c p } := by
  obtain ⟨h1, h2, h3, h4, h5, h6, h7, h8, h9, h10, h11, h12, h13, h14, h15, h16⟩ := hs
  refine ⟨h1, h2, h3, h4, h5, h6, h7, h8, h9, h10, h11, ?_, fun j hj => ?_, fun e _ => h14 e hl, fun e => ?_, h16⟩
  · dsimp only; rw [Function.update_self]; exact hp
  · by_cases hjc : j = c
    · exact hjc
    · dsimp only at hj; rw [Function.update_of_ne hjc] at hj; exact h13 j hj
  · dsimp only
    rw [Function.update_self]
    rcases hpast e with rfl | rfl <;> simp

theorem ending_stream {i c : Nat} {s : St} (hs : Ending i c s) (x : Option Nat) : Ending i c { s with stream := x } := by
  obtain ⟨h1, h2, h3, h4, h5, h6, h7, h8, h9, h10, h11, h12, h13, h14, h15, h16⟩ := hs
  exact ⟨h1, h2, h3, h4, h5, h6, h7, h8, h9, h10, h11, h12, h13, h14, h15, h16⟩

theorem ending_resp {i c k : Nat} {s t : St} (hs : Ending i c s) (h : step s (.resp k) = some t) :
    Ending i c t ∧ k = c := by
  have hl : (s.r k).live = true := by
    simp only [step, stepR] at h
    split at h
    · cases h
    all_goals first | (next hp => rw [hp]; rfl) | (next hp => cases h)
  have hk := hs.only k hl
  subst hk
  refine ⟨?_, rfl⟩
  simp only [step, stepR] at h
  split at h
  · cases h
  · next hp => cases h; exact ending_stream (ending_move hs .loop hl (by simp) (fun _ => Or.inl rfl)) _
  · next hp =>
    cases h
    rw [if_neg (by rw [hs.connected]; simp)]
    exact ending_move hs .ended hl (by simp) (fun _ => Or.inr rfl)
  · next hp =>
    cases h
    refine ending_move hs _ hl (by simp) (fun e => ?_)
    rcases hs.past e with e | e | e | e <;> · rw [hp] at e; cases e
  · next d hp =>
    have hne : (s.d i).early = true := by
      cases he : (s.d i).early with
      | true => rfl
      | false => rcases hs.past he with e | e | e | e <;> · rw [hp] at e; cases e
    have hdd : s.disconnecting = true := by
      cases hdd : s.disconnecting with
      | true => rfl
      | false => rw [hs.disc.mp hdd] at hne; cases hne
    cases h
    rw [if_pos hdd]
    exact ending_move hs .loop hl (by simp) (fun _ => Or.inl rfl)
  · next hp =>
    have hne : (s.d i).early = true := by
      cases he : (s.d i).early with
      | true => rfl
      | false => rcases hs.past he with e | e | e | e <;> · rw [hp] at e; cases e
    have hdd : s.disconnecting = true := by
      cases hdd : s.disconnecting with
      | true => rfl
      | false => rw [hs.disc.mp hdd] at hne; cases hne
    cases h
    rw [if_pos hdd]
    exact ending_move hs .loop hl (by simp) (fun _ => Or.inl rfl)
  · next hp => exact absurd hp hs.calm
  · cases h

theorem ending_dis {i c j : Nat} {s t : St} (hs : Ending i c s) (h : step s (.dis j) = some t) : Ending i c t ∧ j = i := by
  have hact : (s.d j).active = true := by
    simp only [step, stepD] at h
    split at h
    · cases h
    all_goals first | (next hp => rw [hp]; rfl) | (next hp => cases h)
  have hj : j = i := by
    by_cases hj : j = i
    · exact hj
    · have := hs.others j hj; rw [hact] at this; cases this
  subst hj
  refine ⟨?_, rfl⟩
  obtain ⟨h1, h2, h3, h4, h5, h6, h7, h8, h9, h10, h11, h12, h13, h14, h15, h16⟩ := hs
  have oth : ∀ (p : DPc) k, k ≠ j → (update s.d j p k).active = false := fun p k hk => by
    rw [Function.update_of_ne hk]; exact h6 k hk
  simp only [step, stepD] at h
  split at h
  · cases h
  · next hp =>
    split at h <;> cases h
    refine ⟨h1, h2, h3, h4, h5, oth _, ?_, ?_, ?_, ?_, ?_, h12, h13, ?_, ?_, ?_⟩ <;> simp_all [DPc.early]
  · next hp =>
    cases h
    refine ⟨h1, h2, h3, h4, h5, oth _, ?_, ?_, ?_, ?_, ?_, h12, h13, ?_, ?_, ?_⟩ <;> simp_all [DPc.early]
  · next hp =>
    cases h
    rw [if_pos h5]
    refine ⟨h1, h2, h3, h4, h5, oth _, ?_, ?_, ?_, ?_, ?_, h12, h13, ?_, ?_, ?_⟩
    · simp
    · simp [h8, hp]
    · simp [h9, hp]
    · intro e; have := h10 e; simp [hp] at this
    · simp [DPc.early]
    · intro _ hl; exact h14 (by rw [hp]; rfl) hl
    · simp [DPc.early]
    · intro _ _ _ k hk
      have hk : s.socket = some k := hk
      show s.hangUp k = true
      unfold St.hangUp
      rw [hk]
      exact Function.update_self _ _ _
  · next hp =>
    split at h <;> cases h
    next hq =>
    have hq : s.acc = .ended := by
      rcases h4 with e | e | e
      · rw [e] at hq; cases hq
      · rw [e] at hq; cases hq
      · exact e
    refine ⟨h1, h2, h3, h4, h5, oth _, ?_, ?_, ?_, ?_, fun _ => hq, h12, h13, ?_, ?_, ?_⟩ <;> simp_all [DPc.early]
  · next hp =>
    split at h <;> cases h
    next hq =>
    have hacc := h11 (Or.inl hp)
    refine ⟨h1, h2, h3, h4, h5, oth _, ?_, ?_, ?_, ?_, fun _ => hacc, h12, h13, ?_, ?_, ?_⟩
    · simp
    · simp [h8, hp]
    · simp [h9, hp]
    · intro e; have := h10 e; simp [hp] at this
    · simp [DPc.early]
    · intro _
      cases hl : (s.r c).live with
      | false => cases hr : s.r c <;> simp_all [RPc.live]
      | true =>
        have ht := h14 (by rw [hp]; rfl) hl
        unfold St.joined at hq
        rw [ht] at hq
        cases hr : s.r c <;> simp_all [RPc.live, RPc.quiet]
    · intro _ _ _; exact h16 (by simp [hp]) (by simp [hp]) (by simp [hp])
  · next hp =>
    cases h
    have hacc := h11 (Or.inr (by rw [hp]; rfl))
    have hpast := h15 (by rw [hp]; rfl)
    refine ⟨h1, h2, h3, h4, h5, oth _, ?_, ?_, ?_, ?_, fun _ => hacc, h12, h13, ?_, fun _ => hpast, ?_⟩ <;> simp_all [DPc.early]
  · next hp =>
    cases h
    have hacc := h11 (Or.inr (by rw [hp]; rfl))
    have hpast := h15 (by rw [hp]; rfl)
    refine ⟨h1, h2, h3, h4, h5, oth _, ?_, ?_, ?_, ?_, fun _ => hacc, h12, h13, ?_, fun _ => hpast, ?_⟩ <;> simp_all [DPc.early]
  · cases h

/-- How many actions there may still be. -/
def APc.left : APc → Nat
  | .accept => 2
  | .loop => 1
  | _ => 0

def RPc.left : RPc → Nat
  | .loop => 1
  | .launched => 2
  | .header _ => 2
  | .read => 3
  | _ => 0

def DPc.left : DPc → Nat
  | .lock => 7
  | .closeL => 6
  | .closeC => 5
  | .joinA => 4
  | .joinR => 3
  | .callback => 2
  | .clear => 1
  | _ => 0

def St.left (i c : Nat) (s : St) : Nat := s.acc.left + (s.r c).left + (s.d i).left

theorem ending_step {i c : Nat} {s t : St} {a : Act} (hs : Ending i c s) (hu : a ≠ .user) (hn : ¬ Connects s a) (h : step s a = some t) :
    Ending i c t ∧ t.left i c + (if a.leaves then 0 else 1) ≤ s.left i c ∧ t.served = s.served := by
  cases a with
  | user => exact absurd rfl hu
  | acc =>
    refine ⟨ending_acc hs hn h, ?_⟩
    rcases hs.acc with hq | hq | hq
    · have ho : s.listenOpen = false := by
        cases ho : s.listenOpen with
        | false => rfl
        | true => exact absurd ⟨rfl, hq, ho⟩ hn
      have h' : step s .acc = some { s with acc := .loop } := by simp [step, stepAcc, hq, ho]
      rw [h'] at h
      cases h
      refine ⟨?_, rfl⟩
      simp [St.left, hq, APc.left, Act.leaves]; omega
    · have h' : step s .acc = some { s with acc := .ended } := by simp [step, stepAcc, hq, hs.listening]
      rw [h'] at h
      cases h
      refine ⟨?_, rfl⟩
      simp [St.left, hq, APc.left, Act.leaves]; omega
    · simp only [step, stepAcc, hq] at h; cases h
  | leave k =>
    refine ⟨ending_leave hs h, ?_⟩
    simp only [step] at h
    split at h <;> cases h
    exact ⟨Nat.le_refl _, rfl⟩
  | resp k =>
    obtain ⟨h1, hk⟩ := ending_resp hs h
    refine ⟨h1, ?_, (resp_keeps h).2.2.2.2.2⟩
    subst hk
    have key : (t.r k).left + 1 ≤ (s.r k).left ∧ t.acc = s.acc ∧ t.d = s.d := by
      simp only [step, stepR] at h
      split at h
      · cases h
      · next hp => cases h; simp [hp, RPc.left]
      · next hp => cases h; simp [hp, hs.connected, RPc.left]
      · next hp => cases h; simp [hp, RPc.left]
      · next d hp => cases h; split <;> simp [hp, RPc.left]
      · next hp =>
        cases h
        have : s.disconnecting = true := by
          cases hdd : s.disconnecting with
          | true => rfl
          | false =>
            have := hs.past (by rw [hs.disc.mp hdd]; rfl)
            rw [hp] at this; simp at this
        simp [hp, this, RPc.left]
      · next hp => exact absurd hp hs.calm
      · cases h
    simp only [St.left, key.2.1, key.2.2, Act.leaves]
    have := key.1
    simp; omega
  | term =>
    simp only [step, stepTerm, hs.term] at h; cases h
  | dis j =>
    obtain ⟨h1, hj⟩ := ending_dis hs h
    refine ⟨h1, ?_, (frame (a := .dis j) (by simp) h).1⟩
    subst hj
    have key : (t.d j).left + 1 ≤ (s.d j).left ∧ t.acc = s.acc ∧ t.r = s.r := by
      simp only [step, stepD] at h
      split at h
      · cases h
      · next hp => split at h <;> cases h; simp [hp, DPc.left]
      · next hp => cases h; simp [hp, DPc.left]
      · next hp => cases h; simp [hp, hs.user, DPc.left]
      · next hp => split at h <;> cases h; simp [hp, DPc.left]
      · next hp => split at h <;> cases h; simp [hp, DPc.left]
      · next hp => cases h; simp [hp, DPc.left]
      · next hp => cases h; simp [hp, DPc.left]
      · cases h
    simp only [St.left, key.2.1, key.2.2, Act.leaves]
    have := key.1
    simp; omega

theorem ending_exec {i c : Nat} {s t : St} {as : List Act} (hs : Ending i c s) (ha : Alone s as) (h : exec s as = some t) :
    Ending i c t ∧ t.left i c + as.countP (fun a => !a.leaves) ≤ s.left i c ∧ t.served = s.served := by
  induction as generalizing s with
  | nil => cases h; exact ⟨hs, by simp, rfl⟩
  | cons a as ih =>
    simp only [exec] at h
    obtain ⟨u, hu, h⟩ := Option.bind_eq_some_iff.mp h
    obtain ⟨g1, g2, g3⟩ := ending_step hs ha.1 ha.2.1 hu
    obtain ⟨k1, k2, k3⟩ := ih g1 (ha.2.2 u hu) h
    refine ⟨k1, ?_, k3.trans g3⟩
    rw [List.countP_cons]
    cases hl : a.leaves <;> rw [hl] at g2 <;> simp at g2 ⊢ <;> omega

theorem ending_over {i c : Nat} {s : St} (hs : Ending i c s) (hstuck : ∀ a, a ≠ .user → a.leaves = false → ¬ Connects s a → step s a = none) : Over s := by
  obtain ⟨h1, h2, h3, h4, h5, h6, h7, h8, h9, h10, h11, h12, h13, h14, h15, h16⟩ := hs
  have hD := hstuck (.dis i) (by simp) rfl (by simp [Connects])
  have hR : ∀ k, step s (.resp k) = none := fun k => hstuck (.resp k) (by simp) rfl (by simp [Connects])
  have hquiet : ∀ k, (s.r k).live = false := by
    intro k
    have := hR k
    cases hr : s.r k with
    | none => rfl
    | ended => rfl
    | header d => cases d <;> simp [step, stepR, hr] at this
    | _ => simp [step, stepR, hr] at this
  -- the accept thread waits only for the listening socket to be closed
  have hA : s.listenOpen = false → s.acc = .ended := by
    intro ho
    have := hstuck .acc (by simp) rfl (by simp [Connects, ho])
    rcases h4 with e | e | e
    · simp [step, stepAcc, e, ho] at this
    · simp [step, stepAcc, e] at this
    · exact e
  have hd : s.d i = .ended := by
    cases hd : s.d i with
    | idle => exact absurd hd h7
    | ended => rfl
    | lock => simp [step, stepD, hd, h8] at hD
    | closeL => simp [step, stepD, hd] at hD
    | closeC => simp [step, stepD, hd] at hD
    | callback => simp [step, stepD, hd] at hD
    | clear => simp [step, stepD, hd] at hD
    | joinA =>
      have ho : s.listenOpen = false := by
        cases ho : s.listenOpen with
        | false => rfl
        | true => rcases h10 ho with e | e <;> · rw [hd] at e; cases e
      simp [step, stepD, hd, hA ho, APc.quiet] at hD
    | joinR =>
      have : s.joined = true := by
        unfold St.joined
        split
        · rfl
        · next k _ =>
          have := hquiet k
          cases hr : s.r k <;> simp_all [RPc.live, RPc.quiet]
      simp [step, stepD, hd, this] at hD
  have ho : s.listenOpen = false := by
    cases ho : s.listenOpen with
    | false => rfl
    | true => rcases h10 ho with e | e <;> · rw [hd] at e; cases e
  refine ⟨h1, h9.mpr hd, h2, ho, hA ho, hquiet, fun j => ?_, by simp [h8, hd], h16 (by simp [hd]) (by simp [hd]) (by simp [hd])⟩
  by_cases hj : j = i
  · subst hj; rw [hd]; rfl
  · exact h6 j hj

/-- **C113**: `Disconnect`, called while a publisher is served or none is there, ends listening, if nobody connects before the listening socket is closed:
in every schedule at most twelve actions of the subscriber follow, no other publisher is served, and when none is possible any more, listening is over
and the connection is closed. -/
theorem C113_disconnect_partial {s t u : St} {as : List Act} (h : Turns s) (hq : s.acc = .accept) (hs : Rest s ∨ ∃ c, Serving s c)
    (ht : step s .user = some t) (ha : Alone t as) (hu : exec t as = some u) :
    as.countP (fun a => !a.leaves) ≤ 12 ∧ u.served = s.served ∧
    ((∀ a, a ≠ .user → a.leaves = false → ¬ Connects u a → step u a = none) → Over u) := by
  have hi := inv h
  have hdc : s.disconnecting = false := by rcases hs with hs | ⟨c, hs⟩ <;> exact hs.disconnecting
  have hidle : ∀ j, (s.d j).active = false := by
    intro j
    cases hj : (s.d j).active with
    | false => rfl
    | true => have := (hi.act j hj).2.1; rw [hdc] at this; cases this
  obtain ⟨c, hterm, hcalm, honly, hthr, hrd⟩ : ∃ c, s.term = false ∧ s.r c ≠ .dispatch ∧ (∀ j, (s.r j).live = true → j = c) ∧
      ((s.r c).live = true → s.thread = some c) ∧ (s.r c).left ≤ 3 := by
    rcases hs with hs | ⟨c, hs⟩
    · refine ⟨0, hs.term, ?_, fun j hj => ?_, fun hl => ?_, by cases s.r 0 <;> simp [RPc.left]⟩
      · intro e; have := hs.quiet 0; rw [e] at this; cases this
      · rw [hs.quiet j] at hj; cases hj
      · rw [hs.quiet 0] at hl; cases hl
    · obtain ⟨c', hup⟩ := hi.up hs.connected
      have hcc : c' = c := by have := hup.socket; rw [hs.socket] at this; exact (Option.some.inj this).symm
      subst hcc
      refine ⟨c', (hup.well hs.here).1, (hup.well hs.here).2.2, fun j hj => ?_, fun _ => ?_, by rw [hs.reading]; simp [RPc.left]⟩
      · have := hi.live j hj; rw [hs.socket] at this; exact (Option.some.inj this).symm
      · rw [thread_socket h (Or.inl hs.connected), hs.socket]
  have hE : Ending s.nd c t ∧ t.left s.nd c ≤ 12 ∧ t.served = s.served := by
    simp only [step, stepUser, hdc] at ht
    cases ht
    refine ⟨⟨rfl, rfl, hterm, Or.inl hq, ?_, fun j hj => ?_, ?_, ?_, ?_, ?_, ?_, hcalm, honly, fun _ hl => hthr hl, ?_, ?_⟩, ?_, rfl⟩
    · simp
    · dsimp only; rw [Function.update_of_ne hj]; exact hidle j
    · simp
    · simp [hi.own (by rw [hq]; rfl)]
    · simp
    · simp
    · simp [DPc.early]
    · simp [DPc.early]
    · simp
    · simp [St.left, hq, APc.left, DPc.left]; omega
  obtain ⟨g1, g2, g3⟩ := ending_exec hE.1 ha hu
  exact ⟨by omega, g3.trans hE.2.2, ending_over g1⟩

/-- `Alone`, to be evaluated. -/
def alone (s : St) : List Act → Bool
  | [] => true
  | a :: as => decide (a ≠ .user) && !(decide (a = .acc) && decide (s.acc = .accept) && s.listenOpen) &&
      (match step s a with | none => true | some t => alone t as)

theorem alone_spec {s : St} {as : List Act} (h : alone s as = true) : Alone s as := by
  induction as generalizing s with
  | nil => trivial
  | cons a as ih =>
    simp only [alone, Bool.and_eq_true] at h
    refine ⟨of_decide_eq_true h.1.1, fun hc => ?_, fun t ht => ih ?_⟩
    · have := h.1.2; simp [hc.1, hc.2.1, hc.2.2] at this
    · have := h.2; rw [ht] at this; exact this

/-- The first publisher is being served, the next one is waited for. -/
def up : List Act := List.replicate 6 .acc ++ [.resp 0, .resp 0]

/-- The disconnect thread and the others, taking turns. -/
def ending : List Act := [.dis 0, .resp 0, .dis 0, .leave 0, .acc, .acc, .dis 0, .resp 0, .resp 0, .dis 0, .dis 0, .dis 0, .dis 0]

/-- `Disconnect` while the first publisher is served. -/
example : ∃ s t u, Turns s ∧ s.acc = .accept ∧ Serving s 0 ∧ step s .user = some t ∧ Alone t ending ∧ exec t ending = some u ∧
    (u.acc, u.listenOpen, u.disconnecting, u.closed 0, u.r 0, u.d 0, u.served) = (.ended, false, false, true, .ended, .ended, [0]) :=
  ⟨_, _, _, turns_two.run (as := up) rfl rfl, rfl, ⟨rfl, rfl, rfl, rfl, rfl, rfl, rfl⟩, rfl, alone_spec rfl, rfl, rfl⟩

end Verif.Sync.Listen
