import Verif.Sync.ListenProps

/-!
# C113: publishers that take turns are served in turn
-/

namespace Verif.Sync.Listen

open Function (update)

/-- A response goroutine that is there. -/
def RPc.live : RPc → Bool
  | .none | .ended => false
  | _ => true

/-- Nothing is connected, and nothing of an earlier connection is left to be done. -/
structure Rest (s : St) : Prop where
  connected : s.connected = false
  disconnecting : s.disconnecting = false
  term : s.term = false
  quiet : ∀ k, (s.r k).live = false

/-- Nobody disconnects, and a publisher that is to be served connects when nothing of an earlier connection is left to be done. -/
def Polite (s : St) (a : Act) : Prop := a ≠ .user ∧ (a = .acc → ∀ k, s.acc = .test k → s.connected = false → Rest s)

/-- The states of schedules in which publishers take turns. -/
inductive Turns : St → Prop where
  | init : Turns init
  | step {s t : St} {a : Act} : Turns s → Polite s a → step s a = some t → Turns t

/-- Schedules no action of which is to be looked at twice: nobody disconnects and nobody is about to be served. -/
def easy (s : St) : List Act → Bool
  | [] => true
  | a :: as => decide (a ≠ .user) && (match s.acc with | .test _ => decide (a ≠ .acc) || s.connected | _ => true) &&
      (match step s a with | none => false | some t => easy t as)

theorem Turns.run {s t : St} {as : List Act} (h : Turns s) (he : easy s as = true) (ht : exec s as = some t) : Turns t := by
  induction as generalizing s with
  | nil => cases ht; exact h
  | cons a as ih =>
    simp only [easy, Bool.and_eq_true] at he
    obtain ⟨⟨hu, ha⟩, hr⟩ := he
    simp only [exec] at ht
    cases hs : Listen.step s a with
    | none => rw [hs] at ht; cases ht
    | some u =>
      rw [hs] at ht hr
      refine ih (.step h ⟨of_decide_eq_true hu, fun e k hk hc => ?_⟩ hs) hr ht
      rw [hk] at ha
      subst e
      simp [hc] at ha

/-- The first publisher has connected and is about to be served. -/
def one : St := { init with acc := .test 0, next := 1 }

theorem turns_one : Turns one := Turns.run (as := [.acc, .acc]) .init rfl rfl

/-- The first publisher is served. -/
def two : St := { one with acc := .lock 0 }

theorem turns_two : Turns two :=
  .step turns_one ⟨by simp, fun _ _ _ _ => ⟨rfl, rfl, rfl, fun _ => rfl⟩⟩ (a := .acc) rfl

/-- The first publisher has been served and has left, which has been noticed. -/
def served : List Act := List.replicate 7 .acc ++ [.resp 0, .resp 0, .resp 0, .resp 0, .acc, .resp 0, .leave 0, .resp 0, .resp 0, .resp 0]

/-- The accept thread has the mutex. -/
def APc.owns : APc → Bool
  | .assign _ | .set _ | .start _ | .unlock => true
  | _ => false

/-- What is known about the connection that is up. -/
structure Up (s : St) (c : Nat) : Prop where
  socket : s.socket = some c
  closed : s.closed c = false
  there : (s.r c).live = true ∨ s.acc = .start c
  stream : s.r c = .launched ∨ s.acc = .start c ∨ s.stream = some c
  well : s.gone c = false → s.term = false ∧ s.r c ≠ .header none ∧ s.r c ≠ .dispatch

/-- What holds when publishers take turns. -/
structure Inv (s : St) : Prop where
  always : Always s
  listening : s.listening = true
  listenOpen : s.listenOpen = true
  acc : s.acc ≠ .ended
  user : ∀ i, s.user i = false
  own : s.acc.owns = false → s.action = none
  live : ∀ k, (s.r k).live = true → s.socket = some k
  stop : s.disconnecting = true → s.connected = false
  idle : ∀ i, s.nd ≤ i → s.d i = .idle
  act : ∀ i, (s.d i).active = true → i + 1 = s.nd ∧ s.disconnecting = true ∧ s.d i ≠ .lock ∧ s.d i ≠ .closeL ∧ s.d i ≠ .joinA
  disc : s.disconnecting = true → ∃ i, (s.d i).active = true
  pre : s.acc.serving = true → Rest s
  set : ∀ k, s.acc = .set k → s.socket = some k ∧ s.closed k = false
  start : ∀ k, s.acc = .start k → s.connected = true ∧ s.term = false ∧ s.socket = some k ∧ ∀ j, (s.r j).live = false
  up : s.connected = true → ∃ c, Up s c

theorem inv_init : Inv init :=
  ⟨always_init, rfl, rfl, by simp [init], fun _ => rfl, fun _ => rfl, by simp [init, RPc.live], by simp [init], fun _ _ => rfl,
    by simp [init, DPc.active], by simp [init], by simp [init, APc.serving], by simp [init], by simp [init], by simp [init]⟩

/-- The accept thread goes on. -/
theorem inv_acc {s t : St} (hs : Inv s) (hp : ∀ k, s.acc = .test k → s.connected = false → Rest s) (h : step s .acc = some t) : Inv t := by
  have ha := always_step hs.always h
  obtain ⟨hA, h1, h2, h3, h4, h5, h6, h7, h8, h9, h10, h11, h12, h13, h14⟩ := hs
  have up' : ∀ {u : St}, u.socket = s.socket → (∀ c, s.socket = some c → u.closed c = s.closed c) → u.r = s.r → (∀ c, s.acc ≠ .start c) →
      u.stream = s.stream → u.gone = s.gone → u.term = s.term → u.connected = s.connected → u.connected = true → ∃ c, Up u c := by
    intro u e1 e2 e3 e4 e5 e6 e7 e8 hu
    obtain ⟨c, k1, k2, k3, k4, k5⟩ := h14 (e8 ▸ hu)
    refine ⟨c, e1 ▸ k1, (e2 c k1).trans k2, ?_, ?_, ?_⟩
    · rw [e3]; exact .inl (k3.resolve_right (e4 c))
    · rw [e3, e5]
      rcases k4 with k | k | k
      · exact .inl k
      · exact absurd k (e4 c)
      · exact .inr (.inr k)
    · rw [e3, e6, e7]; exact k5
  simp only [step, stepAcc] at h
  split at h
  · next hq =>
    cases h
    have hn : ∀ c, s.acc ≠ .start c := fun c => by rw [hq]; simp
    rw [if_pos h1] at *
    exact ⟨ha, h1, h2, by simp, h4, fun _ => h5 (by rw [hq]; rfl), h6, h7, h8, h9, h10, by simp [APc.serving], by simp, by simp,
      up' rfl (fun _ _ => rfl) rfl hn rfl rfl rfl rfl⟩
  · next hq =>
    cases h
    have hn : ∀ c, s.acc ≠ .start c := fun c => by rw [hq]; simp
    rw [if_pos h2] at *
    exact ⟨ha, h1, h2, by simp, h4, fun _ => h5 (by rw [hq]; rfl), h6, h7, h8, h9, h10, by simp [APc.serving], by simp, by simp,
      up' rfl (fun _ _ => rfl) rfl hn rfl rfl rfl rfl⟩
  · next k hq =>
    cases h
    have hn : ∀ c, s.acc ≠ .start c := fun c => by rw [hq]; simp
    by_cases hc : s.connected = true
    · rw [if_pos hc] at *
      exact ⟨ha, h1, h2, by simp, h4, fun _ => h5 (by rw [hq]; rfl), h6, h7, h8, h9, h10, by simp [APc.serving], by simp, by simp,
        up' rfl (fun c e => Function.update_of_ne (fun e' : c = k => (hA.hand k (by rw [hq]; rfl)).2.1
            (List.mem_of_getLast? (by rw [← hA.current, ← e']; exact e))) _ _)
          rfl hn rfl rfl rfl rfl⟩
    · rw [if_neg hc] at *
      have hr := hp k hq (by simpa using hc)
      exact ⟨ha, h1, h2, by simp, h4, fun _ => h5 (by rw [hq]; rfl), h6, h7, h8, h9, h10, fun _ => ⟨hr.1, hr.2, hr.3, hr.4⟩, by simp, by simp,
        fun hu => absurd hu hc⟩
  · next k hq =>
    have hr := h11 (by rw [hq]; rfl)
    split at h <;> cases h
    exact ⟨ha, h1, h2, by simp, h4, by simp [APc.owns], h6, h7, h8, h9, h10, fun _ => ⟨hr.1, hr.2, hr.3, hr.4⟩, by simp, by simp,
      fun hu => by rw [hr.1] at hu; cases hu⟩
  · next k hq =>
    have hr := h11 (by rw [hq]; rfl)
    have hk := hA.hand k (by rw [hq]; rfl)
    have hcl : s.closed k = false := by
      cases hcl : s.closed k with
      | false => rfl
      | true => rcases hA.closed k hcl with h | h
                · exact absurd h hk.2.2
                · exact absurd h hk.2.1
    cases h
    exact ⟨ha, h1, h2, by simp, h4, by simp [APc.owns], fun j hj => (by rw [hr.4 j] at hj; cases hj), h7, h8, h9, h10,
      fun _ => ⟨hr.1, hr.2, hr.3, hr.4⟩, fun j hj => by cases hj; exact ⟨rfl, hcl⟩, by simp, fun hu => by rw [hr.1] at hu; cases hu⟩
  · next k hq =>
    have hr := h11 (by rw [hq]; rfl)
    have hk := h12 k hq
    cases h
    refine ⟨ha, h1, h2, by simp, h4, by simp [APc.owns], h6, fun hd => (by rw [hr.2] at hd; cases hd), h8, h9, h10, by simp [APc.serving], by simp,
      fun j hj => by cases hj; exact ⟨rfl, hr.3, hk.1, hr.4⟩, fun _ => ⟨k, hk.1, hk.2, .inr rfl, .inr (.inl rfl), fun _ => ⟨hr.3, ?_, ?_⟩⟩⟩
    · intro e; have := hr.4 k; rw [show s.r k = .header none from e] at this; cases this
    · intro e; have := hr.4 k; rw [show s.r k = .dispatch from e] at this; cases this
  · next k hq =>
    obtain ⟨g1, g2, g3, g4⟩ := h13 k hq
    obtain ⟨c, k1, k2, k3, k4, k5⟩ := h14 g1
    have : c = k := by rw [g3] at k1; exact (Option.some.inj k1).symm
    subst this
    cases h
    refine ⟨ha, h1, h2, by simp, h4, by simp [APc.owns], fun j hj => ?_, h7, h8, h9, h10, by simp [APc.serving], by simp, by simp,
      fun _ => ⟨c, g3, k2, .inl ?_, .inl (Function.update_self _ _ _), fun _ => ⟨g2, ?_, ?_⟩⟩⟩
    · have hj : (update s.r c .launched j).live = true := hj
      by_cases hjc : j = c
      · subst hjc; exact g3
      · rw [Function.update_of_ne hjc, g4 j] at hj; cases hj
    · show (update s.r c .launched c).live = true
      rw [Function.update_self]; rfl
    · show update s.r c .launched c ≠ _
      rw [Function.update_self]; simp
    · show update s.r c .launched c ≠ _
      rw [Function.update_self]; simp
  · next hq =>
    cases h
    have hn : ∀ c, s.acc ≠ .start c := fun c => by rw [hq]; simp
    exact ⟨ha, h1, h2, by simp, h4, fun _ => rfl, h6, h7, h8, h9, h10, by simp [APc.serving], by simp, by simp,
      up' rfl (fun _ _ => rfl) rfl hn rfl rfl rfl rfl⟩
  · cases h

/-- A response goroutine goes on. -/
theorem inv_resp {s t : St} {k : Nat} (hs : Inv s) (h : step s (.resp k) = some t) : Inv t := by
  have ha := always_step hs.always h
  obtain ⟨hA, h1, h2, h3, h4, h5, h6, h7, h8, h9, h10, h11, h12, h13, h14⟩ := hs
  have hl : (s.r k).live = true := by
    simp only [step, stepR] at h
    split at h
    · cases h
    all_goals first | (next hp => rw [hp]; rfl) | (next hp => cases h)
  have hsv : s.acc.serving = true → False := fun e => by have := (h11 e).4 k; rw [hl] at this; cases this
  have hst : ∀ c, s.acc ≠ .start c := fun c e => by have := (h13 c e).2.2.2 k; rw [hl] at this; cases this
  have hset : ∀ c, s.acc ≠ .set c := fun c e => hsv (by rw [e]; rfl)
  have hk := h6 k hl
  have upd : ∀ (p : RPc) (j : Nat), (update s.r k p j).live = true → s.socket = some j := by
    intro p j hj
    by_cases hjk : j = k
    · subst hjk; exact hk
    · rw [Function.update_of_ne hjk] at hj; exact h6 j hj
  -- what is to be shown of the connection
  have fin : ∀ (u : St) (p : RPc), u.socket = s.socket → u.closed = s.closed → u.gone = s.gone → u.r = update s.r k p → p.live = true →
      (p = .launched ∨ u.stream = some k) → (s.closed k = false → s.gone k = false → s.term = false → s.r k ≠ .header none → s.r k ≠ .dispatch →
        u.term = false ∧ p ≠ .header none ∧ p ≠ .dispatch) → s.connected = true → ∃ c, Up u c := by
    intro u p e1 e2 e3 e4 e5 e6 e7 e8
    obtain ⟨c, k1, k2, k3, k4, k5⟩ := h14 e8
    have : c = k := by rw [hk] at k1; exact (Option.some.inj k1).symm
    subst this
    have e4' : u.r c = p := by rw [e4, Function.update_self]
    refine ⟨c, e1 ▸ k1, e2 ▸ k2, .inl (e4' ▸ e5), ?_, ?_⟩
    · rw [e4']; exact e6.imp id .inr
    · rw [e3, e4']
      intro hg
      obtain ⟨g1, g2, g3⟩ := k5 hg
      exact e7 k2 hg g1 g2 g3
  have str : s.connected = true → s.r k ≠ .launched → s.stream = some k := by
    intro e1 e2
    obtain ⟨c, k1, k2, k3, k4, k5⟩ := h14 e1
    have : c = k := by rw [hk] at k1; exact (Option.some.inj k1).symm
    subst this
    exact (k4.resolve_left e2).resolve_left (hst c)
  simp only [step, stepR] at h
  split at h
  · cases h
  · next hp =>
    cases h
    exact ⟨ha, h1, h2, h3, h4, h5, upd _, h7, h8, h9, h10, fun e => (hsv e).elim, fun c e => absurd e (hset c), fun c e => absurd e (hst c),
      fin _ .loop rfl rfl rfl rfl rfl (.inr hk) (fun _ _ e _ _ => ⟨e, by simp, by simp⟩)⟩
  · next hp =>
    cases h
    refine ⟨ha, h1, h2, h3, h4, h5, upd _, h7, h8, h9, h10, fun e => (hsv e).elim, fun c e => absurd e (hset c), fun c e => absurd e (hst c),
      fun hc => ?_⟩
    have hc : s.connected = true := hc
    exact fin _ .read rfl rfl rfl (by rw [if_pos hc]) rfl (.inr (str hc (by rw [hp]; simp))) (fun _ _ e _ _ => ⟨e, by simp, by simp⟩) hc
  · next hp =>
    cases h
    refine ⟨ha, h1, h2, h3, h4, h5, upd _, h7, h8, h9, h10, fun e => (hsv e).elim, fun c e => absurd e (hset c), fun c e => absurd e (hst c),
      fun hc => ?_⟩
    have hc : s.connected = true := hc
    have hst' := str hc (by rw [hp]; simp)
    refine fin _ (.header s.readable) rfl rfl rfl rfl rfl (.inr hst') (fun e1 e2 e _ _ => ⟨e, ?_, by simp⟩) hc
    simp [St.readable, hst', e1, e2]
  · next c hp =>
    cases h
    by_cases hdd : s.disconnecting = true
    · rw [if_pos hdd] at *
      exact ⟨ha, h1, h2, h3, h4, h5, upd _, h7, h8, h9, h10, fun e => (hsv e).elim, fun c e => absurd e (hset c), fun c e => absurd e (hst c),
        fun hc => fin _ .loop rfl rfl rfl rfl rfl (.inr (str hc (by rw [hp]; simp))) (fun _ _ e _ _ => ⟨e, by simp, by simp⟩) hc⟩
    · rw [if_neg hdd] at *
      exact ⟨ha, h1, h2, h3, h4, h5, upd _, h7, h8, h9, h10, fun e => (hsv e).elim, fun c e => absurd e (hset c), fun c e => absurd e (hst c),
        fun hc => fin _ .loop rfl rfl rfl rfl rfl (.inr (str hc (by rw [hp]; simp))) (fun _ _ e _ _ => ⟨e, by simp, by simp⟩) hc⟩
  · next hp =>
    cases h
    exact ⟨ha, h1, h2, h3, h4, h5, upd _, h7, h8, h9, h10, fun e => (hsv e).elim, fun c e => absurd e (hset c), fun c e => absurd e (hst c),
      fun hc => fin _ _ rfl rfl rfl rfl (by split <;> rfl) (.inr (str hc (by rw [hp]; simp))) (fun _ _ _ e _ => absurd hp e) hc⟩
  · next hp =>
    cases h
    exact ⟨ha, h1, h2, h3, h4, h5, upd _, h7, h8, h9, h10, fun e => (hsv e).elim, fun c e => absurd e (hset c), fun c e => absurd e (hst c),
      fun hc => fin _ _ rfl rfl rfl rfl rfl (.inr (str hc (by rw [hp]; simp))) (fun _ _ _ _ e => absurd hp e) hc⟩
  · cases h

/-- The termination thread runs. -/
theorem inv_term {s t : St} (hs : Inv s) (h : step s .term = some t) : Inv t := by
  have ha := always_step hs.always h
  obtain ⟨hA, h1, h2, h3, h4, h5, h6, h7, h8, h9, h10, h11, h12, h13, h14⟩ := hs
  simp only [step, stepTerm] at h
  split at h
  · cases h
  · next ht =>
    have hsv : s.acc.serving = true → False := fun e => ht (h11 e).3
    have hst : ∀ c, s.acc ≠ .start c := fun c e => ht (h13 c e).2.1
    have hset : ∀ c, s.acc ≠ .set c := fun c e => hsv (by rw [e]; rfl)
    split at h
    · next hd =>
      cases h
      exact ⟨ha, h1, h2, h3, h4, h5, h6, h7, h8, h9, h10, fun e => (hsv e).elim, fun c e => absurd e (hset c), fun c e => absurd e (hst c),
        fun hc => by have := h7 hd; rw [show s.connected = true from hc] at this; cases this⟩
    · next hd =>
      cases h
      refine ⟨ha, h1, h2, h3, h4, h5, h6, fun _ => rfl, fun i hi => ?_, fun i hi => ?_, fun _ => ⟨s.nd, ?_⟩, fun e => (hsv e).elim,
        fun c e => absurd e (hset c), fun c e => absurd e (hst c), fun hc => by cases hc⟩
      · have hi : s.nd + 1 ≤ i := hi
        show update s.d s.nd .closeC i = .idle
        rw [Function.update_of_ne (by omega)]
        exact h8 i (by omega)
      · have hi : (update s.d s.nd .closeC i).active = true := hi
        by_cases hin : i = s.nd
        · subst hin
          have e : update s.d s.nd .closeC s.nd = .closeC := Function.update_self _ _ _
          exact ⟨rfl, rfl, by simp, by simp, by simp⟩
        · rw [Function.update_of_ne hin] at hi
          exact absurd (h9 i hi).2.1 hd
      · show (update s.d s.nd .closeC s.nd).active = true
        rw [Function.update_self]; rfl

/-- A disconnect thread goes on. -/
theorem inv_dis {s t : St} {i : Nat} (hs : Inv s) (h : step s (.dis i) = some t) : Inv t := by
  have ha := always_step hs.always h
  obtain ⟨hA, h1, h2, h3, h4, h5, h6, h7, h8, h9, h10, h11, h12, h13, h14⟩ := hs
  have hact : (s.d i).active = true := by
    simp only [step, stepD] at h
    split at h
    · cases h
    all_goals first | (next hp => rw [hp]; rfl) | (next hp => cases h)
  obtain ⟨hin, hd, n1, n2, n3⟩ := h9 i hact
  have hc : s.connected = false := h7 hd
  have hsv : s.acc.serving = true → False := fun e => by have := (h11 e).2; rw [hd] at this; cases this
  have hst : ∀ c, s.acc ≠ .start c := fun c e => by have := (h13 c e).1; rw [hc] at this; cases this
  have hset : ∀ c, s.acc ≠ .set c := fun c e => hsv (by rw [e]; rfl)
  have upd : ∀ (p : DPc), p ≠ .lock → p ≠ .closeL → p ≠ .joinA → ∀ j, (update s.d i p j).active = true → j + 1 = s.nd ∧ s.disconnecting = true ∧
      update s.d i p j ≠ .lock ∧ update s.d i p j ≠ .closeL ∧ update s.d i p j ≠ .joinA := by
    intro p p1 p2 p3 j hj
    by_cases hji : j = i
    · subst hji; rw [Function.update_self]; exact ⟨hin, hd, p1, p2, p3⟩
    · rw [Function.update_of_ne hji] at hj ⊢; exact h9 j hj
  have idl : ∀ (p : DPc) j, s.nd ≤ j → update s.d i p j = .idle := by
    intro p j hj
    rw [Function.update_of_ne (by omega)]; exact h8 j hj
  have ex : ∀ p : DPc, p.active = true → ∃ j, (update s.d i p j).active = true := fun p hp => ⟨i, by rw [Function.update_self]; exact hp⟩
  simp only [step, stepD] at h
  split at h
  · cases h
  · next hp => exact absurd hp n1
  · next hp => exact absurd hp n2
  · next hp =>
    cases h
    rw [h4 i] at *
    exact ⟨ha, h1, h2, h3, h4, h5, h6, h7, idl _, upd _ (by simp) (by simp) (by simp), fun _ => ex _ rfl, fun e => (hsv e).elim,
      fun c e => absurd e (hset c), fun c e => absurd e (hst c), fun e => by rw [show s.connected = true from e] at hc; cases hc⟩
  · next hp => exact absurd hp n3
  · next hp =>
    split at h <;> cases h
    exact ⟨ha, h1, h2, h3, h4, h5, h6, h7, idl _, upd _ (by simp) (by simp) (by simp), fun _ => ex _ rfl, fun e => (hsv e).elim,
      fun c e => absurd e (hset c), fun c e => absurd e (hst c), fun e => by rw [show s.connected = true from e] at hc; cases hc⟩
  · next hp =>
    cases h
    exact ⟨ha, h1, h2, h3, h4, h5, h6, h7, idl _, upd _ (by simp) (by simp) (by simp), fun _ => ex _ rfl, fun e => (hsv e).elim,
      fun c e => absurd e (hset c), fun c e => absurd e (hst c), fun e => by rw [show s.connected = true from e] at hc; cases hc⟩
  · next hp =>
    cases h
    refine ⟨ha, h1, h2, h3, h4, fun e => ?_, h6, fun e => (by cases e), idl _, fun j hj => ?_, fun e => (by cases e), fun e => (hsv e).elim,
      fun c e => absurd e (hset c), fun c e => absurd e (hst c), fun e => by rw [show s.connected = true from e] at hc; cases hc⟩
    · show (if s.user i then none else s.action) = none
      rw [h4 i]; exact h5 e
    · have hj : (update s.d i .ended j).active = true := hj
      by_cases hji : j = i
      · subst hji; rw [Function.update_self] at hj; cases hj
      · rw [Function.update_of_ne hji] at hj
        have := (h9 j hj).1
        omega
  · cases h

/-- A publisher leaves. -/
theorem inv_leave {s t : St} {k : Nat} (hs : Inv s) (h : step s (.leave k) = some t) : Inv t := by
  have ha := always_step hs.always h
  obtain ⟨hA, h1, h2, h3, h4, h5, h6, h7, h8, h9, h10, h11, h12, h13, h14⟩ := hs
  simp only [step] at h
  split at h <;> cases h
  refine ⟨ha, h1, h2, h3, h4, h5, h6, h7, h8, h9, h10, fun e => ⟨(h11 e).1, (h11 e).2, (h11 e).3, (h11 e).4⟩, h12, h13, fun hc => ?_⟩
  obtain ⟨c, k1, k2, k3, k4, k5⟩ := h14 hc
  refine ⟨c, k1, k2, k3, k4, fun hg => k5 ?_⟩
  have hg : update s.gone k true c = false := hg
  by_cases hck : c = k
  · subst hck; rw [Function.update_self] at hg; cases hg
  · rw [Function.update_of_ne hck] at hg; exact hg

theorem inv {s : St} (h : Turns s) : Inv s := by
  induction h with
  | init => exact inv_init
  | @step s t a _ hp h ih =>
    cases a with
    | acc => exact inv_acc ih (hp.2 rfl) h
    | leave k => exact inv_leave ih h
    | resp k => exact inv_resp ih h
    | term => exact inv_term ih h
    | dis i => exact inv_dis ih h
    | user => exact absurd rfl hp.1

/-- **C113**: when publishers take turns, a connection is given up only after its publisher has left. -/
theorem C113_kept_partial {s t : St} {a : Act} (h : Turns s) (hp : Polite s a) (ht : step s a = some t) (hc : s.connected = true)
    (hd : t.connected = false) : ∃ c, s.socket = some c ∧ s.gone c = true := by
  have hs := inv h
  obtain ⟨c, hc'⟩ := hs.up hc
  refine ⟨c, hc'.socket, ?_⟩
  cases hg : s.gone c with
  | true => rfl
  | false =>
    exfalso
    have key : t.connected = s.connected := by
      cases a with
      | acc =>
        simp only [step, stepAcc] at ht
        split at ht
        · cases ht; rfl
        · cases ht; split <;> rfl
        · cases ht; split <;> rfl
        · split at ht <;> cases ht; rfl
        · cases ht; rfl
        · cases ht; exact hc.symm
        · cases ht; rfl
        · cases ht; rfl
        · cases ht
      | leave k => simp only [step] at ht; split at ht <;> cases ht; rfl
      | resp k =>
        simp only [step, stepR] at ht
        split at ht
        · cases ht
        · cases ht; rfl
        · cases ht; rfl
        · cases ht; rfl
        · cases ht; split <;> rfl
        · cases ht; rfl
        · cases ht; rfl
        · cases ht
      | term => simp only [step, stepTerm, (hc'.well hg).1, if_true] at ht; cases ht
      | dis i =>
        simp only [step, stepD] at ht
        split at ht
        · cases ht
        · split at ht <;> cases ht; rfl
        · cases ht; rfl
        · cases ht; rfl
        · split at ht <;> cases ht; rfl
        · split at ht <;> cases ht; rfl
        · cases ht; rfl
        · cases ht; rfl
        · cases ht
      | user => exact absurd rfl hp.1
    rw [key, hc] at hd
    cases hd

example : ∃ s t, Turns s ∧ Polite s .term ∧ step s .term = some t ∧ s.connected = true ∧ t.connected = false ∧ s.got = [0] ∧ s.refused = [1] :=
  have h : exec two served = some ((exec two served).get rfl) := rfl
  ⟨(exec two served).get rfl, _, turns_two.run rfl h, ⟨by simp, by simp⟩, rfl, rfl, rfl, rfl, rfl⟩

/-- Actions of the subscriber alone: no publisher connects or leaves, nobody disconnects. -/
inductive Own : St → St → Prop where
  | refl {s : St} : Own s s
  | head {s t u : St} {a : Act} : Polite s a → (∀ k, a ≠ .leave k) → (a = .acc → s.acc ≠ .accept) → step s a = some t → Own t u → Own s u

theorem Own.trans {s t u : St} (h : Own s t) (h' : Own t u) : Own s u := by
  induction h with
  | refl => exact h'
  | head hp hl ha hs _ ih => exact .head hp hl ha hs (ih h')

theorem Own.turns {s t : St} (h : Own s t) (hs : Turns s) : Turns t := by
  induction h with
  | refl => exact hs
  | head hp _ _ hst _ ih => exact ih (.step hs hp hst)

theorem Own.one {s t : St} {a : Act} (ha : a ≠ .acc) (hl : ∀ k, a ≠ .leave k) (hu : a ≠ .user) (h : step s a = some t) : Own s t :=
  .head ⟨hu, fun e => absurd e ha⟩ hl (fun e => absurd e ha) h .refl

theorem Own.acc {s t : St} (hn : s.acc ≠ .accept) (hp : ∀ k, s.acc = .test k → s.connected = false → Rest s) (h : step s .acc = some t) : Own s t :=
  .head ⟨by simp, fun _ => hp⟩ (by simp) (fun _ => hn) h .refl

/-! ### What is left of a connection comes to its end -/

/-- How far a response goroutine is from its end. -/
def RPc.toEnd : RPc → Nat
  | .none | .ended => 0
  | .loop => 1
  | .launched | .dispatch => 2
  | .header _ => 3
  | .read => 4

theorem resp_can {s : St} {k : Nat} (hl : (s.r k).live = true) : ∃ t, step s (.resp k) = some t := by
  cases hr : s.r k with
  | none => rw [hr] at hl; cases hl
  | ended => rw [hr] at hl; cases hl
  | launched => simp [step, stepR, hr]
  | loop => simp [step, stepR, hr]
  | read => simp [step, stepR, hr]
  | header c => cases c <;> simp [step, stepR, hr]
  | dispatch => simp [step, stepR, hr]

theorem resp_keeps {s t : St} {k : Nat} (ht : step s (.resp k) = some t) :
    t.connected = s.connected ∧ t.acc = s.acc ∧ t.socket = s.socket ∧ t.gone = s.gone ∧ (s.term = true → t.term = true) ∧ t.served = s.served := by
  cases hr : s.r k with
  | none => simp only [step, stepR, hr] at ht; cases ht
  | ended => simp only [step, stepR, hr] at ht; cases ht
  | launched => simp only [step, stepR, hr] at ht; cases ht; exact ⟨rfl, rfl, rfl, rfl, id, rfl⟩
  | loop => simp only [step, stepR, hr] at ht; cases ht; exact ⟨rfl, rfl, rfl, rfl, id, rfl⟩
  | read => simp only [step, stepR, hr] at ht; cases ht; exact ⟨rfl, rfl, rfl, rfl, id, rfl⟩
  | header c =>
    cases c with
    | none => simp only [step, stepR, hr] at ht; cases ht; exact ⟨rfl, rfl, rfl, rfl, id, rfl⟩
    | some c => simp only [step, stepR, hr] at ht; cases ht; cases s.disconnecting <;> exact ⟨rfl, rfl, rfl, rfl, id, rfl⟩
  | dispatch => simp only [step, stepR, hr] at ht; cases ht; exact ⟨rfl, rfl, rfl, rfl, fun _ => rfl, rfl⟩

theorem resp_down {s t : St} {k : Nat} (hc : s.connected = false) (ht : step s (.resp k) = some t) :
    (t.r k).toEnd < (s.r k).toEnd := by
  cases hr : s.r k with
  | none => simp only [step, stepR, hr] at ht; cases ht
  | ended => simp only [step, stepR, hr] at ht; cases ht
  | launched => simp only [step, stepR, hr] at ht; cases ht; dsimp only; rw [Function.update_self]; decide
  | loop => simp only [step, stepR, hr] at ht; cases ht; dsimp only; rw [Function.update_self, hc]; decide
  | read => simp only [step, stepR, hr] at ht; cases ht; dsimp only; rw [Function.update_self]; exact Nat.lt_succ_self 3
  | header c =>
    cases c with
    | none => simp only [step, stepR, hr] at ht; cases ht; dsimp only; rw [Function.update_self]; cases s.disconnecting <;> decide
    | some c =>
      simp only [step, stepR, hr] at ht; cases ht
      cases s.disconnecting <;> simp [RPc.toEnd]
  | dispatch => simp only [step, stepR, hr] at ht; cases ht; dsimp only; rw [Function.update_self]; decide

theorem resp_ends (n : Nat) {s : St} {k : Nat} (hn : (s.r k).toEnd ≤ n) (hc : s.connected = false) :
    ∃ t, Own s t ∧ t.connected = false ∧ t.acc = s.acc ∧ t.socket = s.socket ∧ (t.r k).live = false := by
  induction n generalizing s with
  | zero =>
    refine ⟨s, .refl, hc, rfl, rfl, ?_⟩
    cases hr : s.r k <;> rw [hr] at hn <;> simp [RPc.toEnd] at hn <;> rfl
  | succ n ih =>
    by_cases hl : (s.r k).live = true
    · obtain ⟨t, ht⟩ := resp_can hl
      have h4 := resp_down hc ht
      obtain ⟨h1, h2, h3, _⟩ := resp_keeps ht
      obtain ⟨u, g1, g2, g3, g4, g5⟩ := ih (s := t) (by omega) (h1.trans hc)
      exact ⟨u, (Own.one (by simp) (by simp) (by simp) ht).trans g1, g2, g3.trans h2, g4.trans h3, g5⟩
    · exact ⟨s, .refl, hc, rfl, rfl, by simpa using hl⟩

/-- All response goroutines end. -/
theorem resps_end {s : St} (h : Turns s) (hc : s.connected = false) :
    ∃ t, Own s t ∧ t.connected = false ∧ t.acc = s.acc ∧ ∀ k, (t.r k).live = false := by
  have quiet : ∀ (u : St) (j k : Nat), Turns u → u.socket = some k → (u.r k).live = false → (u.r j).live = false := by
    intro u j k hu hk hl
    cases hj : (u.r j).live with
    | false => rfl
    | true =>
      have := (inv hu).live j hj
      rw [hk] at this
      cases this
      rw [hl] at hj; cases hj
  cases hk : s.socket with
  | none =>
    refine ⟨s, .refl, hc, rfl, fun k => ?_⟩
    cases hl : (s.r k).live with
    | false => rfl
    | true => have := (inv h).live k hl; rw [hk] at this; cases this
  | some k =>
    obtain ⟨t, g1, g2, g3, g4, g5⟩ := resp_ends (s.r k).toEnd (Nat.le_refl _) (k := k) hc
    exact ⟨t, g1, g2, g3, fun j => quiet t j k (g1.turns h) (g4.trans hk) g5⟩

/-- A termination left over is run. -/
theorem term_done {s : St} (hc : s.connected = false) (hr : ∀ k, (s.r k).live = false) :
    ∃ t, Own s t ∧ t.connected = false ∧ t.acc = s.acc ∧ t.term = false ∧ ∀ k, (t.r k).live = false := by
  cases hT : s.term with
  | false => exact ⟨s, .refl, hc, rfl, hT, hr⟩
  | true =>
    obtain ⟨t, ht⟩ : ∃ t, step s .term = some t := by
      simp only [step, stepTerm, hT]
      cases s.disconnecting <;> simp
    refine ⟨t, .one (by simp) (by simp) (by simp) ht, ?_⟩
    cases hd : s.disconnecting with
    | true => simp [step, stepTerm, hT, hd] at ht; cases ht; exact ⟨hc, rfl, rfl, hr⟩
    | false => simp [step, stepTerm, hT, hd] at ht; cases ht; exact ⟨rfl, rfl, rfl, hr⟩

/-- How far a disconnect thread is from its end. -/
def DPc.toEnd : DPc → Nat
  | .closeC => 4
  | .joinR => 3
  | .callback => 2
  | .clear => 1
  | _ => 0

/-- The disconnect thread ends. -/
theorem dis_done (n : Nat) {s : St} {i : Nat} (hn : (s.d i).toEnd ≤ n) (h : Turns s) (hi : (s.d i).active = true) (hc : s.connected = false)
    (hT : s.term = false) (hr : ∀ k, (s.r k).live = false) : ∃ t, Own s t ∧ t.acc = s.acc ∧ Rest t := by
  induction n generalizing s with
  | zero =>
    exfalso
    obtain ⟨_, _, h1, h2, h3⟩ := (inv h).act i hi
    cases hd : s.d i <;> rw [hd] at hn hi h1 h2 h3 <;> simp [DPc.toEnd, DPc.active] at *
  | succ n ih =>
    obtain ⟨_, _, h1, h2, h3⟩ := (inv h).act i hi
    have hu := (inv h).user i
    have go : ∀ t : St, step s (.dis i) = some t → (t.d i).toEnd ≤ n → (t.d i).active = true → t.connected = s.connected → t.term = s.term →
        t.r = s.r → t.acc = s.acc → ∃ t, Own s t ∧ t.acc = s.acc ∧ Rest t := by
      intro t ht e1 e2 e3 e4 e5 e6
      have o : Own s t := .one (by simp) (by simp) (by simp) ht
      obtain ⟨u, g1, g2, g3⟩ := ih e1 (o.turns h) e2 (e3.trans hc) (e4.trans hT) (by rw [e5]; exact hr)
      exact ⟨u, o.trans g1, g2.trans e6, g3⟩
    cases hd : s.d i with
    | idle => rw [hd] at hi; cases hi
    | ended => rw [hd] at hi; cases hi
    | lock => exact absurd hd h1
    | closeL => exact absurd hd h2
    | joinA => exact absurd hd h3
    | closeC =>
      rw [hd] at hn
      refine go { s with d := update s.d i .joinR, closed := s.hangUp } (by simp [step, stepD, hd, hu]) ?_ ?_ rfl rfl rfl rfl
      · dsimp only; rw [Function.update_self]; simp only [DPc.toEnd] at hn ⊢; omega
      · dsimp only; rw [Function.update_self]; rfl
    | joinR =>
      rw [hd] at hn
      have hj : s.joined = true := by
        unfold St.joined
        cases ht : s.thread with
        | none => rfl
        | some k => have := hr k; dsimp only; cases hk : s.r k <;> rw [hk] at this <;> first | rfl | cases this
      refine go { s with d := update s.d i .callback, thread := none } (by simp [step, stepD, hd, hj]) ?_ ?_ rfl rfl rfl rfl
      · dsimp only; rw [Function.update_self]; simp only [DPc.toEnd] at hn ⊢; omega
      · dsimp only; rw [Function.update_self]; rfl
    | callback =>
      rw [hd] at hn
      refine go { s with d := update s.d i .clear } (by simp [step, stepD, hd]) ?_ ?_ rfl rfl rfl rfl
      · dsimp only; rw [Function.update_self]; simp only [DPc.toEnd] at hn ⊢; omega
      · dsimp only; rw [Function.update_self]; rfl
    | clear =>
      have ht : step s (.dis i) = some { s with d := update s.d i .ended, disconnecting := false } := by simp [step, stepD, hd, hu]
      exact ⟨_, .one (by simp) (by simp) (by simp) ht, rfl, ⟨hc, rfl, hT, hr⟩⟩

/-- What is left of a connection is dealt with. -/
theorem rests {s : St} (h : Turns s) (hc : s.connected = false) : ∃ t, Own s t ∧ t.acc = s.acc ∧ Rest t := by
  obtain ⟨t, o, c, a, r⟩ := resps_end h hc
  obtain ⟨t', o', c', a', T', r'⟩ := term_done c r
  have o1 := o.trans o'
  cases hd : t'.disconnecting with
  | false => exact ⟨t', o1, a'.trans a, c', hd, T', r'⟩
  | true =>
    obtain ⟨i, hi⟩ := (inv (o1.turns h)).disc hd
    obtain ⟨u, g1, g2, g3⟩ := dis_done _ (Nat.le_refl _) (o1.turns h) hi c' T' r'
    exact ⟨u, o1.trans g1, g2.trans (a'.trans a), g3⟩

/-! ### What is to be done comes to be done -/

/-- The publisher of connection `c` is served: it is there, its connection is open, and the response goroutine reads its packets. -/
structure Serving (s : St) (c : Nat) : Prop where
  connected : s.connected = true
  disconnecting : s.disconnecting = false
  socket : s.socket = some c
  stream : s.stream = some c
  here : s.gone c = false
  opened : s.closed c = false
  reading : s.r c = .read

theorem reading {s : St} {c : Nat} (hs : Inv s) (hc : s.connected = true) (hn : ∀ k, s.acc ≠ .start k) (hu : Up s c) (hg : s.gone c = false)
    (hr : s.r c = .read) : Serving s c := by
  refine ⟨hc, ?_, hu.socket, ?_, hg, hu.closed, hr⟩
  · cases hd : s.disconnecting with
    | false => rfl
    | true => rw [hs.stop hd] at hc; cases hc
  · rcases hu.stream with h | h | h
    · rw [hr] at h; cases h
    · exact absurd h (hn c)
    · exact h

/-- How far a response goroutine is from reading. -/
def RPc.toRead : RPc → Nat
  | .read => 0
  | .loop => 1
  | _ => 2

/-- The response goroutine of a publisher that is there comes to read. -/
theorem reads (n : Nat) {s : St} {c : Nat} (hn : (s.r c).toRead ≤ n) (h : Turns s) (hc : s.connected = true) (ha : ∀ k, s.acc ≠ .start k)
    (hk : s.socket = some c) (hg : s.gone c = false) : ∃ t, Own s t ∧ t.acc = s.acc ∧ t.served = s.served ∧ Serving t c := by
  induction n generalizing s with
  | zero =>
    obtain ⟨c', hu⟩ := (inv h).up hc
    have : c' = c := by have := hu.socket; rw [hk] at this; cases this; rfl
    subst this
    refine ⟨s, .refl, rfl, rfl, reading (inv h) hc ha hu hg ?_⟩
    cases hq : s.r c' <;> rw [hq] at hn <;> simp [RPc.toRead] at hn
  | succ n ih =>
    obtain ⟨c', hu⟩ := (inv h).up hc
    have : c' = c := by have := hu.socket; rw [hk] at this; cases this; rfl
    subst this
    have hw := hu.well hg
    have hl := hu.there.resolve_right (ha _)
    by_cases hr : s.r c' = .read
    · exact ⟨s, .refl, rfl, rfl, reading (inv h) hc ha hu hg hr⟩
    · obtain ⟨t, ht⟩ := resp_can hl
      obtain ⟨k1, k2, k3, k4, k5, k6⟩ := resp_keeps ht
      have o : Own s t := .one (by simp) (by simp) (by simp) ht
      have hn' : (t.r c').toRead ≤ n := by
        cases hq : s.r c' with
        | none => rw [hq] at hl; cases hl
        | ended => rw [hq] at hl; cases hl
        | launched => rw [hq] at hn; simp only [step, stepR, hq] at ht; cases ht; dsimp only; rw [Function.update_self]; simp only [RPc.toRead] at hn ⊢; omega
        | loop => simp only [step, stepR, hq] at ht; cases ht; dsimp only; rw [Function.update_self, hc, if_pos rfl]; exact Nat.zero_le _
        | read => exact absurd hq hr
        | header x =>
          cases x with
          | none => exact absurd hq hw.2.1
          | some x =>
            rw [hq] at hn
            simp only [step, stepR, hq] at ht; cases ht
            have : (if s.disconnecting = true then { s with r := update s.r c' RPc.loop }
              else { s with r := update s.r c' RPc.loop, got := s.got ++ [x] }).r c' = .loop := by
              cases s.disconnecting <;> simp
            rw [this]; simp only [RPc.toRead] at hn ⊢; omega
        | dispatch => exact absurd hq hw.2.2
      obtain ⟨u, g1, g2, g3, g4⟩ := ih hn' (o.turns h) (k1.trans hc) (by rw [k2]; exact ha) (k3.trans hk) (by rw [k4]; exact hg)
      exact ⟨u, o.trans g1, g2.trans k2, g3.trans k6, g4⟩

/-- How far a response goroutine is from noticing that the publisher has left. -/
def RPc.toNotice : RPc → Nat
  | .dispatch => 1
  | .header Option.none => 2
  | .read => 3
  | .loop => 4
  | _ => 5

/-- That the publisher has left is noticed. -/
theorem notices (n : Nat) {s : St} {c : Nat} (hn : (s.r c).toNotice ≤ n) (h : Turns s) (hc : s.connected = true) (ha : ∀ k, s.acc ≠ .start k)
    (hk : s.socket = some c) (hg : s.gone c = true) : ∃ t, Own s t ∧ t.acc = s.acc ∧ t.connected = false := by
  induction n generalizing s with
  | zero => exfalso; cases hq : s.r c with
    | header x => cases x <;> rw [hq] at hn <;> simp [RPc.toNotice] at hn
    | _ => rw [hq] at hn; simp [RPc.toNotice] at hn
  | succ n ih =>
    have hd : s.disconnecting = false := by
      cases hd : s.disconnecting with
      | false => rfl
      | true => rw [(inv h).stop hd] at hc; cases hc
    by_cases hT : s.term = true
    · obtain ⟨t, ht⟩ : ∃ t, step s .term = some t := by simp [step, stepTerm, hT, hd]
      refine ⟨t, .one (by simp) (by simp) (by simp) ht, ?_⟩
      simp [step, stepTerm, hT, hd] at ht
      cases ht
      exact ⟨rfl, rfl⟩
    · obtain ⟨c', hu⟩ := (inv h).up hc
      have : c' = c := by have := hu.socket; rw [hk] at this; cases this; rfl
      subst this
      have hl := hu.there.resolve_right (ha _)
      obtain ⟨t, ht⟩ := resp_can hl
      obtain ⟨k1, k2, k3, k4, k5, k6⟩ := resp_keeps ht
      have o : Own s t := .one (by simp) (by simp) (by simp) ht
      by_cases hq : s.r c' = .dispatch
      · simp only [step, stepR, hq] at ht
        cases ht
        refine ⟨{ s with term := false, disconnecting := true, connected := false, r := update s.r c' .loop, d := update s.d s.nd .closeC, nd := s.nd + 1 },
          o.trans (.one (a := .term) (by simp) (by simp) (by simp) ?_), rfl, rfl⟩
        simp [step, stepTerm, hd]
      · have hn' : (t.r c').toNotice ≤ n := by
          cases hq' : s.r c' with
          | none => rw [hq'] at hl; cases hl
          | ended => rw [hq'] at hl; cases hl
          | launched => rw [hq'] at hn; simp only [step, stepR, hq'] at ht; cases ht; dsimp only; rw [Function.update_self]; simp only [RPc.toNotice] at hn ⊢; omega
          | loop =>
            rw [hq'] at hn; simp only [step, stepR, hq'] at ht; cases ht; dsimp only; rw [Function.update_self, hc, if_pos rfl]
            simp only [RPc.toNotice] at hn ⊢; omega
          | read =>
            rw [hq'] at hn; simp only [step, stepR, hq'] at ht; cases ht; dsimp only; rw [Function.update_self]
            have : s.readable = none := by
              unfold St.readable
              rcases hu.stream with h | h | h
              · rw [hq'] at h; cases h
              · exact absurd h (ha _)
              · rw [h]; simp [hg]
            rw [this]; simp only [RPc.toNotice] at hn ⊢; omega
          | header x =>
            cases x with
            | none =>
              rw [hq'] at hn; simp only [step, stepR, hq'] at ht; cases ht; dsimp only; rw [Function.update_self, hd, if_neg (by simp)]
              simp only [RPc.toNotice] at hn ⊢; omega
            | some x =>
              rw [hq'] at hn
              simp only [step, stepR, hq'] at ht; cases ht
              have : (if s.disconnecting = true then { s with r := update s.r c' RPc.loop }
                else { s with r := update s.r c' RPc.loop, got := s.got ++ [x] }).r c' = .loop := by
                cases s.disconnecting <;> simp
              rw [this]; simp only [RPc.toNotice] at hn ⊢; omega
          | dispatch => exact absurd hq' hq
        obtain ⟨u, g1, g2, g3⟩ := ih hn' (o.turns h) (k1.trans hc) (by rw [k2]; exact ha) (k3.trans hk) (by rw [k4]; exact hg)
        exact ⟨u, o.trans g1, g2.trans k2, g3⟩

/-- The accept thread finishes setting up a connection. -/
theorem unlocks {s : St} (hq : s.acc = .unlock) : ∃ t, Own s t ∧ t.acc = .loop ∧ t.connected = s.connected ∧ t.socket = s.socket ∧
    t.gone = s.gone ∧ t.served = s.served :=
  ⟨{ s with acc := .loop, action := none }, .acc (by simp [hq]) (by simp [hq]) (by simp [step, stepAcc, hq]), rfl, rfl, rfl, rfl, rfl⟩

theorem starts {s : St} {k : Nat} (hq : s.acc = .start k) : ∃ t, Own s t ∧ t.acc = .loop ∧ t.connected = s.connected ∧ t.socket = s.socket ∧
    t.gone = s.gone ∧ t.served = s.served := by
  obtain ⟨t, g1, g2, g3, g4, g5, g6⟩ := unlocks (s := { s with acc := .unlock, r := update s.r k .launched }) rfl
  exact ⟨t, (Own.acc (by simp [hq]) (by simp [hq]) (by simp [step, stepAcc, hq])).trans g1, g2, g3, g4, g5, g6⟩

theorem sets {s : St} {k : Nat} (hq : s.acc = .set k) : ∃ t, Own s t ∧ t.acc = .loop ∧ t.connected = true ∧ t.socket = s.socket ∧
    t.gone = s.gone ∧ t.served = s.served := by
  obtain ⟨t, g1, g2, g3, g4, g5, g6⟩ := starts (s := { s with acc := .start k, connected := true }) rfl
  exact ⟨t, (Own.acc (by simp [hq]) (by simp [hq]) (by simp [step, stepAcc, hq])).trans g1, g2, g3, g4, g5, g6⟩

theorem assigns {s : St} {k : Nat} (hq : s.acc = .assign k) : ∃ t, Own s t ∧ t.acc = .loop ∧ t.connected = true ∧ t.socket = some k ∧
    t.gone = s.gone ∧ t.served = s.served ++ [k] := by
  obtain ⟨t, g1, g2, g3, g4, g5, g6⟩ := sets (s := { s with acc := .set k, socket := some k, thread := some k, served := s.served ++ [k] }) rfl
  exact ⟨t, (Own.acc (by simp [hq]) (by simp [hq]) (by simp [step, stepAcc, hq])).trans g1, g2, g3, g4, g5, g6⟩

theorem locks {s : St} {k : Nat} (hq : s.acc = .lock k) (ha : s.action = none) : ∃ t, Own s t ∧ t.acc = .loop ∧ t.connected = true ∧
    t.socket = some k ∧ t.gone = s.gone ∧ t.served = s.served ++ [k] := by
  obtain ⟨t, g1, g2, g3, g4, g5, g6⟩ := assigns (s := { s with acc := .assign k, action := some .acceptor }) rfl
  exact ⟨t, (Own.acc (by simp [hq]) (by simp [hq]) (by simp [step, stepAcc, hq, ha])).trans g1, g2, g3, g4, g5, g6⟩

/-- A publisher that has connected when nothing is left to be done is served. -/
theorem tests {s : St} {k : Nat} (hq : s.acc = .test k) (ha : s.action = none) (hr : Rest s) : ∃ t, Own s t ∧ t.acc = .loop ∧ t.connected = true ∧
    t.socket = some k ∧ t.gone = s.gone ∧ t.served = s.served ++ [k] := by
  obtain ⟨t, g1, g2, g3, g4, g5, g6⟩ := locks (s := { s with acc := .lock k }) rfl ha
  exact ⟨t, (Own.acc (by simp [hq]) (fun _ _ _ => hr) (by simp [step, stepAcc, hq, hr.connected])).trans g1, g2, g3, g4, g5, g6⟩

/-- A publisher is served, or nothing is left to be done; and the next publisher is waited for. -/
def Settled (s : St) : Prop := s.acc = .accept ∧ (Rest s ∨ ∃ c, Serving s c)

theorem settles_accept {s : St} (h : Turns s) (hq : s.acc = .accept) : ∃ t, Own s t ∧ Settled t := by
  cases hc : s.connected with
  | false =>
    obtain ⟨t, g1, g2, g3⟩ := rests h hc
    exact ⟨t, g1, g2.trans hq, .inl g3⟩
  | true =>
    obtain ⟨c, hu⟩ := (inv h).up hc
    have ha : ∀ k, s.acc ≠ .start k := by rw [hq]; simp
    cases hg : s.gone c with
    | false =>
      obtain ⟨t, g1, g2, _, g3⟩ := reads _ (Nat.le_refl _) h hc ha hu.socket hg
      exact ⟨t, g1, g2.trans hq, .inr ⟨c, g3⟩⟩
    | true =>
      obtain ⟨t, g1, g2, g3⟩ := notices _ (Nat.le_refl _) h hc ha hu.socket hg
      obtain ⟨u, k1, k2, k3⟩ := rests (g1.turns h) g3
      exact ⟨u, g1.trans k1, k2.trans (g2.trans hq), .inl k3⟩

theorem settles_loop {s : St} (h : Turns s) (hq : s.acc = .loop) : ∃ t, Own s t ∧ Settled t := by
  have o : Own s { s with acc := .accept } := .acc (by simp [hq]) (by simp [hq]) (by simp [step, stepAcc, hq, (inv h).listening])
  obtain ⟨t, g1, g2⟩ := settles_accept (o.turns h) rfl
  exact ⟨t, o.trans g1, g2⟩

/-- **C113**: when publishers take turns, the subscriber by itself always can get to where a publisher is served or the next one would be. -/
theorem C113_settles_partial {s : St} (h : Turns s) : ∃ t, Own s t ∧ Turns t ∧ t.acc = .accept ∧ (Rest t ∨ ∃ c, Serving t c) := by
  suffices ∃ t, Own s t ∧ Settled t by
    obtain ⟨t, g1, g2⟩ := this
    exact ⟨t, g1, g1.turns h, g2⟩
  have thenLoop : ∀ {t : St}, Own s t → t.acc = .loop → ∃ t, Own s t ∧ Settled t := by
    intro t o ht
    obtain ⟨u, g1, g2⟩ := settles_loop (o.turns h) ht
    exact ⟨u, o.trans g1, g2⟩
  cases hq : s.acc with
  | loop => exact settles_loop h hq
  | accept => exact settles_accept h hq
  | test k =>
    cases hc : s.connected with
    | true =>
      refine thenLoop (t := { s with acc := .loop, closed := update s.closed k true, refused := s.refused ++ [k] }) (.acc (by simp [hq]) ?_ ?_) rfl
      · intro _ _ e; rw [hc] at e; cases e
      · simp [step, stepAcc, hq, hc]
    | false =>
      obtain ⟨t, g1, g2, g3⟩ := rests h hc
      obtain ⟨u, k1, k2, _⟩ := tests (g2.trans hq) ((inv (g1.turns h)).own (by rw [g2, hq]; rfl)) g3
      exact thenLoop (g1.trans k1) k2
  | lock k => obtain ⟨t, g1, g2, _⟩ := locks hq ((inv h).own (by rw [hq]; rfl)); exact thenLoop g1 g2
  | assign k => obtain ⟨t, g1, g2, _⟩ := assigns hq; exact thenLoop g1 g2
  | set k => obtain ⟨t, g1, g2, _⟩ := sets hq; exact thenLoop g1 g2
  | start k => obtain ⟨t, g1, g2, _⟩ := starts hq; exact thenLoop g1 g2
  | unlock => obtain ⟨t, g1, g2, _⟩ := unlocks hq; exact thenLoop g1 g2
  | ended => exact absurd hq (inv h).acc

/-- A publisher that has not connected has not left. -/
theorem gone_next {s : St} (h : Turns s) : ∀ k, s.next ≤ k → s.gone k = false := by
  induction h with
  | init => intros; rfl
  | @step s t a _ _ ht ih =>
    have key : ∀ u : St, u.gone = s.gone → s.next ≤ u.next → ∀ k, u.next ≤ k → u.gone k = false := by
      intro u e1 e2 k hk
      rw [e1]; exact ih k (Nat.le_trans e2 hk)
    cases a with
    | acc =>
      simp only [step, stepAcc] at ht
      split at ht
      · cases ht; exact key _ rfl (Nat.le_refl _)
      · cases ht; split
        · exact key _ rfl (Nat.le_succ _)
        · exact key _ rfl (Nat.le_refl _)
      · cases ht; split <;> exact key _ rfl (Nat.le_refl _)
      · split at ht <;> cases ht; exact key _ rfl (Nat.le_refl _)
      · cases ht; exact key _ rfl (Nat.le_refl _)
      · cases ht; exact key _ rfl (Nat.le_refl _)
      · cases ht; exact key _ rfl (Nat.le_refl _)
      · cases ht; exact key _ rfl (Nat.le_refl _)
      · cases ht
    | leave k =>
      simp only [step] at ht
      split at ht <;> cases ht
      next hk =>
        intro j hj
        dsimp only at hj ⊢
        rw [Function.update_of_ne (by omega)]
        exact ih j hj
    | resp k =>
      have := resp_keeps ht
      refine key t this.2.2.2.1 ?_
      simp only [step, stepR] at ht
      split at ht
      · cases ht
      · cases ht; exact Nat.le_refl _
      · cases ht; exact Nat.le_refl _
      · cases ht; exact Nat.le_refl _
      · cases ht; split <;> exact Nat.le_refl _
      · cases ht; exact Nat.le_refl _
      · cases ht; exact Nat.le_refl _
      · cases ht
    | term =>
      simp only [step, stepTerm] at ht
      split at ht
      · cases ht
      · split at ht <;> cases ht <;> exact key _ rfl (Nat.le_refl _)
    | dis i =>
      simp only [step, stepD] at ht
      split at ht
      · cases ht
      · split at ht <;> cases ht; exact key _ rfl (Nat.le_refl _)
      · cases ht; exact key _ rfl (Nat.le_refl _)
      · cases ht; exact key _ rfl (Nat.le_refl _)
      · split at ht <;> cases ht; exact key _ rfl (Nat.le_refl _)
      · split at ht <;> cases ht; exact key _ rfl (Nat.le_refl _)
      · cases ht; exact key _ rfl (Nat.le_refl _)
      · cases ht; exact key _ rfl (Nat.le_refl _)
      · cases ht
    | user =>
      simp only [step, stepUser] at ht
      split at ht <;> cases ht <;> exact key _ rfl (Nat.le_refl _)

/-- **C113**: the publisher that connects when nothing of an earlier connection is left to be done comes to be served, and nobody else does meanwhile. -/
theorem C113_next_partial {s t : St} (h : Turns s) (hq : s.acc = .accept) (hr : Rest s) (ht : step s .acc = some t) :
    ∃ u, Own t u ∧ u.acc = .loop ∧ Serving u s.next ∧ u.served = s.served ++ [s.next] := by
  have hp : Polite s .acc := ⟨by simp, fun _ k e => by rw [hq] at e; cases e⟩
  have hT : Turns t := .step h hp ht
  have hg := gone_next h s.next (Nat.le_refl _)
  have e : step s .acc = some { s with acc := .test s.next, next := s.next + 1 } := by simp [step, stepAcc, hq, (inv h).listenOpen]
  rw [e] at ht
  cases ht
  obtain ⟨u, g1, g2, g3, g4, g5, g6⟩ := tests (s := { s with acc := .test s.next, next := s.next + 1 }) rfl ((inv h).own (by rw [hq]; rfl))
    ⟨hr.1, hr.2, hr.3, hr.4⟩
  obtain ⟨v, k1, k2, k3, k4⟩ := reads _ (Nat.le_refl _) (g1.turns hT) g3 (by rw [g2]; simp) g4 (by rw [g5]; exact hg)
  exact ⟨v, g1.trans k1, k2.trans g2, k4, k3.trans g6⟩

/-- **C113**: what a publisher that is served sends is processed. -/
theorem C113_processed {s : St} {c : Nat} (h : Serving s c) : ∃ t u, step s (.resp c) = some t ∧ step t (.resp c) = some u ∧ u.got = s.got ++ [c] := by
  have hr : s.readable = some c := by unfold St.readable; rw [h.stream]; simp [h.here, h.opened]
  refine ⟨{ s with r := update s.r c (.header (some c)) }, { s with r := update (update s.r c (.header (some c))) c .loop, got := s.got ++ [c] }, ?_, ?_, rfl⟩
  · simp [step, stepR, h.reading, hr]
  · simp [step, stepR, h.disconnecting]

/-- The first publisher has been served and has left, and what was left has been dealt with. -/
def after : List Act := served ++ [.acc, .term, .resp 0, .dis 0, .dis 0, .dis 0, .dis 0]

/-- A second publisher is served after the first. -/
example : ∃ s t, Turns s ∧ s.acc = .accept ∧ Rest s ∧ s.served = [0] ∧ s.refused = [1] ∧ step s .acc = some t ∧ ∃ u, Own t u ∧ Serving u 2 ∧
    u.served = [0, 2] := by
  have h : exec two after = some ((exec two after).get rfl) := rfl
  have hT := turns_two.run rfl h
  have hq : ((exec two after).get rfl).acc = .accept := rfl
  have hr : Rest ((exec two after).get rfl) := by
    refine ⟨rfl, rfl, rfl, fun k => ?_⟩
    cases hl : (((exec two after).get rfl).r k).live with
    | false => rfl
    | true =>
      have := (inv hT).live k hl
      have e : k = 0 := by
        have e' : ((exec two after).get rfl).socket = some 0 := rfl
        rw [e'] at this; cases this; rfl
      subst e; cases hl
  obtain ⟨u, g1, _, g3, g4⟩ := C113_next_partial hT hq hr rfl
  exact ⟨_, _, hT, hq, hr, rfl, rfl, rfl, u, g1, g3, g4⟩

end Verif.Sync.Listen
