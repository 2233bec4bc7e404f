import Verif.Sync.Close

/-!
# C117: closing ends the connection

`Close` after `Dial` has returned, while the publisher stays, ends the connection (`C117_ends_partial`); once the application has been told, nothing is
handed to it any more (`C117_nothing_after_partial`). The claim without these provisos is false: `C117_late_false`, `C117_crash_false`, `C117_race_false`,
`C117_unseen_false`.
-/

namespace Verif.Sync.Close

open Function (update)

/-- A disconnect thread is past joining the response goroutine (DataSubscriber.go L684-686). -/
def DPc.past : DPc → Bool
  | .forget | .callback | .mark | .clear | .unlock | .ended => true
  | _ => false

/-- The response goroutine will hand nothing over when the subscriber is not connected. -/
def RPc.spent : RPc → Bool
  | .none | .launched | .loop | .ended => true
  | _ => false

theorem quiet_spent {r : RPc} (h : r.quiet = true) : r.spent = true := by
  cases r <;> simp_all [RPc.quiet, RPc.spent]

/-- `Dial` has started the response goroutine, if it ever will. -/
def NPc.last : NPc → Bool
  | .unlock | .over => true
  | _ => false

/-- What holds at every moment, when `Close` is called after `Dial` has returned. -/
structure Inv (s : St) : Prop where
  /-- nothing happens before there is a connection -/
  early : s.n.last = false → s.r = .none
  term : s.t ≠ .idle → s.n.last = true
  close : s.c ≠ .idle → s.n = .over
  /-- the flag is off once a disconnect has switched it off -/
  offT : s.t = .start → s.connected = false
  offC : s.c = .start → s.connected = false
  offD : ∀ k, s.d k ≠ .idle → s.connected = false ∧ s.n.last = true
  none : s.n.last = true → s.ptr = false → s.r ≠ .none → s.connected = false ∧ s.r.spent = true
  past : ∀ k, (s.d k).past = true → s.connected = false ∧ s.r.spent = true
  ptr : s.n = .start → s.ptr = true
  fresh : ∀ k, s.nd ≤ k → s.d k = .idle

theorem inv_init : Inv init := by
  constructor <;> simp [init, NPc.last, DPc.past]

/-- `Close` is called only when `Dial` has returned. -/
def Proper (s : St) (a : Act) : Prop := a = .close → s.c = .idle → s.n = .over

theorem inv_dial {s t : St} {ok : Bool} (hi : Inv s) (h : stepDial s ok = some t) : Inv t := by
  obtain ⟨h1, h2, h3, h4, h5, h6, h7, h8, h9, h10⟩ := hi
  unfold stepDial at h
  split at h <;> (try split at h) <;> cases h <;> rename_i hn <;> constructor <;> grind [NPc.last, RPc.spent, DPc.past]

theorem inv_resp {s t : St} (hi : Inv s) (h : stepResp s = some t) : Inv t := by
  obtain ⟨h1, h2, h3, h4, h5, h6, h7, h8, h9, h10⟩ := hi
  unfold stepResp at h
  split at h <;> (try split at h) <;> cases h <;> constructor <;> grind [NPc.last, RPc.spent, DPc.past]

theorem inv_term {s t : St} (hi : Inv s) (h : stepTerm s = some t) : Inv t := by
  obtain ⟨h1, h2, h3, h4, h5, h6, h7, h8, h9, h10⟩ := hi
  unfold stepTerm at h
  split at h <;> cases h <;> constructor <;> (try simp only [St.spawn, Function.update_apply]) <;> grind [NPc.last, RPc.spent, DPc.past]

theorem inv_dis {s t : St} {k : Nat} (hi : Inv s) (h : stepDis s k = some t) : Inv t := by
  obtain ⟨h1, h2, h3, h4, h5, h6, h7, h8, h9, h10⟩ := hi
  unfold stepDis at h
  split at h <;> (try split at h) <;> cases h <;> constructor <;> (try simp only [Function.update_apply]) <;>
    grind [NPc.last, RPc.spent, DPc.past, quiet_spent]

theorem inv_close {s t : St} (hi : Inv s) (hp : s.c = .idle → s.n = .over) (h : stepClose s = some t) : Inv t := by
  obtain ⟨h1, h2, h3, h4, h5, h6, h7, h8, h9, h10⟩ := hi
  unfold stepClose at h
  split at h <;> (try split at h) <;> cases h <;> constructor <;> (try simp only [St.spawn, Function.update_apply]) <;> grind [NPc.last, RPc.spent, DPc.past]

theorem inv_step {s t : St} {a : Act} (hi : Inv s) (hp : Proper s a) (h : step s a = some t) : Inv t := by
  unfold step at h
  split at h
  · cases h
  · cases a with
    | dial ok => exact inv_dial hi h
    | resp => exact inv_resp hi h
    | term => exact inv_term hi h
    | dis k => exact inv_dis hi h
    | close => exact inv_close hi (hp rfl) h
    | leave => cases h; exact ⟨hi.1, hi.2, hi.3, hi.4, hi.5, hi.6, hi.7, hi.8, hi.9, hi.10⟩

/-- `Close` is called only when `Dial` has returned, throughout a schedule. -/
def ProperAll (s : St) : List Act → Prop
  | [] => True
  | a :: as => Proper s a ∧ ∀ t ∈ step s a, ProperAll t as

instance (s : St) (a : Act) : Decidable (Proper s a) := by unfold Proper; infer_instance

instance decProperAll : (s : St) → (as : List Act) → Decidable (ProperAll s as)
  | _, [] => .isTrue trivial
  | s, a :: as =>
    have := fun t => decProperAll t as
    inferInstanceAs (Decidable (Proper s a ∧ ∀ t ∈ step s a, ProperAll t as))

theorem inv_exec {s t : St} {as : List Act} (hi : Inv s) (hp : ProperAll s as) (h : exec s as = some t) : Inv t := by
  induction as generalizing s with
  | nil => cases h; exact hi
  | cons a as ih =>
    simp only [exec] at h
    obtain ⟨u, hu, h⟩ := Option.bind_eq_some_iff.mp h
    exact ih (inv_step hi hp.1 hu) (hp.2 u hu) h

theorem fresh_step {s t : St} {a : Act} (hi : ∀ k, s.nd ≤ k → s.d k = .idle) (h : step s a = some t) : ∀ k, t.nd ≤ k → t.d k = .idle := by
  unfold step at h
  split at h
  · cases h
  · cases a with
    | dial ok => simp only [stepDial] at h; split at h <;> (try split at h) <;> cases h <;> first | exact hi | (split <;> exact hi)
    | resp => simp only [stepResp] at h; split at h <;> (try split at h) <;> cases h <;> exact hi
    | term => simp only [stepTerm] at h; split at h <;> cases h <;> intro k hk <;> (try simp only [St.spawn, Function.update_apply] at *) <;> grind
    | dis k =>
      simp only [stepDis] at h
      split at h <;> (try split at h) <;> cases h <;> intro j hj <;> (try simp only [Function.update_apply] at *) <;> grind
    | close =>
      simp only [stepClose] at h
      split at h <;> (try split at h) <;> cases h <;> intro k hk <;> (try simp only [St.spawn, Function.update_apply] at *) <;> grind
    | leave => cases h; exact hi

theorem fresh_exec {s t : St} {as : List Act} (hi : ∀ k, s.nd ≤ k → s.d k = .idle) (h : exec s as = some t) : ∀ k, t.nd ≤ k → t.d k = .idle := by
  induction as generalizing s with
  | nil => cases h; exact hi
  | cons a as ih =>
    simp only [exec] at h
    obtain ⟨u, hu, h⟩ := Option.bind_eq_some_iff.mp h
    exact ih (fresh_step hi hu) h

/-- Nothing can be handed over any more. -/
structure Dead (s : St) : Prop where
  off : s.connected = false
  last : s.n.last = true
  spent : s.r.spent = true

theorem dead_step {s t : St} {a : Act} (hi : Dead s) (h : step s a = some t) : Dead t ∧ t.delivered = s.delivered := by
  obtain ⟨h1, h2, h3⟩ := hi
  unfold step at h
  split at h
  · cases h
  · cases a with
    | dial ok =>
      simp only [stepDial] at h
      split at h <;> (try split at h) <;> cases h <;> refine ⟨⟨?_, ?_, ?_⟩, ?_⟩ <;> grind [NPc.last]
    | resp =>
      simp only [stepResp] at h
      split at h <;> (try split at h) <;> cases h <;> refine ⟨⟨?_, ?_, ?_⟩, ?_⟩ <;> grind [RPc.spent]
    | term =>
      simp only [stepTerm] at h
      split at h <;> cases h <;> refine ⟨⟨?_, ?_, ?_⟩, ?_⟩ <;> grind [St.spawn]
    | dis k =>
      simp only [stepDis] at h
      split at h <;> (try split at h) <;> cases h <;> refine ⟨⟨?_, ?_, ?_⟩, ?_⟩ <;> grind
    | close =>
      simp only [stepClose] at h
      split at h <;> (try split at h) <;> cases h <;> refine ⟨⟨?_, ?_, ?_⟩, ?_⟩ <;> grind [St.spawn]
    | leave => cases h; exact ⟨⟨h1, h2, h3⟩, rfl⟩

theorem dead_exec {s t : St} {as : List Act} (hi : Dead s) (h : exec s as = some t) : t.delivered = s.delivered := by
  induction as generalizing s with
  | nil => cases h; rfl
  | cons a as ih =>
    simp only [exec] at h
    obtain ⟨u, hu, h⟩ := Option.bind_eq_some_iff.mp h
    rw [ih (dead_step hi hu).1 h, (dead_step hi hu).2]

/-- A disconnect thread calls `ConnectionTerminatedCallback` only past the join. -/
def Told (s : St) : Prop := ∀ k ∈ s.called, (s.d k).past = true

theorem told_step {s t : St} {a : Act} (hi : Told s) (hf : ∀ k, s.nd ≤ k → s.d k = .idle) (h : step s a = some t) : Told t := by
  unfold step at h
  split at h
  · cases h
  · cases a with
    | dial ok =>
      simp only [stepDial] at h
      split at h <;> (try split at h) <;> cases h <;> first | exact hi | (split <;> exact hi)
    | resp =>
      simp only [stepResp] at h
      split at h <;> (try split at h) <;> cases h <;> exact hi
    | term =>
      simp only [stepTerm] at h
      split at h <;> cases h <;> intro k hk <;> have := hi k hk <;>
        (try simp only [St.spawn, Function.update_apply]) <;> grind [DPc.past]
    | dis k =>
      simp only [stepDis] at h
      split at h <;> (try split at h) <;> cases h <;> intro j hj <;> have := hi j <;>
        (try simp only [Function.update_apply]) <;> grind [DPc.past]
    | close =>
      simp only [stepClose] at h
      split at h <;> (try split at h) <;> cases h <;> intro k hk <;> have := hi k hk <;>
        (try simp only [St.spawn, Function.update_apply]) <;> grind [DPc.past]
    | leave => cases h; exact hi

theorem told_exec {s t : St} {as : List Act} (hi : Inv s) (hc : Told s) (hp : ProperAll s as) (h : exec s as = some t) : Told t := by
  induction as generalizing s with
  | nil => cases h; exact hc
  | cons a as ih =>
    simp only [exec] at h
    obtain ⟨u, hu, h⟩ := Option.bind_eq_some_iff.mp h
    exact ih (inv_step hi hp.1 hu) (told_step hc hi.fresh hu) (hp.2 u hu) h

/-- **C117.** Once the application has been told that the connection is terminated, nothing is handed to it any more, whatever happens next, if
`Close` was called only after `Dial` had returned. Not so when `Close` has returned and the application has not been told yet, or when `Close` was called
during `Dial` (`C117_late_false`, `C117_race_false`). -/
theorem C117_nothing_after_partial {as bs : List Act} {s t : St} (h : exec init as = some s) (hp : ProperAll init as) (hc : s.called ≠ [])
    (ht : exec s bs = some t) : t.delivered = s.delivered := by
  have hi := inv_exec inv_init hp h
  have hto := told_exec inv_init (by intro k hk; simp [init] at hk) hp h
  obtain ⟨k, hk⟩ := List.exists_mem_of_ne_nil _ hc
  obtain ⟨h1, h2⟩ := hi.past k (hto k hk)
  refine dead_exec ⟨h1, ?_, h2⟩ ht
  exact (hi.offD k (by intro hd; have := hto k hk; rw [hd] at this; simp [DPc.past] at this)).2

/-- What holds at every moment when moreover the publisher does not leave. -/
structure Calm (s : St) : Prop where
  safe : s.crashed = false
  stay : s.gone = false
  term : s.t = .idle
  resp : s.r ≠ .dispatch ∧ s.r ≠ .starting
  idle : s.c = .idle ∨ s.c = .check ∨ s.c = .set → s.nd = 0 ∧ s.disconnecting = false
  busy : s.c = .unconnect ∨ s.c = .start → s.nd = 0 ∧ s.disconnecting = true
  begun : s.nd = 0 → s.c = .idle ∨ s.c = .check ∨ s.c = .set ∨ s.c = .unconnect ∨ s.c = .start
  one : s.nd ≠ 0 → s.nd = 1 ∧ s.user 0 = true ∧ s.d 0 ≠ .idle ∧ (s.c = .join 0 ∨ s.c = .wait 0 ∨ s.c = .returned)
  dur : (s.d 0 = .launched ∨ s.d 0 = .joinTerm ∨ s.d 0 = .lock ∨ s.d 0 = .close ∨ s.d 0 = .test ∨ s.d 0 = .load ∨ s.d 0 = .wait ∨
    s.d 0 = .forget ∨ s.d 0 = .callback ∨ s.d 0 = .mark ∨ s.d 0 = .clear) → s.disconnecting = true
  over : s.d 0 = .unlock ∨ s.d 0 = .ended → s.disconnecting = false
  closed : s.closed = true → (s.d 0 = .test ∨ s.d 0 = .load ∨ s.d 0 = .wait ∨ (s.d 0).past = true)
  shut : (s.d 0 = .test ∨ s.d 0 = .load ∨ s.d 0 = .wait ∨ (s.d 0).past = true) → s.closed = s.socket
  fail : s.r = .header false → s.closed = true
  held : s.d 0 = .load ∨ s.d 0 = .wait ∨ s.d 0 = .forget → s.ptr = true
  lock : s.action = none ∨ s.action = some (.dis 0) ∨ (s.action = some .dial ∧ (s.n = .dial ∨ s.n = .set ∨ s.n = .start ∨ s.n = .unlock))
  mutex : s.action = some (.dis 0) ↔
    (s.d 0 = .close ∨ s.d 0 = .test ∨ s.d 0 = .load ∨ s.d 0 = .wait ∨ s.d 0 = .forget ∨ s.d 0 = .callback ∨ s.d 0 = .mark ∨ s.d 0 = .clear ∨
      s.d 0 = .unlock)
  told : s.called = if s.d 0 = .mark ∨ s.d 0 = .clear ∨ s.d 0 = .unlock ∨ s.d 0 = .ended then [0] else []
  runs : s.d 0 = .wait → s.r ≠ .none ∧ s.r ≠ .launched
  after : s.c = .wait 0 → s.d 0 ≠ .launched

theorem calm_init : Calm init := by
  constructor <;> simp [init, DPc.past]

theorem calm_dial {s t : St} {ok : Bool} (hi : Inv s) (hc : Calm s) (h : stepDial s ok = some t) : Calm t := by
  have h3 := hi.close
  have h6 := hi.offD 0
  have h10 := hi.fresh 0
  obtain ⟨g1, g2, g3, g4, g5, g6, g7, g8, g9, g10, g11, g12, g13, g14, g15, g16, g17, g18, g19⟩ := hc
  unfold stepDial at h
  split at h <;> (try split at h) <;> cases h <;> rename_i hn <;> constructor <;> grind [NPc.last, DPc.past]

theorem calm_resp {s t : St} (hi : Inv s) (hc : Calm s) (h : stepResp s = some t) : Calm t := by
  have h8 := hi.past 0
  obtain ⟨g1, g2, g3, g4, g5, g6, g7, g8, g9, g10, g11, g12, g13, g14, g15, g16, g17, g18, g19⟩ := hc
  unfold stepResp at h
  split at h <;> (try split at h) <;> cases h <;> constructor <;> grind [RPc.spent, DPc.past]

theorem calm_dis {s t : St} {k : Nat} (hi : Inv s) (hc : Calm s) (h : stepDis s k = some t) : Calm t := by
  have hk : k = 0 := by
    by_contra hk
    have : s.d k = .idle := hi.fresh k (by
      by_cases h0 : s.nd = 0
      · omega
      · have := (hc.one h0).1; omega)
    simp [stepDis, this] at h
  subst hk
  have h6 := hi.offD 0
  have h10 := hi.fresh 0
  obtain ⟨g1, g2, g3, g4, g5, g6, g7, g8, g9, g10, g11, g12, g13, g14, g15, g16, g17, g18, g19⟩ := hc
  unfold stepDis at h
  split at h <;> (try split at h) <;> cases h <;> constructor <;> (try simp only [Function.update_apply]) <;>
    grind [DPc.past, RPc.quiet]

theorem calm_close {s t : St} (hi : Inv s) (hc : Calm s) (h : stepClose s = some t) : Calm t := by
  have h10 := hi.fresh 0
  obtain ⟨g1, g2, g3, g4, g5, g6, g7, g8, g9, g10, g11, g12, g13, g14, g15, g16, g17, g18, g19⟩ := hc
  unfold stepClose at h
  split at h <;> (try split at h) <;> cases h <;> constructor <;> (try simp only [St.spawn, Function.update_apply]) <;>
    grind [DPc.past, DPc.quiet]

theorem calm_step {s t : St} {a : Act} (hi : Inv s) (hc : Calm s) (hl : a ≠ .leave) (h : step s a = some t) : Calm t := by
  unfold step at h
  rw [hc.safe] at h
  simp only [Bool.false_eq_true, if_false] at h
  cases a with
  | dial ok => exact calm_dial hi hc h
  | resp => exact calm_resp hi hc h
  | term => simp [stepTerm, hc.term] at h
  | dis k => exact calm_dis hi hc h
  | close => exact calm_close hi hc h
  | leave => exact absurd rfl hl

theorem calm_exec {s t : St} {as : List Act} (hi : Inv s) (hc : Calm s) (hp : ProperAll s as) (hl : Act.leave ∉ as)
    (h : exec s as = some t) : Inv t ∧ Calm t := by
  induction as generalizing s with
  | nil => cases h; exact ⟨hi, hc⟩
  | cons a as ih =>
    simp only [exec] at h
    obtain ⟨u, hu, h⟩ := Option.bind_eq_some_iff.mp h
    simp only [List.mem_cons, not_or] at hl
    exact ih (inv_step hi hp.1 hu) (calm_step hi hc (Ne.symm hl.1) hu) (hp.2 u hu) hl.2 h

/-- Everything is over: `Close` has returned, the response goroutine has ended or there never was one, the connection, if there was one, is closed and
the application has been told once. -/
structure Finished (s : St) : Prop where
  returned : s.c = .returned
  resp : s.r = .none ∨ s.r = .ended
  closed : s.closed = s.socket
  told : s.called = [0]
  connected : s.connected = false
  disconnecting : s.disconnecting = false
  free : s.action = none

theorem stuck_finished {s : St} (hi : Inv s) (hc : Calm s) (hb : s.c ≠ .idle) (h : ∀ a, a ≠ .leave → step s a = none) : Finished s := by
  have hstep : ∀ a, step s a = match a with
      | .dial ok => stepDial s ok
      | .resp => stepResp s
      | .term => stepTerm s
      | .dis k => stepDis s k
      | .close => stepClose s
      | .leave => some { s with gone := true } := by
    intro a; unfold step; rw [if_neg (by simp [hc.safe])]; rfl
  have hr : stepResp s = none := by have := h .resp (by simp); rwa [hstep] at this
  have hd : stepDis s 0 = none := by have := h (.dis 0) (by simp); rwa [hstep] at this
  have hcl : stepClose s = none := by have := h .close (by simp); rwa [hstep] at this
  have hn := hi.close hb
  have hresp : s.r = .none ∨ s.r = .ended := by
    cases hx : s.r <;> simp [stepResp, hx] at hr <;> simp
    exact absurd hx hc.resp.2
  have hdone : s.d 0 = .ended := by
    cases hx : s.d 0 <;> simp [stepDis, hx] at hd
    · have h0 : s.nd = 0 := by
        by_contra h0
        exact (hc.one h0).2.2.1 hx
      rcases hc.begun h0 with h1 | h1 | h1 | h1 | h1
      · exact absurd h1 hb
      all_goals simp [stepClose, h1] at hcl
    · exact absurd hc.term hd.1
    · rcases hc.lock with h1 | h1 | ⟨_, h1⟩
      · exact absurd h1 hd
      · have := hc.mutex.mp h1
        simp [hx] at this
      · rw [hn] at h1; simp at h1
    · rcases hresp with h1 | h1
      · exact absurd h1 (hc.runs hx).1
      · exact absurd h1 hd
    · rfl
  have hnd : s.nd ≠ 0 := by
    intro h0
    rw [hi.fresh 0 (by omega)] at hdone
    cases hdone
  have hret : s.c = .returned := by
    rcases (hc.one hnd).2.2.2 with h1 | h1 | h1
    · simp [stepClose, h1] at hcl
    · simp [stepClose, h1, hdone] at hcl
    · exact h1
  refine ⟨hret, hresp, hc.shut (by simp [hdone, DPc.past]), ?_, (hi.past 0 (by simp [hdone, DPc.past])).1, hc.over (by simp [hdone]), ?_⟩
  · rw [hc.told]; simp [hdone]
  · rcases hc.lock with h1 | h1 | ⟨_, h1⟩
    · exact h1
    · have := hc.mutex.mp h1
      simp [hdone] at this
    · rw [hn] at h1; simp at h1

/-- How far `Close` is from its end (DataSubscriber.go L638-649), the flag being off. -/
def CPc.left : CPc → Nat
  | .start => 3
  | .join _ => 2
  | .wait _ => 1
  | _ => 0

/-- How far the response goroutine is from its end (DataSubscriber.go L801-877), the flag being off. -/
def RPc.left : RPc → Nat
  | .read => 5
  | .header _ => 4
  | .body => 3
  | .process => 2
  | .launched => 2
  | .loop => 1
  | _ => 0

/-- How far a disconnect thread is from its end (DataSubscriber.go L651-725). -/
def DPc.left : DPc → Nat
  | .idle => 13
  | .launched => 12
  | .joinTerm => 11
  | .lock => 10
  | .close => 9
  | .test => 8
  | .load => 7
  | .wait => 6
  | .forget => 5
  | .callback => 4
  | .mark => 3
  | .clear => 2
  | .unlock => 1
  | .ended => 0

/-- All three together. -/
def St.left (s : St) : Nat := s.c.left + s.r.left + (s.d 0).left

/-- `Close` has switched the connected flag off. -/
def CPc.off : CPc → Bool
  | .start | .join _ | .wait _ | .returned => true
  | _ => false

theorem off_connected {s : St} (hi : Inv s) (hc : Calm s) (h : s.c.off = true) : s.connected = false := by
  by_cases h0 : s.nd = 0
  · rcases hc.begun h0 with h1 | h1 | h1 | h1 | h1 <;> simp [h1, CPc.off] at h
    exact hi.offC h1
  · exact (hi.offD 0 (hc.one h0).2.2.1).1

theorem left_step {s t : St} {a : Act} (hi : Inv s) (hc : Calm s) (ho : s.c.off = true) (hl : a ≠ .leave) (h : step s a = some t) :
    t.left < s.left ∧ t.c.off = true := by
  have hcon := off_connected hi hc ho
  have hn : s.n = .over := hi.close (by intro h0; simp [h0, CPc.off] at ho)
  unfold step at h
  rw [hc.safe] at h
  simp only [Bool.false_eq_true, if_false] at h
  cases a with
  | dial ok => simp [stepDial, hn] at h
  | resp =>
    have hre := hc.resp
    simp only [stepResp] at h
    split at h <;> (try split at h) <;> cases h <;> simp only [St.left] <;> grind [RPc.left]
  | term => simp [stepTerm, hc.term] at h
  | dis k =>
    have hk : k = 0 := by
      by_contra hk
      have : s.d k = .idle := hi.fresh k (by
        by_cases h0 : s.nd = 0
        · omega
        · have := (hc.one h0).1; omega)
      simp [stepDis, this] at h
    subst hk
    have hheld := hc.held
    simp only [stepDis] at h
    split at h <;> (try split at h) <;> cases h <;> simp only [St.left, Function.update_apply] <;> grind [DPc.left]
  | close =>
    have hb := hc.busy
    have hone := hc.one
    have hfr := hi.fresh 0
    simp only [stepClose] at h
    split at h <;> (try split at h) <;> cases h <;> simp only [St.left, St.spawn, Function.update_apply] <;> grind [CPc.left, CPc.off, DPc.left]
  | leave => exact absurd rfl hl

theorem left_exec {s t : St} {as : List Act} (hi : Inv s) (hc : Calm s) (ho : s.c.off = true) (hl : Act.leave ∉ as) (h : exec s as = some t) :
    as.length + t.left ≤ s.left := by
  induction as generalizing s with
  | nil => cases h; simp
  | cons a as ih =>
    simp only [exec] at h
    obtain ⟨u, hu, h⟩ := Option.bind_eq_some_iff.mp h
    simp only [List.mem_cons, not_or] at hl
    obtain ⟨h1, h2⟩ := left_step hi hc ho (Ne.symm hl.1) hu
    have hp : Proper s a := by
      intro _ h0
      simp [h0, CPc.off] at ho
    have := ih (inv_step hi hp hu) (calm_step hi hc (Ne.symm hl.1) hu) h2 hl.2 h
    simp only [List.length_cons]
    omega

theorem left_le (s : St) : s.left ≤ 21 := by
  have h1 : s.c.left ≤ 3 := by cases s.c <;> simp [CPc.left]
  have h2 : s.r.left ≤ 5 := by cases s.r <;> simp [RPc.left]
  have h3 : (s.d 0).left ≤ 13 := by cases s.d 0 <;> simp [DPc.left]
  simp only [St.left]
  omega

/-- **C117.** `Close`, called after `Dial` has returned and while the publisher stays, ends the connection. The program never crashes on the way. `Close`
itself is never kept from switching the connected flag off. From then on at most twenty-one further actions are possible, whatever the schedule. And
where no action is possible any more, `Close` has returned, the response goroutine is over, the connection is closed, the application has been told exactly
once and no lock is held. With a publisher that leaves meanwhile the program may crash (`C117_crash_false`). -/
theorem C117_ends_partial {as : List Act} {s : St} (h : exec init as = some s) (hp : ProperAll init as) (hl : Act.leave ∉ as) (hb : s.c ≠ .idle) :
    s.crashed = false ∧
    (s.c.off = false → ∃ t, step s .close = some t) ∧
    (s.c.off = true → ∀ bs t, Act.leave ∉ bs → exec s bs = some t → bs.length ≤ 21) ∧
    ((∀ a, a ≠ .leave → step s a = none) → Finished s) := by
  obtain ⟨hi, hc⟩ := calm_exec inv_init calm_init hp hl h
  refine ⟨hc.safe, ?_, ?_, stuck_finished hi hc hb⟩
  · intro ho
    unfold step
    rw [hc.safe]
    by_cases h0 : s.nd = 0
    · rcases hc.begun h0 with h1 | h1 | h1 | h1 | h1 <;> simp [h1, CPc.off] at ho <;> simp [stepClose, h1]
    · rcases (hc.one h0).2.2.2 with h1 | h1 | h1 <;> simp [h1, CPc.off] at ho
  · intro ho bs t hbs ht
    have := left_exec hi hc ho hbs ht
    have := left_le s
    omega

/-- A dial that succeeds. -/
def dialled : List Act := List.replicate 9 (.dial true)

/-- A packet is handed over, then the subscriber is closed. -/
def closing : List Act :=
  dialled ++ [.resp, .resp, .resp, .resp, .resp, .resp, .resp] ++ List.replicate 5 .close ++ [.dis 0, .close] ++
    List.replicate 5 (.dis 0) ++ [.resp, .resp, .resp, .dis 0, .dis 0, .dis 0, .dis 0, .dis 0, .dis 0, .close]

/-- What an observer sees. (for the examples) -/
structure View where
  c : CPc
  r : RPc
  called : List Nat
  delivered : Nat
  connected : Bool
  closed : Bool
  crashed : Bool
  deriving DecidableEq

/-- What an observer sees. (for the examples) -/
def view (s : St) : View := ⟨s.c, s.r, s.called, s.delivered, s.connected, s.closed, s.crashed⟩

/-- The hypotheses of `C117_ends_partial` and `C117_nothing_after_partial` are met, and what they say is seen. -/
example : (exec init closing).map view = some ⟨.returned, .ended, [0], 1, false, true, false⟩ ∧ ProperAll init closing ∧ Act.leave ∉ closing := by
  decide +kernel

/-- `Close` returns before the disconnect thread runs, and a packet is handed over afterwards. -/
def late : List Act := dialled ++ [.resp, .resp, .resp, .resp, .resp] ++ List.replicate 6 .close

/-- `Close` does not wait: it may have returned with the connection open, nothing told to the application, and a packet handed over afterwards. -/
theorem C117_late_false :
    (exec init late).map view = some ⟨.returned, .process, [], 0, false, false, false⟩ ∧ ProperAll init late ∧ Act.leave ∉ late ∧
    (exec init (late ++ [.resp])).map view = some ⟨.returned, .loop, [], 1, false, false, false⟩ := by
  decide +kernel

/-- The publisher leaves; the termination thread and `Close` both find no disconnect under way and both start one. -/
def crash : List Act :=
  dialled ++ [.resp, .resp, .leave, .resp, .resp, .resp, .resp, .term, .term, .close, .close, .term, .term, .term, .close, .close, .close,
    .resp,
    .dis 0, .dis 0, .dis 0, .dis 1, .dis 1, .dis 1, .dis 1, .dis 1, .dis 0, .dis 0, .dis 1]

/-- A publisher that leaves while the subscriber is closed: two disconnect threads run at once, one takes the response goroutine away between the other's
test for it and its use, and the program ends with a nil pointer dereference. -/
theorem C117_crash_false : ProperAll init crash ∧ (exec init crash).map (·.crashed) = some true := by
  decide +kernel

/-- `Close` is called during `Dial`. -/
def race : List Act :=
  List.replicate 6 (.dial true) ++ List.replicate 5 .close ++ List.replicate 3 (.dial true) ++ [.resp] ++ List.replicate 6 (.dis 0) ++ [.close]

/-- The response goroutine reads from a closed socket over and over, the disconnect thread waits for it, `Close` waits for that. -/
structure Spin (s : St) : Prop where
  connected : s.connected = true
  disconnecting : s.disconnecting = true
  n : s.n = .over
  r : s.r = .loop ∨ s.r = .read ∨ ∃ ok, s.r = .header ok
  t : s.t = .idle
  c : s.c = .wait 0
  d : s.d 0 = .wait
  others : ∀ k, k ≠ 0 → s.d k = .idle

theorem spin_step {s t : St} {a : Act} (hi : Spin s) (h : step s a = some t) : Spin t := by
  obtain ⟨h1, h2, h3, h4, h5, h6, h7, h8⟩ := hi
  unfold step at h
  split at h
  · cases h
  · cases a with
    | dial ok => simp [stepDial, h3] at h
    | resp =>
      rcases h4 with h4 | h4 | ⟨ok, h4⟩
      · simp only [stepResp, h4, h1, if_true] at h
        cases h
        exact ⟨rfl, h2, h3, .inr (.inl rfl), h5, h6, h7, h8⟩
      · simp only [stepResp, h4] at h
        cases h
        exact ⟨h1, h2, h3, .inr (.inr ⟨_, rfl⟩), h5, h6, h7, h8⟩
      · simp only [stepResp, h4, h2, if_true] at h
        cases h
        exact ⟨h1, rfl, h3, .inl rfl, h5, h6, h7, h8⟩
    | term => simp [stepTerm, h5] at h
    | dis k =>
      by_cases hk : k = 0
      · subst hk
        have : s.r ≠ .ended := by rcases h4 with h4 | h4 | ⟨ok, h4⟩ <;> simp [h4]
        simp [stepDis, h7, this] at h
      · simp [stepDis, h8 k hk] at h
    | close => simp [stepClose, h6, h7] at h
    | leave => cases h; exact ⟨h1, h2, h3, h4, h5, h6, h7, h8⟩

theorem spin_exec {s t : St} {as : List Act} (hi : Spin s) (h : exec s as = some t) : Spin t := by
  induction as generalizing s with
  | nil => cases h; exact hi
  | cons a as ih =>
    simp only [exec] at h
    obtain ⟨u, hu, h⟩ := Option.bind_eq_some_iff.mp h
    exact ih (spin_step hi hu) h

theorem exec_append (s : St) (as bs : List Act) : exec s (as ++ bs) = (exec s as).bind (fun t => exec t bs) := by
  induction as generalizing s with
  | nil => rfl
  | cons a as ih =>
    simp only [List.cons_append, exec]
    cases step s a with
    | none => rfl
    | some u => exact ih u

/-- `Close` called during `Dial`, between the connection being made and the flag being set: after this schedule `Close` never returns, whatever happens
next, and the application is never told; the response goroutine does not end either. -/
theorem C117_race_false : (exec init race).isSome = true ∧
    ∀ bs t, exec init (race ++ bs) = some t → t.c ≠ .returned ∧ t.connected = true ∧ t.r ≠ .ended := by
  have hs : ∃ s, exec init race = some s ∧ Spin s := by
    have h1 : (exec init race).isSome = true := by decide +kernel
    obtain ⟨s, hs⟩ := Option.isSome_iff_exists.mp h1
    refine ⟨s, hs, ?_⟩
    have e : ∀ {α : Type} (f : St → α), some (f s) = (exec init race).map f := fun f => by rw [hs]; rfl
    have h2 : some (s.connected, s.disconnecting, s.n, s.r) = some (true, true, NPc.over, RPc.loop) := by
      rw [e (fun s => (s.connected, s.disconnecting, s.n, s.r))]
      decide +kernel
    have h3 : some (s.t, s.c, s.d 0, s.nd) = some (TPc.idle, CPc.wait 0, DPc.wait, 1) := by
      rw [e (fun s => (s.t, s.c, s.d 0, s.nd))]
      decide +kernel
    simp only [Option.some.injEq, Prod.mk.injEq] at h2 h3
    obtain ⟨a1, a2, a3, a4⟩ := h2
    obtain ⟨a5, a6, a7, a8⟩ := h3
    refine ⟨a1, a2, a3, .inl a4, a5, a6, a7, ?_⟩
    intro k hk
    exact fresh_exec (s := init) (by simp [init]) hs k (by omega)
  obtain ⟨s, hs, hsp⟩ := hs
  refine ⟨by rw [hs]; rfl, ?_⟩
  intro bs t ht
  rw [exec_append, hs] at ht
  have := spin_exec hsp ht
  refine ⟨by rw [this.c]; simp, this.connected, ?_⟩
  rcases this.r with h4 | h4 | ⟨ok, h4⟩ <;> simp [h4]

/-- The tests of `disposing` come first: `Dial` past them makes a connection after `Close` is complete, and nobody will close it. -/
def unseen : List Act :=
  List.replicate 2 (.dial true) ++ List.replicate 5 .close ++ List.replicate 9 (.dis 0) ++ [.close] ++ List.replicate 7 (.dial true) ++
    [.resp, .resp, .resp, .resp, .resp, .resp]

theorem C117_unseen_false :
    (exec init unseen).map view = some ⟨.returned, .loop, [0], 1, true, false, false⟩ := by
  decide +kernel

/-- No connection has been made. -/
structure Unmade (s : St) : Prop where
  connected : s.connected = false
  socket : s.socket = false
  r : s.r = .none

theorem unmade_step {s t : St} {a : Act} (hs : Unmade s) (hn : s.n ≠ .set ∧ s.n ≠ .start) (h : step s a = some t) : Unmade t ∧ t.delivered = s.delivered := by
  obtain ⟨h1, h2, h3⟩ := hs
  unfold step at h
  split at h
  · cases h
  cases a with
  | dial ok =>
    cases hq : s.n with
    | set => exact absurd hq hn.1
    | start => exact absurd hq hn.2
    | idle => simp only [stepDial, hq] at h; cases h; exact ⟨⟨h1, h2, h3⟩, rfl⟩
    | test => simp only [stepDial, hq] at h; cases h; exact ⟨⟨h1, h2, h3⟩, rfl⟩
    | copy => simp only [stepDial, hq] at h; cases h; exact ⟨⟨h1, h2, h3⟩, rfl⟩
    | join k => simp only [stepDial, hq] at h; split at h <;> cases h; exact ⟨⟨h1, h2, h3⟩, rfl⟩
    | lock => simp only [stepDial, hq] at h; split at h <;> cases h; exact ⟨⟨h1, h2, h3⟩, rfl⟩
    | dial => simp only [stepDial, hq] at h; cases h; split <;> exact ⟨⟨h1, h2, h3⟩, rfl⟩
    | unlock => simp only [stepDial, hq] at h; cases h; exact ⟨⟨h1, h2, h3⟩, rfl⟩
    | over => simp only [stepDial, hq] at h; cases h
  | resp => simp only [stepResp, h3] at h; cases h
  | term =>
    simp only [stepTerm] at h
    split at h
    · cases h
    all_goals cases h; exact ⟨⟨by first | exact h1 | rfl, h2, h3⟩, rfl⟩
  | dis k =>
    simp only [stepDis] at h
    split at h
    all_goals first
      | cases h; exact ⟨⟨h1, h2, h3⟩, rfl⟩
      | (split at h <;> cases h <;> exact ⟨⟨h1, h2, h3⟩, rfl⟩)
      | (cases h; split <;> exact ⟨⟨h1, h2, h3⟩, rfl⟩)
      | cases h
  | close =>
    simp only [stepClose] at h
    split at h
    all_goals first
      | cases h; exact ⟨⟨by first | exact h1 | rfl, h2, h3⟩, rfl⟩
      | (split at h <;> cases h <;> exact ⟨⟨h1, h2, h3⟩, rfl⟩)
      | cases h
  | leave => cases h; exact ⟨⟨h1, h2, h3⟩, rfl⟩

/-- Only `Dial` moves itself on, and `disposing` is never reset. -/
theorem n_step {s t : St} {a : Act} (h : step s a = some t) : ((∃ ok, a = .dial ok) ∨ t.n = s.n) ∧ (s.disposing = true → t.disposing = true) := by
  unfold step at h
  split at h
  · cases h
  cases a with
  | dial ok =>
    refine ⟨Or.inl ⟨ok, rfl⟩, fun hd => ?_⟩
    simp only [stepDial] at h
    split at h
    all_goals first
      | cases h; exact hd
      | (split at h <;> cases h <;> exact hd)
      | (cases h; split <;> exact hd)
      | cases h
  | resp =>
    simp only [stepResp] at h
    split at h
    all_goals first
      | cases h; exact ⟨Or.inr rfl, id⟩
      | (split at h <;> cases h <;> exact ⟨Or.inr rfl, id⟩)
      | cases h
  | term =>
    simp only [stepTerm] at h
    split at h
    all_goals first
      | cases h; exact ⟨Or.inr rfl, id⟩
      | cases h
  | dis k =>
    simp only [stepDis] at h
    split at h
    all_goals first
      | cases h; exact ⟨Or.inr rfl, id⟩
      | (split at h <;> cases h <;> exact ⟨Or.inr rfl, id⟩)
      | (cases h; split <;> exact ⟨Or.inr rfl, id⟩)
      | cases h
  | close =>
    simp only [stepClose] at h
    split at h
    all_goals first
      | cases h; exact ⟨Or.inr rfl, fun _ => rfl⟩
      | cases h; exact ⟨Or.inr rfl, id⟩
      | (split at h <;> cases h <;> exact ⟨Or.inr rfl, id⟩)
      | cases h
  | leave => cases h; exact ⟨Or.inr rfl, id⟩

theorem early_unmade {s t : St} {as : List Act} (hs : s.n = .idle ∨ s.n = .test → Unmade s)
    (h : exec s as = some t) : t.n = .idle ∨ t.n = .test → Unmade t := by
  induction as generalizing s with
  | nil => cases h; exact hs
  | cons a as ih =>
    simp only [exec] at h
    obtain ⟨u, hu, h⟩ := Option.bind_eq_some_iff.mp h
    refine ih (fun hn => ?_) h
    have key : s.n = .idle ∨ s.n = .test := by
      rcases (n_step hu).1 with ⟨ok, rfl⟩ | e
      · cases hq : s.n with
        | idle => exact Or.inl rfl
        | test => exact Or.inr rfl
        | _ =>
          exfalso
          unfold step at hu
          split at hu
          · cases hu
          simp only [stepDial, hq] at hu
          first
            | (cases hu; rcases hn with e | e <;> cases e)
            | (split at hu <;> cases hu <;> rcases hn with e | e <;> cases e)
            | (cases hu; split at hn <;> rcases hn with e | e <;> cases e)
            | cases hu
      · rw [e] at hn; exact hn
    exact (unmade_step (hs key) (by rcases key with e | e <;> simp [e]) hu).1

/-- **C117.** When `Close` has begun before `Dial` has looked whether it had, no connection is made, whatever the schedule, and nothing is handed over. -/
theorem C117_before {as bs : List Act} {s t : St} (h : exec init as = some s) (hd : s.disposing = true) (hn : s.n = .idle ∨ s.n = .test)
    (ht : exec s bs = some t) : t.connected = false ∧ t.socket = false ∧ t.delivered = s.delivered := by
  have hu : Unmade s := early_unmade (fun _ => ⟨rfl, rfl, rfl⟩) h hn
  clear h
  have key : ∀ (bs : List Act) (s : St), Unmade s → s.disposing = true → (s.n = .idle ∨ s.n = .test ∨ s.n = .over) → exec s bs = some t →
      t.connected = false ∧ t.socket = false ∧ t.delivered = s.delivered := by
    intro bs
    induction bs with
    | nil => intro s hu _ _ h; cases h; exact ⟨hu.connected, hu.socket, rfl⟩
    | cons a bs ih =>
      intro s hu hd hn h
      simp only [exec] at h
      obtain ⟨u, hs, h⟩ := Option.bind_eq_some_iff.mp h
      obtain ⟨g1, g2⟩ := unmade_step hu (by rcases hn with e | e | e <;> simp [e]) hs
      have hn' : u.n = .idle ∨ u.n = .test ∨ u.n = .over := by
        rcases (n_step hs).1 with ⟨ok, rfl⟩ | e
        · unfold step at hs
          split at hs
          · cases hs
          rcases hn with e | e | e
          · simp only [stepDial, e] at hs; cases hs; simp
          · simp only [stepDial, e, hd] at hs; cases hs; simp
          · simp only [stepDial, e] at hs; cases hs
        · rw [e]; exact hn
      obtain ⟨k1, k2, k3⟩ := ih u g1 ((n_step hs).2 hd) hn' h
      exact ⟨k1, k2, k3.trans g2⟩
  exact key bs s hu hd (hn.imp id Or.inl) ht

/-- `Close` begins, `Dial` finds out. -/
example : ∃ s, exec init [.dial true, .close] = some s ∧ s.disposing = true ∧ s.n = .test ∧
    (exec s [.dial true, .close, .close, .close, .close]).map (·.n) = some .over :=
  ⟨_, rfl, rfl, rfl, rfl⟩

end Verif.Sync.Close
