import Verif.Sync.CloseProps
import Mathlib.Data.List.Perm.Subperm

/-!
# C117: the publisher leaves a subscriber that nobody closes

The model of `Verif.Sync.Close` without `Close`: the response goroutine finds the connection broken and has the termination thread disconnect.
-/

namespace Verif.Sync.Close

open Function (update)

/-- A disconnect thread that has not switched `disconnecting` off yet. -/
def DPc.active : DPc → Bool
  | .idle | .unlock | .ended => false
  | _ => true

/-- The response goroutine may still start the termination thread although the subscriber is not connected. -/
def RPc.may : RPc → Nat
  | .read | .header _ | .dispatch | .starting => 1
  | _ => 0

/-- The termination thread may still start a disconnect thread. -/
def TPc.may : TPc → Nat
  | .idle => 0
  | _ => 1

theorem may_le (r : RPc) : r.may ≤ 1 := by cases r <;> simp [RPc.may]

/-- What holds at every moment when nobody calls `Close`. -/
structure Alone (s : St) : Prop where
  safe : s.crashed = false
  close : s.c = .idle
  ours : ∀ k, s.user k = false
  way : ∀ k, s.d k ≠ .joinTerm ∧ s.d k ≠ .lock ∧ s.d k ≠ .unlock
  lock : s.action = none ∨ (s.action = some .dial ∧ (s.n = .dial ∨ s.n = .set ∨ s.n = .start ∨ s.n = .unlock))
  set : s.t = .set → s.disconnecting = false
  busy : s.t = .unconnect ∨ s.t = .start → s.disconnecting = true ∧ ∀ k, (s.d k).active = false
  active : ∀ k, (s.d k).active = true → s.disconnecting = true ∧ s.nd = k + 1
  under : s.disconnecting = true → s.t = .unconnect ∨ s.t = .start ∨ ∃ k, (s.d k).active = true
  held : ∀ k, s.d k = .load ∨ s.d k = .wait ∨ s.d k = .forget → s.ptr = true
  runs : ∀ k, s.d k = .wait → s.r ≠ .none ∧ s.r ≠ .launched
  early : s.n.last = false → s.nd = 0 ∧ s.disconnecting = false
  before : s.n.last = false → s.n ≠ .start → s.connected = false ∧ s.socket = false
  on : s.connected = true → s.nd = 0
  few : s.connected = false → s.nd + s.t.may + s.r.may ≤ 2
  begun : s.n.last = true → s.socket = true → s.r ≠ .none
  ended : s.r = .ended → s.connected = false
  off : s.socket = true → s.connected = false → s.nd ≠ 0 ∨ s.t = .start
  some : ∀ k < s.nd, s.d k ≠ .idle
  shut : ∀ k, s.d k = .test ∨ s.d k = .load ∨ s.d k = .wait ∨ (s.d k).past = true → s.closed = s.socket
  told : ∀ k, k ∈ s.called ↔ s.d k = .mark ∨ s.d k = .clear ∨ s.d k = .ended
  once : s.called.Nodup
  real : s.closed = true → s.socket = true
  made : s.connected = true → s.socket = true
  marked : ∀ k, s.d k = .clear ∨ s.d k = .ended → s.disconnected = true

theorem alone_init : Alone init := by
  constructor <;> simp [init, DPc.past, DPc.active, NPc.last, TPc.may, RPc.may]

set_option maxHeartbeats 2000000 in
theorem alone_dial {s t : St} {ok : Bool} (hi : Inv s) (hc : Alone s) (h : stepDial s ok = some t) : Alone t := by
  have h1 := hi.early
  have h2 := hi.term
  have h6 := hi.offD
  obtain ⟨g1, g2, g3, g4, g5, g6, g7, g8, g9, g10, g11, g12, g13, g14, g15, g16, g17, g18, g19, g20, g21, g22, g23, g24, g25⟩ := hc
  unfold stepDial at h
  split at h <;> (try split at h) <;> cases h <;> rename_i hn <;> constructor <;> grind [NPc.last, DPc.past, DPc.active, TPc.may, RPc.may]

set_option maxHeartbeats 2000000 in
theorem alone_resp {s t : St} (hi : Inv s) (hc : Alone s) (h : stepResp s = some t) : Alone t := by
  have h1 := hi.early
  have h8 := hi.past
  obtain ⟨g1, g2, g3, g4, g5, g6, g7, g8, g9, g10, g11, g12, g13, g14, g15, g16, g17, g18, g19, g20, g21, g22, g23, g24, g25⟩ := hc
  unfold stepResp at h
  split at h <;> (try split at h) <;> cases h <;> constructor <;> grind [RPc.spent, DPc.past, DPc.active, TPc.may, RPc.may]

set_option maxHeartbeats 2000000 in
theorem alone_term {s t : St} (hi : Inv s) (hc : Alone s) (h : stepTerm s = some t) : Alone t := by
  have h2 := hi.term
  have h4 := hi.offT
  have h10 := hi.fresh
  have hr := may_le s.r
  obtain ⟨g1, g2, g3, g4, g5, g6, g7, g8, g9, g10, g11, g12, g13, g14, g15, g16, g17, g18, g19, g20, g21, g22, g23, g24, g25⟩ := hc
  unfold stepTerm at h
  split at h <;> cases h <;> constructor <;> (try simp only [St.spawn, Function.update_apply]) <;>
    first
    | grind [NPc.last, DPc.past, DPc.active, TPc.may]
    | exact fun _ => .inr (.inr ⟨s.nd, by simp [DPc.active]⟩)

set_option maxHeartbeats 2000000 in
theorem alone_dis {s t : St} {k : Nat} (hi : Inv s) (hc : Alone s) (h : stepDis s k = some t) : Alone t := by
  have h6 := hi.offD
  have h8 := hi.past
  have h10 := hi.fresh
  obtain ⟨g1, g2, g3, g4, g5, g6, g7, g8, g9, g10, g11, g12, g13, g14, g15, g16, g17, g18, g19, g20, g21, g22, g23, g24, g25⟩ := hc
  unfold stepDis at h
  split at h <;> (try split at h) <;> cases h <;> constructor <;> (try simp only [Function.update_apply]) <;>
    grind [DPc.past, DPc.active, RPc.quiet]

theorem alone_step {s t : St} {a : Act} (hi : Inv s) (hc : Alone s) (ha : a ≠ .close) (h : step s a = some t) : Alone t := by
  unfold step at h
  rw [hc.safe] at h
  simp only [Bool.false_eq_true, if_false] at h
  cases a with
  | dial ok => exact alone_dial hi hc h
  | resp => exact alone_resp hi hc h
  | term => exact alone_term hi hc h
  | dis k => exact alone_dis hi hc h
  | close => exact absurd rfl ha
  | leave =>
    cases h
    obtain ⟨g1, g2, g3, g4, g5, g6, g7, g8, g9, g10, g11, g12, g13, g14, g15, g16, g17, g18, g19, g20, g21, g22, g23, g24, g25⟩ := hc
    exact ⟨rfl, g2, g3, g4, g5, g6, g7, g8, g9, g10, g11, g12, g13, g14, g15, g16, g17, g18, g19, g20, g21, g22, g23, g24, g25⟩

theorem alone_exec {s t : St} {as : List Act} (hi : Inv s) (hc : Alone s) (ha : Act.close ∉ as) (h : exec s as = some t) : Inv t ∧ Alone t := by
  induction as generalizing s with
  | nil => cases h; exact ⟨hi, hc⟩
  | cons a as ih =>
    simp only [exec] at h
    obtain ⟨u, hu, h⟩ := Option.bind_eq_some_iff.mp h
    simp only [List.mem_cons, not_or] at ha
    exact ih (inv_step hi (fun e => absurd e.symm ha.1) hu) (alone_step hi hc (Ne.symm ha.1) hu) ha.2 h

/-- **C117 when nobody calls `Close`**: a publisher may leave at any time and the program does not crash. The application is told at most twice. Where no
action is possible any more, a connection that was made is closed, the goroutine reading from it is over, every disconnect thread is, no lock is held and
the application has been told. That it may have been told twice is `C117_told_twice_false`. -/
theorem C117_leaves {as : List Act} {s : St} (h : exec init as = some s) (ha : Act.close ∉ as) :
    s.crashed = false ∧ s.called.length ≤ 2 ∧
    ((∀ a, a ≠ .leave → a ≠ .close → step s a = none) →
      s.n = .over ∧ s.t = .idle ∧ s.action = none ∧ s.disconnecting = false ∧ s.connected = false ∧ (∀ k, s.d k = .idle ∨ s.d k = .ended) ∧
      (s.socket = true → s.r = .ended ∧ s.closed = true ∧ s.disconnected = true ∧ s.called ≠ [])) := by
  obtain ⟨hi, hc⟩ := alone_exec inv_init alone_init ha h
  refine ⟨hc.safe, ?_, ?_⟩
  · have hsub : ∀ k ∈ s.called, k < s.nd := by
      intro k hk
      by_contra hn
      have := hi.fresh k (by omega)
      have := (hc.told k).1 hk
      simp_all
    have hle : s.called.length ≤ s.nd := by
      have := (List.subperm_of_subset hc.once (l₂ := List.range s.nd) fun k hk => List.mem_range.2 (hsub k hk)).length_le
      simpa using this
    cases hcon : s.connected with
    | true => have := hc.on hcon; omega
    | false => have := hc.few hcon; omega
  · intro hs
    have hstep : ∀ a, step s a = match a with
        | .dial ok => stepDial s ok
        | .resp => stepResp s
        | .term => stepTerm s
        | .dis k => stepDis s k
        | .close => stepClose s
        | .leave => some { s with gone := true } := by
      intro a; unfold step; rw [if_neg (by simp [hc.safe])]; rfl
    have hn : stepDial s true = none := by have := hs (.dial true) (by simp) (by simp); rwa [hstep] at this
    have hr : stepResp s = none := by have := hs .resp (by simp) (by simp); rwa [hstep] at this
    have ht : stepTerm s = none := by have := hs .term (by simp) (by simp); rwa [hstep] at this
    have hd : ∀ k, stepDis s k = none := by intro k; have := hs (.dis k) (by simp) (by simp); rwa [hstep] at this
    have ht' : s.t = .idle := by cases hx : s.t <;> simp [stepTerm, hx] at ht <;> rfl
    have hr' : s.r = .none ∨ s.r = .ended := by
      cases hx : s.r <;> simp [stepResp, hx] at hr <;> simp
      exact absurd ht' hr
    have hd' : ∀ k, s.d k = .idle ∨ s.d k = .ended := by
      intro k
      have h1 := hd k
      obtain ⟨w1, w2, w3⟩ := hc.way k
      cases hx : s.d k <;> simp [stepDis, hx] at h1 <;> first | (simp; done) | (exfalso; simp [hx] at w1 w2; done) | skip
      have := (hc.runs k hx).1
      rcases hr' with h | h
      · exact absurd h this
      · exact absurd h h1
    have hdis : s.disconnecting = false := by
      by_contra hx
      rcases hc.under (by simpa using hx) with h | h | ⟨k, h⟩
      · rw [ht'] at h; cases h
      · rw [ht'] at h; cases h
      · rcases hd' k with g | g <;> simp [g, DPc.active] at h
    have hquiet : ∀ k, s.joined k = true := by
      intro k
      cases k with
      | none => rfl
      | some k => rcases hd' k with g | g <;> simp [St.joined, g, DPc.quiet]
    have hn' : s.n = .over := by
      have hl := hc.lock
      cases hx : s.n <;> simp [stepDial, hx] at hn <;> first | rfl | skip
      · rename_i k
        rw [hquiet k] at hn
        cases hn
      · rw [hx] at hl
        rcases hl with h | ⟨_, h⟩
        · exact absurd h hn
        · simp at h
    have hact : s.action = none := by
      have hl := hc.lock
      rw [hn'] at hl
      simpa using hl
    have hsock : s.socket = true → s.r = .ended := by
      intro h
      rcases hr' with g | g
      · exact absurd g (hc.begun (by rw [hn']; rfl) h)
      · exact g
    have hcon : s.connected = false := by
      by_contra hx
      have hx : s.connected = true := by simpa using hx
      rw [hc.ended (hsock (hc.made hx))] at hx
      cases hx
    refine ⟨hn', ht', hact, hdis, hcon, hd', fun h => ?_⟩
    have h0 : s.nd ≠ 0 := by
      rcases hc.off h hcon with g | g
      · exact g
      · rw [ht'] at g; cases g
    have hend : s.d 0 = .ended := (hd' 0).resolve_left (hc.some 0 (by omega))
    refine ⟨hsock h, ?_, hc.marked 0 (.inr hend), ?_⟩
    · rw [hc.shut 0 (by simp [hend, DPc.past])]
      exact h
    · exact List.ne_nil_of_mem ((hc.told 0).2 (by simp [hend]))

/-- The publisher leaves; the response goroutine fails twice before the termination thread runs, which then runs once more after all is over. -/
def twice : List Act :=
  dialled ++ [.resp, .resp, .leave, .resp, .resp, .resp, .resp] ++ [.resp, .resp, .resp, .resp] ++ List.replicate 5 .term ++ [.resp, .resp] ++
    List.replicate 8 (.dis 0) ++ List.replicate 5 .term ++ List.replicate 6 (.dis 1)

/-- Refuted: the application is told once that the connection is terminated, for a publisher that leaves while nobody calls `Close`. It may be told twice. -/
theorem C117_told_twice_false : Act.close ∉ twice ∧ (exec init twice).map (fun s => (s.called, s.disconnecting, s.connected, s.t, s.r)) =
    some ([0, 1], false, false, .idle, .ended) := by
  decide +kernel

/-- The publisher leaves and all is over; the application is told once. -/
def left : List Act :=
  dialled ++ [.resp, .resp, .leave, .resp, .resp, .resp, .resp] ++ List.replicate 5 .term ++ [.resp] ++ List.replicate 8 (.dis 0)

/-- The hypotheses of `C117_leaves` are met, and what it says is seen. -/
example : Act.close ∉ left ∧ (exec init left).map (fun s => (s.called, s.closed, s.d 0)) = some ([0], true, .ended) ∧
    ∃ s, exec init left = some s ∧ step s .resp = none ∧ step s .term = none ∧ step s (.dis 0) = none ∧ step s (.dial true) = none ∧ s.called = [0] :=
  ⟨by decide +kernel, by decide +kernel, _, rfl, rfl, rfl, rfl, rfl, rfl⟩

end Verif.Sync.Close
