import Verif.Connector.Cancel

/-!
# Property C35: what `Cancel` guarantees
-/

namespace Verif.Connector.Cancel

theorem leads_induct {P : St → Prop} (hstep : ∀ s a t, P s → step s a = some t → P t) :
    ∀ {as : List Act} {s t : St}, P s → exec s as = some t → P t := by
  intro as
  induction as with
  | nil => intro s t h ht; obtain rfl := Option.some.inj ht; exact h
  | cons a as ih =>
    intro s t h ht
    rw [exec] at ht
    obtain ⟨u, hu, ht⟩ := Option.bind_eq_some_iff.1 ht
    exact ih (hstep s a u h hu) ht

/-- The sequence is in a retry wait, or about to test the cancel flag after one. -/
def Waiting (g : GPc) : Prop :=
  g = .autoArm ∨ g = .autoStore ∨ g = .autoWait ∨ g = .autoTest ∨ g = .arm ∨ g = .store ∨ g = .wait ∨ g = .test

/-- From a retry wait with the cancel flag on, nothing is dialled any more. -/
theorem quiet_step (n : Nat) (s : St) (a : Act) (t : St)
    (h : s.dials = n ∧ (s.g = .ended ∨ (s.cancel = true ∧ Waiting s.g))) (ht : step s a = some t) :
    t.dials = n ∧ (t.g = .ended ∨ (t.cancel = true ∧ Waiting t.g)) := by
  obtain ⟨hd, h⟩ := h
  cases a with
  | fire =>
    simp only [step] at ht
    split at ht
    · obtain rfl := Option.some.inj ht; exact ⟨hd, h⟩
    · cases ht
  | cancel =>
    simp only [step] at ht
    split at ht
    · obtain rfl := Option.some.inj ht
      exact ⟨hd, h.imp id (fun h => ⟨rfl, h.2⟩)⟩
    · obtain rfl := Option.some.inj ht; exact ⟨hd, h⟩
    · obtain rfl := Option.some.inj ht; exact ⟨hd, h⟩
    · obtain rfl := Option.some.inj ht; exact ⟨hd, h⟩
    · split at ht
      · obtain rfl := Option.some.inj ht; exact ⟨hd, h⟩
      · cases ht
    · cases ht
  | go ch =>
    rcases h with h | ⟨hc, h⟩
    · simp [step, h] at ht
    · rcases h with h | h | h | h | h | h | h | h <;> simp only [step, h, hc, if_true] at ht <;>
        first
        | (split at ht
           · obtain rfl := Option.some.inj ht
             exact ⟨hd, .inr ⟨rfl, by simp [Waiting]⟩⟩
           · cases ht)
        | (obtain rfl := Option.some.inj ht
           first
           | exact ⟨hd, .inl rfl⟩
           | exact ⟨hd, .inr ⟨rfl, by simp [Waiting]⟩⟩)

/-- Once the flag is set during a retry wait, no connection attempt starts any more. -/
theorem C35_no_dial_after_cancel_in_wait (s t : St) (hc : s.cancel = true) (hw : Waiting s.g) (h : Leads s t) :
    t.dials = s.dials := by
  obtain ⟨as, h⟩ := h
  exact (leads_induct (fun u a v => quiet_step s.dials u a v) ⟨rfl, .inr ⟨hc, hw⟩⟩ h).1

/-- The facts about timers and the thread flag that hold throughout. -/
structure Inv (s : St) : Prop where
  stored : ∀ k, s.stored = some k → k ≤ s.timers
  copy : ∀ k, s.copy = some k → k ≤ s.timers
  fresh : s.g = .autoStore ∨ s.g = .store → (∀ k, s.stored = some k → k < s.timers) ∧
    (∀ k, s.copy = some k → k < s.timers) ∧ s.timer ≠ .stopped
  ended : s.g = .ended → s.running = false
  joined : s.joined = true → s.c = .returned ∧ s.g = .ended
  joining : s.c = .joining → s.running = true ∨ s.g = .ended
  started : s.running = true → s.g ≠ .connectCheck ∧ s.g ≠ .autoCheck ∧ s.g ≠ .launch ∧ s.g ≠ .started
  active : s.g ≠ .ended → s.running = true ∨ s.c ≠ .joining

theorem inv_step (s : St) (a : Act) (t : St) (h : Inv s) (ht : step s a = some t) : Inv t := by
  obtain ⟨h1, h2, h3, h4, h5, h6, h7, h8⟩ := h
  cases a with
  | fire =>
    simp only [step] at ht
    split at ht
    · obtain rfl := Option.some.inj ht
      refine ⟨h1, h2, fun hg => ⟨(h3 hg).1, (h3 hg).2.1, by simp⟩, h4, h5, h6, h7, h8⟩
    · cases ht
  | cancel =>
    simp only [step] at ht
    split at ht
    · rename_i hc
      obtain rfl := Option.some.inj ht
      refine ⟨h1, h2, h3, h4, fun hj => ?_, by simp, h7, fun hg => .inr (by simp)⟩
      have := (h5 hj).1
      rw [hc] at this
      cases this
    · rename_i hc
      obtain rfl := Option.some.inj ht
      refine ⟨h1, h1, fun hg => ⟨(h3 hg).1, (h3 hg).1, (h3 hg).2.2⟩, h4, fun hj => ?_, by simp, h7,
        fun hg => .inr (by simp)⟩
      have := (h5 hj).1
      rw [hc] at this
      cases this
    · rename_i hc
      obtain rfl := Option.some.inj ht
      refine ⟨h1, h2, fun hg => ⟨(h3 hg).1, (h3 hg).2.1, ?_⟩, h4, fun hj => ?_, by simp, h7,
        fun hg => .inr (by simp)⟩
      · dsimp only
        rw [if_neg]
        · exact (h3 hg).2.2
        · rintro ⟨he, _⟩
          have := (h3 hg).2.1 _ he
          omega
      · have := (h5 hj).1
        rw [hc] at this
        cases this
    · rename_i hc
      obtain rfl := Option.some.inj ht
      refine ⟨h1, h2, h3, h4, fun hj => ?_, fun hj => ?_, h7, fun hg => ?_⟩
      · have := (h5 hj).1
        rw [hc] at this
        cases this
      · dsimp only at *
        cases hr : s.running with
        | true => exact .inl rfl
        | false => rw [hr] at hj; simp at hj
      · dsimp only at *
        cases hr : s.running with
        | true => exact .inl rfl
        | false => exact .inr (by simp)
    · rename_i hc
      split at ht
      · rename_i hr
        obtain rfl := Option.some.inj ht
        refine ⟨h1, h2, h3, h4, fun _ => ⟨rfl, ?_⟩, by simp, h7, fun hg => .inr (by simp)⟩
        dsimp only
        rcases h6 hc with h | h
        · rw [hr] at h; cases h
        · exact h
      · cases ht
    · cases ht
  | go ch =>
    have hgj : s.g ≠ .ended → s.joined = false := by
      intro hg
      cases hj : s.joined with
      | false => rfl
      | true => exact absurd (h5 hj).2 hg
    have fin : s.g ≠ .ended → ∀ n, Inv (St.finish { s with dials := n }) := by
      intro hg n
      refine ⟨h1, h2, fun h => ?_, fun _ => rfl, fun h => ?_, fun _ => .inr rfl, fun h => ?_, fun h => ?_⟩
      · rcases h with h | h <;> cases h
      · have := hgj hg
        change s.joined = true at h
        rw [this] at h
        cases h
      · cases h
      · exact absurd rfl h
    have fin' : s.g ≠ .ended → Inv s.finish := fun hg => fin hg s.dials
    -- moves inside the sequence
    have mv : ∀ (g' : GPc) (cn au : Bool) (n : Nat), s.g ≠ .ended → g' ≠ .ended → g' ≠ .autoStore → g' ≠ .store →
        (s.running = true → g' ≠ .connectCheck ∧ g' ≠ .autoCheck ∧ g' ≠ .launch ∧ g' ≠ .started) →
        Inv { s with g := g', cancel := cn, auto := au, dials := n } := by
      intro g' cn au n hg he ha hs hr
      refine ⟨h1, h2, fun h => ?_, fun h => absurd h he, fun h => ?_, fun h => ?_, hr, fun _ => h8 hg⟩
      · rcases h with h | h
        · exact absurd h ha
        · exact absurd h hs
      · have := hgj hg
        change s.joined = true at h
        rw [this] at h
        cases h
      · rcases h6 h with h | h
        · exact .inl h
        · exact absurd h hg
    have mk : ∀ (g' : GPc), s.g ≠ .ended → (g' = .autoStore ∨ g' = .store) →
        Inv { s with g := g', timers := s.timers + 1, timer := .pending } := by
      intro g' hg hs
      have he : g' ≠ .ended := by rcases hs with rfl | rfl <;> simp
      refine ⟨fun k hk => ?_, fun k hk => ?_, fun _ => ⟨fun k hk => ?_, fun k hk => ?_, by simp⟩,
        fun h => absurd h he, fun h => ?_, fun h => ?_, fun _ => ?_, fun _ => h8 hg⟩
      · exact Nat.le_succ_of_le (h1 k hk)
      · exact Nat.le_succ_of_le (h2 k hk)
      · exact Nat.lt_succ_of_le (h1 k hk)
      · exact Nat.lt_succ_of_le (h2 k hk)
      · have := hgj hg
        change s.joined = true at h
        rw [this] at h
        cases h
      · rcases h6 h with h | h
        · exact .inl h
        · exact absurd h hg
      · rcases hs with rfl | rfl <;> simp
    have stor : ∀ (g' : GPc), s.g ≠ .ended → (g' = .autoWait ∨ g' = .wait) →
        Inv { s with g := g', stored := some s.timers } := by
      intro g' hg hs
      have he : g' ≠ .ended := by rcases hs with rfl | rfl <;> simp
      refine ⟨fun k hk => ?_, h2, fun h => ?_, fun h => absurd h he, fun h => ?_, fun h => ?_, fun _ => ?_,
        fun _ => h8 hg⟩
      · dsimp only at hk ⊢
        have := Option.some.inj hk
        omega
      · rcases hs with rfl | rfl <;> simp at h
      · have := hgj hg
        change s.joined = true at h
        rw [this] at h
        cases h
      · rcases h6 h with h | h
        · exact .inl h
        · exact absurd h hg
      · rcases hs with rfl | rfl <;> simp
    simp only [step] at ht
    split at ht
    case h_4 hg =>
      -- the goroutine begins
      obtain rfl := Option.some.inj ht
      refine ⟨h1, h2, fun h => ?_, fun h => by simp at h, fun h => ?_, fun _ => .inl rfl, fun _ => by simp,
        fun _ => .inl rfl⟩
      · rcases h with h | h <;> cases h
      · have := hgj (by rw [hg]; simp)
        change s.joined = true at h
        rw [this] at h
        cases h
    all_goals
      rename_i hg
      have hne := hg
      have hr' : ∀ g' : GPc, g' ≠ .connectCheck → g' ≠ .autoCheck →
          ((g' = .launch ∨ g' = .started) → s.g = .autoCheck ∨ s.g = .launch) →
          s.running = true → g' ≠ .connectCheck ∧ g' ≠ .autoCheck ∧ g' ≠ .launch ∧ g' ≠ .started := by
        intro g' ha hb hc hr
        refine ⟨ha, hb, fun e => ?_, fun e => ?_⟩
        · rcases hc (.inl e) with h | h
          · exact (h7 hr).2.1 h
          · exact (h7 hr).2.2.1 h
        · rcases hc (.inr e) with h | h
          · exact (h7 hr).2.1 h
          · exact (h7 hr).2.2.1 h
      first
      | (cases ht; done)
      | (split at ht
         · obtain rfl := Option.some.inj ht
           exact mv _ _ _ _ (by rw [hg]; simp) (by simp) (by simp) (by simp)
             (hr' _ (by simp) (by simp) (by simp [hg]))
         · cases ht; done)
      | (obtain rfl := Option.some.inj ht
         first
         | exact mk _ (by rw [hg]; simp) (by simp)
         | exact stor _ (by rw [hg]; simp) (by simp)
         | exact mv _ _ _ _ (by rw [hg]; simp) (by simp) (by simp) (by simp)
             (hr' _ (by simp) (by simp) (by simp [hg]))
         | (split
            · first
              | exact fin' (by rw [hg]; simp)
              | exact fin (by rw [hg]; simp) _
              | exact mv _ _ _ _ (by rw [hg]; simp) (by simp) (by simp) (by simp)
                  (hr' _ (by simp) (by simp) (by simp [hg]))
            · exact mv _ _ _ _ (by rw [hg]; simp) (by simp) (by simp) (by simp)
                (hr' _ (by simp) (by simp) (by simp [hg]))))

theorem inv_init_connect (n : Nat) : Inv (initConnect n) := by
  constructor <;> simp [initConnect]

theorem inv_init_auto (n : Nat) : Inv (initAuto n) := by
  constructor <;> simp [initAuto]

theorem inv_reach {s : St} (h : Reach s) : Inv s := by
  obtain ⟨n, ⟨as, h⟩ | ⟨as, h⟩⟩ := h
  · exact leads_induct inv_step (inv_init_connect n) h
  · exact leads_induct inv_step (inv_init_auto n) h

/-- After a `Cancel` that waited for the reconnect thread, the sequence is over for good. -/
theorem C35_joined_cancel_is_final (s t : St) (h : Reach s) (hj : s.joined = true) (ht : Leads s t) :
    s.g = .ended ∧ t.dials = s.dials := by
  have hg := ((inv_reach h).joined hj).2
  refine ⟨hg, ?_⟩
  obtain ⟨as, ht⟩ := ht
  exact (leads_induct (fun u a v => quiet_step s.dials u a v) ⟨rfl, .inl hg⟩ ht).1

/-! ## Progress -/

/-- The sequence can come to its end while the canceller waits. -/
def CanEnd (s : St) : Prop := ∃ t, Leads s t ∧ t.g = .ended ∧ t.running = false ∧ t.c = s.c

theorem CanEnd.of_step {s u : St} (a : Act) (h : step s a = some u) (hc : u.c = s.c) (hu : CanEnd u) : CanEnd s := by
  obtain ⟨t, ⟨as, ht⟩, h1, h2, h3⟩ := hu
  exact ⟨t, ⟨a :: as, by rw [exec, h]; exact ht⟩, h1, h2, by rw [h3, hc]⟩

theorem CanEnd.finish (s : St) : CanEnd s.finish := ⟨_, ⟨[], rfl⟩, rfl, rfl, rfl⟩

theorem CanEnd.of_finish {s u : St} (a : Act) (h : step s a = some u) (hc : u.c = s.c) (hg : u.g = .ended)
    (hr : u.running = false) : CanEnd s :=
  CanEnd.of_step a h hc ⟨u, ⟨[], rfl⟩, hg, hr, rfl⟩

theorem canEnd_dial {s : St} (h : s.g = .dial) : CanEnd s :=
  .of_finish (.go .yes) (by simp only [step, h]; rfl) (by rfl) (by rfl) (by rfl)

theorem canEnd_dialReset {s : St} (h : s.g = .dialReset) : CanEnd s := by
  cases ha : s.auto with
  | true => exact .of_step (.go .no) (by simp only [step, h, ha]; rfl) (by rfl) (by exact canEnd_dial rfl)
  | false => exact .of_step (.go .no) (by simp only [step, h, ha]; rfl) (by rfl) (by exact canEnd_dial rfl)

theorem canEnd_loop {s : St} (h : s.g = .loop) : CanEnd s :=
  .of_step (.go .no) (by simp only [step, h]; rfl) (by rfl) (by exact canEnd_dialReset rfl)

theorem canEnd_enter {s : St} (h : s.g = .enter) : CanEnd s :=
  .of_step (.go .no) (by simp only [step, h]; rfl) (by rfl) (by exact canEnd_loop rfl)

theorem canEnd_test {s : St} (h : s.g = .test) : CanEnd s := by
  cases hc : s.cancel with
  | true => exact .of_step (.go .no) (by simp only [step, h, hc]; rfl) (by rfl) (by exact CanEnd.finish s)
  | false => exact .of_step (.go .no) (by simp only [step, h, hc]; rfl) (by rfl) (by exact canEnd_loop rfl)

theorem canEnd_autoTest {s : St} (h : s.g = .autoTest) : CanEnd s := by
  cases hc : s.cancel with
  | true => exact .of_step (.go .no) (by simp only [step, h, hc]; rfl) (by rfl) (by exact CanEnd.finish s)
  | false => exact .of_step (.go .no) (by simp only [step, h, hc]; rfl) (by rfl) (by exact canEnd_enter rfl)

theorem canEnd_wait_fired {s : St} (h : s.g = .wait) (ht : s.timer = .fired) : CanEnd s :=
  .of_step (.go .no) (by simp only [step, h]; rw [if_pos ht]) (by rfl) (by exact canEnd_test rfl)

theorem canEnd_autoWait_fired {s : St} (h : s.g = .autoWait) (ht : s.timer = .fired) : CanEnd s :=
  .of_step (.go .no) (by simp only [step, h]; rw [if_pos ht]) (by rfl) (by exact canEnd_autoTest rfl)

theorem canEnd_wait {s : St} (h : s.g = .wait) (ht : s.timer ≠ .stopped) : CanEnd s := by
  cases hx : s.timer with
  | fired => exact canEnd_wait_fired h hx
  | pending => exact .of_step .fire (by rw [step, if_pos hx]) (by rfl) (by exact canEnd_wait_fired h rfl)
  | stopped => exact absurd hx ht

theorem canEnd_autoWait {s : St} (h : s.g = .autoWait) (ht : s.timer ≠ .stopped) : CanEnd s := by
  cases hx : s.timer with
  | fired => exact canEnd_autoWait_fired h hx
  | pending => exact .of_step .fire (by rw [step, if_pos hx]) (by rfl) (by exact canEnd_autoWait_fired h rfl)
  | stopped => exact absurd hx ht

theorem canEnd_store {s : St} (h : s.g = .store) (ht : s.timer ≠ .stopped) : CanEnd s :=
  .of_step (.go .no) (by simp only [step, h]; rfl) (by rfl) (by exact canEnd_wait rfl ht)

theorem canEnd_autoStore {s : St} (h : s.g = .autoStore) (ht : s.timer ≠ .stopped) : CanEnd s :=
  .of_step (.go .no) (by simp only [step, h]; rfl) (by rfl) (by exact canEnd_autoWait rfl ht)

theorem canEnd_arm {s : St} (h : s.g = .arm) : CanEnd s :=
  .of_step (.go .no) (by simp only [step, h]; rfl) (by rfl) (by exact canEnd_store rfl (by simp))

theorem canEnd_autoArm {s : St} (h : s.g = .autoArm) : CanEnd s :=
  .of_step (.go .no) (by simp only [step, h]; rfl) (by rfl) (by exact canEnd_autoStore rfl (by simp))

theorem canEnd_autoLimit {s : St} (h : s.g = .autoLimit) : CanEnd s :=
  .of_step (.go .no) (by simp only [step, h]; rfl) (by rfl) (by exact canEnd_autoArm rfl)

/-- A `Cancel` waiting for the thread can still return, unless the thread waits for a timer that was stopped. -/
theorem joining_can_end (s : St) (h : Reach s) (hc : s.c = .joining)
    (hs : ¬ (s.timer = .stopped ∧ (s.g = .autoWait ∨ s.g = .wait))) : CanEnd s := by
  have hi := inv_reach h
  have hr : s.running = true ∨ s.g = .ended := hi.joining hc
  cases hg : s.g with
  | ended => exact ⟨s, ⟨[], rfl⟩, hg, hi.ended hg, rfl⟩
  | connectCheck | autoCheck | launch | started =>
    exfalso
    rcases hr with hr | hr
    · have := hi.started hr
      rw [hg] at this
      simp at this
    · rw [hg] at hr; cases hr
  | reset =>
    exact .of_step (.go .yes) (by simp only [step, hg]; rfl) (by rfl) (by exact canEnd_autoLimit rfl)
  | autoLimit => exact canEnd_autoLimit hg
  | autoArm => exact canEnd_autoArm hg
  | autoStore => exact canEnd_autoStore hg (hi.fresh (.inl hg)).2.2
  | autoWait => exact canEnd_autoWait hg (fun ht => hs ⟨ht, .inl hg⟩)
  | autoTest => exact canEnd_autoTest hg
  | enter => exact canEnd_enter hg
  | loop => exact canEnd_loop hg
  | dialReset => exact canEnd_dialReset hg
  | dial => exact canEnd_dial hg
  | arm => exact canEnd_arm hg
  | store => exact canEnd_store hg (hi.fresh (.inr hg)).2.2
  | wait => exact canEnd_wait hg (fun ht => hs ⟨ht, .inr hg⟩)
  | test => exact canEnd_test hg

/-- Nothing happens in this state or ever after, as far as the sequence and the canceller are concerned. -/
def Stuck (s : St) : Prop := ∀ a, step s a = none

/-- A canceller waiting for a thread that waits for a stopped timer is stuck. -/
theorem stuck_of_stopped (s : St) (hc : s.c = .joining) (hr : s.running = true) (ht : s.timer = .stopped)
    (hg : s.g = .autoWait ∨ s.g = .wait) : Stuck s := by
  intro a
  cases a with
  | fire => rw [step, if_neg (by rw [ht]; simp)]
  | cancel => simp only [step, hc, hr]; rfl
  | go ch => rcases hg with hg | hg <;> simp only [step, hg, ht] <;> rfl

/-- A `Cancel` call waiting for the reconnect thread either can return, or is stuck for ever, and the latter exactly
when the thread waits for the timer that `Cancel` stopped. -/
theorem C35_joining_progress (s : St) (h : Reach s) (hc : s.c = .joining) :
    (¬ (s.timer = .stopped ∧ (s.g = .autoWait ∨ s.g = .wait)) → ∃ t, Leads s t ∧ t.c = .returned) ∧
    ((s.timer = .stopped ∧ (s.g = .autoWait ∨ s.g = .wait)) → Stuck s) := by
  refine ⟨fun hs => ?_, fun hs => ?_⟩
  · obtain ⟨t, ⟨as, ht⟩, _, hr, hct⟩ := joining_can_end s h hc hs
    refine ⟨{ t with c := .returned, joined := true }, ⟨as ++ [.cancel], ?_⟩, rfl⟩
    have app : ∀ (as : List Act) (s t : St), exec s as = some t → ∀ bs, exec s (as ++ bs) = exec t bs := by
      intro as
      induction as with
      | nil => intro s t h bs; obtain rfl := Option.some.inj h; rfl
      | cons a as ih =>
        intro s t h bs
        rw [exec] at h
        obtain ⟨u, hu, h⟩ := Option.bind_eq_some_iff.1 h
        rw [List.cons_append, exec, hu]
        exact ih u t h bs
    rw [app as s t ht, exec]
    have : step t .cancel = some { t with c := .returned, joined := true } := by
      simp only [step, hct, hc, hr]; rfl
    rw [this]
    rfl
  · refine stuck_of_stopped s hc ?_ hs.1 hs.2
    rcases (inv_reach h).joining hc with hr | hg
    · exact hr
    · rcases hs.2 with h' | h' <;> rw [h'] at hg <;> cases hg

/-- **C35 (the part that holds).** Under every schedule of one `Cancel` call, the retry timer and a connection
sequence:
1. if the cancel flag is on while the sequence is in a retry wait (or has not yet tested the flag after one), no
   connection attempt starts afterwards;
2. once a `Cancel` that had to wait for the reconnect thread has returned, the sequence is over and no connection
   attempt starts afterwards;
3. a `Cancel` waiting for the thread can return unless the thread waits for the very timer `Cancel` stopped.

Missing: in general attempts do start after `Cancel`, see `C35_dial_after_cancel_returned_false`, and `Cancel` does
not always return, see `C35_cancel_deadlock_false`; `Connect` can hang too, see `C35_connect_hangs_false`. -/
theorem C35_cancel_partial :
    (∀ s t, s.cancel = true → Waiting s.g → Leads s t → t.dials = s.dials) ∧
    (∀ s t, Reach s → s.joined = true → Leads s t → s.g = .ended ∧ t.dials = s.dials) ∧
    (∀ s, Reach s → s.c = .joining → ¬ (s.timer = .stopped ∧ (s.g = .autoWait ∨ s.g = .wait)) →
      ∃ t, Leads s t ∧ t.c = .returned) :=
  ⟨C35_no_dial_after_cancel_in_wait, C35_joined_cancel_is_final, fun s h hc => (C35_joining_progress s h hc).1⟩

/-- The timer fires before `Cancel` stops it: `Cancel` waits for the thread and returns, nothing was dialled. -/
example : ∃ s t, Reach s ∧ s.cancel = true ∧ Waiting s.g ∧ Leads s t ∧ t.joined = true ∧ t.c = .returned ∧
    t.dials = 0 :=
  ⟨_, _, ⟨1, .inr ⟨[.go .no, .go .no, .go .no, .go .no, .go .no, .go .no, .go .no, .fire, .cancel, .cancel], rfl⟩⟩,
    rfl, .inr (.inr (.inl rfl)), ⟨[.cancel, .cancel, .go .no, .go .no, .cancel], rfl⟩, rfl, rfl, rfl⟩

/-- **C35 is false of the code**: `Cancel` stops the pending timer the reconnect thread waits for, then waits for
that thread; neither ever moves again. -/
theorem C35_cancel_deadlock_false : ∃ s, Reach s ∧ s.c = .joining ∧ Stuck s := by
  refine ⟨_, ⟨1, .inr ⟨[.go .no, .go .no, .go .no, .go .no, .go .no, .go .no, .go .no,
    .cancel, .cancel, .cancel, .cancel], rfl⟩⟩, rfl, ?_⟩
  exact stuck_of_stopped _ rfl rfl rfl (.inl rfl)

/-- **C35 is false of the code**: `autoReconnect` has tested the flag, `Cancel` runs and returns, then the reconnect
goroutine clears the flag and dials. -/
theorem C35_dial_after_cancel_returned_false :
    ∃ s t, Reach s ∧ s.c = .returned ∧ s.dials = 0 ∧ Leads s t ∧ t.dials = 1 :=
  ⟨_, _, ⟨1, .inr ⟨[.go .no, .cancel, .cancel, .cancel, .cancel], rfl⟩⟩, rfl, rfl,
    ⟨[.go .no, .go .no, .go .no, .go .no, .go .no, .go .no, .fire, .go .no, .go .no, .go .no, .go .no, .go .no,
      .go .no], rfl⟩, rfl⟩

/-- **C35 is false of the code**: `Cancel` during the retry wait of a user's `Connect` returns, but that `Connect`
waits for the stopped timer for ever. -/
theorem C35_connect_hangs_false : ∃ s, Reach s ∧ s.c = .returned ∧ s.g = .wait ∧ Stuck s := by
  refine ⟨_, ⟨0, .inl ⟨[.go .no, .go .no, .go .no, .go .no, .go .no, .go .no, .go .no,
    .cancel, .cancel, .cancel, .cancel], rfl⟩⟩, rfl, rfl, ?_⟩
  intro a
  cases a with
  | fire => rfl
  | cancel => rfl
  | go ch => rfl

end Verif.Connector.Cancel
