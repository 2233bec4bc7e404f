import Verif.Sync.Listen

/-!
# C113: a listening subscriber serves one publisher at a time
-/

namespace Verif.Sync.Listen

open Function (update)

/-- The states after a state. -/
def Leads (s t : St) : Prop := ∃ as, exec s as = some t

theorem leads_keeps {P : St → Prop} (hstep : ∀ s a t, P s → step s a = some t → P t) {s t : St} (hs : P s)
    (h : Leads s t) : P t := by
  obtain ⟨as, h⟩ := h
  induction as generalizing s with
  | nil => cases h; exact hs
  | cons a as ih =>
    rw [exec] at h
    cases ha : step s a with
    | none => rw [ha] at h; cases h
    | some u => rw [ha] at h; exact ih (hstep s a u hs ha) h

/-! ## In all schedules -/

/-- A connection in the hands of the accept thread that nothing has been decided about. -/
def APc.hand : APc → Option Nat
  | .test k | .lock k | .assign k => some k
  | _ => none

/-- The accept thread is about to serve a connection. -/
def APc.serving : APc → Bool
  | .lock _ | .assign _ | .set _ => true
  | _ => false

/-- What holds of all states. -/
structure Always (s : St) : Prop where
  served : s.served.Nodup
  refused : ∀ k ∈ s.refused, s.closed k = true ∧ k < s.next ∧ k ∉ s.served
  current : s.socket = s.served.getLast?
  known : ∀ k ∈ s.served, k < s.next
  hand : ∀ k, s.acc.hand = some k → k < s.next ∧ k ∉ s.served ∧ k ∉ s.refused
  free : s.acc.serving = true → s.connected = false
  stream : ∀ k, s.stream = some k → k ∈ s.served
  header : ∀ i k, s.r i = .header (some k) → k ∈ s.served
  got : ∀ k ∈ s.got, k ∈ s.served
  closed : ∀ k, s.closed k = true → k ∈ s.refused ∨ k ∈ s.served

theorem hangUp_mono (s : St) {k : Nat} (h : s.closed k = true) : s.hangUp k = true := by
  unfold St.hangUp
  cases s.socket with
  | none => exact h
  | some c =>
    by_cases hk : k = c
    · subst hk; exact Function.update_self _ _ _
    · show update s.closed c true k = true
      rw [Function.update_of_ne hk]; exact h

/-- Only the accept thread serves, refuses and connects. -/
theorem frame {s t : St} {a : Act} (ha : a ≠ .acc) (h : step s a = some t) :
    t.served = s.served ∧ t.refused = s.refused ∧ t.next = s.next ∧ t.acc = s.acc ∧ t.socket = s.socket ∧
    (∀ k, s.closed k = true → t.closed k = true) ∧ (t.connected = true → s.connected = true) := by
  cases a with
  | acc => exact absurd rfl ha
  | leave k => simp only [step] at h; split at h <;> cases h; exact ⟨rfl, rfl, rfl, rfl, rfl, fun _ h => h, fun h => h⟩
  | resp k =>
    simp only [step, stepR] at h
    split at h
    · cases h
    · cases h; exact ⟨rfl, rfl, rfl, rfl, rfl, fun _ h => h, fun h => h⟩
    · cases h; exact ⟨rfl, rfl, rfl, rfl, rfl, fun _ h => h, fun h => h⟩
    · cases h; exact ⟨rfl, rfl, rfl, rfl, rfl, fun _ h => h, fun h => h⟩
    · cases h; split <;> exact ⟨rfl, rfl, rfl, rfl, rfl, fun _ h => h, fun h => h⟩
    · cases h; exact ⟨rfl, rfl, rfl, rfl, rfl, fun _ h => h, fun h => h⟩
    · cases h; exact ⟨rfl, rfl, rfl, rfl, rfl, fun _ h => h, fun h => h⟩
    · cases h
  | term =>
    simp only [step, stepTerm] at h
    split at h
    · cases h
    · split at h <;> cases h
      · exact ⟨rfl, rfl, rfl, rfl, rfl, fun _ h => h, fun h => h⟩
      · exact ⟨rfl, rfl, rfl, rfl, rfl, fun _ h => h, fun h => by cases h⟩
  | dis i =>
    simp only [step, stepD] at h
    split at h
    · cases h
    · split at h <;> cases h; exact ⟨rfl, rfl, rfl, rfl, rfl, fun _ h => h, fun h => h⟩
    · cases h; exact ⟨rfl, rfl, rfl, rfl, rfl, fun _ h => h, fun h => h⟩
    · cases h; exact ⟨rfl, rfl, rfl, rfl, rfl, fun _ h => hangUp_mono s h, fun h => h⟩
    · split at h <;> cases h; exact ⟨rfl, rfl, rfl, rfl, rfl, fun _ h => h, fun h => h⟩
    · split at h <;> cases h; exact ⟨rfl, rfl, rfl, rfl, rfl, fun _ h => h, fun h => h⟩
    · cases h; exact ⟨rfl, rfl, rfl, rfl, rfl, fun _ h => h, fun h => h⟩
    · cases h; exact ⟨rfl, rfl, rfl, rfl, rfl, fun _ h => h, fun h => h⟩
    · cases h
  | user =>
    simp only [step, stepUser] at h
    split at h <;> cases h
    · exact ⟨rfl, rfl, rfl, rfl, rfl, fun _ h => h, fun h => h⟩
    · exact ⟨rfl, rfl, rfl, rfl, rfl, fun _ h => h, fun h => by cases h⟩

/-- What the response goroutines have in hand is of the connection served last, or of one served before. -/
theorem frame_read {s t : St} {a : Act} (hs : Always s) (ha : a ≠ .acc) (h : step s a = some t) :
    (∀ k, t.stream = some k → k ∈ s.served) ∧ (∀ i k, t.r i = .header (some k) → k ∈ s.served) ∧ (∀ k ∈ t.got, k ∈ s.served) := by
  cases a with
  | acc => exact absurd rfl ha
  | leave k => simp only [step] at h; split at h <;> cases h; exact ⟨hs.stream, hs.header, hs.got⟩
  | resp j =>
    have upd : ∀ (p : RPc) (hp : ∀ k, p = .header (some k) → k ∈ s.served) (i k : Nat), update s.r j p i = .header (some k) → k ∈ s.served := by
      intro p hp i k hi
      by_cases hij : i = j
      · subst hij; rw [Function.update_self] at hi; exact hp k hi
      · rw [Function.update_of_ne hij] at hi; exact hs.header i k hi
    simp only [step, stepR] at h
    split at h
    · cases h
    · cases h
      refine ⟨fun k hk => ?_, upd _ (by simp), hs.got⟩
      have hk : s.socket = some k := hk
      rw [hs.current] at hk
      exact List.mem_of_getLast? hk
    · cases h; exact ⟨hs.stream, upd _ (by split <;> simp), hs.got⟩
    · cases h
      refine ⟨hs.stream, upd _ (fun k hk => ?_), hs.got⟩
      have hk : s.readable = some k := by simpa using hk
      unfold St.readable at hk
      split at hk
      · cases hk
      · next c hc =>
        split at hk
        · cases hk
        · cases hk; exact hs.stream _ hc
    · next c hc =>
      cases h
      split
      · exact ⟨hs.stream, upd _ (by simp), hs.got⟩
      · refine ⟨hs.stream, upd _ (by simp), fun k hk => ?_⟩
        rcases List.mem_append.1 hk with hk | hk
        · exact hs.got k hk
        · rw [List.mem_singleton] at hk; subst hk; exact hs.header _ _ hc
    · cases h; exact ⟨hs.stream, upd _ (by split <;> simp), hs.got⟩
    · cases h; exact ⟨hs.stream, upd _ (by simp), hs.got⟩
    · cases h
  | term =>
    simp only [step, stepTerm] at h
    split at h
    · cases h
    · split at h <;> cases h <;> exact ⟨hs.stream, hs.header, hs.got⟩
  | dis i =>
    simp only [step, stepD] at h
    split at h
    · cases h
    · split at h <;> cases h; exact ⟨hs.stream, hs.header, hs.got⟩
    · cases h; exact ⟨hs.stream, hs.header, hs.got⟩
    · cases h; exact ⟨hs.stream, hs.header, hs.got⟩
    · split at h <;> cases h; exact ⟨hs.stream, hs.header, hs.got⟩
    · split at h <;> cases h; exact ⟨hs.stream, hs.header, hs.got⟩
    · cases h; exact ⟨hs.stream, hs.header, hs.got⟩
    · cases h; exact ⟨hs.stream, hs.header, hs.got⟩
    · cases h
  | user =>
    simp only [step, stepUser] at h
    split at h <;> cases h <;> exact ⟨hs.stream, hs.header, hs.got⟩

/-- Closed is what was refused or served. -/
theorem frame_closed {s t : St} {a : Act} (hs : Always s) (ha : a ≠ .acc) (h : step s a = some t) :
    ∀ k, t.closed k = true → k ∈ s.refused ∨ k ∈ s.served := by
  cases a with
  | acc => exact absurd rfl ha
  | leave k => simp only [step] at h; split at h <;> cases h; exact hs.closed
  | resp j =>
    simp only [step, stepR] at h
    split at h
    · cases h
    · cases h; exact hs.closed
    · cases h; exact hs.closed
    · cases h; exact hs.closed
    · cases h; split <;> exact hs.closed
    · cases h; exact hs.closed
    · cases h; exact hs.closed
    · cases h
  | term =>
    simp only [step, stepTerm] at h
    split at h
    · cases h
    · split at h <;> cases h <;> exact hs.closed
  | dis i =>
    simp only [step, stepD] at h
    split at h
    · cases h
    · split at h <;> cases h; exact hs.closed
    · cases h; exact hs.closed
    · cases h
      intro k hk
      have hk : s.hangUp k = true := hk
      unfold St.hangUp at hk
      cases hc : s.socket with
      | none => rw [hc] at hk; exact hs.closed k hk
      | some c =>
        rw [hc] at hk
        by_cases hkc : k = c
        · subst hkc
          exact .inr (List.mem_of_getLast? (hs.current ▸ hc))
        · have hk : update s.closed c true k = true := hk
          rw [Function.update_of_ne hkc] at hk; exact hs.closed k hk
    · split at h <;> cases h; exact hs.closed
    · split at h <;> cases h; exact hs.closed
    · cases h; exact hs.closed
    · cases h; exact hs.closed
    · cases h
  | user =>
    simp only [step, stepUser] at h
    split at h <;> cases h <;> exact hs.closed

theorem always_step {s : St} {a : Act} {t : St} (hs : Always s) (h : step s a = some t) : Always t := by
  by_cases ha : a = .acc
  · subst ha
    simp only [step, stepAcc] at h
    split at h
    · next hp =>
      cases h
      exact ⟨hs.served, hs.refused, hs.current, hs.known, by cases s.listening <;> simp [APc.hand],
        by cases s.listening <;> simp [APc.serving], hs.stream, hs.header, hs.got, hs.closed⟩
    · next hp =>
      cases h
      cases hl : s.listenOpen with
      | false => exact ⟨hs.served, hs.refused, hs.current, hs.known, by simp [APc.hand], by simp [APc.serving], hs.stream, hs.header, hs.got, hs.closed⟩
      | true =>
        refine ⟨hs.served, fun k hk => ⟨(hs.refused k hk).1, Nat.lt_succ_of_lt (hs.refused k hk).2.1, (hs.refused k hk).2.2⟩, hs.current,
          fun k hk => Nat.lt_succ_of_lt (hs.known k hk), fun k hk => ?_, by simp [APc.serving], hs.stream, hs.header, hs.got, hs.closed⟩
        have : s.next = k := by simpa [APc.hand] using hk
        subst this
        exact ⟨Nat.lt_succ_self _, fun h => Nat.lt_irrefl _ (hs.known _ h), fun h => Nat.lt_irrefl _ (hs.refused _ h).2.1⟩
    · next k hp =>
      have hk := hs.hand k (by rw [hp]; rfl)
      cases h
      cases hc : s.connected with
      | true =>
        refine ⟨hs.served, fun j hj => ?_, hs.current, hs.known, by simp [APc.hand], by simp [APc.serving], hs.stream, hs.header, hs.got,
          fun j hj => ?_⟩
        rotate_left
        · have hj : update s.closed k true j = true := hj
          by_cases hjk : j = k
          · subst hjk; exact .inl (List.mem_append_right _ (List.mem_singleton.2 rfl))
          · rw [Function.update_of_ne hjk] at hj
            rcases hs.closed j hj with h | h
            · exact .inl (List.mem_append_left _ h)
            · exact .inr h
        have hj : j ∈ s.refused ++ [k] := hj
        rcases List.mem_append.1 hj with hj | hj
        · refine ⟨?_, (hs.refused j hj).2⟩
          show update s.closed k true j = true
          by_cases hjk : j = k
          · subst hjk; exact Function.update_self _ _ _
          · rw [Function.update_of_ne hjk]; exact (hs.refused j hj).1
        · rw [List.mem_singleton] at hj; subst hj
          exact ⟨Function.update_self _ _ _, hk.1, hk.2.1⟩
      | false =>
        exact ⟨hs.served, hs.refused, hs.current, hs.known, fun j hj => by cases hj; exact hk, fun _ => rfl, hs.stream, hs.header, hs.got, hs.closed⟩
    · next k hp =>
      have hk := hs.hand k (by rw [hp]; rfl)
      have hf := hs.free (by rw [hp]; rfl)
      split at h <;> cases h
      exact ⟨hs.served, hs.refused, hs.current, hs.known, fun j hj => by cases hj; exact hk, fun _ => hf, hs.stream, hs.header, hs.got, hs.closed⟩
    · next k hp =>
      have hk := hs.hand k (by rw [hp]; rfl)
      have hf := hs.free (by rw [hp]; rfl)
      cases h
      have mem : ∀ {j}, j ∈ s.served → j ∈ s.served ++ [k] := fun h => List.mem_append_left _ h
      refine ⟨?_, fun j hj => ⟨(hs.refused j hj).1, (hs.refused j hj).2.1, fun h => ?_⟩, ?_, fun j hj => ?_, by simp [APc.hand], fun _ => hf,
        fun j hj => mem (hs.stream j hj), fun i j hj => mem (hs.header i j hj), fun j hj => mem (hs.got j hj),
        fun j hj => (hs.closed j hj).imp id mem⟩
      · show (s.served ++ [k]).Nodup
        rw [List.nodup_append]
        exact ⟨hs.served, by simp, fun a ha b hb => by
          rw [List.mem_singleton] at hb; subst hb; exact fun e => hk.2.1 (e ▸ ha)⟩
      · rcases List.mem_append.1 h with h | h
        · exact (hs.refused j hj).2.2 h
        · rw [List.mem_singleton] at h; subst h; exact hk.2.2 hj
      · show some k = (s.served ++ [k]).getLast?
        rw [List.getLast?_append]; rfl
      · rcases List.mem_append.1 hj with hj | hj
        · exact hs.known j hj
        · rw [List.mem_singleton] at hj; subst hj; exact hk.1
    · next k hp => cases h; exact ⟨hs.served, hs.refused, hs.current, hs.known, by simp [APc.hand], by simp [APc.serving], hs.stream, hs.header, hs.got, hs.closed⟩
    · next k hp =>
      cases h
      refine ⟨hs.served, hs.refused, hs.current, hs.known, by simp [APc.hand], by simp [APc.serving], hs.stream, fun i j hj => ?_, hs.got, hs.closed⟩
      have hj : update s.r k .launched i = .header (some j) := hj
      by_cases hik : i = k
      · subst hik; rw [Function.update_self] at hj; cases hj
      · rw [Function.update_of_ne hik] at hj; exact hs.header i j hj
    · next hp => cases h; exact ⟨hs.served, hs.refused, hs.current, hs.known, by simp [APc.hand], by simp [APc.serving], hs.stream, hs.header, hs.got, hs.closed⟩
    · cases h
  · obtain ⟨h1, h2, h3, h4, h5, h6, h7⟩ := frame ha h
    obtain ⟨g1, g2, g3⟩ := frame_read hs ha h
    refine ⟨h1 ▸ hs.served, ?_, ?_, ?_, ?_, ?_, ?_, ?_, ?_, ?_⟩
    · rw [h2, h3, h1]; exact fun k hk => ⟨h6 k (hs.refused k hk).1, (hs.refused k hk).2⟩
    · rw [h5, h1]; exact hs.current
    · rw [h1, h3]; exact hs.known
    · rw [h4, h1, h2, h3]; exact hs.hand
    · intro hq
      rw [h4] at hq
      have := hs.free hq
      cases hc : t.connected with
      | false => rfl
      | true => rw [h7 hc] at this; cases this
    · rw [h1]; exact g1
    · rw [h1]; exact g2
    · rw [h1]; exact g3
    · rw [h1, h2]; exact frame_closed hs ha h

theorem always_init : Always init := by
  refine ⟨List.nodup_nil, ?_, rfl, ?_, ?_, ?_, ?_, ?_, ?_, ?_⟩ <;> simp [init, APc.hand, APc.serving]

theorem always {s : St} (h : Leads init s) : Always s := leads_keeps (fun _ _ _ => always_step) always_init h

/-- **C113, in all schedules**: while a publisher is connected, no other takes its place: the command channel stays what it is, and a publisher that
connects meanwhile is hung up on. -/
theorem C113_one_at_a_time {s t : St} {a : Act} (h : Leads init s) (hc : s.connected = true) (ht : step s a = some t) :
    t.socket = s.socket ∧ t.served = s.served ∧ (∀ k, s.acc = .test k → a = .acc → t.closed k = true ∧ t.socket ≠ some k ∧ t.connected = true) := by
  have hs := always h
  by_cases ha : a = .acc
  · subst ha
    have key : t.socket = s.socket ∧ t.served = s.served := by
      have hf : s.acc.serving = false := by
        cases hq : s.acc.serving with
        | false => rfl
        | true => rw [hs.free hq] at hc; cases hc
      simp only [step, stepAcc] at ht
      split at ht
      · cases ht; exact ⟨rfl, rfl⟩
      · cases ht; split <;> exact ⟨rfl, rfl⟩
      · cases ht; split <;> exact ⟨rfl, rfl⟩
      · next hp => rw [hp] at hf; cases hf
      · next hp => rw [hp] at hf; cases hf
      · next hp => rw [hp] at hf; cases hf
      · cases ht; exact ⟨rfl, rfl⟩
      · cases ht; exact ⟨rfl, rfl⟩
      · cases ht
    refine ⟨key.1, key.2, fun k hk _ => ?_⟩
    have hn := (hs.hand k (by rw [hk]; rfl)).2.1
    refine ⟨?_, fun e => hn (List.mem_of_getLast? (hs.current ▸ key.1 ▸ e)), ?_⟩
    · simp only [step, stepAcc, hk, hc, if_true, Option.some.injEq] at ht
      subst ht; exact Function.update_self _ _ _
    · simp only [step, stepAcc, hk, hc, if_true, Option.some.injEq] at ht
      subst ht; rfl
  · obtain ⟨h1, _, _, _, h5, _⟩ := frame ha ht
    exact ⟨h5, h1, fun _ _ e => absurd e ha⟩

/-- **C113, in all schedules**: of the publishers refused nothing is processed, and they are never served. -/
theorem C113_refused {s : St} (h : Leads init s) {k : Nat} (hk : k ∈ s.refused) :
    s.closed k = true ∧ k ∉ s.served ∧ k ∉ s.got ∧ s.socket ≠ some k :=
  have hs := always h
  have hn := (hs.refused k hk).2.2
  ⟨(hs.refused k hk).1, hn, fun hg => hn (hs.got k hg), fun e => hn (List.mem_of_getLast? (hs.current ▸ e))⟩

/-- A publisher connects and sends, and another one is refused. -/
example : (exec init (List.replicate 9 .acc ++ [.resp 0, .resp 0, .resp 0] ++ List.replicate 2 .acc ++ [.resp 0])).map
    (fun s => (s.connected, s.socket, s.served, s.refused, s.got)) = some (true, some 0, [0], [1], [0]) := rfl

/-! ## What does not hold -/

/-- Under way. -/
def DPc.active : DPc → Bool
  | .idle | .ended => false
  | _ => true

/-- A disconnect thread waits for a response goroutine that goes on as long as there is a connection, and there will be one. -/
structure Spin (i k : Nat) (s : St) : Prop where
  connected : s.connected = true
  disconnecting : s.disconnecting = true
  d : s.d i = .joinR
  others : ∀ j, j ≠ i → (s.d j).active = false
  thread : s.thread = some k
  r : (s.r k).quiet = false
  acc : s.acc.serving = false ∧ ∀ j, s.acc ≠ .start j
  hi : i < s.nd

theorem spin_step {i k : Nat} {s : St} {a : Act} {t : St} (hs : Spin i k s) (h : step s a = some t) :
    Spin i k t ∧ t.served = s.served ∧ t.got = s.got := by
  obtain ⟨h1, h2, h3, h4, h5, h6, h7, h8⟩ := hs
  cases a with
  | acc =>
    simp only [step, stepAcc] at h
    split at h
    · cases h
      exact ⟨⟨h1, h2, h3, h4, h5, h6, by cases s.listening <;> exact ⟨rfl, by simp⟩, h8⟩, rfl, rfl⟩
    · cases h
      cases hl : s.listenOpen <;> exact ⟨⟨h1, h2, h3, h4, h5, h6, ⟨rfl, by simp⟩, h8⟩, rfl, rfl⟩
    · cases h
      rw [if_pos h1]
      exact ⟨⟨h1, h2, h3, h4, h5, h6, ⟨rfl, by simp⟩, h8⟩, rfl, rfl⟩
    · next hp => rw [hp] at h7; cases h7.1
    · next hp => rw [hp] at h7; cases h7.1
    · next hp => rw [hp] at h7; cases h7.1
    · next k hp => exact absurd hp (h7.2 k)
    · cases h; exact ⟨⟨h1, h2, h3, h4, h5, h6, ⟨rfl, by simp⟩, h8⟩, rfl, rfl⟩
    · cases h
  | leave k => simp only [step] at h; split at h <;> cases h; exact ⟨⟨h1, h2, h3, h4, h5, h6, h7, h8⟩, rfl, rfl⟩
  | resp j =>
    have upd : ∀ p : RPc, (j = k → p.quiet = false) → (update s.r j p k).quiet = false := by
      intro p hp
      by_cases hjk : k = j
      · subst hjk; rw [Function.update_self]; exact hp rfl
      · rw [Function.update_of_ne hjk]; exact h6
    simp only [step, stepR] at h
    split at h
    · cases h
    · cases h; exact ⟨⟨h1, h2, h3, h4, h5, upd _ (fun _ => rfl), h7, h8⟩, rfl, rfl⟩
    · cases h; rw [if_pos h1]; exact ⟨⟨h1, h2, h3, h4, h5, upd _ (fun _ => rfl), h7, h8⟩, rfl, rfl⟩
    · cases h; exact ⟨⟨h1, h2, h3, h4, h5, upd _ (fun _ => rfl), h7, h8⟩, rfl, rfl⟩
    · cases h; rw [if_pos h2]; exact ⟨⟨h1, h2, h3, h4, h5, upd _ (fun _ => rfl), h7, h8⟩, rfl, rfl⟩
    · cases h; rw [if_pos h2]; exact ⟨⟨h1, h2, h3, h4, h5, upd _ (fun _ => rfl), h7, h8⟩, rfl, rfl⟩
    · cases h; exact ⟨⟨h1, h2, h3, h4, h5, upd _ (fun _ => rfl), h7, h8⟩, rfl, rfl⟩
    · cases h
  | term =>
    simp only [step, stepTerm] at h
    split at h
    · cases h
    · cases h; exact ⟨⟨h1, h2, h3, h4, h5, h6, h7, h8⟩, rfl, rfl⟩
  | dis j =>
    by_cases hj : j = i
    · subst hj
      simp only [step, stepD, h3, St.joined, h5, h6] at h
      cases h
    · have := h4 j hj
      simp only [step, stepD] at h
      split at h
      · cases h
      all_goals first | (next hp => rw [hp] at this; cases this) | cases h
  | user =>
    simp only [step, stepUser, h2, if_true, Option.some.injEq] at h
    subst h; exact ⟨⟨h1, h2, h3, h4, h5, h6, h7, h8⟩, rfl, rfl⟩

/-- A publisher leaves and the next one connects before the disconnect thread has closed the first connection. -/
def nextTooSoon : List Act :=
  List.replicate 9 .acc ++ [.resp 0, .resp 0, .leave 0, .resp 0, .resp 0, .resp 0, .term] ++ List.replicate 8 .acc ++ [.resp 1, .resp 1, .dis 0]

/-- **C113, false as stated**: when a publisher connects right after another has left, the disconnect thread closes the new connection instead of the
old one and waits for ever for the new response goroutine, which spins. From then on, whatever happens, no packet is processed, no publisher is served,
and `Disconnect` does nothing. -/
theorem C113_next_false :
    ∃ s, exec init nextTooSoon = some s ∧ s.served = [0, 1] ∧ s.got = [] ∧ s.gone 1 = false ∧ s.closed 1 = true ∧ s.closed 0 = false ∧
      ∀ t, Leads s t → t.disconnecting = true ∧ t.d 0 = .joinR ∧ t.served = [0, 1] ∧ t.got = [] := by
  refine ⟨_, rfl, rfl, rfl, rfl, rfl, rfl, fun t ht => ?_⟩
  have := leads_keeps (P := fun s => Spin 0 1 s ∧ s.served = [0, 1] ∧ s.got = [])
    (fun s a t hs h => by
      obtain ⟨h1, h2, h3⟩ := spin_step hs.1 h
      exact ⟨h1, h2.trans hs.2.1, h3.trans hs.2.2⟩)
    ⟨⟨rfl, rfl, rfl, fun j hj => by
      show (update (update (fun _ => DPc.idle) 0 DPc.closeC) 0 _ j).active = false
      rw [Function.update_of_ne hj, Function.update_of_ne hj]; rfl, rfl, rfl, ⟨rfl, by intro j h; cases h⟩, Nat.zero_lt_one⟩, rfl, rfl⟩ ht
  exact ⟨this.1.disconnecting, this.1.d, this.2⟩

/-- A disconnect thread has the mutex the accept thread wants, and waits for the accept thread. -/
structure Clinch (i k : Nat) (s : St) : Prop where
  disconnecting : s.disconnecting = true
  d : s.d i = .joinA
  others : ∀ j, j ≠ i → (s.d j).active = false
  acc : s.acc = .lock k
  action : s.action = some (.dis i)
  hi : i < s.nd
  socket : s.socket = none
  closed : s.closed k = false
  served : s.served = []

theorem clinch_step {i k : Nat} {s : St} {a : Act} {t : St} (hs : Clinch i k s) (h : step s a = some t) : Clinch i k t := by
  obtain ⟨h1, h2, h3, h4, h5, h6, h7, h8, h9⟩ := hs
  cases a with
  | acc => simp only [step, stepAcc, h4, h5] at h; cases h
  | leave k => simp only [step] at h; split at h <;> cases h; exact ⟨h1, h2, h3, h4, h5, h6, h7, h8, h9⟩
  | resp j =>
    simp only [step, stepR] at h
    split at h
    · cases h
    · cases h; exact ⟨h1, h2, h3, h4, h5, h6, h7, h8, h9⟩
    · cases h; exact ⟨h1, h2, h3, h4, h5, h6, h7, h8, h9⟩
    · cases h; exact ⟨h1, h2, h3, h4, h5, h6, h7, h8, h9⟩
    · cases h; rw [if_pos h1]; exact ⟨h1, h2, h3, h4, h5, h6, h7, h8, h9⟩
    · cases h; exact ⟨h1, h2, h3, h4, h5, h6, h7, h8, h9⟩
    · cases h; exact ⟨h1, h2, h3, h4, h5, h6, h7, h8, h9⟩
    · cases h
  | term =>
    simp only [step, stepTerm] at h
    split at h
    · cases h
    · cases h; exact ⟨h1, h2, h3, h4, h5, h6, h7, h8, h9⟩
  | dis j =>
    by_cases hj : j = i
    · subst hj
      simp only [step, stepD, h2, h4, APc.quiet] at h
      cases h
    · have := h3 j hj
      simp only [step, stepD] at h
      split at h
      · cases h
      all_goals first | (next hp => rw [hp] at this; cases this) | cases h
  | user =>
    simp only [step, stepUser, h1, if_true, Option.some.injEq] at h
    subst h; exact ⟨h1, h2, h3, h4, h5, h6, h7, h8, h9⟩

/-- A user calls `Disconnect` when a publisher is just connecting. -/
def disconnectMeanwhile : List Act := [.acc, .acc, .acc, .user, .dis 0, .dis 0, .dis 0]

/-- **C113, false as stated**: a `Disconnect` while a publisher connects may never end: the disconnect thread holds the mutex the accept thread waits for
and waits for the accept thread. The publisher is neither served nor hung up on. -/
theorem C113_disconnect_false :
    ∃ s, exec init disconnectMeanwhile = some s ∧
      ∀ t, Leads s t → t.disconnecting = true ∧ t.d 0 = .joinA ∧ t.acc = .lock 0 ∧ t.served = [] ∧ t.closed 0 = false := by
  refine ⟨_, rfl, fun t ht => ?_⟩
  have := leads_keeps (P := Clinch 0 0) (fun s a t hs h => clinch_step hs h)
    ⟨rfl, rfl, fun j hj => by
      show (update (update (update (update (fun _ => DPc.idle) 0 _) 0 _) 0 _) 0 _ j).active = false
      rw [Function.update_of_ne hj, Function.update_of_ne hj, Function.update_of_ne hj, Function.update_of_ne hj]; rfl,
      rfl, rfl, Nat.zero_lt_one, rfl, rfl, rfl⟩ ht
  exact ⟨this.disconnecting, this.d, this.acc, this.served, this.closed⟩

/-- The response goroutine fails twice before the termination thread runs, which is then due once more; the next publisher connects. -/
def staleTermination : List Act :=
  List.replicate 9 .acc ++ [.resp 0, .resp 0, .leave 0] ++ List.replicate 6 (.resp 0) ++ [.term, .resp 0, .resp 0] ++ List.replicate 4 (.dis 0) ++
  List.replicate 8 .acc ++ List.replicate 4 (.resp 1)

/-- **C113, false as stated**: a termination that is due from the connection before ends the connection of a publisher that has not left. -/
theorem C113_stale_termination_false :
    ∃ s t, exec init staleTermination = some s ∧ s.connected = true ∧ s.socket = some 1 ∧ s.gone 1 = false ∧ s.got = [1] ∧
      step s .term = some t ∧ t.connected = false ∧ t.gone 1 = false :=
  ⟨_, _, rfl, rfl, rfl, rfl, rfl, rfl, rfl, rfl⟩

/-- **C113, false as stated**: the response goroutines of two connections can read from one connection at the same time: the old one tests the flag of
the new connection. -/
theorem C113_two_readers_false :
    ∃ s, exec init (List.replicate 9 .acc ++ [.resp 0, .resp 0, .leave 0, .resp 0, .resp 0, .resp 0, .term] ++ List.replicate 8 .acc ++
        [.resp 1, .resp 1, .resp 0]) = some s ∧ s.r 0 = .read ∧ s.r 1 = .read ∧ s.stream = some 1 :=
  ⟨_, rfl, rfl, rfl, rfl⟩

end Verif.Sync.Listen
