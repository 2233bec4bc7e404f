import Verif.Connector.CancelProps

/-!
# C35: how many connection attempts follow a `Cancel`
-/

namespace Verif.Connector.Cancel

theorem Leads.refl (s : St) : Leads s s := ⟨[], rfl⟩

theorem Leads.trans {s t u : St} (h : Leads s t) (h' : Leads t u) : Leads s u := by
  obtain ⟨as, h⟩ := h
  obtain ⟨bs, h'⟩ := h'
  refine ⟨as ++ bs, ?_⟩
  induction as generalizing s with
  | nil => obtain rfl := Option.some.inj h; exact h'
  | cons a as ih =>
    rw [exec] at h
    obtain ⟨v, hv, h⟩ := Option.bind_eq_some_iff.1 h
    rw [List.cons_append, exec, hv]
    exact ih h

/-- The sequence is where the flag is still cleared before the next dial: when the goroutine is about to be started, or has not yet done its reset, when `connect` has
not yet cleared the flag itself, or when the first dial of a user's `Connect` is about to clear it once more. -/
def Clears (s : St) : Prop :=
  s.g = .launch ∨ s.g = .started ∨ s.g = .reset ∨ s.g = .enter ∨ (s.g = .loop ∨ s.g = .dialReset) ∧ s.auto = false

/-- The sequence is past its last look at the flag before a dial, and the flag is not cleared any more. -/
def Dialling (s : St) : Prop := (s.g = .loop ∨ s.g = .dialReset) ∧ s.auto = true ∨ s.g = .dial

/-- A round of the loop: one dial. -/
theorem round (s : St) (hg : s.g = .loop) (hc : s.cancel = false ∨ s.auto = false) :
    ∃ t, Leads s t ∧ t.g = .loop ∧ t.cancel = false ∧ t.dials = s.dials + 1 := by
  obtain ⟨cancel, timers, timer, stored, running, auto, dials, g, c, copy, joined⟩ := s
  simp only at hg hc
  subst hg
  cases auto with
  | false => exact ⟨_, ⟨[.go .no, .go .no, .go .no, .go .no, .go .no, .fire, .go .no, .go .no], rfl⟩, rfl, rfl, rfl⟩
  | true =>
    rcases hc with hc | hc
    · subst hc
      exact ⟨_, ⟨[.go .no, .go .no, .go .no, .go .no, .go .no, .fire, .go .no, .go .no], rfl⟩, rfl, rfl, rfl⟩
    · cases hc

theorem rounds (n : Nat) (s : St) (hg : s.g = .loop) (hc : s.cancel = false ∨ s.auto = false) : ∃ t, Leads s t ∧ t.dials = s.dials + n := by
  induction n generalizing s with
  | zero => exact ⟨s, .refl s, rfl⟩
  | succ n ih =>
    obtain ⟨t, h1, h2, h3, h4⟩ := round s hg hc
    obtain ⟨u, h5, h6⟩ := ih t h2 (.inl h3)
    exact ⟨u, h1.trans h5, by rw [h6, h4]; omega⟩

/-- **Where the sequence still clears the flag, `Cancel` is lost**: any number of connection attempts can follow, also when `Cancel` has returned. -/
theorem C35_unlimited_false (s : St) (hs : Clears s) (n : Nat) : ∃ t, Leads s t ∧ t.dials = s.dials + n := by
  have key : n = 0 ∨ ∃ t k, Leads s t ∧ t.g = .loop ∧ t.cancel = false ∧ t.dials = s.dials + k ∧ k ≤ 1 := by
    obtain ⟨cancel, timers, timer, stored, running, auto, dials, g, c, copy, joined⟩ := s
    simp only [Clears] at hs
    right
    rcases hs with rfl | rfl | rfl | rfl | ⟨rfl | rfl, rfl⟩
    · exact ⟨_, 0, ⟨[.go .no, .go .no, .go .no, .go .no, .go .no, .go .no, .fire, .go .no, .go .no, .go .no], rfl⟩, rfl, rfl, rfl, by omega⟩
    · exact ⟨_, 0, ⟨[.go .no, .go .no, .go .no, .go .no, .go .no, .fire, .go .no, .go .no, .go .no], rfl⟩, rfl, rfl, rfl, by omega⟩
    · exact ⟨_, 0, ⟨[.go .no, .go .no, .go .no, .go .no, .fire, .go .no, .go .no, .go .no], rfl⟩, rfl, rfl, rfl, by omega⟩
    · exact ⟨_, 0, ⟨[.go .no], rfl⟩, rfl, rfl, rfl, by omega⟩
    · exact ⟨_, 1, ⟨[.go .no, .go .no, .go .no, .go .no, .go .no, .fire, .go .no, .go .no], rfl⟩, rfl, rfl, rfl, by omega⟩
    · exact ⟨_, 1, ⟨[.go .no, .go .no, .go .no, .go .no, .fire, .go .no, .go .no], rfl⟩, rfl, rfl, rfl, by omega⟩
  rcases key with rfl | ⟨t, k, h1, h2, h3, h4, h5⟩
  · exact ⟨s, .refl s, rfl⟩
  · rcases Nat.eq_zero_or_pos n with rfl | hn
    · exact ⟨s, .refl s, rfl⟩
    · obtain ⟨u, h6, h7⟩ := rounds (n - k) t h2 (.inl h3)
      exact ⟨u, h1.trans h6, by rw [h7, h4]; omega⟩

theorem last_step (n : Nat) (s : St) (a : Act) (t : St)
    (h : s.dials = n ∧ (s.cancel = true ∧ Dialling s ∨ s.g = .ended) ∨ s.dials = n + 1 ∧ (s.g = .ended ∨ (s.cancel = true ∧ Waiting s.g)))
    (ht : step s a = some t) :
    t.dials = n ∧ (t.cancel = true ∧ Dialling t ∨ t.g = .ended) ∨ t.dials = n + 1 ∧ (t.g = .ended ∨ (t.cancel = true ∧ Waiting t.g)) := by
  rcases h with ⟨hd, ⟨hc, hg⟩ | hg⟩ | h
  · cases a with
    | fire =>
      simp only [step] at ht
      split at ht
      · obtain rfl := Option.some.inj ht; exact .inl ⟨hd, .inl ⟨hc, hg⟩⟩
      · cases ht
    | cancel =>
      simp only [step] at ht
      split at ht
      · obtain rfl := Option.some.inj ht; exact .inl ⟨hd, .inl ⟨rfl, hg⟩⟩
      · obtain rfl := Option.some.inj ht; exact .inl ⟨hd, .inl ⟨hc, hg⟩⟩
      · obtain rfl := Option.some.inj ht; exact .inl ⟨hd, .inl ⟨hc, hg⟩⟩
      · obtain rfl := Option.some.inj ht; exact .inl ⟨hd, .inl ⟨hc, hg⟩⟩
      · split at ht
        · obtain rfl := Option.some.inj ht; exact .inl ⟨hd, .inl ⟨hc, hg⟩⟩
        · cases ht
      · cases ht
    | go ch =>
      rcases hg with ⟨hg | hg, ha⟩ | hg
      · simp only [step, hg] at ht
        obtain rfl := Option.some.inj ht
        split
        · exact .inl ⟨hd, .inr rfl⟩
        · exact .inl ⟨hd, .inl ⟨hc, .inl ⟨.inr rfl, ha⟩⟩⟩
      · simp only [step, hg, ha, if_true] at ht
        obtain rfl := Option.some.inj ht
        exact .inl ⟨hd, .inl ⟨hc, .inr rfl⟩⟩
      · simp only [step, hg] at ht
        obtain rfl := Option.some.inj ht
        split
        · exact .inr ⟨by show s.dials + 1 = _; omega, .inl rfl⟩
        · exact .inr ⟨by show s.dials + 1 = _; omega, .inr ⟨hc, by simp [Waiting]⟩⟩
  · exact .inl ((quiet_step n s a t ⟨hd, .inl hg⟩ ht).imp id fun h => by
      rcases h with h | h
      · exact .inr h
      · have : t.g = .ended := by
          cases a with
          | fire => simp only [step] at ht; split at ht <;> [(obtain rfl := Option.some.inj ht; exact hg); cases ht]
          | cancel =>
            simp only [step] at ht
            split at ht
            · obtain rfl := Option.some.inj ht; exact hg
            · obtain rfl := Option.some.inj ht; exact hg
            · obtain rfl := Option.some.inj ht; exact hg
            · obtain rfl := Option.some.inj ht; exact hg
            · split at ht
              · obtain rfl := Option.some.inj ht; exact hg
              · cases ht
            · cases ht
          | go ch => simp [step, hg] at ht
        exact .inr this)
  · exact .inr (quiet_step (n + 1) s a t h ht)

/-- **Past the last look at the flag one attempt follows**, and no second. -/
theorem C35_one_more (s : St) (hc : s.cancel = true) (hs : Dialling s) :
    (∃ t, Leads s t ∧ t.dials = s.dials + 1) ∧ ∀ t, Leads s t → t.dials ≤ s.dials + 1 := by
  refine ⟨?_, ?_⟩
  · obtain ⟨cancel, timers, timer, stored, running, auto, dials, g, c, copy, joined⟩ := s
    simp only [Dialling] at hs
    rcases hs with ⟨rfl | rfl, rfl⟩ | rfl
    · exact ⟨_, ⟨[.go .no, .go .no, .go .no], rfl⟩, rfl⟩
    · exact ⟨_, ⟨[.go .no, .go .no], rfl⟩, rfl⟩
    · exact ⟨_, ⟨[.go .no], rfl⟩, rfl⟩
  · rintro t ⟨as, h⟩
    have := leads_induct (fun u a v => last_step s.dials u a v) (.inl ⟨rfl, .inl ⟨hc, hs⟩⟩) h
    rcases this with ⟨h, -⟩ | ⟨h, -⟩ <;> omega

theorem none_step (n : Nat) (s : St) (a : Act) (t : St)
    (h : s.dials = n ∧ (s.g = .ended ∨ s.cancel = true ∧ ¬ Clears s ∧ ¬ Dialling s)) (ht : step s a = some t) :
    t.dials = n ∧ (t.g = .ended ∨ t.cancel = true ∧ ¬ Clears t ∧ ¬ Dialling t) := by
  obtain ⟨hd, hg | ⟨hc, hcl, hdi⟩⟩ := h
  · obtain ⟨h1, h2⟩ := quiet_step n s a t ⟨hd, .inl hg⟩ ht
    refine ⟨h1, h2.imp id fun ⟨h, hw⟩ => ⟨h, ?_, ?_⟩⟩
    · rcases hw with hw | hw | hw | hw | hw | hw | hw | hw <;> simp [Clears, hw]
    · rcases hw with hw | hw | hw | hw | hw | hw | hw | hw <;> simp [Dialling, hw]
  · cases a with
    | fire =>
      simp only [step] at ht
      split at ht
      · obtain rfl := Option.some.inj ht; exact ⟨hd, .inr ⟨hc, hcl, hdi⟩⟩
      · cases ht
    | cancel =>
      simp only [step] at ht
      split at ht
      · obtain rfl := Option.some.inj ht; exact ⟨hd, .inr ⟨rfl, hcl, hdi⟩⟩
      · obtain rfl := Option.some.inj ht; exact ⟨hd, .inr ⟨hc, hcl, hdi⟩⟩
      · obtain rfl := Option.some.inj ht; exact ⟨hd, .inr ⟨hc, hcl, hdi⟩⟩
      · obtain rfl := Option.some.inj ht; exact ⟨hd, .inr ⟨hc, hcl, hdi⟩⟩
      · split at ht
        · obtain rfl := Option.some.inj ht; exact ⟨hd, .inr ⟨hc, hcl, hdi⟩⟩
        · cases ht
      · cases ht
    | go ch =>
      cases hg : s.g with
      | launch | started | reset | enter => exact absurd (by simp [Clears, hg]) hcl
      | dial => exact absurd (by simp [Dialling, hg]) hdi
      | loop | dialReset =>
        cases ha : s.auto with
        | true => exact absurd (by simp [Dialling, hg, ha]) hdi
        | false => exact absurd (by simp [Clears, hg, ha]) hcl
      | ended => simp [step, hg] at ht
      | autoWait | wait =>
        simp only [step, hg] at ht
        split at ht
        · obtain rfl := Option.some.inj ht
          exact ⟨hd, .inr ⟨hc, by simp [Clears], by simp [Dialling]⟩⟩
        · cases ht
      | connectCheck | autoCheck | autoTest | test =>
        simp only [step, hg, hc, if_true] at ht
        obtain rfl := Option.some.inj ht
        exact ⟨hd, .inl rfl⟩
      | autoLimit =>
        simp only [step, hg] at ht
        obtain rfl := Option.some.inj ht
        split
        · exact ⟨hd, .inl rfl⟩
        · exact ⟨hd, .inr ⟨hc, by simp [Clears], by simp [Dialling]⟩⟩
      | _ =>
        simp only [step, hg] at ht
        obtain rfl := Option.some.inj ht
        exact ⟨hd, .inr ⟨hc, by simp [Clears], by simp [Dialling]⟩⟩

/-- **Anywhere else `Cancel` is final**: no connection attempt follows. -/
theorem C35_none_more (s : St) (hc : s.cancel = true) (h1 : ¬ Clears s) (h2 : ¬ Dialling s) (t : St) (ht : Leads s t) : t.dials = s.dials := by
  obtain ⟨as, ht⟩ := ht
  exact (leads_induct (fun u a v => none_step s.dials u a v) ⟨rfl, .inr ⟨hc, h1, h2⟩⟩ ht).1

/-- **How many connection attempts can follow, once `Cancel` has set its flag**: any number where the sequence still clears the flag, one where it is past its last
look at it, none anywhere else. -/
theorem C35_attempts (s : St) (hc : s.cancel = true) :
    (Clears s ↔ ∀ n, ∃ t, Leads s t ∧ t.dials = s.dials + n) ∧
    (Dialling s ↔ (∃ t, Leads s t ∧ t.dials = s.dials + 1) ∧ ∀ t, Leads s t → t.dials ≤ s.dials + 1) ∧
    (¬ Clears s ∧ ¬ Dialling s ↔ ∀ t, Leads s t → t.dials = s.dials) := by
  by_cases h1 : Clears s
  · have hu := C35_unlimited_false s h1
    refine ⟨⟨fun _ => hu, fun _ => h1⟩, ⟨fun h2 => C35_one_more s hc h2, ?_⟩, ⟨fun h => absurd h1 h.1, ?_⟩⟩
    · rintro ⟨-, h⟩
      obtain ⟨t, ht, e⟩ := hu 2
      have := h t ht
      omega
    · intro h
      obtain ⟨t, ht, e⟩ := hu 1
      have := h t ht
      omega
  · by_cases h2 : Dialling s
    · have ho := C35_one_more s hc h2
      refine ⟨⟨fun h => absurd h h1, ?_⟩, ⟨fun _ => ho, fun _ => h2⟩, ⟨fun h => absurd h2 h.2, ?_⟩⟩
      · intro h
        obtain ⟨t, ht, e⟩ := h 2
        have := ho.2 t ht
        omega
      · intro h
        obtain ⟨t, ht, e⟩ := ho.1
        have := h t ht
        omega
    · have hn := C35_none_more s hc h1 h2
      refine ⟨⟨fun h => absurd h h1, ?_⟩, ⟨fun h => absurd h h2, ?_⟩, ⟨fun _ => hn, fun _ => ⟨h1, h2⟩⟩⟩
      · intro h
        obtain ⟨t, ht, e⟩ := h 1
        have := hn t ht
        omega
      · rintro ⟨⟨t, ht, e⟩, -⟩
        have := hn t ht
        omega

/-- `Cancel` has returned: before the goroutine was started, while the second dial was about to be made, and during a wait whose timer had run out. -/
example : ∃ s, Reach s ∧ s.cancel = true ∧ s.c = .returned ∧ Clears s :=
  ⟨_, ⟨1, .inr ⟨[.go .no, .cancel, .cancel, .cancel, .cancel], rfl⟩⟩, rfl, rfl, .inl rfl⟩

example : ∃ s, Reach s ∧ s.cancel = true ∧ s.c = .returned ∧ s.dials = 1 ∧ Dialling s :=
  ⟨_, ⟨0, .inl ⟨[.go .no, .go .no, .go .no, .go .no, .go .no, .go .no, .go .no, .fire, .go .no, .go .no,
    .cancel, .cancel, .cancel, .cancel], rfl⟩⟩, rfl, rfl, rfl, .inl ⟨.inl rfl, rfl⟩⟩

example : ∃ s, Reach s ∧ s.cancel = true ∧ s.c = .returned ∧ s.dials = 1 ∧ ¬ Clears s ∧ ¬ Dialling s :=
  ⟨_, ⟨0, .inl ⟨[.go .no, .go .no, .go .no, .go .no, .go .no, .go .no, .go .no, .fire,
    .cancel, .cancel, .cancel, .cancel], rfl⟩⟩, rfl, rfl, rfl, by simp [Clears], by simp [Dialling]⟩

end Verif.Connector.Cancel
