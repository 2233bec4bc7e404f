import Verif.Session.Cases

/-!
# What processing a packet can send

Lemmas used by the property theorems.
-/

namespace Verif.Session

/-- The command code of what an event sends, if it sends anything: the fifth byte. -/
def Event.command : Event → Option Byte
  | .sent b => b[4]?
  | _ => none

/-- Connected as before; the events added satisfy `P`. -/
structure Adds (P : Event → Prop) (s s' : St) : Prop where
  connected : s'.connected = s.connected
  log : ∃ es, s'.log = s.log ++ es ∧ ∀ e ∈ es, P e

theorem Adds.refl (P : Event → Prop) (s : St) : Adds P s s := ⟨rfl, [], by simp, by simp⟩

theorem Adds.trans {P : Event → Prop} {a b c : St} (h1 : Adds P a b) (h2 : Adds P b c) : Adds P a c := by
  obtain ⟨c1, e1, l1, p1⟩ := h1
  obtain ⟨c2, e2, l2, p2⟩ := h2
  refine ⟨c2.trans c1, e1 ++ e2, by rw [l2, l1, List.append_assoc], ?_⟩
  intro e he
  rcases List.mem_append.mp he with he | he
  · exact p1 e he
  · exact p2 e he

theorem Adds.mono {P Q : Event → Prop} {a b : St} (h : Adds P a b) (hpq : ∀ e, P e → Q e) : Adds Q a b := by
  obtain ⟨c, e, l, p⟩ := h
  exact ⟨c, e, l, fun x hx => hpq x (p x hx)⟩

theorem Adds.emit {P : Event → Prop} (s : St) {e : Event} (he : P e) : Adds P s (s.emit e) :=
  ⟨rfl, [e], rfl, by simpa using he⟩

theorem Adds.same {P : Event → Prop} {s s' : St} (h1 : s'.connected = s.connected) (h2 : s'.log = s.log) : Adds P s s' :=
  ⟨h1, [], by rw [h2]; simp, by simp⟩

theorem Adds.fail {P : Event → Prop} (s : St) (h1 : P .error) (h2 : P .terminate) : Adds P s s.fail :=
  (Adds.emit s h1).trans (Adds.emit _ h2)

theorem Adds.setHalf {P : Event → Prop} (s : St) (i : Bool) (h : Half) : Adds P s (s.setHalf i h) := by
  cases i <;> exact Adds.same rfl rfl

/-- What an event that is part of processing a packet sends: nothing or a confirmation. -/
def Confirms (e : Event) : Prop :=
  e.command = none ∨ e.command = some cmdConfirmNotification ∨ e.command = some cmdConfirmBufferBlock ∨
    e.command = some cmdConfirmUpdateSignalIndexCache

theorem command_frame (n : Nat) (c : Byte) (p : List Byte) : (Event.sent (beBytes 4 n ++ [c] ++ p)).command = some c := by
  show (beBytes 4 n ++ [c] ++ p)[4]? = some c
  rw [List.append_assoc, List.getElem?_append_right (by simp)]
  simp

theorem Adds.say (s : St) {e : Event} (he : e.command = none) : Adds Confirms s (s.emit e) := Adds.emit s (.inl he)

theorem Adds.put {s s' : St} {e : Event} (hc : s'.connected = s.connected) (hl : s'.log = s.log ++ [e]) (he : e.command = none) :
    Adds Confirms s s' := ⟨hc, [e], hl, by rintro _ hx; rw [List.mem_singleton.mp hx]; exact .inl he⟩

theorem Adds.failed (s : St) : Adds Confirms s s.fail := Adds.fail s (.inl rfl) (.inl rfl)

theorem sendCommand_adds {P : Event → Prop} {env : Env} {c : Byte} {p : List Byte} {s s' : St} (h : sendCommand env c p s = .ok s')
    (h0 : P (.sent (beBytes 4 (p.length + 1) ++ [c] ++ p))) (h1 : P .error) (h2 : P .terminate) : Adds P s s' := by
  unfold sendCommand at h
  split at h
  · injection h with h; rw [h]; exact Adds.refl _ _
  · split at h
    · cases h
    · split at h <;> injection h with h <;> subst h
      · exact Adds.emit _ h0
      · exact Adds.fail _ h1 h2

theorem sendCommand_confirms {env : Env} {c : Byte} {p : List Byte} {s s' : St} (h : sendCommand env c p s = .ok s')
    (hc : c = cmdConfirmNotification ∨ c = cmdConfirmBufferBlock ∨ c = cmdConfirmUpdateSignalIndexCache) :
    Adds Confirms s s' := by
  refine sendCommand_adds h ?_ (.inl rfl) (.inl rfl)
  unfold Confirms
  rw [command_frame]
  rcases hc with rfl | rfl | rfl <;> simp

theorem tsscPrepare_adds (i : Bool) (seq : BitVec 16) (s : St) : Adds Confirms s (tsscPrepare i seq s).2.2 := by
  unfold tsscPrepare
  dsimp only
  refine Adds.trans ?_ (Adds.setHalf _ i _)
  split
  · split
    · exact ((Adds.setHalf s i _).trans (Adds.say _ rfl)).trans (Adds.same rfl rfl)
    · exact (Adds.setHalf s i _).trans (Adds.same rfl rfl)
  · exact Adds.setHalf s i _

theorem tsscBody_adds {i : Bool} {data : List Byte} {seq : BitVec 16} {ms : List Measurement} {cache : Sic.Cache}
    {d : Tssc.Decoder} {n : BitVec 16} {s : St} {ms' : List Measurement} {s' : St}
    (h : tsscBody i data seq ms cache (d, n, s) = .ok (ms', s')) : Adds Confirms s s' := by
  unfold tsscBody at h
  dsimp only at h
  split at h
  · injection h with h; injection h with h1 h2; rw [← h2]; exact Adds.refl _ s
  · split at h
    · cases h
    · rw [Res.bind_eq_ok] at h
      obtain ⟨new, -, h⟩ := h
      split at h
      · cases h
      · injection h with h; injection h with h1 h2; rw [← h2]
        exact (Adds.setHalf s i _).trans (Adds.failed _)
      · injection h with h; injection h with h1 h2; rw [← h2]
        exact Adds.setHalf s i _

theorem parseTSSC_adds {i : Bool} {data : List Byte} {ms : List Measurement} {s : St} {ms' : List Measurement} {s' : St}
    (h : parseTSSC i data ms s = .ok (ms', s')) : Adds Confirms s s' := by
  cases data with
  | nil => unfold parseTSSC at h; cases h
  | cons v rest =>
    by_cases hv : v = 85
    · subst hv
      rw [parseTSSC_eq, Res.bind_eq_ok] at h
      obtain ⟨n, -, h⟩ := h
      exact (tsscPrepare_adds i _ s).trans (tsscBody_adds h)
    · unfold parseTSSC at h
      dsimp only at h
      rw [if_pos hv] at h
      injection h with h; injection h with h1 h2; rw [← h2]
      exact (Adds.setHalf s i _).trans (Adds.failed _)

theorem parseCompact_adds {cfg : Cfg} {i : Bool} {data : List Byte} {ms : List Measurement} {s : St} {ms' : List Measurement}
    {s' : St} (h : parseCompact cfg i data ms s = .ok (ms', s')) : Adds Confirms s s' := by
  unfold parseCompact at h
  dsimp only at h
  split at h
  · injection h with h; injection h with h1 h2; rw [← h2]; exact Adds.refl _ s
  · rw [Res.bind_eq_ok] at h
    obtain ⟨⟨_, failed⟩, -, h⟩ := h
    injection h with h; injection h with h1 h2; rw [← h2]
    split
    · exact Adds.failed _
    · exact Adds.refl _ s

theorem handleDataPacket_adds {cfg : Cfg} {env : Env} {data : List Byte} {s s' : St}
    (h : handleDataPacket cfg env data s = .ok s') : Adds Confirms s s' := by
  rcases handleDataPacket_cases h with rfl | ⟨flags, rest, payload, count, ms, s1, -, -, -, hp, -, -, rfl⟩
  · exact Adds.failed _
  · have : Adds Confirms s s1 := by
      split at hp
      · exact parseTSSC_adds hp
      · exact parseCompact_adds hp
    exact (this.trans (Adds.say s1 (e := .newMeasurements ms) rfl)).trans (Adds.same rfl rfl)

theorem handleUpdateSignalIndexCache_adds {cfg : Cfg} {env : Env} {data : List Byte} {s s' : St}
    (h : handleUpdateSignalIndexCache cfg env data s = .ok s') : Adds Confirms s s' := by
  rcases handleUpdateSignalIndexCache_cases h with ⟨g, rfl⟩ | ⟨ci, payload, plain, sub, cache, s1, -, -, -, h2, rfl⟩
  · exact Adds.put rfl rfl rfl
  · have h1 : Adds Confirms s { ({ s with subscriberID := sub }.setHalf ci ⟨cache, none⟩) with cacheIndex := ci } := by
      cases ci <;> exact Adds.same rfl rfl
    refine Adds.trans ?_ (Adds.say _ rfl)
    split at h2
    · exact h1.trans (sendCommand_confirms h2 (by simp))
    · rw [h2]; exact h1

theorem handleBufferBlock_adds {cfg : Cfg} {env : Env} {data : List Byte} {s s' : St}
    (h : handleBufferBlock cfg env data s = .ok s') : Adds Confirms s s' := by
  unfold handleBufferBlock at h
  rw [Res.bind_eq_ok] at h
  obtain ⟨_, -, h⟩ := h
  dsimp only at h
  rw [Res.bind_eq_ok] at h
  obtain ⟨_, -, h⟩ := h
  split at h
  · injection h with h; rw [← h]; exact Adds.refl _ _
  · rw [Res.bind_eq_ok] at h
    obtain ⟨s1, h1, h⟩ := h
    have hs := sendCommand_confirms h1 (by simp)
    rw [Res.bind_eq_ok] at h
    obtain ⟨_, -, h⟩ := h
    rw [Res.bind_eq_ok] at h
    obtain ⟨_, -, h⟩ := h
    split at h
    · injection h with h; subst h
      exact hs.trans (Adds.put rfl rfl rfl)
    · injection h with h; subst h; exact hs.trans (Adds.same rfl rfl)

theorem handleSucceeded_adds {cfg : Cfg} {c : Byte} {d : List Byte} {s s' : St} (h : handleSucceeded cfg c d s = .ok s') :
    Adds Confirms s s' := by
  unfold handleSucceeded at h
  split at h
  · unfold handleMetadataRefresh at h
    dsimp only at h
    split at h
    · split at h <;> injection h with h <;> subst h
      · exact (Adds.say _ rfl).trans (Adds.say _ rfl)
      · exact ((Adds.say _ rfl).trans (Adds.say _ rfl)).trans (Adds.say _ rfl)
    · injection h with h; subst h; exact (Adds.say _ rfl).trans (Adds.say _ rfl)
  · split at h
    · injection h with h; subst h
      exact Adds.put rfl rfl rfl
    · split at h <;> injection h with h <;> subst h <;> exact Adds.say _ rfl

theorem handleFailed_adds {c : Byte} {d : List Byte} {s s' : St} (h : handleFailed c d s = .ok s') : Adds Confirms s s' := by
  unfold handleFailed at h
  dsimp only at h
  split at h
  · split at h <;> injection h with h <;> subst h
    · exact Adds.put rfl rfl rfl
    · exact Adds.same rfl rfl
  · injection h with h; subst h; exact Adds.say _ rfl

theorem process_adds {cfg : Cfg} {env : Env} {buf : List Byte} {s s' : St} (h : processServerResponse cfg env buf s = .ok s') :
    Adds Confirms s s' := by
  obtain ⟨rc, cc, rest, rfl, hl, -⟩ := process_cases h
  unfold processServerResponse at h
  dsimp only at h
  rw [if_neg (by simpa [responseHeaderSize] using hl)] at h
  generalize (!s.validated && decide (cfg.version ≥ 2) && decide (rc ≠ rspNoOP ∧
    (cc ≠ cmdDefineOperationalModes ∨ (rc ≠ rspSucceeded ∧ rc ≠ rspFailed)))) = b at h
  cases b with
  | true =>
    rw [if_pos rfl] at h
    injection h with h; subst h; exact Adds.failed _
  | false =>
    rw [if_neg Bool.false_ne_true] at h
    refine Adds.trans (Adds.same (s' := { s with validated := true }) rfl rfl) ?_
    generalize { s with validated := true } = s1 at h ⊢
    by_cases hc : rc = rspSucceeded
    · rw [if_pos hc] at h
      exact handleSucceeded_adds h
    rw [if_neg hc] at h
    clear hc
    by_cases hc : rc = rspFailed
    · rw [if_pos hc] at h
      exact handleFailed_adds h
    rw [if_neg hc] at h
    clear hc
    by_cases hc : rc = rspDataPacket
    · rw [if_pos hc] at h
      exact handleDataPacket_adds h
    rw [if_neg hc] at h
    clear hc
    by_cases hc : rc = rspDataStartTime
    · rw [if_pos hc] at h
      unfold handleDataStartTime at h
      rw [Res.bind_eq_ok] at h
      obtain ⟨t, -, h⟩ := h
      injection h with h; subst h; exact Adds.say _ rfl
    rw [if_neg hc] at h
    clear hc
    by_cases hc : rc = rspProcessingComplete
    · rw [if_pos hc] at h
      injection h with h; subst h; exact Adds.say _ rfl
    rw [if_neg hc] at h
    clear hc
    by_cases hc : rc = rspUpdateSignalIndexCache
    · rw [if_pos hc] at h
      exact handleUpdateSignalIndexCache_adds h
    rw [if_neg hc] at h
    clear hc
    by_cases hc : rc = rspUpdateBaseTimes
    · rw [if_pos hc] at h
      obtain ⟨-, h⟩ := handleUpdateBaseTimes_cases h
      subst h; exact Adds.put rfl rfl rfl
    rw [if_neg hc] at h
    clear hc
    by_cases hc : rc = rspUpdateCipherKeys
    · rw [if_pos hc] at h
      unfold handleUpdateCipherKeys at h
      simp only [Res.bind_eq_ok] at h
      obtain ⟨_, -, _, -, _, -, _, -, h⟩ := h
      injection h with h; subst h
      exact Adds.put rfl rfl rfl
    rw [if_neg hc] at h
    clear hc
    by_cases hc : rc = rspConfigurationChanged
    · rw [if_pos hc] at h
      injection h with h; subst h; exact (Adds.say _ rfl).trans (Adds.say _ rfl)
    rw [if_neg hc] at h
    clear hc
    by_cases hc : rc = rspBufferBlock
    · rw [if_pos hc] at h
      exact handleBufferBlock_adds h
    rw [if_neg hc] at h
    clear hc
    by_cases hc : rc = rspNotify
    · rw [if_pos hc] at h
      unfold handleNotification at h
      split at h
      · cases h
      · exact ((Adds.say _ rfl).trans (Adds.say _ rfl)).trans (sendCommand_confirms h (by simp))
    rw [if_neg hc] at h
    clear hc
    by_cases hc : rc = rspNoOP
    · rw [if_pos hc] at h
      injection h with h; subst h; exact Adds.refl _ _
    rw [if_neg hc] at h
    clear hc
    injection h with h; subst h; exact Adds.say _ rfl

/-- A packet from the publisher makes the subscriber send confirmations only. -/
theorem receive_adds {cfg : Cfg} {env : Env} {body : List Byte} {s s' : St} (h : receive cfg env body s = .ok s') :
    Adds Confirms s s' := by
  unfold receive readPayloadHeader at h
  dsimp only at h
  have hp : ∀ t : St, readPacket cfg env body t = .ok s' → t.connected = s.connected → t.log = s.log → Adds Confirms s s' := by
    intro t h3 h1 h2
    exact (Adds.same (s' := { t with totalCommandChannelBytesReceived := t.totalCommandChannelBytesReceived + BitVec.ofNat 64 body.length })
      h1 h2).trans (process_adds h3)
  split at h
  · rename_i t hh
    split at hh
    · split at hh
      · split at hh
        · injection hh with _ hh; cases hh
        · injection hh with hh _; subst hh; exact hp _ h rfl rfl
      · injection hh with hh _; subst hh; exact hp _ h rfl rfl
    · injection hh with hh _; subst hh; exact hp _ h rfl rfl
  · rename_i t hh
    injection h with h
    subst h
    split at hh
    · split at hh
      · split at hh
        · injection hh with hh _; subst hh
          exact ⟨rfl, [.error, .terminate], by simp [St.fail, St.emit], by rintro _ hx; simp at hx; rcases hx with rfl | rfl <;> exact .inl rfl⟩
        · injection hh with _ hh; cases hh
      · injection hh with _ hh; cases hh
    · injection hh with _ hh; cases hh

end Verif.Session
