import Verif.Session.StreamProps

/-!
# The validation gate (C23)
-/

namespace Verif.Session

/-- The answer to the operational-modes negotiation: response code 0x80 (succeeded) or 0x81 (failed) for command 6. -/
def IsHandshake (body : List Byte) : Prop :=
  (body[0]? = some 0x80 ∨ body[0]? = some 0x81) ∧ body[1]? = some 6

/-- A response with code 0xFF (no operation). -/
def IsNoOP (body : List Byte) : Prop := body[0]? = some 0xFF

/-- Larger than the 6 header bytes and 8 KiB allowed before the handshake. -/
def Oversized (body : List Byte) : Prop := 8198 < body.length

/-- Any state of a subscriber that has been disconnected and is connected anew, over any history. -/
def reconnected (s : St) : St := establish (setupConnection (disconnectDone (disconnect s)))

theorem fail_log (s : St) : s.fail.log = s.log ++ [.error, .terminate] := by
  simp [St.fail, St.emit]

/-- Everything but the byte count and the log. -/
def SameBut (s s' : St) : Prop :=
  s' = { s with
    totalCommandChannelBytesReceived := s'.totalCommandChannelBytesReceived
    log := s'.log }

theorem receive_gated {cfg : Cfg} {env : Env} {body : List Byte} {s s' : St} (hv : s.validated = false)
    (h2 : 2 ≤ cfg.version.toNat) (hb : Oversized body ∨ (¬ IsHandshake body ∧ ¬ IsNoOP body))
    (h : receive cfg env body s = .ok s') : SameBut s s' ∧ s'.log = s.log ++ [.error, .terminate] := by
  have h2 : cfg.version ≥ 2 := h2
  have hsame : ∀ n, SameBut s (s.counted n).fail ∧ (s.counted n).fail.log = s.log ++ [.error, .terminate] := by
    intro n
    exact ⟨rfl, fail_log _⟩
  rcases receive_cases h with ⟨-, -, -, h1⟩ | ⟨rc, cc, rest, h3, h4, ⟨-, h1⟩ | ⟨h5, h1⟩⟩
  · rw [h1]; exact hsame _
  · rw [h1]; exact hsame _
  · exfalso
    rcases hb with hb | ⟨hb1, hb2⟩
    · -- an oversized body never gets here
      unfold receive readPayloadHeader at h
      dsimp only at h
      rw [hv] at h
      simp only [Bool.not_false, if_true, if_pos h2] at h
      rw [if_pos (show body.length > maxInitialPacketSize from hb)] at h
      injection h with h
      have hg := h1.grows.validated
      rw [← h] at hg
      change false = true at hg
      cases hg
    · apply h5
      refine ⟨hv, h2, ?_, ?_⟩
      · intro hc
        apply hb2
        rw [h3, IsNoOP]
        simp [hc, rspNoOP]
      · by_cases hc : cc = cmdDefineOperationalModes
        · right
          constructor
          · intro hr
            apply hb1
            rw [h3]
            exact ⟨Or.inl (by simp [hr, rspSucceeded]), by simp [hc, cmdDefineOperationalModes]⟩
          · intro hr
            apply hb1
            rw [h3]
            exact ⟨Or.inr (by simp [hr, rspFailed]), by simp [hc, cmdDefineOperationalModes]⟩
        · exact Or.inl hc

/-- C23 for every connection but the first: protocol version 2 or later, any history before the reconnection, and any
sequence of packets that are oversized or neither the handshake nor NoOP. Each of them ends the connection with an error, and
nothing else happens: apart from the count of bytes the subscriber is as it was, in particular still unvalidated, and the
callbacks see only the error and the termination. Missing from the full statement: the first connection
(`C23_first_connection_false`), NoOP packets (`C23_noop_false`) and packets of fewer than six bytes, which end the program
(`C23_short_packet_panics`). -/
theorem C23_gate_partial (cfg : Cfg) (h2 : 2 ≤ cfg.version.toNat) (s0 : St) (ps : List (Env × List Byte))
    (hps : ∀ p ∈ ps, Oversized p.2 ∨ (6 ≤ p.2.length ∧ ¬ IsHandshake p.2 ∧ ¬ IsNoOP p.2)) :
    ∃ s', receiveAll cfg ps (reconnected s0) = .ok s' ∧ SameBut (reconnected s0) s' ∧
      s'.log = s0.log ++ (List.replicate ps.length [Event.error, Event.terminate]).flatten := by
  suffices hgen : ∀ s : St, s.validated = false → ∃ s', receiveAll cfg ps s = .ok s' ∧ SameBut s s' ∧
      s'.log = s.log ++ (List.replicate ps.length [Event.error, Event.terminate]).flatten from
    hgen (reconnected s0) rfl
  induction ps with
  | nil => intro s _; exact ⟨s, rfl, rfl, by simp⟩
  | cons p ps ih =>
    intro s hv
    obtain ⟨env, body⟩ := p
    have hp := hps (env, body) (by simp)
    dsimp only at hp
    have hex : ∃ s1, receive cfg env body s = .ok s1 := by
      by_cases hov : Oversized body
      · unfold receive readPayloadHeader
        dsimp only
        rw [hv]
        simp only [Bool.not_false, if_true, if_pos (show cfg.version ≥ 2 from h2)]
        rw [if_pos (show body.length > maxInitialPacketSize from hov)]
        exact ⟨_, rfl⟩
      · rcases hp with hp | ⟨hl, hh, hn⟩
        · exact absurd hp hov
        · rcases body with _ | ⟨rc, _ | ⟨cc, rest⟩⟩
          · simp at hl
          · simp at hl
          · unfold receive readPayloadHeader
            dsimp only
            rw [hv]
            simp only [Bool.not_false, if_true, if_pos (show cfg.version ≥ 2 from h2)]
            rw [if_neg (show ¬ (rc :: cc :: rest).length > maxInitialPacketSize from hov)]
            dsimp only
            unfold readPacket
            rw [processServerResponse]
            rw [if_neg (by unfold responseHeaderSize; omega)]
            dsimp only
            rw [if_pos]
            · exact ⟨_, rfl⟩
            simp only [Bool.not_false, Bool.true_and, Bool.and_eq_true, decide_eq_true_eq]
            refine ⟨h2, ?_, ?_⟩
            · intro hc
              exact hn (by simp [IsNoOP, hc, rspNoOP])
            · by_cases hc : cc = cmdDefineOperationalModes
              · right
                exact ⟨fun hr => hh ⟨Or.inl (by simp [hr, rspSucceeded]), by simp [hc, cmdDefineOperationalModes]⟩,
                  fun hr => hh ⟨Or.inr (by simp [hr, rspFailed]), by simp [hc, cmdDefineOperationalModes]⟩⟩
              · exact Or.inl hc
    obtain ⟨s1, h1⟩ := hex
    obtain ⟨hs1, hl1⟩ := receive_gated hv h2 (by
      rcases hp with hp | hp
      · exact Or.inl hp
      · exact Or.inr hp.2) h1
    have hv1 : s1.validated = false := by rw [hs1]; exact hv
    obtain ⟨s2, h3, h4, h5⟩ := ih (fun p hp => hps p (by simp [hp])) s1 hv1
    refine ⟨s2, by rw [receiveAll, h1, Res.bind_ok, h3], ?_, ?_⟩
    · unfold SameBut at hs1 h4 ⊢
      rw [hs1] at h4
      exact h4
    · rw [h5, hl1]
      simp [List.replicate_succ]

/-- A case meeting the hypotheses: a forged base-time update, a data packet, and a huge answer to the negotiation. -/
example : ∃ ps : List (Env × List Byte), ps.length = 3 ∧
    ∀ p ∈ ps, Oversized p.2 ∨ (6 ≤ p.2.length ∧ ¬ IsHandshake p.2 ∧ ¬ IsNoOP p.2) := by
  refine ⟨[(⟨true, none⟩, [0x84, 0, 0, 0, 0, 20] ++ List.replicate 20 1), (⟨true, none⟩, [0x82, 6, 0, 0, 0, 1, 8]),
    (⟨true, none⟩, [0x80, 6, 0, 0, 0, 0] ++ List.replicate 9000 0)], rfl, ?_⟩
  intro p hp
  simp only [List.mem_cons, List.not_mem_nil, or_false] at hp
  rcases hp with rfl | rfl | rfl
  · right; exact ⟨by simp, by simp [IsHandshake], by simp [IsNoOP]⟩
  · right; exact ⟨by simp, by simp [IsHandshake], by simp [IsNoOP]⟩
  · left
    unfold Oversized
    simp only [List.length_append, List.length_replicate, List.length_cons, List.length_nil]
    omega

/-- The handshake itself: a positive answer opens the gate and gives a status message, a negative one opens it and marks the
connection as refused, with an error message if there is a text. Nothing else happens. -/
theorem C23_handshake (cfg : Cfg) (env : Env) (s : St) (c : Byte) (l0 l1 l2 l3 : Byte) (text : List Byte)
    (hc : c = 0x80 ∨ c = 0x81) (hsize : text.length ≤ 8192) :
    ∃ s', receive cfg env (c :: 6 :: l0 :: l1 :: l2 :: l3 :: text) s = .ok s' ∧ s'.validated = true ∧
      KeepsData s s' ∧ s'.subscribed = s.subscribed ∧ s'.keyIVs = s.keyIVs ∧
      s'.connectionRefused = (if c = 0x80 then s.connectionRefused else true) ∧
      s'.log = s.log ++ (if c = 0x80 then [.status] else if text = [] then [] else [.error]) := by
  have hlen : ¬ (c :: 6 :: l0 :: l1 :: l2 :: l3 :: text).length > maxInitialPacketSize := by
    unfold maxInitialPacketSize responseHeaderSize
    simp only [List.length_cons]
    omega
  have hhead : ∃ s1, readPayloadHeader cfg (c :: 6 :: l0 :: l1 :: l2 :: l3 :: text).length s = (s1, true) ∧
      KeepsData s s1 ∧ s1.subscribed = s.subscribed ∧ s1.keyIVs = s.keyIVs ∧
      s1.connectionRefused = s.connectionRefused ∧ s1.log = s.log := by
    unfold readPayloadHeader
    simp only [if_neg hlen]
    split
    · split
      · skip
        exact ⟨_, rfl, ⟨rfl, rfl, rfl, rfl, rfl, rfl, rfl, rfl, rfl⟩, rfl, rfl, rfl, rfl⟩
      · exact ⟨_, rfl, ⟨rfl, rfl, rfl, rfl, rfl, rfl, rfl, rfl, rfl⟩, rfl, rfl, rfl, rfl⟩
    · exact ⟨_, rfl, ⟨rfl, rfl, rfl, rfl, rfl, rfl, rfl, rfl, rfl⟩, rfl, rfl, rfl, rfl⟩
  obtain ⟨s1, h1, h2, h3, h4, h5, h6⟩ := hhead
  unfold receive
  rw [h1]
  dsimp only
  unfold readPacket
  rw [processServerResponse]
  rw [if_neg (by unfold responseHeaderSize; simp)]
  dsimp only
  have hgate : ∀ (b : Bool) (d : Bool), ¬ ((b && d && decide (c ≠ rspNoOP ∧
      ((6 : Byte) ≠ cmdDefineOperationalModes ∨ (c ≠ rspSucceeded ∧ c ≠ rspFailed)))) = true) := by
    intro b d h
    rw [Bool.and_eq_true, decide_eq_true_eq] at h
    obtain ⟨-, -, h | h⟩ := h
    · exact h rfl
    · rcases hc with rfl | rfl
      · exact h.1 rfl
      · exact h.2 rfl
  rw [if_neg (hgate _ _)]
  have hk : ∀ t : St, t.half0 = s1.half0 → t.half1 = s1.half1 → t.cacheIndex = s1.cacheIndex →
      t.timeIndex = s1.timeIndex → t.baseTimeOffset0 = s1.baseTimeOffset0 → t.baseTimeOffset1 = s1.baseTimeOffset1 →
      t.bufferBlockExpectedSequenceNumber = s1.bufferBlockExpectedSequenceNumber →
      t.bufferBlockCache = s1.bufferBlockCache → t.totalMeasurementsReceived = s1.totalMeasurementsReceived →
      KeepsData s t := fun t a b c d e f g h i => h2.trans ⟨a, b, c, d, e, f, g, h, i⟩
  rcases hc with rfl | rfl
  · rw [if_pos (show (0x80 : Byte) = rspSucceeded from rfl)]
    rw [handleSucceeded, if_neg (show ¬ (6 : Byte) = cmdMetadataRefresh by decide),
      if_neg (show ¬ ((6 : Byte) = cmdSubscribe ∨ (6 : Byte) = cmdUnsubscribe) by decide),
      if_pos (show (6 : Byte) = cmdDefineOperationalModes ∨ _ from Or.inl rfl)]
    exact ⟨_, rfl, rfl, hk _ rfl rfl rfl rfl rfl rfl rfl rfl rfl, h3, h4, h5,
      by simp [St.emit, h6]⟩
  · rw [if_neg (show ¬ (0x81 : Byte) = rspSucceeded by decide), if_pos (show (0x81 : Byte) = rspFailed from rfl)]
    rw [handleFailed, if_pos (show (6 : Byte) = cmdConnect ∨ (6 : Byte) = cmdDefineOperationalModes by decide)]
    dsimp only
    have hd : (0x81 :: 6 :: l0 :: l1 :: l2 :: l3 :: text).drop responseHeaderSize = text := rfl
    rw [hd]
    by_cases ht : text = []
    · subst ht
      exact ⟨_, rfl, rfl, hk _ rfl rfl rfl rfl rfl rfl rfl rfl rfl, h3, h4, rfl, by simp [h6]⟩
    · rw [if_pos (List.length_pos_iff.mpr ht)]
      exact ⟨_, rfl, rfl, hk _ rfl rfl rfl rfl rfl rfl rfl rfl rfl, h3, h4, rfl, by simp [St.emit, h6, ht]⟩

/-- A case meeting the hypotheses: a refusal with a text. -/
example : ((0x81 : Byte) = 0x80 ∨ (0x81 : Byte) = 0x81) ∧ ([0x6E, 0x6F] : List Byte).length ≤ 8192 := by simp

/-- C23 fails on the first connection of a subscriber: `NewDataSubscriber` (L195) leaves the validated flag set, so a
configuration change reported before any handshake reaches the application. -/
theorem C23_first_connection_false (cfg : Cfg) (env : Env) :
    ∃ s', receive cfg env [0x8A, 0, 0, 0, 0, 0] (establish (setupConnection St.new)) = .ok s' ∧
      Event.configurationChanged ∈ s'.log := by
  have hg : ∀ d : Bool, (!true && d) = false := by simp
  refine ⟨_, rfl, ?_⟩
  exact List.mem_append_right _ (List.mem_singleton.mpr rfl)

/-- C23 fails for NoOP: on any reconnection a NoOP response, which carries no proof of anything, opens the gate, and the
configuration change after it is reported. -/
theorem C23_noop_false (cfg : Cfg) (env : Env) (s0 : St) :
    ∃ s', receiveAll cfg [(env, [0xFF, 0, 0, 0, 0, 0]), (env, [0x8A, 0, 0, 0, 0, 0])] (reconnected s0) = .ok s' ∧
      Event.configurationChanged ∈ s'.log := by
  have h1 : ∃ s1, receive cfg env [0xFF, 0, 0, 0, 0, 0] (reconnected s0) = .ok s1 ∧ s1.validated = true := by
    unfold receive readPayloadHeader
    dsimp only
    have hv : (reconnected s0).validated = false := rfl
    rw [hv]
    simp only [Bool.not_false, if_true]
    by_cases h2 : cfg.version ≥ 2
    · rw [if_pos h2, if_neg (by decide)]
      dsimp only
      unfold readPacket
      rw [processServerResponse, if_neg (by decide)]
      dsimp only
      rw [if_neg (by simp [rspNoOP])]
      exact ⟨_, rfl, rfl⟩
    · rw [if_neg h2]
      exact ⟨_, rfl, rfl⟩
  obtain ⟨s1, h1, hv⟩ := h1
  rw [receiveAll, h1, Res.bind_ok, receiveAll]
  have h2 : receive cfg env [0x8A, 0, 0, 0, 0, 0] s1 =
      .ok (({ s1 with
        totalCommandChannelBytesReceived := s1.totalCommandChannelBytesReceived + 4 + BitVec.ofNat 64 6
        validated := true }.emit .status).emit .configurationChanged) := by
    unfold receive readPayloadHeader
    dsimp only
    rw [hv]
    rfl
  rw [h2, Res.bind_ok]
  refine ⟨_, rfl, ?_⟩
  exact List.mem_append_right _ (List.mem_singleton.mpr rfl)

/-- C23 fails for short packets: any packet of fewer than six bytes, from any peer, validated or not, ends the program. -/
theorem C23_short_packet_panics (cfg : Cfg) (env : Env) (s : St) (body : List Byte) (hb : body.length < 6) :
    receive cfg env body s = .panic := by
  have hp : ∀ s, processServerResponse cfg env body s = .panic := by
    intro s
    rcases body with _ | ⟨rc, _ | ⟨cc, rest⟩⟩
    · rfl
    · rfl
    · rw [processServerResponse, if_pos (by unfold responseHeaderSize; exact hb)]
  unfold receive readPayloadHeader
  dsimp only
  have hlen : ¬ body.length > maxInitialPacketSize := by
    unfold maxInitialPacketSize responseHeaderSize; omega
  split
  · rename_i h
    unfold readPacket
    exact hp _
  · rename_i h
    exfalso
    split at h
    · split at h
      · injection h with _ h
        cases h
      · injection h with _ h
        cases h
    · injection h with _ h
      cases h

/-- A case meeting the hypothesis. -/
example : ([] : List Byte).length < 6 := by decide

end Verif.Session
