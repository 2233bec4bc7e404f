import Verif.Session.Frame

/-!
# The ways a packet can be handled

Case analysis of response processing used by the property theorems.
-/

namespace Verif.Session

/-- A response with code `rc` and payload `data` takes `s` to `s'`. -/
inductive Handled (cfg : Cfg) (env : Env) (rc : Byte) (data : List Byte) (s s' : St) : Prop
  | data (hr : rc = rspDataPacket) (h : handleDataPacket cfg env data s = .ok s')
  | cache (hr : rc = rspUpdateSignalIndexCache) (h : handleUpdateSignalIndexCache cfg env data s = .ok s')
  | times (hr : rc = rspUpdateBaseTimes) (h : handleUpdateBaseTimes data s = .ok s')
  | block (hr : rc = rspBufferBlock) (h : handleBufferBlock cfg env data s = .ok s')
  | notify (hr : rc = rspNotify) (h : handleNotification env data s = .ok s')
  | other (h1 : rc ≠ rspDataPacket) (h2 : rc ≠ rspUpdateSignalIndexCache) (h3 : rc ≠ rspUpdateBaseTimes)
      (h4 : rc ≠ rspBufferBlock) (h5 : rc ≠ rspNotify) (h : Frame s s')
      (hsent : ∀ b, Event.sent b ∈ s'.log → Event.sent b ∈ s.log)

/-- The test of the validation gate (L915-922). -/
def Refused (cfg : Cfg) (rc cc : Byte) (s : St) : Prop :=
  s.validated = false ∧ cfg.version ≥ 2 ∧ rc ≠ rspNoOP ∧
    (cc ≠ cmdDefineOperationalModes ∨ (rc ≠ rspSucceeded ∧ rc ≠ rspFailed))

theorem sent_emit {s : St} {e : Event} (he : ∀ b, e ≠ .sent b) : ∀ b, Event.sent b ∈ (s.emit e).log → Event.sent b ∈ s.log := by
  intro b hb
  simp only [St.emit, List.mem_append, List.mem_singleton] at hb
  rcases hb with hb | hb
  · exact hb
  · exact absurd hb.symm (he b)

theorem handleMetadataRefresh_sent {cfg : Cfg} {d : List Byte} {s s' : St}
    (h : handleMetadataRefresh cfg d s = .ok s') : ∀ b, Event.sent b ∈ s'.log → Event.sent b ∈ s.log := by
  unfold handleMetadataRefresh at h
  dsimp only at h
  intro b hb
  split at h
  · split at h <;> injection h with h <;> subst h <;> simpa [St.emit] using hb
  · injection h with h; subst h; simpa [St.emit] using hb

theorem process_cases {cfg : Cfg} {env : Env} {buf : List Byte} {s s' : St}
    (h : processServerResponse cfg env buf s = .ok s') :
    ∃ rc cc rest, buf = rc :: cc :: rest ∧ 6 ≤ buf.length ∧
      ((Refused cfg rc cc s ∧ s' = s.fail) ∨
       (¬ Refused cfg rc cc s ∧ Handled cfg env rc (buf.drop 6) { s with validated := true } s')) := by
  rcases buf with _ | ⟨rc, _ | ⟨cc, rest⟩⟩
  · cases h
  · cases h
  · rw [processServerResponse] at h
    refine ⟨rc, cc, rest, rfl, ?_⟩
    by_cases hl : (rc :: cc :: rest).length < responseHeaderSize
    · rw [if_pos hl] at h; cases h
    · rw [if_neg hl] at h
      refine ⟨by unfold responseHeaderSize at hl; omega, ?_⟩
      dsimp only at h
      have hg : ((!s.validated && decide (cfg.version ≥ 2) && decide (rc ≠ rspNoOP ∧
          (cc ≠ cmdDefineOperationalModes ∨ (rc ≠ rspSucceeded ∧ rc ≠ rspFailed)))) = true) ↔ Refused cfg rc cc s := by
        simp only [Bool.and_eq_true, Bool.not_eq_true', decide_eq_true_eq, Refused, and_assoc]
      by_cases hr : Refused cfg rc cc s
      · rw [if_pos (hg.mpr hr)] at h
        left; injection h with h; exact ⟨hr, h.symm⟩
      · rw [if_neg (fun hx => hr (hg.mp hx))] at h
        right
        refine ⟨hr, ?_⟩
        generalize hs1 : { s with validated := true } = s1 at *
        have hdrop : List.drop responseHeaderSize (rc :: cc :: rest) = (rc :: cc :: rest).drop 6 := rfl
        rw [hdrop] at h
        by_cases hc : rc = rspSucceeded
        · rw [if_pos hc] at h
          refine .other ?_ ?_ ?_ ?_ ?_ (handleSucceeded_frame h) ?_
          all_goals try (rw [hc]; decide)
          intro b hb
          unfold handleSucceeded at h
          split at h
          · exact handleMetadataRefresh_sent h b hb
          · split at h
            · injection h with h; subst h; simpa [St.emit] using hb
            · split at h <;> injection h with h <;> subst h <;> simpa [St.emit] using hb
        rw [if_neg hc] at h
        have hnrspSucceeded := hc; clear hc
        by_cases hc : rc = rspFailed
        · rw [if_pos hc] at h
          refine .other ?_ ?_ ?_ ?_ ?_ (handleFailed_frame h) ?_
          all_goals try (rw [hc]; decide)
          intro b hb
          unfold handleFailed at h
          dsimp only at h
          split at h
          · split at h <;> injection h with h <;> subst h <;> simpa [St.emit] using hb
          · injection h with h; subst h; simpa [St.emit] using hb
        rw [if_neg hc] at h
        have hnrspFailed := hc; clear hc
        by_cases hc : rc = rspDataPacket
        · rw [if_pos hc] at h; exact .data hc h
        rw [if_neg hc] at h
        have hnrspDataPacket := hc; clear hc
        by_cases hc : rc = rspDataStartTime
        · rw [if_pos hc] at h
          refine .other ?_ ?_ ?_ ?_ ?_ (handleDataStartTime_frame h) ?_
          all_goals try (rw [hc]; decide)
          intro b hb
          unfold handleDataStartTime at h
          rw [Res.bind_eq_ok] at h
          obtain ⟨t, -, h⟩ := h
          injection h with h; subst h; simpa [St.emit] using hb
        rw [if_neg hc] at h
        have hnrspDataStartTime := hc; clear hc
        by_cases hc : rc = rspProcessingComplete
        · rw [if_pos hc] at h
          refine .other ?_ ?_ ?_ ?_ ?_ (handleProcessingComplete_frame h) ?_
          all_goals try (rw [hc]; decide)
          intro b hb
          injection h with h; subst h; simpa [St.emit] using hb
        rw [if_neg hc] at h
        have hnrspProcessingComplete := hc; clear hc
        by_cases hc : rc = rspUpdateSignalIndexCache
        · rw [if_pos hc] at h; exact .cache hc h
        rw [if_neg hc] at h
        have hnrspUpdateSignalIndexCache := hc; clear hc
        by_cases hc : rc = rspUpdateBaseTimes
        · rw [if_pos hc] at h; exact .times hc h
        rw [if_neg hc] at h
        have hnrspUpdateBaseTimes := hc; clear hc
        by_cases hc : rc = rspUpdateCipherKeys
        · rw [if_pos hc] at h
          refine .other ?_ ?_ ?_ ?_ ?_ (handleUpdateCipherKeys_frame h) ?_
          all_goals try (rw [hc]; decide)
          intro b hb
          unfold handleUpdateCipherKeys at h
          simp only [Res.bind_eq_ok] at h
          obtain ⟨_, -, _, -, _, -, _, -, h⟩ := h
          injection h with h; subst h; simpa [St.emit] using hb
        rw [if_neg hc] at h
        have hnrspUpdateCipherKeys := hc; clear hc
        by_cases hc : rc = rspConfigurationChanged
        · rw [if_pos hc] at h
          refine .other ?_ ?_ ?_ ?_ ?_ (handleConfigurationChanged_frame h) ?_
          all_goals try (rw [hc]; decide)
          intro b hb
          injection h with h; subst h; simpa [St.emit] using hb
        rw [if_neg hc] at h
        have hnrspConfigurationChanged := hc; clear hc
        by_cases hc : rc = rspBufferBlock
        · rw [if_pos hc] at h; exact .block hc h
        rw [if_neg hc] at h
        have hnrspBufferBlock := hc; clear hc
        by_cases hc : rc = rspNotify
        · rw [if_pos hc] at h; exact .notify hc h
        rw [if_neg hc] at h
        have hnrspNotify := hc; clear hc
        by_cases hc : rc = rspNoOP
        · rw [if_pos hc] at h
          injection h with h; subst h
          refine .other ?_ ?_ ?_ ?_ ?_ (Frame.refl _) (fun b hb => hb)
          all_goals (rw [hc]; decide)
        rw [if_neg hc] at h
        have hnrspNoOP := hc; clear hc
        injection h with h; subst h
        exact .other ‹_› ‹_› ‹_› ‹_› ‹_› (Frame.emit _ _ rfl) (sent_emit (by simp))

theorem Handled.grows {cfg : Cfg} {env : Env} {rc : Byte} {data : List Byte} {s s' : St}
    (h : Handled cfg env rc data s s') : Grows s s' := by
  cases h with
  | data _ h => exact handleDataPacket_grows h
  | cache _ h => exact handleUpdateSignalIndexCache_grows h
  | times _ h => exact handleUpdateBaseTimes_grows h
  | block _ h => exact handleBufferBlock_grows h
  | notify _ h => exact (handleNotification_frame h).toGrows
  | other _ _ _ _ _ h => exact h.toGrows

/-- The state with `n` more bytes counted. -/
def St.counted (s : St) (n : BitVec 64) : St :=
  { s with totalCommandChannelBytesReceived := s.totalCommandChannelBytesReceived + n }

/-- What happens to a complete packet. -/
theorem receive_cases {cfg : Cfg} {env : Env} {body : List Byte} {s s' : St} (h : receive cfg env body s = .ok s') :
    (s.validated = false ∧ cfg.version ≥ 2 ∧ body.length > 8198 ∧ s' = (s.counted 4).fail) ∨
    ∃ rc cc rest, body = rc :: cc :: rest ∧ 6 ≤ body.length ∧
      ((Refused cfg rc cc s ∧ s' = (s.counted (4 + BitVec.ofNat 64 body.length)).fail) ∨
       (¬ Refused cfg rc cc s ∧ Handled cfg env rc (body.drop 6)
          { s.counted (4 + BitVec.ofNat 64 body.length) with validated := true } s')) := by
  unfold receive readPayloadHeader at h
  dsimp only at h
  by_cases hv : s.validated = true
  · rw [hv] at h
    simp only [Bool.not_true, Bool.false_eq_true, if_false] at h
    right
    obtain ⟨rc, cc, rest, h1, h2, h3⟩ := process_cases h
    refine ⟨rc, cc, rest, h1, h2, ?_⟩
    rcases h3 with ⟨⟨h3, -⟩, -⟩ | ⟨-, h4⟩
    · change true = false at h3; cases h3
    · right
      refine ⟨?_, ?_⟩
      · rintro ⟨hx, -⟩; rw [hv] at hx; cases hx
      · dsimp only at h4
        rw [BitVec.add_assoc] at h4
        exact h4
  · have hv : s.validated = false := by simpa using hv
    rw [hv] at h
    simp only [Bool.not_false, if_true] at h
    by_cases h2 : cfg.version ≥ 2
    · rw [if_pos h2] at h
      by_cases h3 : body.length > maxInitialPacketSize
      · rw [if_pos h3] at h
        left
        injection h with h
        exact ⟨hv, h2, h3, by rw [← h, St.counted, hv]⟩
      · rw [if_neg h3] at h
        right
        obtain ⟨rc, cc, rest, h4, h5, h6⟩ := process_cases h
        refine ⟨rc, cc, rest, h4, h5, ?_⟩
        rcases h6 with ⟨h7, h8⟩ | ⟨h7, h8⟩
        · left
          refine ⟨⟨hv, h7.2⟩, ?_⟩
          rw [h8]
          unfold St.counted
          rw [hv]
          simp only [BitVec.add_assoc]
        · right
          refine ⟨fun hx => h7 ⟨rfl, hx.2⟩, ?_⟩
          dsimp only at h8
          rw [BitVec.add_assoc] at h8
          exact h8
    · rw [if_neg h2] at h
      right
      obtain ⟨rc, cc, rest, h4, h5, h6⟩ := process_cases h
      refine ⟨rc, cc, rest, h4, h5, ?_⟩
      rcases h6 with ⟨h7, h8⟩ | ⟨h7, h8⟩
      · exact absurd h7.2.1 h2
      · right
        refine ⟨fun hx => h2 hx.2.1, ?_⟩
        dsimp only at h8
        rw [BitVec.add_assoc] at h8
        exact h8

theorem receive_validated {cfg : Cfg} {env : Env} {body : List Byte} {s s' : St} (hv : s.validated = true)
    (h : receive cfg env body s = .ok s') : s'.validated = true := by
  rcases receive_cases h with ⟨h1, _⟩ | ⟨_, _, _, _, _, ⟨h1, _⟩ | ⟨_, h1⟩⟩
  · rw [hv] at h1; cases h1
  · have h1 := h1.1; rw [hv] at h1; cases h1
  · rw [h1.grows.validated]

end Verif.Session
