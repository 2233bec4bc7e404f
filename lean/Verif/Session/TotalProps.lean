import Verif.Session.Commands
import Verif.Session.TimeProps

/-!
# Totals (C26)
-/

namespace Verif.Session

/-! ## Specification -/

/-- The number of measurements handed to the application. -/
def measurementCount (log : List Event) : Nat := ((delivered log).map List.length).sum

/-- The size on the wire of a packet with this body. -/
def wireSize : Action → Nat
  | .packet _ body => 4 + body.length
  | _ => 0

/-- Not a call of `Subscribe`. -/
def Action.NoSubscribe : Action → Prop
  | .subscribe .. => False
  | _ => True

/-- Not a packet refused for its size. -/
def Action.Fits (s : St) : Action → Prop
  | .packet _ body => s.validated = true ∨ body.length ≤ 8198
  | _ => True

/-! ## Lemmas -/

theorem measurementCount_append (a b : List Event) :
    measurementCount (a ++ b) = measurementCount a + measurementCount b := by
  unfold measurementCount
  rw [delivered_append, List.map_append, List.sum_append]

theorem measurementCount_nodata {es : List Event} (h : ∀ e ∈ es, e.isData = false) : measurementCount es = 0 := by
  unfold measurementCount; rw [delivered_nodata h]; rfl

theorem frame_count {s s' : St} (h : ∃ es, s'.log = s.log ++ es ∧ ∀ e ∈ es, e.isData = false)
    (ht : s'.totalMeasurementsReceived = s.totalMeasurementsReceived) :
    ∃ es, s'.log = s.log ++ es ∧
      s'.totalMeasurementsReceived = s.totalMeasurementsReceived + BitVec.ofNat 64 (measurementCount es) := by
  obtain ⟨es, h1, h2⟩ := h
  exact ⟨es, h1, by rw [measurementCount_nodata h2, ht]; simp⟩

theorem receive_total {cfg : Cfg} {env : Env} {body : List Byte} {s s' : St} (h : receive cfg env body s = .ok s') :
    ∃ es, s'.log = s.log ++ es ∧
      s'.totalMeasurementsReceived = s.totalMeasurementsReceived + BitVec.ofNat 64 (measurementCount es) := by
  rcases receive_cases h with ⟨-, -, -, h1⟩ | ⟨rc, cc, rest, hbody, -, ⟨-, h1⟩ | ⟨-, h1⟩⟩
  · rw [h1]; exact frame_count (s := s.counted 4) (Frame.fail _).nodata (Frame.fail _).total
  · rw [h1]; exact frame_count (s := s.counted _) (Frame.fail _).nodata (Frame.fail _).total
  · cases h1 with
    | data _ h =>
      rcases handleDataPacket_cases h with h | ⟨flags, rest, payload, count, ms, s1, -, -, -, -, hl, ho, h⟩
      · rw [h]; exact frame_count (s := { s.counted _ with validated := true }) (Frame.fail _).nodata (Frame.fail _).total
      · obtain ⟨es, e1, e2⟩ := ho.nodata
        have ht := ho.total
        rw [h]
        refine ⟨es ++ [.newMeasurements ms], ?_, ?_⟩
        · simp only [St.emit, e1, List.append_assoc]; rfl
        · rw [measurementCount_append, measurementCount_nodata e2, Nat.zero_add]
          have : measurementCount [.newMeasurements ms] = ms.length := by simp [measurementCount, delivered]
          rw [this, hl]
          dsimp only [St.emit]
          rw [ht]
          rfl
    | cache _ h =>
      rcases handleUpdateSignalIndexCache_cases h with ⟨g, h⟩ | ⟨i, payload, plain, sub, cache, s1, -, -, -, h1, h⟩
      · rw [h]; exact ⟨[.error], rfl, by simp [measurementCount, delivered, St.emit, St.counted]⟩
      · have hc : ∀ es, measurementCount (es ++ [.subscriptionUpdated cache]) = measurementCount es := by
          intro es; rw [measurementCount_append]; simp [measurementCount, delivered]
        by_cases hv : cfg.version > 1
        · rw [if_pos hv] at h1
          have hf := sendCommand_frame h1
          obtain ⟨es, e1, e2⟩ := hf.nodata
          refine ⟨es ++ [.subscriptionUpdated cache], ?_, ?_⟩
          · rw [h]; simp only [St.emit, e1, ← List.append_assoc]; cases i <;> rfl
          · rw [hc, measurementCount_nodata e2, h]
            have := hf.total
            simp only [St.emit, this]
            cases i <;> simp [St.counted, St.setHalf]
        · rw [if_neg hv] at h1
          refine ⟨[.subscriptionUpdated cache], ?_, ?_⟩
          · rw [h, h1]; cases i <;> rfl
          · rw [show measurementCount [Event.subscriptionUpdated cache] = 0 by simp [measurementCount, delivered], h, h1]
            cases i <;> simp [St.counted, St.setHalf, St.emit]
    | times _ h =>
      obtain ⟨-, h⟩ := handleUpdateBaseTimes_cases h
      rw [h]; exact ⟨[.status], rfl, by simp [measurementCount, delivered, St.emit, St.counted]⟩
    | block _ h =>
      obtain ⟨-, h⟩ := handleBufferBlock_cases h
      dsimp only at h
      rcases h with ⟨_, _, _, h⟩ | ⟨-, s1, _, _, _, _, h1, -, -, -, ⟨-, h⟩ | ⟨-, h⟩⟩
      · rw [h]; exact ⟨[], by simp [St.counted], by simp [measurementCount, delivered, St.counted]⟩
      · have hf := sendCommand_frame h1
        obtain ⟨es, e1, e2⟩ := hf.nodata
        rw [h]
        generalize (_ :: publishable _ ++ List.replicate _ _ : List BufferBlock) = bs
        refine ⟨es ++ [.newBufferBlocks bs], ?_, ?_⟩
        · simp only [St.emit, e1, ← List.append_assoc]; rfl
        · rw [measurementCount_append, measurementCount_nodata e2]
          have := hf.total
          simp only [St.emit, this]
          simp [measurementCount, delivered, St.counted]
      · have hf := sendCommand_frame h1
        obtain ⟨es, e1, e2⟩ := hf.nodata
        rw [h]
        refine ⟨es, e1, ?_⟩
        rw [measurementCount_nodata e2]
        have := hf.total
        simp only [this]
        simp [St.counted]
    | notify _ h =>
      have hf := handleNotification_frame h
      exact frame_count (s := { s.counted _ with validated := true }) hf.nodata hf.total
    | other _ _ _ _ _ hf _ => exact frame_count (s := { s.counted _ with validated := true }) hf.nodata hf.total

theorem unsubscribe_frame {env : Env} {s s' : St} (h : unsubscribe env s = .ok s') :
    (∃ es, s'.log = s.log ++ es ∧ ∀ e ∈ es, e.isData = false) ∧
    s'.totalMeasurementsReceived = s.totalMeasurementsReceived ∧
    s'.totalCommandChannelBytesReceived = s.totalCommandChannelBytesReceived ∧ s'.validated = s.validated := by
  unfold unsubscribe at h
  split at h
  · injection h with h; subst h; exact ⟨⟨[], by simp, by simp⟩, rfl, rfl, rfl⟩
  · rw [Res.bind_eq_ok] at h
    obtain ⟨s1, h1, h⟩ := h
    injection h with h; subst h
    have hf := sendCommand_frame h1
    exact ⟨hf.nodata, hf.total, hf.bytes, hf.validated⟩

theorem subscribe_frame {cfg : Cfg} {env1 env2 : Env} {params : List Byte} {s s' : St}
    (h : subscribe cfg env1 env2 params s = .ok s') :
    (∃ es, s'.log = s.log ++ es ∧ ∀ e ∈ es, e.isData = false) ∧
    s'.totalMeasurementsReceived = 0 ∧
    s'.totalCommandChannelBytesReceived = s.totalCommandChannelBytesReceived ∧ s'.validated = s.validated := by
  unfold subscribe at h
  split at h
  · cases h
  · split at h
    · cases h
    · have key : ∀ s1 : St, (∃ es, s1.log = s.log ++ es ∧ ∀ e ∈ es, e.isData = false) →
          s1.totalCommandChannelBytesReceived = s.totalCommandChannelBytesReceived → s1.validated = s.validated →
          (do
            let s ← sendCommand env2 cmdSubscribe ([flagCompact] ++ beBytes 4 params.length ++ params)
              { s1 with totalMeasurementsReceived := 0 }
            Res.ok { s with tsscResetRequested := true }) = .ok s' →
          (∃ es, s'.log = s.log ++ es ∧ ∀ e ∈ es, e.isData = false) ∧
          s'.totalMeasurementsReceived = 0 ∧
          s'.totalCommandChannelBytesReceived = s.totalCommandChannelBytesReceived ∧ s'.validated = s.validated := by
        intro s1 ⟨es, h1, h2⟩ h3 h4 h
        rw [Res.bind_eq_ok] at h
        obtain ⟨s2, h5, h⟩ := h
        injection h with h; subst h
        have hf := sendCommand_frame h5
        obtain ⟨es2, h6, h7⟩ := hf.nodata
        refine ⟨⟨es ++ es2, ?_, ?_⟩, hf.total, hf.bytes.trans h3, hf.validated.trans h4⟩
        · dsimp only at h6 ⊢; rw [h6, h1, List.append_assoc]
        · intro e he
          rcases List.mem_append.mp he with he | he
          · exact h2 e he
          · exact h7 e he
      by_cases hs : s.subscribed = true
      · rw [if_pos hs, Res.bind_eq_ok] at h
        obtain ⟨s1, h1, h⟩ := h
        obtain ⟨a1, -, a2, a3⟩ := unsubscribe_frame h1
        exact key s1 a1 a2 a3 h
      · rw [if_neg hs, Res.bind_ok] at h
        exact key s ⟨[], by simp, by simp⟩ rfl rfl h

theorem receive_bytes {cfg : Cfg} {env : Env} {body : List Byte} {s s' : St} (h : receive cfg env body s = .ok s')
    (hf : s.validated = true ∨ body.length ≤ 8198) :
    s'.totalCommandChannelBytesReceived = s.totalCommandChannelBytesReceived + BitVec.ofNat 64 (4 + body.length) ∧
    (s.validated = true → s'.validated = true) := by
  have e4 : BitVec.ofNat 64 (4 + body.length) = 4 + BitVec.ofNat 64 body.length := by
    rw [BitVec.ofNat_add]; rfl
  refine ⟨?_, fun hv => receive_validated hv h⟩
  rcases receive_cases h with ⟨h1, -, h2, -⟩ | ⟨rc, cc, rest, hbody, -, ⟨-, h1⟩ | ⟨-, h1⟩⟩
  · rcases hf with hf | hf
    · rw [hf] at h1; cases h1
    · omega
  · rw [h1, e4]; rfl
  · rw [h1.grows.bytes, e4]; rfl

/-! ## Theorems -/

/-- C26, measurements: over any history of packets of any kind and calls of `Unsubscribe`, without `Subscribe`, from any state,
the total grows by exactly the number of measurements handed to the application meanwhile (modulo 2^64, the width of the
counter). -/
theorem C26_measurements (cfg : Cfg) (as : List Action) (s s' : St) (hns : ∀ a ∈ as, a.NoSubscribe)
    (h : runActions cfg as s = .ok s') :
    ∃ es, s'.log = s.log ++ es ∧
      s'.totalMeasurementsReceived = s.totalMeasurementsReceived + BitVec.ofNat 64 (measurementCount es) := by
  induction as generalizing s with
  | nil => rw [runActions] at h; injection h with h; subst h; exact ⟨[], by simp, by simp [measurementCount, delivered]⟩
  | cons a as ih =>
    rw [runActions, Res.bind_eq_ok] at h
    obtain ⟨s1, h1, h2⟩ := h
    have step : ∃ es, s1.log = s.log ++ es ∧
        s1.totalMeasurementsReceived = s.totalMeasurementsReceived + BitVec.ofNat 64 (measurementCount es) := by
      cases a with
      | packet env body => exact receive_total h1
      | subscribe => exact (hns _ List.mem_cons_self).elim
      | unsubscribe env =>
        obtain ⟨a1, a2, -⟩ := unsubscribe_frame h1
        exact frame_count a1 a2
    obtain ⟨es1, e1, e2⟩ := step
    obtain ⟨es2, e3, e4⟩ := ih s1 (fun a ha => hns a (by simp [ha])) h2
    refine ⟨es1 ++ es2, by rw [e3, e1, List.append_assoc], ?_⟩
    rw [e4, e2, measurementCount_append, BitVec.ofNat_add, BitVec.add_assoc]

/-- C26, measurements since the last subscription: whatever came before, after a successful `Subscribe` and any history
without another one, `TotalMeasurementsReceived` is the number of measurements handed to the application since (below 2^64);
so it never falls between two subscriptions. -/
theorem C26_since_subscription (cfg : Cfg) (env1 env2 : Env) (params : List Byte) (s s0 s' : St) (as : List Action)
    (hsub : subscribe cfg env1 env2 params s = .ok s0) (hns : ∀ a ∈ as, a.NoSubscribe)
    (h : runActions cfg as s0 = .ok s') :
    ∃ es, s'.log = s0.log ++ es ∧
      s'.totalMeasurementsReceived.toNat = measurementCount es % 2 ^ 64 := by
  obtain ⟨-, h0, -⟩ := subscribe_frame hsub
  obtain ⟨es, e1, e2⟩ := C26_measurements cfg as s0 s' hns h
  refine ⟨es, e1, ?_⟩
  rw [e2, h0]
  simp

/-- C26, bytes: over any history of packets, `Subscribe` and `Unsubscribe` calls, of which no packet is refused for its size
before the handshake, the total grows by exactly the sizes of the packets on the wire, headers included (modulo 2^64). -/
theorem C26_bytes (cfg : Cfg) (as : List Action) (s s' : St)
    (hfit : ∀ a ∈ as, a.Fits s) (h : runActions cfg as s = .ok s') :
    s'.totalCommandChannelBytesReceived =
      s.totalCommandChannelBytesReceived + BitVec.ofNat 64 ((as.map wireSize).sum) := by
  induction as generalizing s with
  | nil => rw [runActions] at h; injection h with h; subst h; simp
  | cons a as ih =>
    rw [runActions, Res.bind_eq_ok] at h
    obtain ⟨s1, h1, h2⟩ := h
    have step : s1.totalCommandChannelBytesReceived =
        s.totalCommandChannelBytesReceived + BitVec.ofNat 64 (wireSize a) ∧ (s.validated = true → s1.validated = true) := by
      cases a with
      | packet env body => exact receive_bytes h1 (hfit (.packet env body) (by simp))
      | subscribe env1 env2 params =>
        rw [Action.run] at h1
        cases hs : subscribe cfg env1 env2 params s with
        | ok x =>
          rw [hs] at h1
          injection h1 with h1; subst h1
          obtain ⟨-, -, a1, a2⟩ := subscribe_frame hs
          exact ⟨by rw [a1]; simp [wireSize], fun hv => a2.trans hv⟩
        | err => rw [hs] at h1; injection h1 with h1; subst h1; exact ⟨by simp [wireSize], id⟩
        | panic => rw [hs] at h1; cases h1
      | unsubscribe env =>
        obtain ⟨-, -, a1, a2⟩ := unsubscribe_frame h1
        exact ⟨by rw [a1]; simp [wireSize], fun hv => a2.trans hv⟩
    have hfit2 : ∀ a ∈ as, a.Fits s1 := by
      intro b hb
      have := hfit b (by simp [hb])
      cases b with
      | packet env body =>
        rcases this with hv | hv
        · exact Or.inl (step.2 hv)
        · exact Or.inr hv
      | subscribe => trivial
      | unsubscribe => trivial
    rw [ih s1 hfit2 h2, step.1, List.map_cons, List.sum_cons, BitVec.ofNat_add, BitVec.add_assoc]

/-- Both totals start at zero with a connection, over any history. -/
theorem C26_start (s : St) : (reconnected s).totalMeasurementsReceived = 0 ∧
    (reconnected s).totalCommandChannelBytesReceived = 0 := ⟨rfl, rfl⟩

/-- Why `C26_bytes` leaves out refused packets: of a packet refused for its size only the header is counted, though the peer
has sent more. -/
theorem C26_refused_packet (cfg : Cfg) (h2 : 2 ≤ cfg.version.toNat) (env : Env) (s : St) (hv : s.validated = false)
    (body : List Byte) (hb : 8198 < body.length) :
    ∃ s', receive cfg env body s = .ok s' ∧
      s'.totalCommandChannelBytesReceived = s.totalCommandChannelBytesReceived + 4 := by
  unfold receive readPayloadHeader
  dsimp only
  rw [hv]
  simp only [Bool.not_false, if_true]
  rw [if_pos (show cfg.version ≥ 2 from h2), if_pos (show body.length > maxInitialPacketSize from hb)]
  exact ⟨_, rfl, rfl⟩

/-- A case meeting the hypotheses of `C26_bytes` and `C26_measurements`: a compact packet of two measurements, a change of the
configuration, and an `Unsubscribe`. -/
example : ∃ (as : List Action) (s' : St), as.length = 3 ∧ (∀ a ∈ as, a.NoSubscribe) ∧ (∀ a ∈ as, a.Fits exSt) ∧
    runActions exCfg as exSt = .ok s' ∧ s'.totalMeasurementsReceived = 2 ∧ s'.totalCommandChannelBytesReceived = 51 := by
  refine ⟨[.packet ⟨true, none⟩ (packet 0x82 0 0 (dataPayload 0x02 2
    ([0x40, 0, 0, 0, 7, 0, 0, 0, 1, 0, 0, 0, 9] ++ [0x40, 0, 0, 0, 8, 0, 0, 0, 1, 0, 0, 0, 9]))),
    .packet ⟨true, none⟩ (packet 0x8A 0 0 []), .unsubscribe ⟨true, none⟩], _, rfl, ?_, ?_, rfl, ?_, ?_⟩
  · simp [Action.NoSubscribe]
  · simp [Action.Fits, exSt, establish, setupConnection, St.new]
  · decide
  · decide

/-- A case meeting the hypotheses of `C26_since_subscription`. -/
example : ∃ s0 s', subscribe exCfg ⟨true, none⟩ ⟨true, none⟩ [0x61] exSt = .ok s0 ∧
    runActions exCfg [.packet ⟨true, none⟩ (packet 0x8A 0 0 [])] s0 = .ok s' :=
  ⟨_, _, rfl, rfl⟩

/-- A case meeting the hypotheses of `C26_refused_packet`. -/
example : (reconnected exSt).validated = false ∧ 8198 < (List.replicate 9000 (0 : Byte)).length :=
  ⟨rfl, by rw [List.length_replicate]; omega⟩

end Verif.Session
