import Verif.Session.Model

/-!
# What each handler leaves alone

Lemmas used by the property theorems.
-/

set_option linter.unusedSimpArgs false

namespace Verif.Session

/-- Fields kept by every handler, and the log only grows. -/
structure Grows (s s' : St) : Prop where
  connected : s'.connected = s.connected
  validated : s'.validated = s.validated
  disconnecting : s'.disconnecting = s.disconnecting
  bytes : s'.totalCommandChannelBytesReceived = s.totalCommandChannelBytesReceived
  log : ∃ es, s'.log = s.log ++ es

/-- The measurement-related fields. -/
structure KeepsData (s s' : St) : Prop where
  half0 : s'.half0 = s.half0
  half1 : s'.half1 = s.half1
  cacheIndex : s'.cacheIndex = s.cacheIndex
  timeIndex : s'.timeIndex = s.timeIndex
  offset0 : s'.baseTimeOffset0 = s.baseTimeOffset0
  offset1 : s'.baseTimeOffset1 = s.baseTimeOffset1
  expected : s'.bufferBlockExpectedSequenceNumber = s.bufferBlockExpectedSequenceNumber
  blocks : s'.bufferBlockCache = s.bufferBlockCache
  total : s'.totalMeasurementsReceived = s.totalMeasurementsReceived

/-- Events that deliver data to the application. -/
def Event.isData : Event → Bool
  | .newMeasurements _ | .newBufferBlocks _ | .subscriptionUpdated _ => true
  | _ => false

/-- Everything kept, and the events added deliver no data. -/
structure Frame (s s' : St) : Prop extends Grows s s', KeepsData s s' where
  nodata : ∃ es, s'.log = s.log ++ es ∧ ∀ e ∈ es, e.isData = false

theorem Frame.refl (s : St) : Frame s s := by
  constructor <;> first | (constructor <;> first | rfl | exact ⟨[], by simp⟩) | exact ⟨[], by simp⟩

theorem Grows.refl (s : St) : Grows s s := (Frame.refl s).toGrows
theorem KeepsData.refl (s : St) : KeepsData s s := (Frame.refl s).toKeepsData

theorem Grows.trans {a b c : St} (h1 : Grows a b) (h2 : Grows b c) : Grows a c := by
  obtain ⟨e1, h1l⟩ := h1.log
  obtain ⟨e2, h2l⟩ := h2.log
  exact ⟨h2.connected.trans h1.connected, h2.validated.trans h1.validated,
    h2.disconnecting.trans h1.disconnecting, h2.bytes.trans h1.bytes, e1 ++ e2, by rw [h2l, h1l]; simp⟩

theorem KeepsData.trans {a b c : St} (h1 : KeepsData a b) (h2 : KeepsData b c) : KeepsData a c :=
  ⟨h2.half0.trans h1.half0, h2.half1.trans h1.half1, h2.cacheIndex.trans h1.cacheIndex,
    h2.timeIndex.trans h1.timeIndex, h2.offset0.trans h1.offset0, h2.offset1.trans h1.offset1,
    h2.expected.trans h1.expected, h2.blocks.trans h1.blocks, h2.total.trans h1.total⟩

theorem Frame.trans {a b c : St} (h1 : Frame a b) (h2 : Frame b c) : Frame a c := by
  refine ⟨h1.toGrows.trans h2.toGrows, h1.toKeepsData.trans h2.toKeepsData, ?_⟩
  obtain ⟨e1, h1l, h1n⟩ := h1.nodata
  obtain ⟨e2, h2l, h2n⟩ := h2.nodata
  refine ⟨e1 ++ e2, by rw [h2l, h1l]; simp, ?_⟩
  intro e he
  rcases List.mem_append.mp he with h | h
  · exact h1n e h
  · exact h2n e h

theorem Frame.emit (s : St) (e : Event) (he : e.isData = false) : Frame s (s.emit e) :=
  ⟨⟨rfl, rfl, rfl, rfl, [e], rfl⟩, ⟨rfl, rfl, rfl, rfl, rfl, rfl, rfl, rfl, rfl⟩, [e], rfl, by simpa using he⟩

theorem Grows.emit (s : St) (e : Event) : Grows s (s.emit e) := ⟨rfl, rfl, rfl, rfl, [e], rfl⟩

theorem KeepsData.emit (s : St) (e : Event) : KeepsData s (s.emit e) := ⟨rfl, rfl, rfl, rfl, rfl, rfl, rfl, rfl, rfl⟩

theorem Frame.fail (s : St) : Frame s s.fail := (Frame.emit s .error rfl).trans (Frame.emit _ .terminate rfl)

theorem sendCommand_frame {env : Env} {c : Byte} {p : List Byte} {s s' : St} (h : sendCommand env c p s = .ok s') :
    Frame s s' := by
  unfold sendCommand at h
  split at h
  · injection h with h; rw [h]; exact Frame.refl _
  · split at h
    · cases h
    · split at h
      · injection h with h; subst h; exact Frame.emit _ _ rfl
      · injection h with h; subst h; exact Frame.fail _

theorem handleMetadataRefresh_frame {cfg : Cfg} {d : List Byte} {s s' : St}
    (h : handleMetadataRefresh cfg d s = .ok s') : Frame s s' := by
  unfold handleMetadataRefresh at h
  split at h
  · dsimp only at h
    split at h
    · injection h with h; subst h
      exact (Frame.emit _ _ rfl).trans (Frame.emit _ _ rfl)
    · injection h with h; subst h
      exact ((Frame.emit _ _ rfl).trans (Frame.emit _ _ rfl)).trans (Frame.emit _ _ rfl)
  · injection h with h; subst h
    exact (Frame.emit _ _ rfl).trans (Frame.emit _ _ rfl)

theorem Frame.subscribed (s : St) (b : Bool) : Frame s { s with subscribed := b } :=
  ⟨⟨rfl, rfl, rfl, rfl, [], by simp⟩, ⟨rfl, rfl, rfl, rfl, rfl, rfl, rfl, rfl, rfl⟩, [], by simp, by simp⟩

theorem Frame.refused (s : St) (b : Bool) : Frame s { s with connectionRefused := b } :=
  ⟨⟨rfl, rfl, rfl, rfl, [], by simp⟩, ⟨rfl, rfl, rfl, rfl, rfl, rfl, rfl, rfl, rfl⟩, [], by simp, by simp⟩

theorem Frame.keys (s : St) (k : Option KeyIVs) : Frame s { s with keyIVs := k } :=
  ⟨⟨rfl, rfl, rfl, rfl, [], by simp⟩, ⟨rfl, rfl, rfl, rfl, rfl, rfl, rfl, rfl, rfl⟩, [], by simp, by simp⟩

theorem Frame.subscriber (s : St) (g : Guid.Guid) : Frame s { s with subscriberID := g } :=
  ⟨⟨rfl, rfl, rfl, rfl, [], by simp⟩, ⟨rfl, rfl, rfl, rfl, rfl, rfl, rfl, rfl, rfl⟩, [], by simp, by simp⟩

theorem handleSucceeded_frame {cfg : Cfg} {c : Byte} {d : List Byte} {s s' : St}
    (h : handleSucceeded cfg c d s = .ok s') : Frame s s' := by
  unfold handleSucceeded at h
  split at h
  · exact handleMetadataRefresh_frame h
  · split at h
    · injection h with h; subst h
      exact (Frame.subscribed _ _).trans (Frame.emit _ _ rfl)
    · split at h
      · injection h with h; subst h; exact Frame.emit _ _ rfl
      · injection h with h; subst h; exact Frame.emit _ _ rfl

theorem handleFailed_frame {c : Byte} {d : List Byte} {s s' : St} (h : handleFailed c d s = .ok s') : Frame s s' := by
  unfold handleFailed at h
  split at h
  · dsimp only at h
    split at h
    · injection h with h; subst h; exact (Frame.refused _ _).trans (Frame.emit _ _ rfl)
    · injection h with h; subst h; exact Frame.refused _ _
  · injection h with h; subst h; exact Frame.emit _ _ rfl

theorem handleDataStartTime_frame {d : List Byte} {s s' : St} (h : handleDataStartTime d s = .ok s') : Frame s s' := by
  unfold handleDataStartTime at h
  rw [Res.bind_eq_ok] at h
  obtain ⟨t, -, h⟩ := h
  injection h with h; subst h; exact Frame.emit _ _ rfl

theorem handleProcessingComplete_frame {d : List Byte} {s s' : St} (h : handleProcessingComplete d s = .ok s') :
    Frame s s' := by
  injection h with h; subst h; exact Frame.emit _ _ rfl

theorem handleUpdateCipherKeys_frame {d : List Byte} {s s' : St} (h : handleUpdateCipherKeys d s = .ok s') :
    Frame s s' := by
  unfold handleUpdateCipherKeys at h
  simp only [Res.bind_eq_ok] at h
  obtain ⟨_, -, _, -, _, -, _, -, h⟩ := h
  injection h with h; subst h
  exact (Frame.keys _ _).trans (Frame.emit _ _ rfl)

theorem handleConfigurationChanged_frame {s s' : St} (h : handleConfigurationChanged s = .ok s') : Frame s s' := by
  injection h with h; subst h; exact (Frame.emit _ _ rfl).trans (Frame.emit _ _ rfl)

theorem handleNotification_frame {env : Env} {d : List Byte} {s s' : St} (h : handleNotification env d s = .ok s') :
    Frame s s' := by
  unfold handleNotification at h
  split at h
  · cases h
  · exact ((Frame.emit _ _ rfl).trans (Frame.emit _ _ rfl)).trans (sendCommand_frame h)

/-! ## The other handlers -/

@[simp] theorem half_setHalf_same (s : St) (i : Bool) (h : Half) : (s.setHalf i h).half i = h := by
  cases i <;> rfl

theorem half_setHalf_other (s : St) (i j : Bool) (h : Half) (hij : i ≠ j) : (s.setHalf i h).half j = s.half j := by
  cases i <;> cases j <;> first | rfl | exact absurd rfl hij

@[simp] theorem half_emit (s : St) (e : Event) (i : Bool) : (s.emit e).half i = s.half i := by cases i <;> rfl
@[simp] theorem half_fail (s : St) (i : Bool) : s.fail.half i = s.half i := by cases i <;> rfl

theorem Grows.setHalf (s : St) (i : Bool) (h : Half) : Grows s (s.setHalf i h) := by
  cases i <;> exact ⟨rfl, rfl, rfl, rfl, [], by simp [St.setHalf]⟩

/-- All but the halves. -/
structure KeepsOther (s s' : St) : Prop where
  cacheIndex : s'.cacheIndex = s.cacheIndex
  timeIndex : s'.timeIndex = s.timeIndex
  offset0 : s'.baseTimeOffset0 = s.baseTimeOffset0
  offset1 : s'.baseTimeOffset1 = s.baseTimeOffset1
  expected : s'.bufferBlockExpectedSequenceNumber = s.bufferBlockExpectedSequenceNumber
  blocks : s'.bufferBlockCache = s.bufferBlockCache
  total : s'.totalMeasurementsReceived = s.totalMeasurementsReceived
  nodata : ∃ es, s'.log = s.log ++ es ∧ ∀ e ∈ es, e.isData = false

theorem KeepsOther.trans {a b c : St} (h1 : KeepsOther a b) (h2 : KeepsOther b c) : KeepsOther a c := by
  obtain ⟨e1, h1l, h1n⟩ := h1.nodata
  obtain ⟨e2, h2l, h2n⟩ := h2.nodata
  refine ⟨h2.cacheIndex.trans h1.cacheIndex,
    h2.timeIndex.trans h1.timeIndex, h2.offset0.trans h1.offset0, h2.offset1.trans h1.offset1,
    h2.expected.trans h1.expected, h2.blocks.trans h1.blocks, h2.total.trans h1.total, e1 ++ e2,
    by rw [h2l, h1l]; simp, ?_⟩
  intro e he
  rcases List.mem_append.mp he with h | h
  · exact h1n e h
  · exact h2n e h

theorem Frame.other {s s' : St} (h : Frame s s') : KeepsOther s s' :=
  ⟨h.cacheIndex, h.timeIndex, h.offset0, h.offset1, h.expected, h.blocks, h.total, h.nodata⟩

theorem KeepsOther.setHalf (s : St) (i : Bool) (h : Half) : KeepsOther s (s.setHalf i h) := by
  cases i <;> exact ⟨rfl, rfl, rfl, rfl, rfl, rfl, rfl, [], by simp [St.setHalf], by simp⟩

/-- A state that differs in half `i`'s decoder and the reset request only, with no data delivered. -/
structure DecoderOnly (i : Bool) (s s' : St) : Prop extends Grows s s', KeepsOther s s' where
  cache : (s'.half i).cache = (s.half i).cache
  otherHalf : s'.half (!i) = s.half (!i)

theorem DecoderOnly.refl (i : Bool) (s : St) : DecoderOnly i s s :=
  ⟨Grows.refl s, (Frame.refl s).other, rfl, rfl⟩

theorem DecoderOnly.trans {i : Bool} {a b c : St} (h1 : DecoderOnly i a b) (h2 : DecoderOnly i b c) :
    DecoderOnly i a c :=
  ⟨h1.toGrows.trans h2.toGrows, h1.toKeepsOther.trans h2.toKeepsOther, h2.cache.trans h1.cache,
    h2.otherHalf.trans h1.otherHalf⟩

theorem DecoderOnly.setHalf (i : Bool) (s : St) (h : Half) (hc : h.cache = (s.half i).cache) :
    DecoderOnly i s (s.setHalf i h) :=
  ⟨Grows.setHalf s i h, KeepsOther.setHalf s i h, by rw [half_setHalf_same]; exact hc,
    half_setHalf_other s i _ h (by cases i <;> simp)⟩

theorem Frame.half {s s' : St} (h : Frame s s') (i : Bool) : s'.half i = s.half i := by
  cases i
  · exact h.half0
  · exact h.half1

theorem DecoderOnly.ofFrame {i : Bool} {s s' : St} (h : Frame s s') : DecoderOnly i s s' :=
  ⟨h.toGrows, h.other, by rw [h.half], h.half _⟩

theorem DecoderOnly.reset (i : Bool) (s : St) (b : Bool) : DecoderOnly i s { s with tsscResetRequested := b } :=
  ⟨⟨rfl, rfl, rfl, rfl, [], by simp⟩, ⟨rfl, rfl, rfl, rfl, rfl, rfl, rfl, [], by simp, by simp⟩, by cases i <;> rfl,
    by cases i <;> rfl⟩

/-- `parseTSSC` in steps: the state before decoding. -/
def tsscPrepare (i : Bool) (seq : BitVec 16) (s : St) : Tssc.Decoder × BitVec 16 × St :=
  let h := s.half i
  let dn := decoderFor h
  let s := s.setHalf i { h with decoder := some (dn.1, dn.2) }
  let r := if seq = 0 then
      let s := if dn.2 > 0 then s.emit .status else s
      (Tssc.newDecoder, (0 : BitVec 16), { s with tsscResetRequested := false })
    else (dn.1, dn.2, s)
  (r.1, r.2.1, r.2.2.setHalf i { h with decoder := some (r.1, r.2.1) })

theorem tsscPrepare_only (i : Bool) (seq : BitVec 16) (s : St) : DecoderOnly i s (tsscPrepare i seq s).2.2 := by
  unfold tsscPrepare
  dsimp only
  have h0 := DecoderOnly.setHalf i s ⟨(s.half i).cache, some ((decoderFor (s.half i)).1, (decoderFor (s.half i)).2)⟩ rfl
  split
  · refine DecoderOnly.trans ?_ (DecoderOnly.setHalf i _ _ ?_)
    · refine DecoderOnly.trans ?_ (DecoderOnly.reset i _ _)
      split
      · exact h0.trans (DecoderOnly.ofFrame (Frame.emit _ _ rfl))
      · exact h0
    · dsimp only
      have : ∀ s1 : St, { s1 with tsscResetRequested := false }.half i = s1.half i := by cases i <;> exact fun _ => rfl
      rw [this]
      split
      · rw [half_emit, half_setHalf_same]
      · rw [half_setHalf_same]
  · refine h0.trans (DecoderOnly.setHalf i _ _ ?_)
    rw [half_setHalf_same]

/-- `parseTSSC` past the version and number. -/
def tsscBody (i : Bool) (data : List Byte) (seq : BitVec 16) (ms : List Measurement) (cache : Sic.Cache) :
    Tssc.Decoder × BitVec 16 × St → Res (List Measurement × St)
  | (decoder, number, s) =>
    if number ≠ seq then .ok (ms, s)
    else
      let r := Tssc.decodeBlock decoder data
      if ms.length < r.1.length then .panic
      else do
        let new ← ofTsscAll cache r.1
        let ms := new ++ ms.drop new.length
        match r.2.1 with
        | .panic => .panic
        | .err => .ok (ms, (s.setHalf i ⟨cache, some (r.2.2, number)⟩).fail)
        | .ok () => .ok (ms, s.setHalf i ⟨cache, some (r.2.2, nextSequence number)⟩)

theorem parseTSSC_eq (i : Bool) (rest : List Byte) (ms : List Measurement) (s : St) :
    parseTSSC i (85 :: rest) ms s = (do
      let n ← readBE 2 rest
      tsscBody i (rest.drop 2) (BitVec.ofNat 16 n) ms (s.half i).cache (tsscPrepare i (BitVec.ofNat 16 n) s)) := by
  unfold parseTSSC
  dsimp only
  rw [if_neg (by decide)]
  cases readBE 2 rest with
  | err => rfl
  | panic => rfl
  | ok n =>
    rw [Res.bind_ok, Res.bind_ok]
    unfold tsscBody tsscPrepare
    dsimp only
    by_cases h : BitVec.ofNat 16 n = 0
    · simp only [h, if_true]
      rfl
    · simp only [h, if_false]
      rfl

theorem tsscBody_only {i : Bool} {data : List Byte} {seq : BitVec 16} {ms : List Measurement} {cache : Sic.Cache}
    {d : Tssc.Decoder} {n : BitVec 16} {s : St} {ms' : List Measurement} {s' : St}
    (hc : cache = (s.half i).cache)
    (h : tsscBody i data seq ms cache (d, n, s) = .ok (ms', s')) : DecoderOnly i s s' := by
  unfold tsscBody at h
  dsimp only at h
  split at h
  · injection h with h; injection h with h1 h2; rw [← h2]; exact DecoderOnly.refl i s
  · split at h
    · cases h
    · rw [Res.bind_eq_ok] at h
      obtain ⟨new, -, h⟩ := h
      split at h
      · cases h
      · injection h with h; injection h with h1 h2; rw [← h2]
        exact (DecoderOnly.setHalf i s _ hc).trans (DecoderOnly.ofFrame (Frame.fail _))
      · injection h with h; injection h with h1 h2; rw [← h2]
        exact DecoderOnly.setHalf i s _ hc

theorem parseTSSC_only {i : Bool} {data : List Byte} {ms : List Measurement} {s : St}
    {ms' : List Measurement} {s' : St} (h : parseTSSC i data ms s = .ok (ms', s')) : DecoderOnly i s s' := by
  cases data with
  | nil => cases h
  | cons v rest =>
    by_cases hv : v = 85
    · subst hv
      rw [parseTSSC_eq, Res.bind_eq_ok] at h
      obtain ⟨n, -, h⟩ := h
      have h1 := tsscPrepare_only i (BitVec.ofNat 16 n) s
      exact h1.trans (tsscBody_only h1.cache.symm h)
    · unfold parseTSSC at h
      dsimp only at h
      rw [if_pos hv] at h
      injection h with h; injection h with h1 h2; rw [← h2]
      exact DecoderOnly.trans (DecoderOnly.setHalf i s
        ⟨(s.half i).cache, some ((decoderFor (s.half i)).1, (decoderFor (s.half i)).2)⟩ rfl)
        (DecoderOnly.ofFrame (Frame.fail _))

theorem parseCompact_frame {cfg : Cfg} {i : Bool} {data : List Byte} {ms : List Measurement} {s : St}
    {ms' : List Measurement} {s' : St} (h : parseCompact cfg i data ms s = .ok (ms', s')) : Frame s s' := by
  unfold parseCompact at h
  dsimp only at h
  split at h
  · injection h with h; injection h with h1 h2; rw [← h2]; exact Frame.refl _
  · rw [Res.bind_eq_ok] at h
    obtain ⟨⟨m, f⟩, -, h⟩ := h
    injection h with h; injection h with h1 h2; rw [← h2]
    split
    · exact Frame.fail _
    · exact Frame.refl _

theorem ofTsscAll_length {c : Sic.Cache} {l : List Tssc.Meas} {r : List Measurement} (h : ofTsscAll c l = .ok r) :
    r.length = l.length := by
  induction l generalizing r with
  | nil => injection h with h; rw [← h]; rfl
  | cons m l ih =>
    unfold ofTsscAll at h
    simp only [Res.bind_eq_ok] at h
    obtain ⟨a, -, as, h2, h⟩ := h
    injection h with h
    rw [← h, List.length_cons, List.length_cons, ih h2]

theorem parseTSSC_length {i : Bool} {data : List Byte} {ms : List Measurement} {s : St}
    {ms' : List Measurement} {s' : St} (h : parseTSSC i data ms s = .ok (ms', s')) : ms'.length = ms.length := by
  cases data with
  | nil => cases h
  | cons v rest =>
    by_cases hv : v = 85
    · subst hv
      rw [parseTSSC_eq, Res.bind_eq_ok] at h
      obtain ⟨n, -, h⟩ := h
      generalize tsscPrepare i (BitVec.ofNat 16 n) s = p at h
      obtain ⟨d, k, s1⟩ := p
      unfold tsscBody at h
      dsimp only at h
      split at h
      · injection h with h; injection h with h1 h2; rw [← h1]
      · split at h
        · cases h
        · rename_i hlen
          rw [Res.bind_eq_ok] at h
          obtain ⟨new, hnew, h⟩ := h
          have := ofTsscAll_length hnew
          split at h
          · cases h
          · injection h with h; injection h with h1 h2; rw [← h1]; simp; omega
          · injection h with h; injection h with h1 h2; rw [← h1]; simp; omega
    · unfold parseTSSC at h
      dsimp only at h
      rw [if_pos hv] at h
      injection h with h; injection h with h1 h2; rw [← h1]

theorem compactLoop_length {c : Compact.Config} {data : List Byte} {ms : List Measurement} {k : Nat}
    {r : List Measurement} {f : Bool} (h : compactLoop c data k ms = .ok (r, f)) : r.length = ms.length := by
  induction ms generalizing k r f with
  | nil => injection h with h; injection h with h1 h2; rw [← h1]
  | cons m ms ih =>
    unfold compactLoop at h
    split at h
    · cases h
    · split at h
      · cases h
      · injection h with h; injection h with h1 h2; rw [← h1]
      · rw [Res.bind_eq_ok] at h
        obtain ⟨⟨ms', f'⟩, h1, h⟩ := h
        injection h with h; injection h with h2 h3
        rw [← h2, List.length_cons, List.length_cons, ih h1]

theorem parseCompact_length {cfg : Cfg} {i : Bool} {data : List Byte} {ms : List Measurement} {s : St}
    {ms' : List Measurement} {s' : St} (h : parseCompact cfg i data ms s = .ok (ms', s')) :
    ms'.length = ms.length := by
  unfold parseCompact at h
  dsimp only at h
  split at h
  · injection h with h; injection h with h1 h2; rw [← h1]
  · rw [Res.bind_eq_ok] at h
    obtain ⟨⟨m, f⟩, h0, h⟩ := h
    injection h with h; injection h with h1 h2; rw [← h1]
    exact compactLoop_length h0

theorem sliceFor_length (env : Env) (n : Nat) : (sliceFor env n).length = n := by
  unfold sliceFor
  split
  · simp
  · split
    · simp
    · simp; omega

/-- What `handleDataPacket` does: ends the connection, or delivers one slice and counts it. -/
theorem handleDataPacket_cases {cfg : Cfg} {env : Env} {data : List Byte} {s s' : St}
    (h : handleDataPacket cfg env data s = .ok s') :
    s' = s.fail ∨
    ∃ flags rest payload count ms s1, data = flags :: rest ∧ decipher cfg flags rest s = .ok payload ∧
      readBE 4 payload = .ok count ∧
      (if decide (flags &&& flagCompressed > 0) = true then
          parseTSSC (decide (flags &&& flagCacheIndex > 0)) (payload.drop 4) (sliceFor env count) s
        else parseCompact cfg (decide (flags &&& flagCacheIndex > 0)) (payload.drop 4) (sliceFor env count) s) =
          .ok (ms, s1) ∧
      ms.length = count ∧
      DecoderOnly (decide (flags &&& flagCacheIndex > 0)) s s1 ∧
      s' = { s1.emit (.newMeasurements ms) with
        totalMeasurementsReceived := s1.totalMeasurementsReceived + BitVec.ofNat 64 count } := by
  unfold handleDataPacket at h
  split at h
  · cases h
  · rename_i flags rest
    dsimp only at h
    split at h
    · left; injection h with h; exact h.symm
    · split at h
      · cases h
      · left; injection h with h; exact h.symm
      · rename_i payload hp
        right
        rw [Res.bind_eq_ok] at h
        obtain ⟨count, hc, h⟩ := h
        obtain ⟨ms, s1, hm, h⟩ : ∃ ms s1, (if decide (flags &&& flagCompressed > 0) = true then
            parseTSSC (decide (flags &&& flagCacheIndex > 0)) (payload.drop 4) (sliceFor env count) s
            else parseCompact cfg (decide (flags &&& flagCacheIndex > 0)) (payload.drop 4) (sliceFor env count) s) =
              .ok (ms, s1) ∧ Res.ok { s1.emit (.newMeasurements ms) with
              totalMeasurementsReceived := s1.totalMeasurementsReceived + BitVec.ofNat 64 count } = .ok s' := by
          split at h
          · rename_i hz
            rw [Res.bind_eq_ok] at h
            obtain ⟨⟨ms, s1⟩, hm, h⟩ := h
            exact ⟨ms, s1, by rw [if_pos hz]; exact hm, h⟩
          · rename_i hz
            rw [Res.bind_eq_ok] at h
            obtain ⟨⟨ms, s1⟩, hm, h⟩ := h
            exact ⟨ms, s1, by rw [if_neg hz]; exact hm, h⟩
        injection h with h
        refine ⟨flags, rest, payload, count, ms, s1, rfl, hp, hc, hm, ?_, ?_, h.symm⟩
        · split at hm
          · rw [parseTSSC_length hm, sliceFor_length]
          · rw [parseCompact_length hm, sliceFor_length]
        · split at hm
          · exact parseTSSC_only hm
          · exact DecoderOnly.ofFrame (parseCompact_frame hm)

theorem handleDataPacket_grows {cfg : Cfg} {env : Env} {data : List Byte} {s s' : St}
    (h : handleDataPacket cfg env data s = .ok s') : Grows s s' := by
  rcases handleDataPacket_cases h with h | ⟨_, _, _, _, ms, s1, _, _, _, _, _, h1, h2⟩
  · subst h; exact (Frame.fail s).toGrows
  · subst h2
    exact (h1.toGrows.trans (Grows.emit s1 (.newMeasurements ms))).trans ⟨rfl, rfl, rfl, rfl, [], by simp⟩

theorem handleUpdateBaseTimes_cases {data : List Byte} {s s' : St} (h : handleUpdateBaseTimes data s = .ok s') :
    20 ≤ data.length ∧
    s' = { s with
      timeIndex := decide (beNat (data.take 4) ≠ 0)
      baseTimeOffset0 := BitVec.ofNat 64 (beNat ((data.drop 4).take 8))
      baseTimeOffset1 := BitVec.ofNat 64 (beNat ((data.drop 12).take 8)) }.emit .status := by
  unfold handleUpdateBaseTimes at h
  simp only [Res.bind_eq_ok] at h
  obtain ⟨t, h1, o0, h2, h⟩ := h
  split at h
  · cases h
  · rw [Res.bind_eq_ok] at h
    obtain ⟨o1, h3, h⟩ := h
    unfold readBE at h1 h2 h3
    split at h1
    · split at h2
      · split at h3
        · injection h1 with h1; injection h2 with h2; injection h3 with h3
          injection h with h
          subst h1 h2 h3
          refine ⟨?_, h.symm⟩
          simp only [List.length_drop] at *
          omega
        · cases h3
      · cases h2
    · cases h1

theorem handleUpdateBaseTimes_grows {data : List Byte} {s s' : St} (h : handleUpdateBaseTimes data s = .ok s') :
    Grows s s' := by
  obtain ⟨-, h⟩ := handleUpdateBaseTimes_cases h
  subst h
  exact ⟨rfl, rfl, rfl, rfl, [.status], rfl⟩

/-- What `handleUpdateSignalIndexCache` does: nothing but a message, or one cache half is replaced. -/
theorem handleUpdateSignalIndexCache_cases {cfg : Cfg} {env : Env} {data : List Byte} {s s' : St}
    (h : handleUpdateSignalIndexCache cfg env data s = .ok s') :
    (∃ g, s' = { s with subscriberID := g }.emit .error) ∨
    ∃ i payload plain sub cache s1,
      (if cfg.version > 1 then ∃ b, data = b :: payload ∧ i = decide (b > 0) else data = payload ∧ i = false) ∧
      (if cfg.compressSignalIndexCache then cfg.gunzip payload = some plain else payload = plain) ∧
      Sic.decode cfg.swapGuidEndianness plain = .ok (sub, cache) ∧
      (if cfg.version > 1 then
        sendCommand env cmdConfirmUpdateSignalIndexCache []
          { ({ s with subscriberID := sub }.setHalf i ⟨cache, none⟩) with cacheIndex := i } = .ok s1
       else s1 = { ({ s with subscriberID := sub }.setHalf i ⟨cache, none⟩) with cacheIndex := i }) ∧
      s' = s1.emit (.subscriptionUpdated cache) := by
  unfold handleUpdateSignalIndexCache at h
  by_cases hv : cfg.version > 1
  · simp only [if_pos hv] at h ⊢
    cases data with
    | nil => cases h
    | cons b payload =>
      dsimp only at h
      rw [Res.bind_ok] at h
      dsimp only at h
      split at h
      · left; injection h with h; exact ⟨s.subscriberID, h.symm⟩
      · rename_i plain hp
        split at h
        · cases h
        · left; injection h with h; exact ⟨_, h.symm⟩
        · rename_i sub cache hd
          right
          rw [Res.bind_eq_ok] at h
          obtain ⟨s1, h2, h⟩ := h
          injection h with h
          refine ⟨decide (b > 0), payload, plain, sub, cache, s1, ⟨b, rfl, rfl⟩, ?_, hd, h2, h.symm⟩
          split at hp
          · rename_i hz; rw [if_pos hz]; exact hp
          · rename_i hz; rw [if_neg hz]; injection hp
  · simp only [if_neg hv] at h ⊢
    rw [Res.bind_ok] at h
    dsimp only at h
    split at h
    · left; injection h with h; exact ⟨s.subscriberID, h.symm⟩
    · rename_i plain hp
      split at h
      · cases h
      · left; injection h with h; exact ⟨_, h.symm⟩
      · rename_i sub cache hd
        right
        rw [Res.bind_ok] at h
        injection h with h
        refine ⟨false, data, plain, sub, cache, _, ⟨rfl, rfl⟩, ?_, hd, rfl, h.symm⟩
        split at hp
        · rename_i hz; rw [if_pos hz]; exact hp
        · rename_i hz; rw [if_neg hz]; injection hp

theorem handleUpdateSignalIndexCache_grows {cfg : Cfg} {env : Env} {data : List Byte} {s s' : St}
    (h : handleUpdateSignalIndexCache cfg env data s = .ok s') : Grows s s' := by
  rcases handleUpdateSignalIndexCache_cases h with ⟨g, h⟩ | ⟨i, p, pl, sub, cache, s1, _, _, _, h1, h2⟩
  · subst h
    exact (Frame.subscriber s g).toGrows.trans (Grows.emit _ _)
  · subst h2
    have h0 : Grows s { ({ s with subscriberID := sub }.setHalf i ⟨cache, none⟩) with cacheIndex := i } := by
      cases i <;> exact ⟨rfl, rfl, rfl, rfl, [], by simp [St.setHalf]⟩
    split at h1
    · exact (h0.trans (sendCommand_frame h1).toGrows).trans (Grows.emit _ _)
    · subst h1
      exact h0.trans (Grows.emit _ _)

/-- What `handleBufferBlock` does. -/
theorem handleBufferBlock_cases {cfg : Cfg} {env : Env} {data : List Byte} {s s' : St}
    (h : handleBufferBlock cfg env data s = .ok s') :
    4 ≤ data.length ∧
    let seq := BitVec.ofNat 32 (beNat (data.take 4))
    let k := (seq - s.bufferBlockExpectedSequenceNumber).toNat
    ((∃ g b, s.bufferBlockCache[k]? = some ⟨g, some b⟩ ∧ s' = s) ∨
     ((∀ g b, s.bufferBlockCache[k]? ≠ some ⟨g, some b⟩) ∧
      ∃ s1 payload i idx g, sendCommand env cmdConfirmBufferBlock (data.take 4) s = .ok s1 ∧
      (if cfg.version > 1 then ∃ b, data.drop 4 = b :: payload ∧ i = decide (b > 0)
        else payload = data.drop 4 ∧ i = false) ∧
      readBE 4 payload = .ok idx ∧ Sic.signalID (s.half i).cache (BitVec.ofNat 32 idx) = .ok g ∧
      ((seq = s.bufferBlockExpectedSequenceNumber ∧
        s' = { s1 with
          bufferBlockExpectedSequenceNumber := s.bufferBlockExpectedSequenceNumber + 1 +
            BitVec.ofNat 32 (publishable (s.bufferBlockCache.drop 1)).length
          bufferBlockCache := s.bufferBlockCache.drop (1 + (publishable (s.bufferBlockCache.drop 1)).length) }.emit
            (.newBufferBlocks ((⟨g, none⟩ : BufferBlock) :: publishable (s.bufferBlockCache.drop 1) ++
              List.replicate (s.bufferBlockCache.length - (publishable (s.bufferBlockCache.drop 1)).length)
                BufferBlock.zero))) ∨
       (seq ≠ s.bufferBlockExpectedSequenceNumber ∧
        s' = { s1 with
          bufferBlockExpectedSequenceNumber := s.bufferBlockExpectedSequenceNumber
          bufferBlockCache := (s.bufferBlockCache ++
          List.replicate (k + 1 - s.bufferBlockCache.length) BufferBlock.zero).set k (⟨g, none⟩ : BufferBlock) })))) := by
  unfold handleBufferBlock at h
  simp only [Res.bind_eq_ok] at h
  obtain ⟨n, h1, i, h2, h⟩ := h
  have hn : 4 ≤ data.length ∧ n = beNat (data.take 4) := by
    unfold readBE at h1
    split at h1
    · injection h1 with h1; exact ⟨by assumption, h1.symm⟩
    · cases h1
  refine ⟨hn.1, ?_⟩
  dsimp only
  rw [← hn.2]
  split at h
  · rename_i g b hg
    left; injection h with h; exact ⟨g, b, hg, h.symm⟩
  · rename_i hg
    right
    refine ⟨fun g b => hg g b, ?_⟩
    simp only [Res.bind_eq_ok] at h
    obtain ⟨s1, h3, idx, h4, g, h5, h⟩ := h
    have hf := sendCommand_frame h3
    have hpay : ∃ payload, (if cfg.version > 1 then ∃ b, data.drop 4 = b :: payload ∧ i = decide (b > 0)
        else payload = data.drop 4 ∧ i = false) ∧ readBE 4 payload = .ok idx := by
      unfold blockCacheIndex at h2
      by_cases hv : cfg.version > 1
      · rw [if_pos hv] at h2 h4
        cases hd : data.drop 4 with
        | nil => rw [hd] at h2; cases h2
        | cons b rest =>
          rw [hd] at h2
          injection h2 with h2
          have : data.drop 5 = rest := by
            have := congrArg List.tail hd
            rw [List.tail_drop] at this
            exact this
          rw [this] at h4
          exact ⟨rest, by rw [if_pos hv]; exact ⟨b, rfl, h2.symm⟩, h4⟩
      · rw [if_neg hv] at h2 h4
        injection h2 with h2
        exact ⟨data.drop 4, by rw [if_neg hv]; exact ⟨rfl, h2.symm⟩, h4⟩
    obtain ⟨payload, hp1, hp2⟩ := hpay
    rw [hf.half] at h5
    rw [hf.expected, hf.blocks] at h
    refine ⟨s1, payload, i, idx, g, h3, hp1, hp2, h5, ?_⟩
    split at h
    · rename_i hs
      left; injection h with h; exact ⟨hs, h.symm⟩
    · rename_i hs
      right; injection h with h; exact ⟨hs, h.symm⟩

theorem handleBufferBlock_grows {cfg : Cfg} {env : Env} {data : List Byte} {s s' : St}
    (h : handleBufferBlock cfg env data s = .ok s') : Grows s s' := by
  obtain ⟨-, h⟩ := handleBufferBlock_cases h
  dsimp only at h
  rcases h with ⟨_, _, _, h⟩ | ⟨-, s1, _, _, _, _, hs, _, _, _, ⟨_, h⟩ | ⟨_, h⟩⟩
  · subst h; exact Grows.refl _
  · subst h
    exact (sendCommand_frame hs).toGrows.trans ⟨rfl, rfl, rfl, rfl, [_], rfl⟩
  · subst h
    exact (sendCommand_frame hs).toGrows.trans ⟨rfl, rfl, rfl, rfl, [], by simp⟩

end Verif.Session
