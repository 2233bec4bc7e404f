import Verif.Session.TsscProps

/-!
# Compact data packets in a session (C24 for compact packets, C27)
-/

namespace Verif.Session

open Verif.Guid (Guid)

/-! ## Lemmas -/

theorem compactLoop_chunks (c : Compact.Config) (ws : List (List Byte × Compact.CM)) (pre tail : List Byte)
    (old : List Measurement)
    (hw : ∀ w ∈ ws, ∀ rest, Compact.decode c Compact.CM.new (w.1 ++ rest) = .ok (w.1.length, w.2))
    (hl : old.length = ws.length) :
    compactLoop c (pre ++ (ws.map Prod.fst).flatten ++ tail) pre.length old =
      .ok (ws.map (fun w => ofCompact w.2), false) := by
  induction ws generalizing pre old with
  | nil =>
    have : old = [] := List.length_eq_zero_iff.mp hl
    subst this
    rfl
  | cons w ws ih =>
    obtain ⟨w, out⟩ := w
    cases old with
    | nil => simp at hl
    | cons o old =>
      rw [compactLoop]
      have h1 : ¬ pre.length > (pre ++ (((w, out) :: ws).map Prod.fst).flatten ++ tail).length := by
        simp
      have h2 : (pre ++ (((w, out) :: ws).map Prod.fst).flatten ++ tail).drop pre.length =
          w ++ ((ws.map Prod.fst).flatten ++ tail) := by
        simp
      rw [if_neg h1, h2, hw (w, out) (by simp)]
      dsimp only
      have h3 : pre ++ (((w, out) :: ws).map Prod.fst).flatten ++ tail =
          (pre ++ w) ++ (ws.map Prod.fst).flatten ++ tail := by simp
      have h4 : pre.length + w.length = (pre ++ w).length := by simp
      rw [h3, h4, ih (pre ++ w) old (fun x hx => hw x (by simp [hx])) (by simpa using hl), Res.bind_ok]
      rfl

theorem readBE_append {n v : Nat} {l : List Byte} (r : List Byte) (h : readBE n l = .ok v) :
    readBE n (l ++ r) = .ok v := by
  unfold readBE at h ⊢
  split at h
  · rename_i hl
    rw [if_pos (by rw [List.length_append]; omega), List.take_append_of_le_length hl]
    exact h
  · cases h

theorem decodeTime_append {c : Compact.Config} {cm : Compact.CM} {l : List Byte} {x : Nat × Compact.CM} (r : List Byte)
    (h : Compact.decodeTime c cm l = .ok x) : Compact.decodeTime c cm (l ++ r) = .ok x := by
  unfold Compact.decodeTime at h ⊢
  dsimp only at h ⊢
  split at h
  · rename_i h1; rw [if_pos h1]; exact h
  · rename_i h1; rw [if_neg h1]
    split at h
    · rename_i h2; rw [if_pos h2]
      split at h
      · rename_i h3; rw [if_pos h3]
        split at h
        · rename_i h4; rw [if_pos h4]
          rw [Res.bind_eq_ok] at h ⊢
          obtain ⟨t, ht, h⟩ := h
          exact ⟨t, readBE_append r ht, h⟩
        · rename_i h4; rw [if_neg h4]; exact h
      · rename_i h3; rw [if_neg h3]
        split at h
        · rename_i h4; rw [if_pos h4]
          rw [Res.bind_eq_ok] at h ⊢
          obtain ⟨t, ht, h⟩ := h
          exact ⟨t, readBE_append r ht, h⟩
        · rename_i h4; rw [if_neg h4]; exact h
    · rename_i h2; rw [if_neg h2]
      rw [Res.bind_eq_ok] at h ⊢
      obtain ⟨t, ht, h⟩ := h
      exact ⟨t, readBE_append r ht, h⟩

/-- Bytes after a measurement do not matter. -/
theorem decode_append {c : Compact.Config} {cm : Compact.CM} {l : List Byte} {x : Nat × Compact.CM} (r : List Byte)
    (h : Compact.decode c cm l = .ok x) : Compact.decode c cm (l ++ r) = .ok x := by
  by_cases hl : l.length < 9
  · cases l with
    | nil => simp [Compact.decode] at h
    | cons b0 t =>
      unfold Compact.decode at h
      dsimp only at h
      rw [if_pos hl] at h
      cases h
  · cases l with
    | nil => simp at hl
    | cons b0 t =>
      have ht : 8 ≤ t.length := by simp at hl; omega
      rw [Compact.decode_cons _ _ _ _ ht, Res.bind_eq_ok] at h
      obtain ⟨g, hg, h⟩ := h
      rw [List.cons_append, Compact.decode_cons _ _ _ _ (by rw [List.length_append]; omega),
        List.take_append_of_le_length (by omega), hg, Res.bind_ok, List.drop_append_of_le_length (by omega),
        List.take_append_of_le_length (by simp; omega), List.drop_append_of_le_length (by omega)]
      exact decodeTime_append r h

/-- The decoding configuration a data packet for half `i` meets. -/
def compactConfig (cfg : Cfg) (i : Bool) (s : St) : Compact.Config :=
  ⟨(s.half i).cache, s.baseTimeOffset0, s.baseTimeOffset1, cfg.includeTime, cfg.useMillisecondResolution⟩

/-- A compact data packet whose measurements decode one by one delivers exactly these. -/
theorem compact_packet (cfg : Cfg) (env : Env) (i : Bool) (s : St) (cc : Byte) (n : Nat) (flags : Byte)
    (h1 : flags.getLsbD 1 = true) (h3 : flags.getLsbD 3 = false) (h4 : flags.getLsbD 4 = i)
    (ws : List (List Byte × Compact.CM)) (tail : List Byte) (hl : ws.length < 2 ^ 32)
    (hv : s.validated = true) (hk : s.keyIVs = none) (hc : Sic.count (s.half i).cache ≠ 0)
    (hw : ∀ w ∈ ws, ∀ rest, Compact.decode (compactConfig cfg i s) Compact.CM.new (w.1 ++ rest) =
      .ok (w.1.length, w.2)) :
    ∃ s', receive cfg env (packet 0x82 cc n (dataPayload flags ws.length ((ws.map Prod.fst).flatten ++ tail))) s = .ok s' ∧
      s'.log = s.log ++ [.newMeasurements (ws.map (fun w => ofCompact w.2))] ∧
      s'.half0 = s.half0 ∧ s'.half1 = s.half1 ∧ s'.totalMeasurementsReceived =
        s.totalMeasurementsReceived + BitVec.ofNat 64 ws.length := by
  rw [receive_data _ _ _ _ _ _ hv, handleData_payload _ _ _ _ _ (s.seen _) hk hl (Or.inr h1), if_neg (by rw [h3]; simp), h4]
  generalize hp : dataPayload flags ws.length ((ws.map Prod.fst).flatten ++ tail) = p
  have hcache : ((s.seen p).half i) = s.half i := by cases i <;> rfl
  unfold parseCompact
  dsimp only
  rw [hcache, if_neg hc]
  have := compactLoop_chunks (compactConfig cfg i s) ws [] tail (sliceFor env ws.length) hw (sliceFor_length _ _)
  rw [List.nil_append] at this
  have hcfg : (⟨(s.half i).cache, (s.seen p).baseTimeOffset0, (s.seen p).baseTimeOffset1, cfg.includeTime,
    cfg.useMillisecondResolution⟩ : Compact.Config) = compactConfig cfg i s := rfl
  rw [hcfg]
  have h0 : ([] : List Byte).length = 0 := rfl
  rw [h0] at this
  rw [this, Res.bind_ok, Res.bind_ok]
  exact ⟨_, rfl, rfl, rfl, rfl, rfl⟩

/-! ## C24 -/

/-- What a measurement given to a publisher becomes when it travels in the compact format (C19): same signal and value, flags
up to their class, and the time to the resolution of the format used (time 0 if the subscription carries no times). -/
def Arrives (c : Compact.Config) (cm : Compact.CM) (m : Measurement) : Prop :=
  m.signalID = cm.signalID ∧ m.value = cm.value ∧
  (∀ j, m.flags.getLsbD j = true ↔
    ∃ k < 6, j ∈ Compact.flagClass k ∧ ∃ l ∈ Compact.flagClass k, cm.flags.getLsbD l = true) ∧
  (((Compact.wire c cm).length = 9 ∧ m.timestamp = 0) ∨
   ((Compact.wire c cm).length = 17 ∧ m.timestamp = cm.timestamp) ∨
   ((Compact.wire c cm).length = 13 ∧ m.timestamp = Compact.timestampValue cm) ∨
   ((Compact.wire c cm).length = 11 ∧ m.timestamp.toNat ≤ (Compact.timestampValue cm).toNat ∧
      (Compact.timestampValue cm).toNat < m.timestamp.toNat + 10000 ∧
      (m.timestamp - Compact.baseOffset c cm).toNat % 10000 = 0))

/-- C24 for well-formed compact packets: whatever the pool holds and whatever was received before, a packet carrying the
wire images of measurements of known signals delivers exactly these measurements, in order: as many, none invented, none left
over; bytes after them are ignored. Missing from the full statement: packets out of sequence
(`C24_out_of_sequence_false`), for a missing cache (`C24_missing_cache_false`) and of an unknown version
(`C24_unknown_version_false`), which do deliver left-over or made-up measurements. (For TSSC packets in sequence, see
`C25_sequence`.) -/
theorem C24_compact_partial (cfg : Cfg) (env : Env) (i : Bool) (s : St) (cc : Byte) (n : Nat) (flags : Byte)
    (h1 : flags.getLsbD 1 = true) (h3 : flags.getLsbD 3 = false) (h4 : flags.getLsbD 4 = i)
    (cms : List Compact.CM) (tail : List Byte) (hl : cms.length < 2 ^ 32)
    (hv : s.validated = true) (hk : s.keyIVs = none) (hc : Sic.count (s.half i).cache ≠ 0)
    (hknown : ∀ cm ∈ cms, Sic.signalID (s.half i).cache (Sic.signalIndex (s.half i).cache cm.signalID) = .ok cm.signalID)
    (hflag : ∀ cm ∈ cms, cfg.includeTime = true →
      0 < (if cm.timeIndex then s.baseTimeOffset1 else s.baseTimeOffset0).toInt ∨ cm.usingBaseTimeOffset = false) :
    ∃ s' ms, receive cfg env (packet 0x82 cc n (dataPayload flags cms.length
        ((cms.map (Compact.wire (compactConfig cfg i s))).flatten ++ tail))) s = .ok s' ∧
      s'.log = s.log ++ [.newMeasurements ms] ∧ List.Forall₂ (Arrives (compactConfig cfg i s)) cms ms := by
  have hex : ∀ cms : List Compact.CM,
      (∀ cm ∈ cms, Sic.signalID (s.half i).cache (Sic.signalIndex (s.half i).cache cm.signalID) = .ok cm.signalID) →
      (∀ cm ∈ cms, cfg.includeTime = true →
        0 < (if cm.timeIndex then s.baseTimeOffset1 else s.baseTimeOffset0).toInt ∨ cm.usingBaseTimeOffset = false) →
      ∃ ws : List (List Byte × Compact.CM), ws.length = cms.length ∧
      ws.map Prod.fst = cms.map (Compact.wire (compactConfig cfg i s)) ∧
      (∀ w ∈ ws, ∀ rest, Compact.decode (compactConfig cfg i s) Compact.CM.new (w.1 ++ rest) = .ok (w.1.length, w.2)) ∧
      List.Forall₂ (Arrives (compactConfig cfg i s)) cms (ws.map (fun w => ofCompact w.2)) := by
    intro cms
    induction cms with
    | nil => intro _ _; exact ⟨[], rfl, rfl, by simp, .nil⟩
    | cons cm cms ih =>
      intro hkn hfl
      obtain ⟨ws, g1, g2, g3, g4⟩ := ih (fun c hc => hkn c (by simp [hc])) (fun c hc => hfl c (by simp [hc]))
      obtain ⟨out, o1, o2, o3, o4, o5, o6⟩ := Compact.C19_decode_wire (compactConfig cfg i s) cm Compact.CM.new []
        (hkn cm (by simp)) (hfl cm (by simp))
      have hall : ∀ rest, Compact.decode (compactConfig cfg i s) Compact.CM.new
          (Compact.wire (compactConfig cfg i s) cm ++ rest) =
          .ok ((Compact.wire (compactConfig cfg i s) cm).length, out) := by
        intro rest
        rw [List.append_nil] at o1
        exact decode_append rest o1
      refine ⟨(Compact.wire (compactConfig cfg i s) cm, out) :: ws, by simp [g1], by simp [g2], ?_, ?_⟩
      · intro w hw
        rcases List.mem_cons.mp hw with rfl | hw
        · exact hall
        · exact g3 w hw
      · exact .cons ⟨o3, o4, o5, o6⟩ g4
  obtain ⟨ws, g1, g2, g3, g4⟩ := hex cms hknown hflag
  obtain ⟨s', r1, r2, -⟩ := compact_packet cfg env i s cc n flags h1 h3 h4 ws tail (by omega) hv hk hc g3
  rw [g2, g1] at r1
  exact ⟨s', _, r1, r2, g4⟩

/-- C24 fails for a compact packet that refers to a missing cache: nothing is decoded, and yet `count` measurements are
delivered: what the pooled slice held before, or made-up ones. -/
theorem C24_missing_cache_false (cfg : Cfg) (env : Env) (i : Bool) (s : St) (cc : Byte) (n : Nat) (flags : Byte)
    (h1 : flags.getLsbD 1 = true) (h3 : flags.getLsbD 3 = false) (h4 : flags.getLsbD 4 = i)
    (count : Nat) (data : List Byte) (hl : count < 2 ^ 32)
    (hv : s.validated = true) (hk : s.keyIVs = none) (hc : Sic.count (s.half i).cache = 0) :
    ∃ s', receive cfg env (packet 0x82 cc n (dataPayload flags count data)) s = .ok s' ∧
      s'.log = s.log ++ [.newMeasurements (leftOver env count)] := by
  rw [receive_data _ _ _ _ _ _ hv, handleData_payload _ _ _ _ _ (s.seen _) hk hl (Or.inr h1), if_neg (by rw [h3]; simp), h4]
  have hcache : ((s.seen (dataPayload flags count data)).half i) = s.half i := by cases i <;> rfl
  unfold parseCompact
  dsimp only
  rw [hcache, if_pos hc, Res.bind_ok]
  exact ⟨_, rfl, rfl⟩

theorem compactLoop_cut (c : Compact.Config) (ws : List (List Byte × Compact.CM)) (pre tail : List Byte) (old : List Measurement)
    (hw : ∀ w ∈ ws, ∀ rest, Compact.decode c Compact.CM.new (w.1 ++ rest) = .ok (w.1.length, w.2))
    (hl : ws.length < old.length) (ht : tail.length < 9) :
    compactLoop c (pre ++ (ws.map Prod.fst).flatten ++ tail) pre.length old =
      .ok (ws.map (fun w => ofCompact w.2) ++ old.drop ws.length, true) := by
  induction ws generalizing pre old with
  | nil =>
    cases old with
    | nil => simp at hl
    | cons o old =>
      rw [compactLoop]
      have h2 : (pre ++ (([] : List (List Byte × Compact.CM)).map Prod.fst).flatten ++ tail).drop pre.length = tail := by simp
      rw [if_neg (by simp), h2]
      have h3 : Compact.decode c Compact.CM.new tail = .err := by
        cases tail with
        | nil => rfl
        | cons b tail =>
          unfold Compact.decode
          dsimp only
          rw [if_pos ht]
      rw [h3]
      rfl
  | cons w ws ih =>
    obtain ⟨w, out⟩ := w
    cases old with
    | nil => simp at hl
    | cons o old =>
      rw [compactLoop]
      have h1 : ¬ pre.length > (pre ++ (((w, out) :: ws).map Prod.fst).flatten ++ tail).length := by simp
      have h2 : (pre ++ (((w, out) :: ws).map Prod.fst).flatten ++ tail).drop pre.length = w ++ ((ws.map Prod.fst).flatten ++ tail) := by simp
      rw [if_neg h1, h2, hw (w, out) (by simp)]
      dsimp only
      have h3 : pre ++ (((w, out) :: ws).map Prod.fst).flatten ++ tail = (pre ++ w) ++ (ws.map Prod.fst).flatten ++ tail := by simp
      have h4 : pre.length + w.length = (pre ++ w).length := by simp
      rw [h3, h4, ih (pre ++ w) old (fun x hx => hw x (by simp [hx])) (by simpa using hl), Res.bind_ok]
      rfl

/-- **C24 fails for a compact packet that ends early**: it says `count` measurements and has fewer, then less than a measurement's bytes. The connection is ended with
an error, but first `count` measurements are delivered: those it has, and for the others what the pooled slice held before, or made-up ones. -/
theorem C24_cut_false (cfg : Cfg) (env : Env) (i : Bool) (s : St) (cc : Byte) (n : Nat) (flags : Byte)
    (h1 : flags.getLsbD 1 = true) (h3 : flags.getLsbD 3 = false) (h4 : flags.getLsbD 4 = i) (count : Nat)
    (ws : List (List Byte × Compact.CM)) (tail : List Byte) (hk' : ws.length < count) (hl : count < 2 ^ 32) (ht : tail.length < 9)
    (hv : s.validated = true) (hk : s.keyIVs = none) (hc : Sic.count (s.half i).cache ≠ 0)
    (hw : ∀ w ∈ ws, ∀ rest, Compact.decode (compactConfig cfg i s) Compact.CM.new (w.1 ++ rest) = .ok (w.1.length, w.2)) :
    ∃ s', receive cfg env (packet 0x82 cc n (dataPayload flags count ((ws.map Prod.fst).flatten ++ tail))) s = .ok s' ∧
      s'.log = s.log ++ [.error, .terminate, .newMeasurements (ws.map (fun w => ofCompact w.2) ++ (leftOver env count).drop ws.length)] := by
  rw [receive_data _ _ _ _ _ _ hv, handleData_payload _ _ _ _ _ (s.seen _) hk hl (Or.inr h1), if_neg (by rw [h3]; simp), h4]
  generalize hp : dataPayload flags count ((ws.map Prod.fst).flatten ++ tail) = p
  have hcache : ((s.seen p).half i) = s.half i := by cases i <;> rfl
  unfold parseCompact
  dsimp only
  rw [hcache, if_neg hc]
  have := compactLoop_cut (compactConfig cfg i s) ws [] tail (sliceFor env count) hw (by rw [sliceFor_length]; exact hk') ht
  rw [List.nil_append] at this
  have hcfg : (⟨(s.half i).cache, (s.seen p).baseTimeOffset0, (s.seen p).baseTimeOffset1, cfg.includeTime,
    cfg.useMillisecondResolution⟩ : Compact.Config) = compactConfig cfg i s := rfl
  rw [hcfg]
  have h0 : ([] : List Byte).length = 0 := rfl
  rw [h0] at this
  rw [this, Res.bind_ok, Res.bind_ok, leftOver_eq]
  refine ⟨_, rfl, ?_⟩
  dsimp only [St.emit]
  rw [if_pos rfl, fail_log, List.append_assoc]
  rfl

/-- C24 fails for TSSC blocks of an unknown version: nothing is decoded, the connection is ended with an error, and yet
`count` left-over or made-up measurements are delivered. -/
theorem C24_unknown_version_false (cfg : Cfg) (env : Env) (i : Bool) (s : St) (cc : Byte) (n : Nat) (flags : Byte)
    (h3 : flags.getLsbD 3 = true) (h4 : flags.getLsbD 4 = i) (count : Nat) (version : Byte) (data : List Byte)
    (hl : count < 2 ^ 32) (hv : s.validated = true) (hk : s.keyIVs = none) (hver : version ≠ 85) :
    ∃ s', receive cfg env (packet 0x82 cc n (dataPayload flags count (version :: data))) s = .ok s' ∧
      s'.log = s.log ++ [.error, .terminate, .newMeasurements (leftOver env count)] := by
  rw [receive_data _ _ _ _ _ _ hv, handleData_payload _ _ _ _ _ (s.seen _) hk hl (Or.inl h3), if_pos h3, h4]
  unfold parseTSSC
  dsimp only
  rw [if_pos hver, Res.bind_ok]
  refine ⟨_, rfl, ?_⟩
  dsimp only [St.emit]
  rw [fail_log, log_setHalf, List.append_assoc]
  rfl

/-! ## Cases meeting the hypotheses -/

/-- A measurement of the second signal of the example cache. -/
def exCM : Compact.CM := ⟨Sic.gB, 0x3FC00000#32, 630822816000000000#64, 0x00400008#32, false, false⟩

/-- A case meeting the hypotheses of `C24_compact_partial`: two measurements of known signals with full times, in a packet
with three bytes too many. -/
example : exSt.validated = true ∧ exSt.keyIVs = none ∧ Sic.count (exSt.half false).cache ≠ 0 ∧
    (∀ cm ∈ [exCM, { exCM with signalID := Sic.gA }],
      Sic.signalID (exSt.half false).cache (Sic.signalIndex (exSt.half false).cache cm.signalID) = .ok cm.signalID) ∧
    (∀ cm ∈ [exCM, { exCM with signalID := Sic.gA }], exCfg.includeTime = true →
      0 < (if cm.timeIndex then exSt.baseTimeOffset1 else exSt.baseTimeOffset0).toInt ∨ cm.usingBaseTimeOffset = false) ∧
    (0x02 : Byte).getLsbD 1 = true ∧ (0x02 : Byte).getLsbD 3 = false ∧ (0x02 : Byte).getLsbD 4 = false := by
  refine ⟨rfl, rfl, by decide, by decide, ?_, by decide, by decide, by decide⟩
  intro cm hcm _
  simp only [List.mem_cons, List.not_mem_nil, or_false] at hcm
  rcases hcm with rfl | rfl <;> exact Or.inr rfl

/-- A case meeting the hypotheses of `C24_cut_false`: the measurement as it travels, and five of its bytes again. -/
example : ∃ ws : List (List Byte × Compact.CM), ws.length = 1 ∧ ([1, 2, 3, 4, 5] : List Byte).length < 9 ∧ Sic.count (exSt.half false).cache ≠ 0 ∧
    ∀ w ∈ ws, ∀ rest, Compact.decode (compactConfig exCfg false exSt) Compact.CM.new (w.1 ++ rest) = .ok (w.1.length, w.2) := by
  obtain ⟨out, o1, -⟩ := Compact.C19_decode_wire (compactConfig exCfg false exSt) exCM Compact.CM.new [] (by decide) (fun _ => .inr rfl)
  rw [List.append_nil] at o1
  refine ⟨[(Compact.wire (compactConfig exCfg false exSt) exCM, out)], rfl, by decide, by decide, ?_⟩
  intro w hw rest
  rw [List.mem_singleton.1 hw]
  exact decode_append rest o1

/-- A case meeting the hypotheses of the other two theorems: the second half of the example subscriber has no cache. -/
example : Sic.count (exSt.half true).cache = 0 ∧ (0x12 : Byte).getLsbD 1 = true ∧ (0x12 : Byte).getLsbD 3 = false ∧
    (0x12 : Byte).getLsbD 4 = true ∧ (0x08 : Byte).getLsbD 3 = true := by decide

end Verif.Session
