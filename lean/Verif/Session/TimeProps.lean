import Verif.Session.CompactProps

/-!
# Base times (C27)
-/

namespace Verif.Session

open Verif.Guid (Guid)

/-! ## Specification -/

/-- A base-time update as a publisher writes it: active index, the two base times. -/
def timesPayload (index o0 o1 : Nat) : List Byte := beBytes 4 index ++ beBytes 8 o0 ++ beBytes 8 o1

/-- A measurement with a short time: state flags, signal index, value, and the offset to the base time in milliseconds
(2 bytes) or ticks (4 bytes). -/
structure ShortEntry where
  flags : Byte
  index : BitVec 32
  value : BitVec 32
  offset : Nat

/-- Its bytes. -/
def ShortEntry.bytes (millis : Bool) (e : ShortEntry) : List Byte :=
  [e.flags] ++ beBytes 4 e.index.toNat ++ beBytes 4 e.value.toNat ++ beBytes (if millis then 2 else 4) e.offset

/-- What it stands for: bit 7 of the flags chooses the base time; an unset (not positive) base time gives time 0. -/
def ShortEntry.meaning (rs : List Sic.Rec) (millis : Bool) (o0 o1 : BitVec 64) (e : ShortEntry) : Measurement where
  signalID := sigOf rs e.index
  value := e.value
  timestamp :=
    let base := if e.flags.getLsbD 7 then o1 else o0
    if 0 < base.toInt then base + BitVec.ofNat 64 (if millis then e.offset * 10000 else e.offset) else 0
  flags := Compact.mapToFullFlags e.flags

/-! ## Lemmas -/

/-- Only a base-time update changes the base times. -/
theorem receive_offsets {cfg : Cfg} {env : Env} {body : List Byte} {s s' : St} (h : receive cfg env body s = .ok s')
    (hb : body[0]? ≠ some 0x84) :
    s'.baseTimeOffset0 = s.baseTimeOffset0 ∧ s'.baseTimeOffset1 = s.baseTimeOffset1 := by
  rcases receive_cases h with ⟨-, -, -, h1⟩ | ⟨rc, cc, rest, hbody, -, ⟨-, h1⟩ | ⟨-, h1⟩⟩
  · rw [h1]; exact ⟨rfl, rfl⟩
  · rw [h1]; exact ⟨rfl, rfl⟩
  · have hrc : rc ≠ 0x84 := by
      intro hx; apply hb; rw [hbody, hx]; rfl
    cases h1 with
    | data _ h =>
      rcases handleDataPacket_cases h with h | ⟨flags, rest, payload, count, ms, s1, -, -, -, -, -, ho, h⟩
      · rw [h]; exact ⟨rfl, rfl⟩
      · rw [h]; exact ⟨ho.offset0, ho.offset1⟩
    | cache _ h =>
      rcases handleUpdateSignalIndexCache_cases h with ⟨g, h⟩ | ⟨i, payload, plain, sub, cache, s1, -, -, -, h1, h⟩
      · rw [h]; exact ⟨rfl, rfl⟩
      · rw [h]
        by_cases hv : cfg.version > 1
        · rw [if_pos hv] at h1
          have hf := sendCommand_frame h1
          refine ⟨hf.offset0.trans ?_, hf.offset1.trans ?_⟩ <;> cases i <;> rfl
        · rw [if_neg hv] at h1
          rw [h1]
          constructor <;> cases i <;> rfl
    | times hr _ => exact absurd hr hrc
    | block _ h =>
      obtain ⟨-, h⟩ := handleBufferBlock_cases h
      dsimp only at h
      rcases h with ⟨_, _, _, h⟩ | ⟨-, s1, _, _, _, _, h1, -, -, -, ⟨-, h⟩ | ⟨-, h⟩⟩
      · rw [h]; exact ⟨rfl, rfl⟩
      · have hf := sendCommand_frame h1
        rw [h]; exact ⟨hf.offset0, hf.offset1⟩
      · have hf := sendCommand_frame h1
        rw [h]; exact ⟨hf.offset0, hf.offset1⟩
    | notify _ h =>
      have hf := handleNotification_frame h
      exact ⟨hf.offset0, hf.offset1⟩
    | other _ _ _ _ _ hf _ => exact ⟨hf.offset0, hf.offset1⟩

theorem receive_log {cfg : Cfg} {env : Env} {body : List Byte} {s s' : St} (h : receive cfg env body s = .ok s') :
    ∃ es, s'.log = s.log ++ es := by
  rcases receive_cases h with ⟨-, -, -, h1⟩ | ⟨rc, cc, rest, hbody, -, ⟨-, h1⟩ | ⟨-, h1⟩⟩
  · rw [h1, fail_log]; exact ⟨_, rfl⟩
  · rw [h1, fail_log]; exact ⟨_, rfl⟩
  · exact h1.grows.log

theorem receiveAll_offsets {cfg : Cfg} {ps : List (Env × List Byte)} {s s' : St} (h : receiveAll cfg ps s = .ok s')
    (hb : ∀ p ∈ ps, p.2[0]? ≠ some 0x84) (hv : s.validated = true) :
    s'.baseTimeOffset0 = s.baseTimeOffset0 ∧ s'.baseTimeOffset1 = s.baseTimeOffset1 ∧ s'.validated = true ∧
      ∃ es, s'.log = s.log ++ es := by
  induction ps generalizing s with
  | nil => rw [receiveAll] at h; injection h with h; subst h; exact ⟨rfl, rfl, hv, [], by simp⟩
  | cons p ps ih =>
    obtain ⟨env, body⟩ := p
    rw [receiveAll, Res.bind_eq_ok] at h
    obtain ⟨s1, h1, h2⟩ := h
    obtain ⟨a1, a2⟩ := receive_offsets h1 (hb (env, body) (by simp))
    obtain ⟨es, a3⟩ := receive_log h1
    obtain ⟨b1, b2, b3, es2, b4⟩ := ih h2 (fun p hp => hb p (by simp [hp])) (receive_validated hv h1)
    exact ⟨b1.trans a1, b2.trans a2, b3, es ++ es2, by rw [b4, a3, List.append_assoc]⟩

theorem times_step (cfg : Cfg) (env : Env) (cc : Byte) (n : Nat) (index o0 o1 : Nat) (hi : index < 2 ^ 32)
    (h0 : o0 < 2 ^ 64) (h1 : o1 < 2 ^ 64) (tail : List Byte) (s : St) (hv : s.validated = true) :
    ∃ s', receive cfg env (packet 0x84 cc n (timesPayload index o0 o1 ++ tail)) s = .ok s' ∧ s'.validated = true ∧
      s'.baseTimeOffset0 = BitVec.ofNat 64 o0 ∧ s'.baseTimeOffset1 = BitVec.ofNat 64 o1 ∧
      s'.log = s.log ++ [.status] := by
  rw [receive_times _ _ _ _ _ _ hv]
  generalize hd : timesPayload index o0 o1 ++ tail = d
  have d0 : d = beBytes 4 index ++ (beBytes 8 o0 ++ (beBytes 8 o1 ++ tail)) := by
    rw [← hd, timesPayload]; simp
  have d1 : d.drop 4 = beBytes 8 o0 ++ (beBytes 8 o1 ++ tail) := by
    rw [d0, List.drop_append_of_le_length (by simp), List.drop_of_length_le (by simp), List.nil_append]
  have d2 : d.drop 12 = beBytes 8 o1 ++ tail := by
    have : (12 : Nat) = 4 + 8 := rfl
    rw [this, ← List.drop_drop, d1, List.drop_append_of_le_length (by simp), List.drop_of_length_le (by simp),
      List.nil_append]
  have r0 : readBE 4 d = .ok index := by rw [d0, readBE_beBytes _ _ _ (by omega)]
  have r1 : readBE 8 (d.drop 4) = .ok o0 := by rw [d1, readBE_beBytes _ _ _ (by omega)]
  have r2 : readBE 8 (d.drop 12) = .ok o1 := by rw [d2, readBE_beBytes _ _ _ (by omega)]
  have hl : ¬ d.length < 12 := by rw [d0]; simp; omega
  unfold handleUpdateBaseTimes
  rw [r0, Res.bind_ok, r1, Res.bind_ok, if_neg hl, r2, Res.bind_ok]
  exact ⟨_, rfl, hv, rfl, rfl, rfl⟩

theorem short_decode (rs : List Sic.Rec) (o0 o1 : BitVec 64) (ms : Bool) (e : ShortEntry) (h6 : e.flags.getLsbD 6 = true)
    (ho : e.offset < if ms then 2 ^ 16 else 2 ^ 32) (rest : List Byte) :
    ∃ cm, ofCompact cm = e.meaning rs ms o0 o1 ∧
      Compact.decode ⟨Sic.build rs, o0, o1, true, ms⟩ Compact.CM.new (e.bytes ms ++ rest) =
        .ok ((e.bytes ms).length, cm) := by
  have hb : e.bytes ms ++ rest = [e.flags] ++ beBytes 4 e.index.toNat ++ beBytes 4 e.value.toNat ++
      (beBytes (if ms then 2 else 4) e.offset ++ rest) := by
    unfold ShortEntry.bytes; simp
  rw [hb, Compact.decode_fixed _ _ _ _ _ _ _ (signalID_build rs e.index)]
  have hset : Compact.setCompactStateFlags Compact.CM.new e.flags =
      ⟨Guid.empty, 0, 0, Compact.mapToFullFlags e.flags, e.flags.getLsbD 7, true⟩ := by
    unfold Compact.setCompactStateFlags
    rw [Compact.bit6, Compact.bit7, h6]
    rfl
  rw [hset]
  unfold Compact.decodeTime
  dsimp only [Compact.baseOffset]
  simp only [Bool.not_true, Bool.false_eq_true, if_false, if_true]
  have hslt : ∀ b : BitVec 64, (0#64).slt b = decide (0 < b.toInt) := by
    intro b; simp [BitVec.slt]
  unfold ShortEntry.meaning ofCompact
  dsimp only
  generalize (if e.flags.getLsbD 7 = true then o1 else o0) = base
  rw [hslt]
  have hlen : ∀ m, (ShortEntry.bytes m e).length = 9 + if m then 2 else 4 := by
    intro m; cases m <;> simp [ShortEntry.bytes]
  cases ms with
  | true =>
    rw [hlen]
    simp only [if_true] at ho ⊢
    by_cases hp : 0 < base.toInt
    · simp only [hp, decide_true, if_true]
      rw [readBE_beBytes _ _ _ (by omega), Res.bind_ok]
      refine ⟨_, ?_, rfl⟩
      simp only [Measurement.mk.injEq, true_and, and_true]
      rw [Compact.perMs_eq, ← BitVec.ofNat_mul]
    · simp only [hp, decide_false, Bool.false_eq_true, if_false]
      exact ⟨_, rfl, rfl⟩
  | false =>
    rw [hlen]
    simp only [Bool.false_eq_true, if_false] at ho ⊢
    by_cases hp : 0 < base.toInt
    · simp only [hp, decide_true, if_true]
      rw [readBE_beBytes _ _ _ (by omega), Res.bind_ok]
      exact ⟨_, rfl, rfl⟩
    · simp only [hp, decide_false, Bool.false_eq_true, if_false]
      exact ⟨_, rfl, rfl⟩

/-! ## Theorem -/

/-- C27: whatever came before, a base-time update announcing `o0` and `o1`, then any packets without another such update, then
a compact packet of measurements with short times, for either cache half and either resolution: each measurement delivered
has the time its own flags say, relative to `o0` or `o1` as announced by that update; and everything delivered before the
update and in between stays in the record as it was. (The active index of the update is without influence.) -/
theorem C27_base_times (cfg : Cfg) (ht : cfg.includeTime = true) (s s2 : St) (hv : s.validated = true)
    (env0 env : Env) (cc0 cc : Byte) (n0 n : Nat) (index o0 o1 : Nat) (hi : index < 2 ^ 32)
    (h0 : o0 < 2 ^ 64) (h1 : o1 < 2 ^ 64) (tail0 tail : List Byte) (ps : List (Env × List Byte))
    (hps : ∀ p ∈ ps, p.2[0]? ≠ some 0x84)
    (hrec : receiveAll cfg ((env0, packet 0x84 cc0 n0 (timesPayload index o0 o1 ++ tail0)) :: ps) s = .ok s2)
    (hk : s2.keyIVs = none) (rs : List Sic.Rec) (i : Bool) (hrs : (s2.half i).cache = Sic.build rs)
    (hne : Sic.count (s2.half i).cache ≠ 0)
    (flags : Byte) (f1 : flags.getLsbD 1 = true) (f3 : flags.getLsbD 3 = false) (f4 : flags.getLsbD 4 = i)
    (es : List ShortEntry) (hl : es.length < 2 ^ 32) (h6 : ∀ e ∈ es, e.flags.getLsbD 6 = true)
    (ho : ∀ e ∈ es, e.offset < if cfg.useMillisecondResolution then 2 ^ 16 else 2 ^ 32) :
    ∃ s3, receive cfg env (packet 0x82 cc n (dataPayload flags es.length
        ((es.map (ShortEntry.bytes cfg.useMillisecondResolution)).flatten ++ tail))) s2 = .ok s3 ∧
      s3.log = s2.log ++ [.newMeasurements (es.map (ShortEntry.meaning rs cfg.useMillisecondResolution
        (BitVec.ofNat 64 o0) (BitVec.ofNat 64 o1)))] ∧
      s.log <+: s2.log := by
  rw [receiveAll, Res.bind_eq_ok] at hrec
  obtain ⟨s1, g1, g2⟩ := hrec
  obtain ⟨s1', t1, t2, t3, t4, t5⟩ := times_step cfg env0 cc0 n0 index o0 o1 hi h0 h1 tail0 s hv
  rw [t1] at g1
  injection g1 with g1
  subst g1
  obtain ⟨q1, q2, q3, ev, q4⟩ := receiveAll_offsets g2 hps t2
  have hcfg : compactConfig cfg i s2 =
      ⟨Sic.build rs, BitVec.ofNat 64 o0, BitVec.ofNat 64 o1, true, cfg.useMillisecondResolution⟩ := by
    unfold compactConfig
    rw [hrs, q1, q2, t3, t4, ht]
  have hws : ∀ es : List ShortEntry, (∀ e ∈ es, e.flags.getLsbD 6 = true) →
      (∀ e ∈ es, e.offset < if cfg.useMillisecondResolution then 2 ^ 16 else 2 ^ 32) →
      ∃ ws : List (List Byte × Compact.CM), ws.length = es.length ∧
        ws.map Prod.fst = es.map (ShortEntry.bytes cfg.useMillisecondResolution) ∧
        ws.map (fun w => ofCompact w.2) = es.map (ShortEntry.meaning rs cfg.useMillisecondResolution
          (BitVec.ofNat 64 o0) (BitVec.ofNat 64 o1)) ∧
        ∀ w ∈ ws, ∀ rest, Compact.decode (compactConfig cfg i s2) Compact.CM.new (w.1 ++ rest) =
          .ok (w.1.length, w.2) := by
    intro es
    induction es with
    | nil => intro _ _; exact ⟨[], rfl, rfl, rfl, by simp⟩
    | cons e es ih =>
      intro a1 a2
      obtain ⟨ws, b1, b2, b3, b4⟩ := ih (fun x hx => a1 x (by simp [hx])) (fun x hx => a2 x (by simp [hx]))
      obtain ⟨cm, c1, c2⟩ := short_decode rs (BitVec.ofNat 64 o0) (BitVec.ofNat 64 o1) cfg.useMillisecondResolution e
        (a1 e (by simp)) (a2 e (by simp)) []
      rw [List.append_nil, ← hcfg] at c2
      refine ⟨(e.bytes cfg.useMillisecondResolution, cm) :: ws, by simp [b1], by simp [b2], by simp [b3, c1], ?_⟩
      intro w hw
      rcases List.mem_cons.mp hw with rfl | hw
      · exact fun rest => decode_append rest c2
      · exact b4 w hw
  obtain ⟨ws, b1, b2, b3, b4⟩ := hws es h6 ho
  obtain ⟨s3, r1, r2, -⟩ := compact_packet cfg env i s2 cc n flags f1 f3 f4 ws tail (by omega) q3 hk hne b4
  rw [b2, b1] at r1
  refine ⟨s3, r1, by rw [r2, b3], [.status] ++ ev, ?_⟩
  rw [q4, t5, List.append_assoc]

/-- A case meeting the hypotheses: an update, a notification, and two measurements that choose different base times. -/
example : ∃ (ps : List (Env × List Byte)) (s2 : St) (es : List ShortEntry), ps.length = 1 ∧ es.length = 2 ∧
    exSt.validated = true ∧ (∀ p ∈ ps, p.2[0]? ≠ some 0x84) ∧
    receiveAll exCfg ((⟨true, none⟩, packet 0x84 0 20 (timesPayload 1 600000000000000000 600000000000000100 ++ [])) :: ps)
      exSt = .ok s2 ∧
    s2.keyIVs = none ∧ (s2.half false).cache = Sic.build Sic.exRecs ∧ Sic.count (s2.half false).cache ≠ 0 ∧
    (∀ e ∈ es, e.flags.getLsbD 6 = true) ∧
    (∀ e ∈ es, e.offset < if exCfg.useMillisecondResolution then 2 ^ 16 else 2 ^ 32) ∧
    es.map (fun e => (e.meaning Sic.exRecs exCfg.useMillisecondResolution 600000000000000000#64 600000000000000100#64).timestamp)
      = [600000000000000007#64, 600000000000000107#64] :=
  ⟨[(⟨true, none⟩, packet 0x89 0 5 [1, 2, 3, 4, 65])], _, [⟨0x40, 1, 5, 7⟩, ⟨0xC0, 2, 5, 7⟩], rfl, rfl, rfl, by simp [packet],
    rfl, rfl, rfl, by decide, by decide, by decide, by decide⟩

end Verif.Session
