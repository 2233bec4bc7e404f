import Verif.Session.Packet

/-!
# TSSC data packets in a session (C25, and C24 for TSSC)
-/

namespace Verif.Session

open Verif.Guid (Guid)

/-! ## Specification -/

/-- The signal an index stands for in a cache made of these records: the last record with that index, else the empty id. -/
def sigOf (rs : List Sic.Rec) (i : BitVec 32) : Guid :=
  match Sic.lastByIndex rs i with
  | some r => r.signalID
  | none => Guid.empty

/-- What the application should get for a measurement sent. -/
def expected (rs : List Sic.Rec) (m : Tssc.Meas) : Measurement := ⟨sigOf rs m.id, m.value, m.timestamp, m.flags⟩

/-- The number a publisher gives its `k`-th block: 0, 1, ..., 65535, 1, 2, ... -/
def blockNumber (k : Nat) : Nat := if k = 0 then 0 else (k - 1) % 65535 + 1

/-- The payload of a data packet with one numbered TSSC block. -/
def tsscPayload (seq : Nat) (data : List Byte) : List Byte := [85] ++ beBytes 2 seq ++ data

/-- What a data packet delivers when nothing was decoded: what the slice held before (C24). -/
def leftOver (env : Env) (count : Nat) : List Measurement :=
  match env.pool with
  | none => List.replicate count ⟨Guid.empty, 0, 0, 0⟩
  | some m => if m.length < count then List.replicate count ⟨Guid.empty, 0, 0, 0⟩ else m.take count

/-- What arrives from a publisher, for cache half `i`: after `k` blocks of the current run, with `bs` (encoded as `ds`) still
to be sent. Blocks of the run may be lost for good (the list may end at any time); packets with other numbers may come in
between (blocks of an earlier run, repetitions, blocks after a lost one); and the publisher may start over at any time. The
last argument is what the application gets. -/
inductive Feed (rs : List Sic.Rec) (i : Bool) : Nat → List Tssc.Block → List (List Byte) → List (Env × List Byte) →
    List (List Measurement) → Prop
  | stop (k bs ds) : Feed rs i k bs ds [] []
  | block (k b bs d ds ps out) (env : Env) (cc : Byte) (n : Nat) (flags : Byte) (h3 : flags.getLsbD 3 = true)
      (h4 : flags.getLsbD 4 = i) (h : Feed rs i (k + 1) bs ds ps out) :
      Feed rs i k (b :: bs) (d :: ds)
        ((env, packet 0x82 cc n (dataPayload flags b.items.length (tsscPayload (blockNumber k) d))) :: ps)
        (b.items.map (fun x => expected rs x.1) :: out)
  | stray (k bs ds ps out) (env : Env) (cc : Byte) (n : Nat) (flags : Byte) (h3 : flags.getLsbD 3 = true)
      (h4 : flags.getLsbD 4 = i) (seq count : Nat) (d : List Byte) (hseq : seq < 2 ^ 16) (hcount : count < 2 ^ 32)
      (hk : 0 < k) (h0 : seq ≠ 0) (hne : seq ≠ blockNumber k) (h : Feed rs i k bs ds ps out) :
      Feed rs i k bs ds
        ((env, packet 0x82 cc n (dataPayload flags count (tsscPayload seq d))) :: ps) (leftOver env count :: out)
  | restart (k bs ds bs' ds' ps out) (hsend : Tssc.Pub.new.sendBlocks bs' = some ds')
      (hcount : ∀ b ∈ bs', b.items.length < 2 ^ 32) (h : Feed rs i 0 bs' ds' ps out) : Feed rs i k bs ds ps out

/-! ## Lemmas -/

theorem blockNumber_lt (k : Nat) : blockNumber k < 2 ^ 16 := by
  unfold blockNumber; split
  · omega
  · have := Nat.mod_lt (k - 1) (show 0 < 65535 by omega); omega

theorem blockNumber_pos {k : Nat} (h : 0 < k) : blockNumber k ≠ 0 := by
  unfold blockNumber; rw [if_neg (by omega)]; omega

theorem nextSequence_blockNumber (k : Nat) :
    nextSequence (BitVec.ofNat 16 (blockNumber k)) = BitVec.ofNat 16 (blockNumber (k + 1)) := by
  have h1 := blockNumber_lt k
  have hs : BitVec.ofNat 16 (blockNumber k) + 1 = BitVec.ofNat 16 (blockNumber k + 1) := by
    apply BitVec.eq_of_toNat_eq
    simp [BitVec.toNat_add, BitVec.toNat_ofNat]
  unfold nextSequence
  rw [hs]
  by_cases h : blockNumber k = 65535
  · have : blockNumber (k + 1) = 1 := by
      unfold blockNumber at h ⊢
      split at h
      · omega
      · rw [if_neg (by omega)]
        omega
    rw [this, h]
    decide
  · have hk : blockNumber (k + 1) = blockNumber k + 1 := by
      unfold blockNumber at h ⊢
      by_cases hk0 : k = 0
      · subst hk0; rfl
      · rw [if_neg hk0] at h ⊢
        rw [if_neg (by omega)]
        omega
    rw [hk, if_neg]
    intro hc
    have := congrArg BitVec.toNat hc
    rw [BitVec.toNat_ofNat, Nat.mod_eq_of_lt (show blockNumber k + 1 < 2 ^ 16 by omega)] at this
    simp at this

theorem signalID_build (rs : List Sic.Rec) (i : BitVec 32) : Sic.signalID (Sic.build rs) i = .ok (sigOf rs i) := by
  have h := Sic.build_lookup rs i
  unfold sigOf
  cases hl : Sic.lastByIndex rs i with
  | some r => rw [hl] at h; exact h.2.1
  | none => rw [hl] at h; exact h.2.1

theorem ofTsscAll_build (rs : List Sic.Rec) (ms : List Tssc.Meas) :
    ofTsscAll (Sic.build rs) ms = .ok (ms.map (expected rs)) := by
  induction ms with
  | nil => rfl
  | cons m ms ih =>
    rw [ofTsscAll, ofTssc, signalID_build, Res.bind_ok, Res.bind_ok, ih]
    rfl

theorem leftOver_eq (env : Env) (count : Nat) : sliceFor env count = leftOver env count := rfl

@[simp] theorem validated_setHalf (s : St) (i : Bool) (h : Half) : (s.setHalf i h).validated = s.validated := by
  cases i <;> rfl
@[simp] theorem keyIVs_setHalf (s : St) (i : Bool) (h : Half) : (s.setHalf i h).keyIVs = s.keyIVs := by
  cases i <;> rfl
@[simp] theorem log_setHalf (s : St) (i : Bool) (h : Half) : (s.setHalf i h).log = s.log := by cases i <;> rfl

theorem half_total (s : St) (n : BitVec 64) (i : Bool) : { s with totalMeasurementsReceived := n }.half i = s.half i := by
  cases i <;> rfl

@[simp] theorem setHalf_setHalf (s : St) (i : Bool) (a b : Half) : (s.setHalf i a).setHalf i b = s.setHalf i b := by
  cases i <;> rfl

/-- The state after preparing for block `seq`. -/
theorem tsscPrepare_spec (i : Bool) (seq : BitVec 16) (s : St) :
    (tsscPrepare i seq s).1 = (if seq = 0 then Tssc.newDecoder else (decoderFor (s.half i)).1) ∧
    (tsscPrepare i seq s).2.1 = (if seq = 0 then 0 else (decoderFor (s.half i)).2) ∧
    (tsscPrepare i seq s).2.2.half i =
      ⟨(s.half i).cache, some ((tsscPrepare i seq s).1, (tsscPrepare i seq s).2.1)⟩ ∧
    (tsscPrepare i seq s).2.2.validated = s.validated ∧ (tsscPrepare i seq s).2.2.keyIVs = s.keyIVs ∧
    ∃ es, (tsscPrepare i seq s).2.2.log = s.log ++ es ∧ ∀ e ∈ es, e = .status := by
  unfold tsscPrepare
  dsimp only
  by_cases h : seq = 0
  · rw [if_pos h, if_pos h, if_pos h]
    refine ⟨rfl, rfl, half_setHalf_same _ _ _, ?_, ?_, ?_⟩
    · rw [validated_setHalf]; dsimp only; split <;> simp [St.emit]
    · rw [keyIVs_setHalf]; dsimp only; split <;> simp [St.emit]
    · rw [log_setHalf]; dsimp only; split
      · exact ⟨[.status], by simp [St.emit], by simp⟩
      · exact ⟨[], by simp, by simp⟩
  · rw [if_neg h, if_neg h, if_neg h]
    exact ⟨rfl, rfl, half_setHalf_same _ _ _, by simp, by simp, [], by simp, by simp⟩

theorem readBE2 (n : Nat) (d : List Byte) (h : n < 2 ^ 16) : readBE 2 (beBytes 2 n ++ d) = .ok n :=
  readBE_beBytes 2 n d (by omega)

theorem parseTSSC_payload (i : Bool) (seq : Nat) (hseq : seq < 2 ^ 16) (d : List Byte) (ms : List Measurement) (s : St) :
    parseTSSC i (tsscPayload seq d) ms s =
      tsscBody i d (BitVec.ofNat 16 seq) ms (s.half i).cache (tsscPrepare i (BitVec.ofNat 16 seq) s) := by
  have : tsscPayload seq d = 85 :: (beBytes 2 seq ++ d) := rfl
  rw [this, parseTSSC_eq, readBE2 _ _ hseq, Res.bind_ok]
  have hd : (beBytes 2 seq ++ d).drop 2 = d := by
    rw [List.drop_append_of_le_length (by simp), List.drop_of_length_le (by simp), List.nil_append]
  rw [hd]

/-- What stays fixed during a run. -/
structure Ready (rs : List Sic.Rec) (i : Bool) (s : St) : Prop where
  validated : s.validated = true
  plain : s.keyIVs = none
  cache : (s.half i).cache = Sic.build rs

/-- Only status messages and deliveries. -/
def Quiet (es : List Event) : Prop := ∀ e ∈ es, e = .status ∨ ∃ ms, e = .newMeasurements ms

theorem accept_step (cfg : Cfg) (env : Env) (rs : List Sic.Rec) (i : Bool) (s : St) (cc : Byte) (n : Nat) (flags : Byte)
    (h3 : flags.getLsbD 3 = true) (h4 : flags.getLsbD 4 = i) (seq : Nat) (hseq : seq < 2 ^ 16) (d : List Byte)
    (ms : List Tssc.Meas) (d' : Tssc.Decoder) (hms : ms.length < 2 ^ 32) (hr : Ready rs i s)
    (hnum : seq = 0 ∨ (decoderFor (s.half i)).2 = BitVec.ofNat 16 seq)
    (hdec : Tssc.decodeBlock (if seq = 0 then Tssc.newDecoder else (decoderFor (s.half i)).1) d = (ms, .ok (), d')) :
    ∃ s', receive cfg env (packet 0x82 cc n (dataPayload flags ms.length (tsscPayload seq d))) s = .ok s' ∧
      Ready rs i s' ∧ s'.half i = ⟨Sic.build rs, some (d', nextSequence (BitVec.ofNat 16 seq))⟩ ∧
      ∃ es, s'.log = s.log ++ es ∧ Quiet es ∧ delivered es = [ms.map (expected rs)] := by
  have hz : BitVec.ofNat 16 seq = 0 ↔ seq = 0 := by
    constructor
    · intro h
      have := congrArg BitVec.toNat h
      rw [BitVec.toNat_ofNat, Nat.mod_eq_of_lt hseq] at this
      simpa using this
    · intro h; rw [h]; rfl
  have hcache : ((s.seen (dataPayload flags ms.length (tsscPayload seq d))).half i) = s.half i := by cases i <;> rfl
  rw [receive_data _ _ _ _ _ _ hr.validated, handleData_payload _ _ _ _ _ (s.seen _) hr.plain hms (Or.inl h3), if_pos h3, h4,
    parseTSSC_payload i seq hseq, hcache]
  obtain ⟨p1, p2, p3, p4, p5, es, p6, p7⟩ :=
    tsscPrepare_spec i (BitVec.ofNat 16 seq) (s.seen (dataPayload flags ms.length (tsscPayload seq d)))
  generalize tsscPrepare i (BitVec.ofNat 16 seq) (s.seen (dataPayload flags ms.length (tsscPayload seq d))) = p at *
  obtain ⟨pd, pn, ps⟩ := p
  dsimp only at p1 p2 p3 p4 p5 p6
  rw [hcache] at p1 p2 p3
  have e1 : pd = (if seq = 0 then Tssc.newDecoder else (decoderFor (s.half i)).1) := by
    rw [p1]
    by_cases h : seq = 0
    · rw [if_pos h, if_pos (hz.mpr h)]
    · rw [if_neg h, if_neg (fun hx => h (hz.mp hx))]
  have e2 : pn = BitVec.ofNat 16 seq := by
    rw [p2]
    by_cases h : seq = 0
    · rw [if_pos (hz.mpr h), h]; rfl
    · rw [if_neg (fun hx => h (hz.mp hx))]
      rcases hnum with hn | hn
      · exact absurd hn h
      · exact hn
  unfold tsscBody
  dsimp only
  rw [if_neg (by rw [e2]; simp), e1, hdec]
  dsimp only
  rw [if_neg (by rw [sliceFor_length]; omega), hr.cache, ofTsscAll_build, Res.bind_ok]
  have hdrop : List.drop (ms.map (expected rs)).length (sliceFor env ms.length) = [] := by
    apply List.drop_of_length_le
    rw [sliceFor_length, List.length_map]
  rw [hdrop, List.append_nil, Res.bind_ok, e2]
  refine ⟨_, rfl, ⟨?_, ?_, ?_⟩, ?_, es ++ [.newMeasurements (ms.map (expected rs))], ?_, ?_, ?_⟩
  · exact (validated_setHalf _ _ _).trans (p4.trans hr.validated)
  · exact (keyIVs_setHalf _ _ _).trans (p5.trans hr.plain)
  · rw [half_total, half_emit, half_setHalf_same]
  · rw [half_total, half_emit, half_setHalf_same]
  · have : (ps.setHalf i ⟨Sic.build rs, some (d', nextSequence (BitVec.ofNat 16 seq))⟩).log = s.log ++ es := by
      rw [log_setHalf, p6]; rfl
    simp only [St.emit, this, List.append_assoc]
  · intro e he
    rcases List.mem_append.mp he with he | he
    · exact Or.inl (p7 e he)
    · exact Or.inr ⟨_, List.mem_singleton.mp he⟩
  · rw [delivered_append, delivered_nodata (fun e he => by rw [p7 e he]; rfl)]
    rfl

theorem stray_step (cfg : Cfg) (env : Env) (rs : List Sic.Rec) (i : Bool) (s : St) (cc : Byte) (n : Nat) (flags : Byte)
    (h3 : flags.getLsbD 3 = true) (h4 : flags.getLsbD 4 = i) (seq count : Nat) (hseq : seq < 2 ^ 16)
    (hcount : count < 2 ^ 32) (d : List Byte) (hr : Ready rs i s) (h0 : seq ≠ 0)
    (hnum : (decoderFor (s.half i)).2 ≠ BitVec.ofNat 16 seq) :
    ∃ s', receive cfg env (packet 0x82 cc n (dataPayload flags count (tsscPayload seq d))) s = .ok s' ∧
      Ready rs i s' ∧ s'.half i = ⟨Sic.build rs, some (decoderFor (s.half i))⟩ ∧
      s'.half (!i) = s.half (!i) ∧ s'.log = s.log ++ [.newMeasurements (leftOver env count)] := by
  have hz : BitVec.ofNat 16 seq ≠ 0 := by
    intro h
    have := congrArg BitVec.toNat h
    rw [BitVec.toNat_ofNat, Nat.mod_eq_of_lt hseq] at this
    exact h0 (by simpa using this)
  have hcache : ∀ j, ((s.seen (dataPayload flags count (tsscPayload seq d))).half j) = s.half j := by
    intro j; cases j <;> rfl
  rw [receive_data _ _ _ _ _ _ hr.validated, handleData_payload _ _ _ _ _ (s.seen _) hr.plain hcount (Or.inl h3), if_pos h3, h4,
    parseTSSC_payload i seq hseq, hcache]
  have hp : tsscPrepare i (BitVec.ofNat 16 seq) (s.seen (dataPayload flags count (tsscPayload seq d))) =
      ((decoderFor (s.half i)).1, (decoderFor (s.half i)).2,
        (s.seen (dataPayload flags count (tsscPayload seq d))).setHalf i
          ⟨(s.half i).cache, some (decoderFor (s.half i))⟩) := by
    unfold tsscPrepare
    dsimp only
    rw [if_neg hz, hcache, setHalf_setHalf]
  rw [hp, tsscBody, if_pos hnum, Res.bind_ok]
  refine ⟨_, rfl, ⟨?_, ?_, ?_⟩, ?_, ?_, ?_⟩
  · exact (validated_setHalf _ _ _).trans hr.validated
  · exact (keyIVs_setHalf _ _ _).trans hr.plain
  · rw [half_total, half_emit, half_setHalf_same]; exact hr.cache
  · rw [half_total, half_emit, half_setHalf_same, hr.cache]
  · rw [half_total, half_emit, half_setHalf_other _ _ _ _ (by cases i <;> simp), hcache]
  · have : ((s.seen (dataPayload flags count (tsscPayload seq d))).setHalf i
          ⟨(s.half i).cache, some (decoderFor (s.half i))⟩).log = s.log := by
      rw [log_setHalf]; rfl
    simp only [St.emit, this, leftOver_eq]

/-! ## Theorems -/

/-- C25: for every arrival of blocks numbered 0, 1, ..., 65535, 1, 2, ... by publishers (of either TSSC block ending and any
choice of code words), of any length, mixed with blocks of unexpected numbers, with lost ends and restarts from block 0, from
any state of the subscriber: every block in sequence is decoded to exactly the measurements sent, with the signals of the
cache half, in order; nothing fails and the connection is kept. A block with an unexpected number does not disturb the
decoding of the blocks after it. (What the application gets for those blocks themselves is C24's
`C24_out_of_sequence_false`.) -/
theorem C25_sequence (cfg : Cfg) (rs : List Sic.Rec) (i : Bool) (bs : List Tssc.Block) (ds : List (List Byte))
    (ps : List (Env × List Byte)) (out : List (List Measurement)) (hsend : Tssc.Pub.new.sendBlocks bs = some ds)
    (hcount : ∀ b ∈ bs, b.items.length < 2 ^ 32) (hfeed : Feed rs i 0 bs ds ps out)
    (s : St) (hv : s.validated = true) (hk : s.keyIVs = none) (hc : (s.half i).cache = Sic.build rs) :
    ∃ s', receiveAll cfg ps s = .ok s' ∧ ∃ es, s'.log = s.log ++ es ∧ Quiet es ∧ delivered es = out := by
  suffices h : ∀ k bs ds ps out, Feed rs i k bs ds ps out → (∀ b ∈ bs, b.items.length < 2 ^ 32) →
      ∀ s : St, Ready rs i s →
      (∃ d r, (k = 0 → d = Tssc.newDecoder) ∧ (0 < k → s.half i = ⟨Sic.build rs, some (d, BitVec.ofNat 16 (blockNumber k))⟩) ∧
        Tssc.decodeBlocks d ds = (bs.map (fun b => b.items.map Prod.fst), .ok (), r)) →
      ∃ s', receiveAll cfg ps s = .ok s' ∧ ∃ es, s'.log = s.log ++ es ∧ Quiet es ∧ delivered es = out by
    refine h 0 bs ds ps out hfeed hcount s ⟨hv, hk, hc⟩ ⟨Tssc.newDecoder, (Tssc.decodeBlocks Tssc.newDecoder ds).2.2,
      fun _ => rfl, fun h => absurd h (by omega), ?_⟩
    obtain ⟨h1, h2⟩ := Tssc.C13_stream_roundtrip bs ds hsend
    rw [← h1, ← h2]
  intro k bs ds ps out hf
  induction hf with
  | stop => intro _ s _ _; exact ⟨s, rfl, [], by simp, by intro e he; simp at he, rfl⟩
  | block k b bs d ds ps out env cc n flags h3 h4 _ ih =>
    intro hcount s hr ⟨dec, r, hd0, hd1, hdec⟩
    have hstep : ∃ d', Tssc.decodeBlock dec d = (b.items.map Prod.fst, .ok (), d') ∧
        Tssc.decodeBlocks d' ds = (bs.map (fun b => b.items.map Prod.fst), .ok (), r) := by
      rw [Tssc.decodeBlocks] at hdec
      cases hq : Tssc.decodeBlock dec d with
      | mk ms x =>
        obtain ⟨e, d'⟩ := x
        rw [hq] at hdec
        cases e with
        | ok u =>
          dsimp only at hdec
          rw [List.map_cons] at hdec
          injection hdec with h1 h2
          injection h1 with h1 h3
          refine ⟨d', by rw [h1], ?_⟩
          rw [← h3, ← h2]
        | err => dsimp only at hdec; injection hdec with h1 h2; injection h2 with h2 _; cases h2
        | panic => dsimp only at hdec; injection hdec with h1 h2; injection h2 with h2 _; cases h2
    obtain ⟨d', hq, hrest⟩ := hstep
    have hlen : b.items.length = (b.items.map Prod.fst).length := by simp
    have hnum : blockNumber k = 0 ∨ (decoderFor (s.half i)).2 = BitVec.ofNat 16 (blockNumber k) := by
      by_cases hk0 : k = 0
      · left; rw [hk0]; rfl
      · right; rw [hd1 (by omega)]; rfl
    have hdd : (if blockNumber k = 0 then Tssc.newDecoder else (decoderFor (s.half i)).1) = dec := by
      by_cases hk0 : k = 0
      · rw [hk0, if_pos (show blockNumber 0 = 0 from rfl), hd0 hk0]
      · rw [if_neg (blockNumber_pos (by omega)), hd1 (by omega)]; rfl
    obtain ⟨s1, g1, g2, g3, es, g4, g5, g6⟩ := accept_step cfg env rs i s cc n flags h3 h4 (blockNumber k)
      (blockNumber_lt k) d (b.items.map Prod.fst) d' (by rw [← hlen]; exact hcount b (by simp)) hr hnum
      (by rw [hdd]; exact hq)
    obtain ⟨s2, g7, es2, g8, g9, g10⟩ := ih (fun b hb => hcount b (by simp [hb])) s1 g2
      ⟨d', r, by omega, fun _ => by rw [g3, nextSequence_blockNumber], hrest⟩
    refine ⟨s2, ?_, es ++ es2, by rw [g8, g4]; simp, ?_, ?_⟩
    · rw [receiveAll, hlen, g1, Res.bind_ok, g7]
    · intro e he
      rcases List.mem_append.mp he with he | he
      · exact g5 e he
      · exact g9 e he
    · rw [delivered_append, g6, g10, List.map_map]
      rfl
  | stray k bs ds ps out env cc n flags h3 h4 seq count d hseq hcnt hk h0 hne _ ih =>
    intro hcount s hr ⟨dec, r, hd0, hd1, hdec⟩
    have hh := hd1 hk
    have hdf : decoderFor (s.half i) = (dec, BitVec.ofNat 16 (blockNumber k)) := by rw [hh]; rfl
    obtain ⟨s1, g1, g2, g3, -, g4⟩ := stray_step cfg env rs i s cc n flags h3 h4 seq count hseq hcnt d hr h0 (by
      rw [hdf]
      intro hx
      have := congrArg BitVec.toNat hx
      dsimp only at this
      rw [BitVec.toNat_ofNat, BitVec.toNat_ofNat, Nat.mod_eq_of_lt (blockNumber_lt k), Nat.mod_eq_of_lt hseq] at this
      exact hne this.symm)
    obtain ⟨s2, g7, es2, g8, g9, g10⟩ := ih hcount s1 g2
      ⟨dec, r, hd0, fun _ => by rw [g3, hdf], hdec⟩
    refine ⟨s2, ?_, [.newMeasurements (leftOver env count)] ++ es2, by rw [g8, g4]; simp, ?_, ?_⟩
    · rw [receiveAll, g1, Res.bind_ok, g7]
    · intro e he
      rcases List.mem_append.mp he with he | he
      · exact Or.inr ⟨_, List.mem_singleton.mp he⟩
      · exact g9 e he
    · rw [delivered_append, g10]
      rfl
  | restart k bs ds bs' ds' ps out hs hc' _ ih =>
    intro _ s hr _
    refine ih hc' s hr ⟨Tssc.newDecoder, (Tssc.decodeBlocks Tssc.newDecoder ds').2.2, fun _ => rfl,
      fun h => absurd h (by omega), ?_⟩
    obtain ⟨h1, h2⟩ := Tssc.C13_stream_roundtrip bs' ds' hs
    rw [← h1, ← h2]

/-- C25: a block with an unexpected number other than 0, from any state with any decoder, leaves the decoder and its
sequence number as they were (a decoder that did not exist is created, unused), and the other half untouched. -/
theorem C25_unexpected_untouched (cfg : Cfg) (env : Env) (rs : List Sic.Rec) (i : Bool) (s : St) (cc : Byte) (n : Nat)
    (flags : Byte) (h3 : flags.getLsbD 3 = true) (h4 : flags.getLsbD 4 = i) (seq count : Nat) (hseq : seq < 2 ^ 16)
    (hcount : count < 2 ^ 32) (d : List Byte) (hv : s.validated = true) (hk : s.keyIVs = none)
    (hc : (s.half i).cache = Sic.build rs) (h0 : seq ≠ 0)
    (hnum : (match (s.half i).decoder with | some (_, m) => m.toNat | none => 0) ≠ seq) :
    ∃ s', receive cfg env (packet 0x82 cc n (dataPayload flags count (tsscPayload seq d))) s = .ok s' ∧
      (s'.half i).cache = (s.half i).cache ∧ s'.half (!i) = s.half (!i) ∧
      (s'.half i).decoder = (match (s.half i).decoder with
        | some x => some x
        | none => some (Tssc.newDecoder, 0)) := by
  obtain ⟨s1, g1, g2, g3, g4, -⟩ := stray_step cfg env rs i s cc n flags h3 h4 seq count hseq hcount d ⟨hv, hk, hc⟩ h0 (by
    intro hx
    apply hnum
    have := congrArg BitVec.toNat hx
    rw [BitVec.toNat_ofNat, Nat.mod_eq_of_lt hseq] at this
    rw [← this]
    unfold decoderFor
    cases (s.half i).decoder with
    | none => rfl
    | some x => rfl)
  refine ⟨s1, g1, by rw [g3, hc], g4, ?_⟩
  rw [g3]
  unfold decoderFor
  cases (s.half i).decoder with
  | none => rfl
  | some x => rfl

/-- C24 fails for TSSC blocks out of sequence: from any state, a block with a number other than 0 and the one expected is not
decoded, and yet `count` measurements are delivered: whatever the pooled slice held before (earlier measurements), or that
many made-up measurements of the empty signal, value 0, at time 0. -/
theorem C24_out_of_sequence_false (cfg : Cfg) (env : Env) (rs : List Sic.Rec) (i : Bool) (s : St) (cc : Byte) (n : Nat)
    (flags : Byte) (h3 : flags.getLsbD 3 = true) (h4 : flags.getLsbD 4 = i) (seq count : Nat) (hseq : seq < 2 ^ 16)
    (hcount : count < 2 ^ 32) (d : List Byte) (hv : s.validated = true) (hk : s.keyIVs = none)
    (hc : (s.half i).cache = Sic.build rs) (h0 : seq ≠ 0)
    (hnum : (match (s.half i).decoder with | some (_, m) => m.toNat | none => 0) ≠ seq) :
    ∃ s', receive cfg env (packet 0x82 cc n (dataPayload flags count (tsscPayload seq d))) s = .ok s' ∧
      s'.log = s.log ++ [.newMeasurements (leftOver env count)] := by
  obtain ⟨s1, g1, -, -, -, g4⟩ := stray_step cfg env rs i s cc n flags h3 h4 seq count hseq hcount d ⟨hv, hk, hc⟩ h0 (by
    intro hx
    apply hnum
    have := congrArg BitVec.toNat hx
    rw [BitVec.toNat_ofNat, Nat.mod_eq_of_lt hseq] at this
    rw [← this]
    unfold decoderFor
    cases (s.half i).decoder with
    | none => rfl
    | some x => rfl)
  exact ⟨s1, g1, g4⟩

/-! ## Cases meeting the hypotheses -/

/-- A validated, connected subscriber with a cache in half 0. -/
def exSt : St := { establish (setupConnection St.new) with half0 := ⟨Sic.build Sic.exRecs, none⟩ }

/-- A block of a publisher and its bytes. -/
def exBlock : Tssc.Block :=
  ⟨Tssc.bestItems Tssc.Pub.new [⟨1, 1000, 0, 5⟩, ⟨2, 1000, 1, 6⟩], .endCode (List.replicate 4 false)⟩

def exData : List Byte := [1, 17, 17, 232, 7, 133, 19, 1, 24, 96, 0]

theorem exBlock_data : Tssc.Pub.new.sendBlocks [exBlock] = some [exData] := by decide +kernel

/-- A case meeting the hypotheses of `C25_sequence`: block 0, a stray block numbered 7, and the publisher starting over. -/
example : ∃ ps out, ps.length = 3 ∧ Tssc.Pub.new.sendBlocks [exBlock] = some [exData] ∧
    (∀ b ∈ [exBlock], b.items.length < 2 ^ 32) ∧ Feed Sic.exRecs false 0 [exBlock] [exData] ps out ∧
    exSt.validated = true ∧ exSt.keyIVs = none ∧ (exSt.half false).cache = Sic.build Sic.exRecs := by
  have hl : ∀ b ∈ [exBlock], b.items.length < 2 ^ 32 := by
    intro b hb
    rw [List.mem_singleton.mp hb]
    decide +kernel
  refine ⟨_, _, ?_, exBlock_data, hl, Feed.block 0 exBlock [] exData [] _ _ ⟨true, none⟩ 2 0 0x08 (by decide) (by decide)
    (Feed.stray 1 [] [] _ _ ⟨true, none⟩ 2 0 0x08 (by decide) (by decide) 7 1 [] (by decide) (by decide) (by decide)
      (by decide) (by decide) (Feed.restart 1 [] [] [exBlock] [exData] _ _ exBlock_data hl
        (Feed.block 0 exBlock [] exData [] _ _ ⟨true, none⟩ 2 0 0x08 (by decide) (by decide) (Feed.stop 1 [] [])))),
    rfl, rfl, rfl⟩
  rfl

/-- A case meeting the hypotheses of the other two theorems: a subscriber that has no decoder yet gets a block numbered 7. -/
example : exSt.validated = true ∧ exSt.keyIVs = none ∧ (exSt.half false).cache = Sic.build Sic.exRecs ∧
    (0x08 : Byte).getLsbD 3 = true ∧ (0x08 : Byte).getLsbD 4 = false ∧
    (match (exSt.half false).decoder with | some (_, m) => m.toNat | none => 0) ≠ 7 :=
  ⟨rfl, rfl, rfl, by decide, by decide, by decide⟩

end Verif.Session
