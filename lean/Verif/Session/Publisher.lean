import Verif.Session.SideProps
import Verif.Session.CacheProps
import Verif.Session.StreamProps

/-!
# From publisher to application (C106)

A specification of what a publisher sends on a connection, and the theorem that the application is handed exactly that: framing, chunking, the
handshake, caches, base times, cipher keys, compact packets and TSSC blocks of both cache halves together.
-/

namespace Verif.Session

open Verif.Guid (Guid)
open Function (update)

/-! ## Specification -/

/-- A measurement in a compact data packet: with its full time, with a short time, or without time. -/
inductive Entry where
  | full (e : FullEntry)
  | short (e : ShortEntry)
  | bare (flags : Byte) (index value : BitVec 32)

/-- Its bytes. -/
def Entry.bytes (millis : Bool) : Entry → List Byte
  | .full e => e.bytes
  | .short e => e.bytes millis
  | .bare flags index value => [flags] ++ beBytes 4 index.toNat ++ beBytes 4 value.toNat

/-- It is in the format of the subscription; short times are for base times that were announced. -/
def Entry.Fits (cfg : Cfg) (times : Option (BitVec 64 × BitVec 64)) : Entry → Prop
  | .full e => cfg.includeTime = true ∧ e.flags.getLsbD 6 = false
  | .short e => cfg.includeTime = true ∧ e.flags.getLsbD 6 = true ∧ times ≠ none ∧
      e.offset < if cfg.useMillisecondResolution then 2 ^ 16 else 2 ^ 32
  | .bare _ _ _ => cfg.includeTime = false

/-- What it stands for. -/
def Entry.meaning (rs : List Sic.Rec) (millis : Bool) (times : Option (BitVec 64 × BitVec 64)) : Entry → Measurement
  | .full e => e.meaning rs
  | .short e => e.meaning rs millis (times.getD (0, 0)).1 (times.getD (0, 0)).2
  | .bare flags index value => ⟨sigOf rs index, value, 0, Compact.mapToFullFlags flags⟩

/-- What a publisher has sent on a connection: the records of each cache half, for each half the number of TSSC blocks since the last one numbered
0 and the state of its encoder, the base times, and the keys. -/
structure Told where
  cache : Bool → Option (List Sic.Rec)
  run : Bool → Option (Nat × Tssc.Pub)
  times : Option (BitVec 64 × BitVec 64)
  keys : Option KeyIVs

/-- Nothing yet. -/
def Told.new : Told := ⟨fun _ => none, fun _ => none, none, none⟩

/-- Responses that carry no data: answers, also with metadata; start time, end of processing, configuration changes, notifications, no-ops, and
codes that are not defined. -/
def Plain (rc : Byte) (data : List Byte) : Prop :=
  rc ≠ 0x82 ∧ rc ≠ 0x83 ∧ rc ≠ 0x84 ∧ rc ≠ 0x85 ∧ rc ≠ 0x88 ∧ (rc = 0x86 → 8 ≤ data.length) ∧ (rc = 0x89 → 4 ≤ data.length)

/-- `Sends cfg t body out t'`: having sent `t`, the publisher may send the packet `body`; then it has sent `t'`, and the application is to get `out`. -/
inductive Sends (cfg : Cfg) : Told → List Byte → List (List Measurement) → Told → Prop
  | cache (t : Told) (cc : Byte) (n : Nat) (b : Byte) (sub : Guid) (rs : List Sic.Rec) (bytes : List Byte) (h : CacheBytes cfg sub rs bytes) :
      Sends cfg t (packet 0x83 cc n (b :: bytes)) []
        { t with cache := update t.cache (decide (b ≠ 0)) (some rs), run := update t.run (decide (b ≠ 0)) none }
  | times (t : Told) (cc : Byte) (n index o0 o1 : Nat) (tail : List Byte) (hi : index < 2 ^ 32) (h0 : o0 < 2 ^ 64) (h1 : o1 < 2 ^ 64) :
      Sends cfg t (packet 0x84 cc n (timesPayload index o0 o1 ++ tail)) [] { t with times := some (BitVec.ofNat 64 o0, BitVec.ofNat 64 o1) }
  | keys (t : Told) (cc : Byte) (n : Nat) (index : Byte) (k : KeyIVs) (h : (keyMessage index k).length < 2 ^ 32) :
      Sends cfg t (packet 0x85 cc n (keyMessage index k)) [] { t with keys := some k }
  | compact (t : Told) (cc : Byte) (n : Nat) (flags : Byte) (enc : List Byte) (rs : List Sic.Rec) (es : List Entry) (tail : List Byte)
      (h1 : flags.getLsbD 1 = true) (h3 : flags.getLsbD 3 = false) (hc : t.cache (flags.getLsbD 4) = some rs) (hrs : rs ≠ [])
      (hl : es.length < 2 ^ 32) (hes : ∀ e ∈ es, e.Fits cfg t.times)
      (henc : plaintext cfg.decipherAES t.keys flags enc =
        .ok (beBytes 4 es.length ++ ((es.map (Entry.bytes cfg.useMillisecondResolution)).flatten ++ tail))) :
      Sends cfg t (packet 0x82 cc n (flags :: enc)) [es.map (Entry.meaning rs cfg.useMillisecondResolution t.times)] t
  | first (t : Told) (cc : Byte) (n : Nat) (flags : Byte) (enc : List Byte) (rs : List Sic.Rec) (b : Tssc.Block) (data : List Byte) (p : Tssc.Pub)
      (h3 : flags.getLsbD 3 = true) (hc : t.cache (flags.getLsbD 4) = some rs) (hl : b.items.length < 2 ^ 32)
      (hb : Tssc.Pub.new.sendBlock b = some (data, p))
      (henc : plaintext cfg.decipherAES t.keys flags enc = .ok (beBytes 4 b.items.length ++ tsscPayload 0 data)) :
      Sends cfg t (packet 0x82 cc n (flags :: enc)) [b.items.map fun x => expected rs x.1]
        { t with run := update t.run (flags.getLsbD 4) (some (1, p)) }
  | next (t : Told) (cc : Byte) (n : Nat) (flags : Byte) (enc : List Byte) (rs : List Sic.Rec) (b : Tssc.Block) (data : List Byte) (k : Nat)
      (q p : Tssc.Pub) (h3 : flags.getLsbD 3 = true) (hc : t.cache (flags.getLsbD 4) = some rs) (hl : b.items.length < 2 ^ 32)
      (hr : t.run (flags.getLsbD 4) = some (k, q)) (hb : q.sendBlock b = some (data, p))
      (henc : plaintext cfg.decipherAES t.keys flags enc = .ok (beBytes 4 b.items.length ++ tsscPayload (blockNumber k) data)) :
      Sends cfg t (packet 0x82 cc n (flags :: enc)) [b.items.map fun x => expected rs x.1]
        { t with run := update t.run (flags.getLsbD 4) (some (k + 1, p)) }
  | block (t : Told) (cc : Byte) (n : Nat) (seq : Nat) (b : Byte) (rs : List Sic.Rec) (index : Nat) (content : List Byte)
      (hc : t.cache (decide (b ≠ 0)) = some rs) :
      Sends cfg t (packet 0x88 cc n (beBytes 4 seq ++ b :: (beBytes 4 index ++ content))) [] t
  | plain (t : Told) (rc cc : Byte) (n : Nat) (data : List Byte) (h : Plain rc data) : Sends cfg t (packet rc cc n data) [] t

/-- The packets of a connection, one after the other. -/
inductive SendsAll (cfg : Cfg) : Told → List (List Byte) → List (List Measurement) → Told → Prop
  | nil (t : Told) : SendsAll cfg t [] [] t
  | cons {t t1 t2 : Told} {body : List Byte} {bodies : List (List Byte)} {out outs : List (List Measurement)} (h : Sends cfg t body out t1)
      (hs : SendsAll cfg t1 bodies outs t2) : SendsAll cfg t (body :: bodies) (out ++ outs) t2

/-! ## The subscriber follows -/

/-- What the subscriber has to know. -/
structure Follows (t : Told) (s : St) : Prop where
  validated : s.validated = true
  keys : s.keyIVs = t.keys
  cache : ∀ i rs, t.cache i = some rs → (s.half i).cache = Sic.build rs ∧ (rs ≠ [] → Sic.count (Sic.build rs) ≠ 0)
  run : ∀ i k p, t.run i = some (k, p) → 0 < k ∧ ∃ d, (s.half i).decoder = some (d, BitVec.ofNat 16 (blockNumber k)) ∧
    Tssc.absDec d = p ∧ Tssc.StepsSorted p.steps
  times : ∀ o, t.times = some o → s.baseTimeOffset0 = o.1 ∧ s.baseTimeOffset1 = o.2

/-- What a step does besides: it hands out `out` and does not end the connection. -/
def Gives (s s' : St) (out : List (List Measurement)) : Prop :=
  ∃ es, s'.log = s.log ++ es ∧ delivered es = out ∧ Event.terminate ∉ es

theorem receive_sealed (cfg : Cfg) (env : Env) (cc : Byte) (n : Nat) (flags : Byte) (enc : List Byte) (count : Nat) (payload : List Byte) (s : St)
    (hv : s.validated = true) (h : plaintext cfg.decipherAES s.keyIVs flags enc = .ok (beBytes 4 count ++ payload)) :
    receive cfg env (packet 0x82 cc n (flags :: enc)) s =
      (receive cfg env (packet 0x82 cc n (dataPayload flags count payload)) { s with keyIVs := none }).bind
        (fun t => .ok { t with
          keyIVs := s.keyIVs
          totalCommandChannelBytesReceived := (s.seen (flags :: enc)).totalCommandChannelBytesReceived }) := by
  have e : dataPayload flags count payload = flags :: (beBytes 4 count ++ payload) := rfl
  rw [e, receive_data _ _ _ _ _ _ hv, receive_data _ _ _ _ _ _ (show St.validated { s with keyIVs := none } = true from hv)]
  rw [data_alike cfg env flags enc (beBytes 4 count ++ payload) (s.seen (flags :: enc))
    (({ s with keyIVs := none } : St).seen (flags :: (beBytes 4 count ++ payload))).totalCommandChannelBytesReceived h]
  rfl

theorem receive_data_keeps {cfg : Cfg} {env : Env} {cc : Byte} {n : Nat} {flags : Byte} {rest : List Byte} {s s' : St} (hv : s.validated = true)
    (h : receive cfg env (packet 0x82 cc n (flags :: rest)) s = .ok s') :
    s'.half (!flags.getLsbD 4) = s.half (!flags.getLsbD 4) ∧ s'.baseTimeOffset0 = s.baseTimeOffset0 ∧
      s'.baseTimeOffset1 = s.baseTimeOffset1 := by
  have h0 : ∀ j, (s.seen (flags :: rest)).half j = s.half j := by intro j; cases j <;> rfl
  rw [receive_data _ _ _ _ _ _ hv] at h
  rcases handleDataPacket_cases h with h | ⟨f, r, payload, count, ms, s1, hd, -, -, -, -, ho, h⟩
  · rw [h, half_fail, h0]; exact ⟨rfl, rfl, rfl⟩
  · injection hd with hd1 hd2
    subst hd1
    rw [bitCache] at ho
    rw [h, half_total, half_emit, ho.otherHalf, h0]
    exact ⟨rfl, ho.offset0, ho.offset1⟩

theorem bare_decode (rs : List Sic.Rec) (o0 o1 : BitVec 64) (ms : Bool) (flags : Byte) (index value : BitVec 32) (rest : List Byte) :
    ∃ cm, ofCompact cm = ⟨sigOf rs index, value, 0, Compact.mapToFullFlags flags⟩ ∧
      Compact.decode ⟨Sic.build rs, o0, o1, false, ms⟩ Compact.CM.new
        (([flags] ++ beBytes 4 index.toNat ++ beBytes 4 value.toNat) ++ rest) =
        .ok (([flags] ++ beBytes 4 index.toNat ++ beBytes 4 value.toNat).length, cm) := by
  have hlen : ([flags] ++ beBytes 4 index.toNat ++ beBytes 4 value.toNat).length = 9 := by simp
  rw [hlen, Compact.decode_fixed _ _ _ _ _ _ _ (signalID_build rs index)]
  unfold Compact.decodeTime
  simp only [Bool.not_false, if_true]
  refine ⟨_, ?_, rfl⟩
  unfold ofCompact Compact.setCompactStateFlags
  simp [Compact.CM.new]

theorem entry_decode (cfg : Cfg) (rs : List Sic.Rec) (times : Option (BitVec 64 × BitVec 64)) (o0 o1 : BitVec 64)
    (ho : ∀ o, times = some o → o0 = o.1 ∧ o1 = o.2) (e : Entry) (he : e.Fits cfg times) :
    ∃ cm, ofCompact cm = e.meaning rs cfg.useMillisecondResolution times ∧
      ∀ rest, Compact.decode ⟨Sic.build rs, o0, o1, cfg.includeTime, cfg.useMillisecondResolution⟩ Compact.CM.new
        (e.bytes cfg.useMillisecondResolution ++ rest) = .ok ((e.bytes cfg.useMillisecondResolution).length, cm) := by
  cases e with
  | full e =>
    obtain ⟨h1, h2⟩ := he
    obtain ⟨cm, c1, c2⟩ := full_decode rs o0 o1 cfg.useMillisecondResolution e h2 []
    rw [List.append_nil, ← h1] at c2
    exact ⟨cm, c1, fun rest => decode_append rest c2⟩
  | short e =>
    obtain ⟨h1, h2, h3, h4⟩ := he
    obtain ⟨cm, c1, c2⟩ := short_decode rs o0 o1 cfg.useMillisecondResolution e h2 h4 []
    rw [List.append_nil, ← h1] at c2
    refine ⟨cm, ?_, fun rest => decode_append rest c2⟩
    obtain ⟨o, rfl⟩ := Option.ne_none_iff_exists'.mp h3
    obtain ⟨rfl, rfl⟩ := ho o rfl
    exact c1
  | bare flags index value =>
    obtain ⟨cm, c1, c2⟩ := bare_decode rs o0 o1 cfg.useMillisecondResolution flags index value []
    rw [List.append_nil, ← show cfg.includeTime = false from he] at c2
    exact ⟨cm, c1, fun rest => decode_append rest c2⟩

theorem entries_decode (cfg : Cfg) (rs : List Sic.Rec) (times : Option (BitVec 64 × BitVec 64)) (o0 o1 : BitVec 64)
    (ho : ∀ o, times = some o → o0 = o.1 ∧ o1 = o.2) (es : List Entry) (hes : ∀ e ∈ es, e.Fits cfg times) :
    ∃ ws : List (List Byte × Compact.CM), ws.length = es.length ∧ ws.map Prod.fst = es.map (Entry.bytes cfg.useMillisecondResolution) ∧
      ws.map (fun w => ofCompact w.2) = es.map (Entry.meaning rs cfg.useMillisecondResolution times) ∧
      ∀ w ∈ ws, ∀ rest, Compact.decode ⟨Sic.build rs, o0, o1, cfg.includeTime, cfg.useMillisecondResolution⟩ Compact.CM.new
        (w.1 ++ rest) = .ok (w.1.length, w.2) := by
  induction es with
  | nil => exact ⟨[], rfl, rfl, rfl, by simp⟩
  | cons e es ih =>
    obtain ⟨ws, b1, b2, b3, b4⟩ := ih (fun x hx => hes x (by simp [hx]))
    obtain ⟨cm, c1, c2⟩ := entry_decode cfg rs times o0 o1 ho e (hes e (by simp))
    refine ⟨(e.bytes cfg.useMillisecondResolution, cm) :: ws, by simp [b1], by simp [b2], by simp [b3, c1], ?_⟩
    intro w hw
    rcases List.mem_cons.mp hw with rfl | hw
    · exact c2
    · exact b4 w hw

theorem terminate_quiet {es : List Event} (h : Quiet es) : Event.terminate ∉ es := by
  intro hm
  rcases h _ hm with h | ⟨_, h⟩ <;> cases h

theorem follows_compact {cfg : Cfg} {t : Told} {s : St} (hf : Follows t s) (env : Env) (cc : Byte) (n : Nat) (flags : Byte) (enc : List Byte)
    (rs : List Sic.Rec) (es : List Entry) (tail : List Byte)
    (h1 : flags.getLsbD 1 = true) (h3 : flags.getLsbD 3 = false) (hc : t.cache (flags.getLsbD 4) = some rs) (hrs : rs ≠ [])
    (hl : es.length < 2 ^ 32) (hes : ∀ e ∈ es, e.Fits cfg t.times)
    (henc : plaintext cfg.decipherAES t.keys flags enc =
      .ok (beBytes 4 es.length ++ ((es.map (Entry.bytes cfg.useMillisecondResolution)).flatten ++ tail))) :
    ∃ s', receive cfg env (packet 0x82 cc n (flags :: enc)) s = .ok s' ∧ Follows t s' ∧
      Gives s s' [es.map (Entry.meaning rs cfg.useMillisecondResolution t.times)] := by
  obtain ⟨k1, k2⟩ := hf.cache _ _ hc
  rw [← hf.keys] at henc
  rw [receive_sealed cfg env cc n flags enc _ _ s hf.validated henc]
  have hcfg : compactConfig cfg (flags.getLsbD 4) ({ s with keyIVs := none } : St) =
      ⟨Sic.build rs, s.baseTimeOffset0, s.baseTimeOffset1, cfg.includeTime, cfg.useMillisecondResolution⟩ := by
    rw [← k1]; cases flags.getLsbD 4 <;> rfl
  have hhalf : ∀ i, ({ s with keyIVs := none } : St).half i = s.half i := by intro i; cases i <;> rfl
  obtain ⟨ws, w1, w2, w3, w4⟩ := entries_decode cfg rs t.times s.baseTimeOffset0 s.baseTimeOffset1 hf.times es hes
  obtain ⟨s1, r1, r2, r3, r4, -⟩ := compact_packet cfg env (flags.getLsbD 4) { s with keyIVs := none } cc n flags h1 h3 rfl ws tail (by omega)
    hf.validated rfl (by rw [hhalf, k1]; exact k2 hrs) (by rw [hcfg]; exact w4)
  rw [w2, w1] at r1
  have hv1 : s1.validated = true := receive_validated (s := { s with keyIVs := none }) hf.validated r1
  obtain ⟨-, o0, o1⟩ := receive_data_keeps (s := { s with keyIVs := none }) hf.validated r1
  have hh : ∀ i, s1.half i = s.half i := by intro i; cases i <;> assumption
  have hh' : ∀ i, ({ s1 with
      keyIVs := s.keyIVs
      totalCommandChannelBytesReceived := (s.seen (flags :: enc)).totalCommandChannelBytesReceived } : St).half i = s.half i := by
    intro i; rw [← hh i]; cases i <;> rfl
  rw [r1]
  refine ⟨_, rfl, ⟨hv1, hf.keys, ?_, ?_, ?_⟩, [.newMeasurements (ws.map fun w => ofCompact w.2)], r2, ?_, by simp⟩
  · intro i rs h; rw [hh']; exact hf.cache i rs h
  · intro i k p h; rw [hh']; exact hf.run i k p h
  · intro o h
    exact ⟨o0.trans (hf.times o h).1, o1.trans (hf.times o h).2⟩
  · rw [w3]; rfl

theorem follows_tssc {cfg : Cfg} {t : Told} {s : St} (hf : Follows t s) (env : Env) (cc : Byte) (n : Nat) (flags : Byte) (enc : List Byte)
    (rs : List Sic.Rec) (b : Tssc.Block) (data : List Byte) (k : Nat) (q p : Tssc.Pub) (h3 : flags.getLsbD 3 = true)
    (hc : t.cache (flags.getLsbD 4) = some rs) (hl : b.items.length < 2 ^ 32)
    (hr : k = 0 ∧ q = Tssc.Pub.new ∨ t.run (flags.getLsbD 4) = some (k, q)) (hb : q.sendBlock b = some (data, p))
    (henc : plaintext cfg.decipherAES t.keys flags enc = .ok (beBytes 4 b.items.length ++ tsscPayload (blockNumber k) data)) :
    ∃ s', receive cfg env (packet 0x82 cc n (flags :: enc)) s = .ok s' ∧
      Follows { t with run := update t.run (flags.getLsbD 4) (some (k + 1, p)) } s' ∧
      Gives s s' [b.items.map fun x => expected rs x.1] := by
  obtain ⟨k1, k2⟩ := hf.cache _ _ hc
  rw [← hf.keys] at henc
  rw [receive_sealed cfg env cc n flags enc _ _ s hf.validated henc]
  have hhalf : ∀ i, ({ s with keyIVs := none } : St).half i = s.half i := by intro i; cases i <;> rfl
  have hdec : ∃ d', Tssc.decodeBlock (if blockNumber k = 0 then Tssc.newDecoder else (decoderFor (s.half (flags.getLsbD 4))).1) data =
      (b.items.map Prod.fst, .ok (), d') ∧ Tssc.absDec d' = p ∧ Tssc.StepsSorted p.steps ∧
      (blockNumber k = 0 ∨ (decoderFor (s.half (flags.getLsbD 4))).2 = BitVec.ofNat 16 (blockNumber k)) := by
    rcases hr with ⟨rfl, rfl⟩ | hr
    · have hb0 : blockNumber 0 = 0 := rfl
      rw [hb0, if_pos rfl]
      rw [← Tssc.absDec_new] at hb
      obtain ⟨d', h1, h2, h3⟩ := Tssc.sendBlock_sim Tssc.newDecoder b data p (by unfold Tssc.StepsSorted Tssc.absDec Tssc.newDecoder; decide) hb
      exact ⟨d', h1, h2, h3, Or.inl rfl⟩
    · obtain ⟨hk, d, d1, rfl, d3⟩ := hf.run _ _ _ hr
      rw [if_neg (blockNumber_pos hk)]
      have hd : decoderFor (s.half (flags.getLsbD 4)) = (d, BitVec.ofNat 16 (blockNumber k)) := by
        unfold decoderFor; rw [d1]; rfl
      rw [hd]
      obtain ⟨d', h1, h2, h3⟩ := Tssc.sendBlock_sim d b data p d3 hb
      exact ⟨d', h1, h2, h3, Or.inr rfl⟩
  obtain ⟨d', e1, e2, e3, e4⟩ := hdec
  have hready : Ready rs (flags.getLsbD 4) ({ s with keyIVs := none } : St) := ⟨hf.validated, rfl, by rw [hhalf]; exact k1⟩
  obtain ⟨s1, r1, r2, r3, es, r4, r5, r6⟩ := accept_step cfg env rs (flags.getLsbD 4) { s with keyIVs := none } cc n flags h3 rfl (blockNumber k)
    (blockNumber_lt k) data (b.items.map Prod.fst) d' (by simpa using hl) hready (by rw [hhalf]; exact e4) (by rw [hhalf]; exact e1)
  rw [List.length_map] at r1
  obtain ⟨o2, o0, o1⟩ := receive_data_keeps (s := { s with keyIVs := none }) hf.validated r1
  rw [r1]
  have hh' : ∀ i, ({ s1 with
      keyIVs := s.keyIVs
      totalCommandChannelBytesReceived := (s.seen (flags :: enc)).totalCommandChannelBytesReceived } : St).half i = s1.half i := by
    intro i; cases i <;> rfl
  rw [hhalf] at o2
  have hother : ∀ i, i ≠ flags.getLsbD 4 → s1.half i = s.half i := by
    intro i hi
    have : i = !flags.getLsbD 4 := by
      cases i <;> cases h : flags.getLsbD 4 <;> simp_all
    rw [this]; exact o2
  refine ⟨_, rfl, ⟨r2.validated, hf.keys, ?_, ?_, ?_⟩, es, r4, ?_, terminate_quiet r5⟩
  · intro i rs' h
    rw [hh']
    by_cases hi : i = flags.getLsbD 4
    · subst hi
      rw [r3]
      have : rs = rs' := by
        have h' : t.cache (flags.getLsbD 4) = some rs' := h
        rw [hc] at h'
        exact Option.some.inj h'
      subst this
      exact ⟨rfl, k2⟩
    · rw [hother i hi]; exact hf.cache i rs' h
  · intro i k' p' h
    rw [hh']
    by_cases hi : i = flags.getLsbD 4
    · subst hi
      have h' : update t.run (flags.getLsbD 4) (some (k + 1, p)) (flags.getLsbD 4) = some (k', p') := h
      rw [Function.update_self] at h'
      injection h' with h'
      injection h' with h1 h2
      subst h1 h2
      rw [r3]
      exact ⟨by omega, d', by rw [nextSequence_blockNumber], e2, e3⟩
    · have h' : update t.run (flags.getLsbD 4) (some (k + 1, p)) i = some (k', p') := h
      rw [Function.update_of_ne hi] at h'
      rw [hother i hi]
      exact hf.run i k' p' h'
  · intro o h
    exact ⟨o0.trans (hf.times o h).1, o1.trans (hf.times o h).2⟩
  · rw [r6, List.map_map]; rfl

theorem follows_frame {t : Told} {s s' : St} (hf : Follows t s) (hv : s'.validated = true) (hk : s'.keyIVs = s.keyIVs)
    (hh : ∀ i, s'.half i = s.half i) (h0 : s'.baseTimeOffset0 = s.baseTimeOffset0) (h1 : s'.baseTimeOffset1 = s.baseTimeOffset1) : Follows t s' :=
  ⟨hv, hk.trans hf.keys, fun i rs h => by rw [hh]; exact hf.cache i rs h, fun i k p h => by rw [hh]; exact hf.run i k p h,
    fun o h => ⟨h0.trans (hf.times o h).1, h1.trans (hf.times o h).2⟩⟩

end Verif.Session
