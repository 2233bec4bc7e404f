import Verif.Session.DataChannel
import Verif.Session.PublishProps

/-!
# The UDP data channel (C107)
-/

namespace Verif.Session

open Verif.Guid (Guid)

/-- The bytes. -/
def Arrival.body : Arrival → List Byte
  | .command _ body | .datagram _ body => body

/-- Confirmations can be written, and datagrams are not too long. -/
def Arrival.Ok : Arrival → Prop
  | .command env _ => env.writeOk = true
  | .datagram env body => env.writeOk = true ∧ body.length ≤ 32768

/-- The bytes that arrived in datagrams. -/
def datagramBytes : List Arrival → Nat
  | [] => 0
  | .command _ _ :: as => datagramBytes as
  | .datagram _ body :: as => body.length + datagramBytes as

/-! ## Lemmas -/

/-- The state before a packet was counted. -/
def St.uncounted (s : St) (body : List Byte) : St :=
  { s with totalCommandChannelBytesReceived := s.totalCommandChannelBytesReceived - BitVec.ofNat 64 body.length - 4 }

theorem half_uncounted (s : St) (body : List Byte) (i : Bool) : (s.uncounted body).half i = s.half i := by cases i <;> rfl

theorem receive_process (cfg : Cfg) (env : Env) (body : List Byte) (s : St) (hv : s.validated = true) :
    receive cfg env body (s.uncounted body) = processServerResponse cfg env body s := by
  unfold receive readPayloadHeader St.uncounted
  dsimp only
  rw [hv]
  simp only [Bool.not_true, Bool.false_eq_true, if_false]
  unfold readPacket
  dsimp only
  have : s.totalCommandChannelBytesReceived - BitVec.ofNat 64 body.length - 4 + 4 + BitVec.ofNat 64 body.length =
      s.totalCommandChannelBytesReceived := by
    rw [BitVec.sub_add_cancel, BitVec.sub_add_cancel]
  rw [this, ← hv]

theorem follows_datagram {cfg : Cfg} (hver : 1 < cfg.version.toNat) (env : Env) (hw : env.writeOk = true) {t t' : Told} {body : List Byte}
    {out : List (List Measurement)} (h : Sends cfg t body out t') (hl : body.length ≤ 32768) {c : Chan} (hf : Follows t c.st) :
    ∃ c', handleDatagram cfg env body c = .ok c' ∧ Follows t' c'.st ∧ Gives c.st c'.st out ∧
      c'.totalDataChannelBytesReceived = c.totalDataChannelBytesReceived + BitVec.ofNat 64 body.length := by
  obtain ⟨s', r1, r2, r3⟩ := follows_step hver env hw h (s := c.st.uncounted body)
    (follows_frame hf hf.validated rfl (fun i => by cases i <;> rfl) rfl rfl)
  rw [receive_process _ _ _ _ hf.validated] at r1
  unfold handleDatagram
  dsimp only
  rw [List.take_of_length_le (show body.length ≤ maxPacketSize from hl), r1, Res.bind_ok]
  exact ⟨_, rfl, r2, r3, rfl⟩

/-! ## Theorems -/

/-- C107: whatever part of what a publisher may send comes over the data channel and whatever comes over the command channel, if it arrives in an
order in which the publisher may have sent it, in datagrams of up to 32768 bytes, then nothing panics, the connection is not ended, the application
gets exactly the measurements of each data packet, in order, and the bytes of the datagrams are counted. -/
theorem C107_either_channel_partial (cfg : Cfg) (hver : 1 < cfg.version.toNat) (t t' : Told) (as : List Arrival) (outs : List (List Measurement))
    (h : SendsAll cfg t (as.map Arrival.body) outs t') (hok : ∀ a ∈ as, a.Ok) (c : Chan) (hf : Follows t c.st) :
    ∃ c' es, arriveAll cfg as c = .ok c' ∧ Follows t' c'.st ∧ c'.st.log = c.st.log ++ es ∧ delivered es = outs ∧ Event.terminate ∉ es ∧
      c'.totalDataChannelBytesReceived = c.totalDataChannelBytesReceived + BitVec.ofNat 64 (datagramBytes as) := by
  induction as generalizing t outs c with
  | nil => cases h; exact ⟨c, [], rfl, hf, by simp, rfl, by simp, by simp [datagramBytes]⟩
  | cons a as ih =>
    rw [List.map_cons] at h
    cases h with
    | @cons _ t1 _ _ _ out outs h1 hs =>
      have ha := hok a (by simp)
      have hstep : ∃ c1, arrive cfg a c = .ok c1 ∧ Follows t1 c1.st ∧ Gives c.st c1.st out ∧
          c1.totalDataChannelBytesReceived = c.totalDataChannelBytesReceived + BitVec.ofNat 64 (datagramBytes [a]) := by
        cases a with
        | command env body =>
          obtain ⟨s', r1, r2, r3⟩ := follows_step hver env ha h1 hf
          refine ⟨⟨s', c.totalDataChannelBytesReceived⟩, ?_, r2, r3, by simp [datagramBytes]⟩
          rw [arrive]
          have r1' : receive cfg env body c.st = .ok s' := r1
          rw [r1', Res.bind_ok]
        | datagram env body =>
          obtain ⟨c1, r1, r2, r3, r4⟩ := follows_datagram hver env ha.1 h1 ha.2 hf
          exact ⟨c1, r1, r2, r3, r4⟩
      obtain ⟨c1, r1, r2, r3, r4⟩ := hstep
      obtain ⟨c2, es, q1, q2, q3, q4, q5, q6⟩ := ih t1 outs hs (fun x hx => hok x (by simp [hx])) c1 r2
      obtain ⟨es', g1, g2, g3⟩ := r3.trans ⟨es, q3, q4, q5⟩
      refine ⟨c2, es', by rw [arriveAll, r1, Res.bind_ok, q1], q2, g1, g2, g3, ?_⟩
      rw [q6, r4, BitVec.add_assoc, ← BitVec.ofNat_add]
      congr 2
      cases a <;> simp [datagramBytes]

/-- C107, datagrams lost, repeated and out of order: of packets that leave what the publisher has told as it is (compact packets with known cache,
base times and keys), any that arrive, in any order and any number of times, hand the application exactly their own measurements. -/
theorem C107_compact_datagrams (cfg : Cfg) (hver : 1 < cfg.version.toNat) (t : Told) (sent : List (List Byte × List Measurement))
    (hsent : ∀ x ∈ sent, Sends cfg t x.1 [x.2] t ∧ x.1.length ≤ 32768) (arrivals : List (Env × Fin sent.length))
    (hw : ∀ a ∈ arrivals, a.1.writeOk = true) (c : Chan) (hf : Follows t c.st) :
    ∃ c' es, arriveAll cfg (arrivals.map fun a => .datagram a.1 (sent.get a.2).1) c = .ok c' ∧ c'.st.log = c.st.log ++ es ∧
      delivered es = (arrivals.map fun a => (sent.get a.2).2) ∧ Event.terminate ∉ es := by
  have hall : SendsAll cfg t ((arrivals.map fun a => Arrival.datagram a.1 (sent.get a.2).1).map Arrival.body)
      (arrivals.map fun a => (sent.get a.2).2) t := by
    clear hw
    induction arrivals with
    | nil => exact .nil t
    | cons a as ih => exact SendsAll.cons (out := [(sent.get a.2).2]) (hsent _ (List.get_mem _ _)).1 ih
  obtain ⟨c', es, r1, -, r3, r4, r5, -⟩ := C107_either_channel_partial cfg hver t t _ _ hall (by
    intro x hx
    obtain ⟨a, ha, rfl⟩ := List.mem_map.mp hx
    exact ⟨hw a ha, (hsent _ (List.get_mem _ _)).2⟩) c hf
  exact ⟨c', es, r1, r3, r4, r5⟩

/-- C107 fails for short datagrams: one of fewer than six bytes, from any sender, ends the program. -/
theorem C107_short_datagram_panics (cfg : Cfg) (env : Env) (c : Chan) (datagram : List Byte) (h : datagram.length < 6) :
    handleDatagram cfg env datagram c = .panic := by
  unfold handleDatagram
  dsimp only
  rw [List.take_of_length_le (by unfold maxPacketSize; omega)]
  have : processServerResponse cfg env datagram c.st = .panic := by
    rcases datagram with _ | ⟨rc, _ | ⟨cc, rest⟩⟩
    · rfl
    · rfl
    · rw [processServerResponse, if_pos (by unfold responseHeaderSize; exact h)]
  rw [this]
  rfl

theorem compactLoop_panic (c : Compact.Config) (ws : List (List Byte × Compact.CM)) (pre tail : List Byte) (old : List Measurement)
    (hw : ∀ w ∈ ws, ∀ rest, Compact.decode c Compact.CM.new (w.1 ++ rest) = .ok (w.1.length, w.2)) (hl : ws.length < old.length)
    (ht : Compact.decode c Compact.CM.new tail = .panic) :
    compactLoop c (pre ++ (ws.map Prod.fst).flatten ++ tail) pre.length old = .panic := by
  induction ws generalizing pre old with
  | nil =>
    cases old with
    | nil => simp at hl
    | cons o old =>
      rw [compactLoop]
      have h2 : (pre ++ ((([] : List (List Byte × Compact.CM))).map Prod.fst).flatten ++ tail).drop pre.length = tail := by simp
      rw [if_neg (by simp), h2, ht]
  | cons w ws ih =>
    obtain ⟨w, out⟩ := w
    cases old with
    | nil => simp at hl
    | cons o old =>
      rw [compactLoop]
      have h1 : ¬ pre.length > (pre ++ (((w, out) :: ws).map Prod.fst).flatten ++ tail).length := by
        simp
      have h2 : (pre ++ (((w, out) :: ws).map Prod.fst).flatten ++ tail).drop pre.length =
          w ++ ((ws.map Prod.fst).flatten ++ tail) := by
        simp
      rw [if_neg h1, h2, hw (w, out) (by simp)]
      dsimp only
      have h3 : pre ++ (((w, out) :: ws).map Prod.fst).flatten ++ tail =
          (pre ++ w) ++ (ws.map Prod.fst).flatten ++ tail := by simp
      have h4 : pre.length + w.length = (pre ++ w).length := by simp
      rw [h3, h4, ih (pre ++ w) old (fun x hx => hw x (by simp [hx])) (by simpa using hl)]
      rfl

theorem flatten_const_length (l : List (List Byte)) (k : Nat) (h : ∀ x ∈ l, x.length = k) : l.flatten.length = l.length * k := by
  induction l with
  | nil => simp
  | cons x l ih =>
    rw [List.flatten_cons, List.length_append, h x (by simp), ih (fun y hy => h y (by simp [hy])), List.length_cons, Nat.add_mul, Nat.one_mul]
    omega

theorem parseCompact_panic (cfg : Cfg) (ht : cfg.includeTime = true) (env : Env) (i : Bool) (s : St) (rs : List Sic.Rec)
    (hc : (s.half i).cache = Sic.build rs) (hne : Sic.count (Sic.build rs) ≠ 0) (es : List FullEntry) (e : FullEntry)
    (h6 : ∀ e ∈ es, e.flags.getLsbD 6 = false) (he : e.flags.getLsbD 6 = false) {count : Nat} (hl : es.length < count) :
    parseCompact cfg i ((es.map FullEntry.bytes).flatten ++ e.bytes.take 15) (sliceFor env count) s = .panic := by
  obtain ⟨ws, w1, w2, -, w4⟩ := entries_decode cfg rs none s.baseTimeOffset0 s.baseTimeOffset1 (by intro o h; cases h) (es.map Entry.full) (by
    intro x hx
    obtain ⟨e, he, rfl⟩ := List.mem_map.mp hx
    exact ⟨ht, h6 e he⟩)
  have w2' : ws.map Prod.fst = es.map FullEntry.bytes := by rw [w2, List.map_map]; rfl
  have htail : Compact.decode ⟨Sic.build rs, s.baseTimeOffset0, s.baseTimeOffset1, cfg.includeTime, cfg.useMillisecondResolution⟩
      Compact.CM.new (e.bytes.take 15) = .panic := by
    have hb : e.bytes.take 15 = e.flags :: (beBytes 4 e.index.toNat ++ beBytes 4 e.value.toNat ++ (beBytes 8 e.time.toNat)).take 14 := by
      unfold FullEntry.bytes
      simp only [List.append_assoc, List.singleton_append]
      rfl
    have hlen : ((beBytes 4 e.index.toNat ++ beBytes 4 e.value.toNat ++ (beBytes 8 e.time.toNat)).take 14).length = 14 := by simp
    rw [hb]
    generalize (beBytes 4 e.index.toNat ++ beBytes 4 e.value.toNat ++ (beBytes 8 e.time.toNat)).take 14 = rest at hlen
    refine ((Compact.C20_panic_exactly_partial _ rs rfl Compact.CM.new).2.1 e.flags rest (by rw [List.length_cons, hlen]; omega)).mpr ?_
    rw [List.length_cons, hlen]
    unfold Compact.needed
    dsimp only
    rw [ht, he]
    simp
  have := compactLoop_panic _ ws [] (e.bytes.take 15) (sliceFor env count) w4 (by rw [sliceFor_length, w1, List.length_map]; exact hl) htail
  rw [w2', List.nil_append] at this
  unfold parseCompact
  dsimp only
  rw [hc, if_neg hne]
  have h0 : ([] : List Byte).length = 0 := rfl
  rw [h0] at this
  rw [this]
  rfl

/-- C107 fails for long datagrams: UDP carries up to 65507 bytes, but a compact packet of more than 1926 measurements with full times is cut off
within a time and ends the program, whatever the measurements are. -/
theorem C107_long_datagram_panics (cfg : Cfg) (ht : cfg.includeTime = true) (env : Env) (c : Chan) (hv : c.st.validated = true)
    (hk : c.st.keyIVs = none) (cc : Byte) (n : Nat) (flags : Byte) (h1 : flags.getLsbD 1 = true) (h3 : flags.getLsbD 3 = false)
    (rs : List Sic.Rec) (hc : (c.st.half (flags.getLsbD 4)).cache = Sic.build rs) (hne : Sic.count (Sic.build rs) ≠ 0)
    (es : List FullEntry) (h6 : ∀ e ∈ es, e.flags.getLsbD 6 = false) (hl : 1926 < es.length) (hl2 : es.length < 2 ^ 32) (tail : List Byte) :
    handleDatagram cfg env (packet 0x82 cc n (dataPayload flags es.length ((es.map FullEntry.bytes).flatten ++ tail))) c = .panic := by
  obtain ⟨es1, e, es2, rfl, hlen⟩ : ∃ es1 e es2, es = es1 ++ e :: es2 ∧ es1.length = 1926 := by
    refine ⟨es.take 1926, es[1926], es.drop 1927, ?_, by simp; omega⟩
    rw [List.getElem_cons_drop, List.take_append_drop]
  have hb17 : ∀ e : FullEntry, e.bytes.length = 17 := by intro e; simp [FullEntry.bytes]
  have hfl : ((es1.map FullEntry.bytes).flatten).length = 32742 := by
    rw [flatten_const_length _ 17 (by intro x hx; obtain ⟨e, -, rfl⟩ := List.mem_map.mp hx; exact hb17 e), List.length_map, hlen]
  have htake : (packet 0x82 cc n (dataPayload flags (es1 ++ e :: es2).length (((es1 ++ e :: es2).map FullEntry.bytes).flatten ++ tail))).take
      maxPacketSize = packet 0x82 cc n (dataPayload flags (es1 ++ e :: es2).length ((es1.map FullEntry.bytes).flatten ++ e.bytes.take 15)) := by
    generalize (es1 ++ e :: es2).length = m
    have e1 : packet 0x82 cc n (dataPayload flags m (((es1 ++ e :: es2).map FullEntry.bytes).flatten ++ tail)) =
        ([0x82, cc] ++ beBytes 4 n ++ ([flags] ++ beBytes 4 m)) ++ ((es1.map FullEntry.bytes).flatten ++ (e.bytes ++
          ((es2.map FullEntry.bytes).flatten ++ tail))) := by
      unfold packet dataPayload; simp
    have e2 : packet 0x82 cc n (dataPayload flags m ((es1.map FullEntry.bytes).flatten ++ e.bytes.take 15)) =
        ([0x82, cc] ++ beBytes 4 n ++ ([flags] ++ beBytes 4 m)) ++ ((es1.map FullEntry.bytes).flatten ++ e.bytes.take 15) := by
      unfold packet dataPayload; simp
    rw [e1, e2]
    have l1 : ([0x82, cc] ++ beBytes 4 n ++ ([flags] ++ beBytes 4 m) : List Byte).length = 11 := by simp
    generalize ([0x82, cc] ++ beBytes 4 n ++ ([flags] ++ beBytes 4 m) : List Byte) = a at l1
    generalize (es1.map FullEntry.bytes).flatten = f at hfl
    rw [List.take_append, List.take_of_length_le (by rw [l1]; decide), l1]
    refine congrArg (a ++ ·) ?_
    rw [List.take_append, List.take_of_length_le (by rw [hfl]; decide), hfl]
    refine congrArg (f ++ ·) ?_
    have : maxPacketSize - 11 - 32742 = 15 := rfl
    rw [this, List.take_append_of_le_length (by rw [hb17]; omega)]
  unfold handleDatagram
  dsimp only
  rw [htake, ← receive_process _ _ _ _ hv, receive_data _ _ _ _ _ _ (by exact hv)]
  rw [handleData_payload _ _ _ _ _ _ (by exact hk) hl2 (Or.inr h1), if_neg (by rw [h3]; simp)]
  rw [parseCompact_panic cfg ht env _ _ rs _ hne es1 e _ _ (by rw [List.length_append, List.length_cons]; omega)]
  · rfl
  · rw [← hc]; cases flags.getLsbD 4 <;> rfl
  · intro x hx; exact h6 x (by simp [hx])
  · exact h6 e (by simp)

/-- C107 fails for TSSC: after `k` blocks of a run one is lost, and from then on none of the blocks that do arrive is decoded, up to 65534 of them;
for each the application is handed as many measurements that were never sent: what the pooled slice held before, or made-up ones. -/
theorem C107_lost_block_loses (cfg : Cfg) (t : Told) (c : Chan) (hf : Follows t c.st) (hk : t.keys = none) (cc : Byte) (n : Nat) (flags : Byte)
    (h3 : flags.getLsbD 3 = true) (rs : List Sic.Rec) (hc : t.cache (flags.getLsbD 4) = some rs) (k : Nat) (q : Tssc.Pub)
    (hr : t.run (flags.getLsbD 4) = some (k, q)) (blocks : List (Env × Nat × List Byte)) (hm : blocks.length ≤ 65534)
    (hb : ∀ b ∈ blocks, b.2.1 < 2 ^ 32 ∧ b.2.2.length ≤ 32754) :
    ∃ c', arriveAll cfg (blocks.mapIdx fun j b => .datagram b.1 (packet 0x82 cc n
        (dataPayload flags b.2.1 (tsscPayload (blockNumber (k + 1 + j)) b.2.2)))) c = .ok c' ∧
      c'.st.log = c.st.log ++ blocks.map fun b => .newMeasurements (leftOver b.1 b.2.1) := by
  obtain ⟨k1, -⟩ := hf.cache _ _ hc
  obtain ⟨hk0, d, d1, -, -⟩ := hf.run _ _ _ hr
  have hgen : ∀ (blocks : List (Env × Nat × List Byte)) (a : Nat), (∀ b ∈ blocks, b.2.1 < 2 ^ 32 ∧ b.2.2.length ≤ 32754) →
      a + blocks.length ≤ 65534 → ∀ c : Chan, Ready rs (flags.getLsbD 4) c.st →
      (c.st.half (flags.getLsbD 4)).decoder = some (d, BitVec.ofNat 16 (blockNumber k)) →
      ∃ c', arriveAll cfg (blocks.mapIdx fun j b => .datagram b.1 (packet 0x82 cc n
          (dataPayload flags b.2.1 (tsscPayload (blockNumber (k + 1 + (a + j))) b.2.2)))) c = .ok c' ∧
        c'.st.log = c.st.log ++ blocks.map fun b => .newMeasurements (leftOver b.1 b.2.1) := by
    intro blocks
    induction blocks with
    | nil => intro a _ _ c _ _; exact ⟨c, rfl, by simp⟩
    | cons b blocks ih =>
      intro a hb hm c hr hd
      rw [List.length_cons] at hm
      obtain ⟨hb1, hb2⟩ := hb b (by simp)
      have hne : blockNumber k ≠ blockNumber (k + 1 + a) := by
        unfold blockNumber
        rw [if_neg (by omega), if_neg (by omega)]
        omega
      have hdf : decoderFor (c.st.half (flags.getLsbD 4)) = (d, BitVec.ofNat 16 (blockNumber k)) := by
        unfold decoderFor; rw [hd]; rfl
      generalize hbody : packet 0x82 cc n (dataPayload flags b.2.1 (tsscPayload (blockNumber (k + 1 + a)) b.2.2)) = body
      obtain ⟨s1, g1, g2, g3, -, g5⟩ := stray_step cfg b.1 rs (flags.getLsbD 4) (c.st.uncounted body)
        cc n flags h3 rfl (blockNumber (k + 1 + a)) b.2.1 (blockNumber_lt _) hb1 b.2.2
        ⟨hr.validated, hr.plain, by rw [half_uncounted]; exact hr.cache⟩ (blockNumber_pos (by omega)) (by
          rw [half_uncounted, hdf]
          intro hx
          have := congrArg BitVec.toNat hx
          rw [BitVec.toNat_ofNat, BitVec.toNat_ofNat, Nat.mod_eq_of_lt (blockNumber_lt _), Nat.mod_eq_of_lt (blockNumber_lt _)] at this
          exact hne this)
      rw [hbody, receive_process _ _ _ _ hr.validated] at g1
      have hlen : body.length ≤ maxPacketSize := by
        rw [← hbody, packet_length]
        unfold dataPayload tsscPayload maxPacketSize
        simp only [List.length_append, List.length_cons, List.length_nil, beBytes_length]
        omega
      obtain ⟨c2, q1, q2⟩ := ih (a + 1) (fun x hx => hb x (by simp [hx])) (by omega)
        ⟨s1, c.totalDataChannelBytesReceived + BitVec.ofNat 64 body.length⟩ g2 (by
          show (s1.half _).decoder = _
          rw [g3, half_uncounted, hdf])
      refine ⟨c2, ?_, ?_⟩
      · rw [List.mapIdx_cons, arriveAll, arrive]
        unfold handleDatagram
        dsimp only
        rw [show a + 0 = a from rfl, hbody, List.take_of_length_le hlen, g1, Res.bind_ok, Res.bind_ok]
        have he : ∀ j, a + 1 + j = a + (j + 1) := by intro j; omega
        simp only [he] at q1
        exact q1
      · rw [q2]
        show s1.log ++ _ = _
        rw [g5, List.map_cons, List.append_assoc]
        rfl
  have := hgen blocks 0 hb (by omega) c ⟨hf.validated, hf.keys.trans hk, k1⟩ d1
  simpa only [Nat.zero_add] using this

/-! ## Cases meeting the hypotheses -/

/-- A subscriber that knows a cache. -/
theorem exFollows : Follows { Told.new with cache := fun i => if i then none else some Sic.exRecs } exSt := by
  refine ⟨rfl, rfl, ?_, ?_, ?_⟩
  · intro i rs h
    cases i
    · injection h with h
      subst h
      exact ⟨rfl, fun _ => by decide⟩
    · cases h
  · intro i k p h; cases h
  · intro o h; cases h

/-- A compact packet with one measurement. -/
def exPacket (e : FullEntry) : List Byte × List Measurement :=
  (packet 0x82 2 0 (0x02 :: (beBytes 4 1 ++ (([Entry.full e].map (Entry.bytes false)).flatten ++ []))), [e.meaning Sic.exRecs])

theorem exPacket_sends (e : FullEntry) (he : e.flags = 0) :
    Sends exCfg { Told.new with cache := fun i => if i then none else some Sic.exRecs } (exPacket e).1 [(exPacket e).2]
      { Told.new with cache := fun i => if i then none else some Sic.exRecs } ∧ (exPacket e).1.length ≤ 32768 := by
  refine ⟨Sends.compact _ 2 0 0x02 _ Sic.exRecs [.full e] [] (by decide) (by decide) rfl (by decide) (by simp) ?_ rfl, ?_⟩
  · intro x hx
    rw [List.mem_singleton.mp hx]
    exact ⟨rfl, by rw [he]; decide⟩
  · unfold exPacket
    rw [packet_length]
    simp [Entry.bytes, FullEntry.bytes]

/-- A case for `C107_compact_datagrams`: two packets, the second arriving twice and before the first. -/
example : ∃ (sent : List (List Byte × List Measurement)) (arrivals : List (Env × Fin sent.length)),
    (∀ x ∈ sent, Sends exCfg { Told.new with cache := fun i => if i then none else some Sic.exRecs } x.1 [x.2]
      { Told.new with cache := fun i => if i then none else some Sic.exRecs } ∧ x.1.length ≤ 32768) ∧
    sent.length = 2 ∧ arrivals.map (fun a => (a.2 : Nat)) = [1, 0, 1] ∧ (∀ a ∈ arrivals, a.1.writeOk = true) ∧
    sent.map (fun x => x.2.length) = [1, 1] := by
  refine ⟨[exPacket ⟨0, 7, 5, 9000⟩, exPacket ⟨0, 8, 6, 9001⟩], [(⟨true, none⟩, ⟨1, by decide⟩), (⟨true, none⟩, ⟨0, by decide⟩),
    (⟨true, none⟩, ⟨1, by decide⟩)], ?_, rfl, rfl, ?_, rfl⟩
  · intro x hx
    simp only [List.mem_cons, List.not_mem_nil, or_false] at hx
    rcases hx with rfl | rfl <;> exact exPacket_sends _ rfl
  · intro a ha
    simp only [List.mem_cons, List.not_mem_nil, or_false] at ha
    rcases ha with rfl | rfl | rfl <;> rfl

/-- A case for `C107_either_channel_partial`: base times on the command channel, a compact packet with a short time on the data channel. -/
example : ∃ (as : List Arrival) (outs : List (List Measurement)) (t' : Told),
    SendsAll exCfg { Told.new with cache := fun i => if i then none else some Sic.exRecs } (as.map Arrival.body) outs t' ∧
    (∀ a ∈ as, a.Ok) ∧ datagramBytes as = 24 ∧ outs.map List.length = [1] := by
  refine ⟨[.command ⟨true, none⟩ _, .datagram ⟨true, none⟩ _], _, _, SendsAll.cons (Sends.times _ 0 0 1 5000 6000 [] (by decide) (by decide) (by decide))
    (SendsAll.cons (Sends.compact _ 2 0 0x02 (beBytes 4 1 ++ (([Entry.short ⟨0x40, 8, 6, 12⟩].map (Entry.bytes false)).flatten ++ [])) Sic.exRecs
      [.short ⟨0x40, 8, 6, 12⟩] [] (by decide) (by decide) rfl (by decide) (by decide) ?_ rfl) (SendsAll.nil _)), ?_, rfl, rfl⟩
  · intro x hx
    rw [List.mem_singleton.mp hx]
    exact ⟨rfl, by decide, by simp, by decide⟩
  · intro a ha
    simp only [List.mem_cons, List.not_mem_nil, or_false] at ha
    rcases ha with rfl | rfl
    · rfl
    · exact ⟨rfl, by decide⟩

/-- A case for `C107_long_datagram_panics`: 2000 measurements, 34011 bytes. -/
example : exCfg.includeTime = true ∧ exSt.validated = true ∧ exSt.keyIVs = none ∧ (0x02 : Byte).getLsbD 1 = true ∧ (0x02 : Byte).getLsbD 3 = false ∧
    (exSt.half ((0x02 : Byte).getLsbD 4)).cache = Sic.build Sic.exRecs ∧ Sic.count (Sic.build Sic.exRecs) ≠ 0 ∧
    (∀ e ∈ List.replicate 2000 (⟨0, 7, 5, 9000⟩ : FullEntry), e.flags.getLsbD 6 = false) ∧
    1926 < (List.replicate 2000 (⟨0, 7, 5, 9000⟩ : FullEntry)).length :=
  ⟨rfl, rfl, rfl, by decide, by decide, rfl, by decide, by intro e he; rw [List.eq_of_mem_replicate he]; decide, by rw [List.length_replicate]; omega⟩

/-- A case for `C107_lost_block_loses`: a block was decoded, the next one is lost, two more arrive. -/
example : ∃ (t : Told) (c : Chan) (q : Tssc.Pub) (blocks : List (Env × Nat × List Byte)), Follows t c.st ∧ t.keys = none ∧
    t.cache ((0x08 : Byte).getLsbD 4) = some Sic.exRecs ∧ t.run ((0x08 : Byte).getLsbD 4) = some (1, q) ∧ blocks.length = 2 ∧
    blocks.length ≤ 65534 ∧ ∀ b ∈ blocks, b.2.1 < 2 ^ 32 ∧ b.2.2.length ≤ 32754 := by
  obtain ⟨s', -, h2, -⟩ := follows_tssc (cfg := exCfg) exFollows ⟨true, none⟩ 2 0 0x08 (beBytes 4 exBlock.items.length ++ tsscPayload 0 exData)
    Sic.exRecs exBlock exData 0 Tssc.Pub.new exPub1 (by decide) rfl (by decide +kernel) (Or.inl ⟨rfl, rfl⟩) exBlock_first rfl
  refine ⟨_, ⟨s', 0⟩, exPub1, [(⟨true, none⟩, 2, exData), (⟨true, none⟩, 2, exData)], h2, rfl, rfl, rfl, rfl, by decide, ?_⟩
  intro b hb
  simp only [List.mem_cons, List.not_mem_nil, or_false] at hb
  rcases hb with rfl | rfl <;> exact ⟨by decide, by decide⟩

end Verif.Session
