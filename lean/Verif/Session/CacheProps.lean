import Verif.Session.TimeProps

/-!
# Double-buffered signal index caches (C28)
-/

namespace Verif.Session

open Verif.Guid (Guid)

/-! ## Specification -/

/-- The packet is a cache update that names half `j`: after version 1 by the first payload byte, else always half 0. -/
def NamesHalf (version : Byte) (body : List Byte) (j : Bool) : Prop :=
  body[0]? = some 0x83 ∧
    if 1 < version.toNat then ∃ b, body[6]? = some b ∧ decide (b ≠ 0) = j else j = false

/-- The bytes of a cache as they travel, with or without compression. -/
def CacheBytes (cfg : Cfg) (sub : Guid) (rs : List Sic.Rec) (bytes : List Byte) : Prop :=
  ∃ size rest, size = (Sic.wireCache cfg.swapGuidEndianness size sub rs).length ∧
    (Sic.wireCache cfg.swapGuidEndianness size sub rs ++ rest).length < 2 ^ 32 ∧
    if cfg.compressSignalIndexCache then
      cfg.gunzip bytes = some (Sic.wireCache cfg.swapGuidEndianness size sub rs ++ rest)
    else bytes = Sic.wireCache cfg.swapGuidEndianness size sub rs ++ rest

/-- A measurement with its full time. -/
structure FullEntry where
  flags : Byte
  index : BitVec 32
  value : BitVec 32
  time : BitVec 64

/-- Its bytes. -/
def FullEntry.bytes (e : FullEntry) : List Byte :=
  [e.flags] ++ beBytes 4 e.index.toNat ++ beBytes 4 e.value.toNat ++ beBytes 8 e.time.toNat

/-- What it stands for with the cache made of `rs`. -/
def FullEntry.meaning (rs : List Sic.Rec) (e : FullEntry) : Measurement :=
  ⟨sigOf rs e.index, e.value, e.time, Compact.mapToFullFlags e.flags⟩

/-! ## Lemmas -/

theorem full_decode (rs : List Sic.Rec) (o0 o1 : BitVec 64) (ms : Bool) (e : FullEntry) (h6 : e.flags.getLsbD 6 = false)
    (rest : List Byte) :
    ∃ cm, ofCompact cm = e.meaning rs ∧
      Compact.decode ⟨Sic.build rs, o0, o1, true, ms⟩ Compact.CM.new (e.bytes ++ rest) = .ok (e.bytes.length, cm) := by
  have hb : e.bytes ++ rest = [e.flags] ++ beBytes 4 e.index.toNat ++ beBytes 4 e.value.toNat ++
      (beBytes 8 e.time.toNat ++ rest) := by
    unfold FullEntry.bytes; simp
  have hlen : e.bytes.length = 9 + 8 := by simp [FullEntry.bytes]
  rw [hb, hlen, Compact.decode_fixed _ _ _ _ _ _ _ (signalID_build rs e.index)]
  have hset : Compact.setCompactStateFlags Compact.CM.new e.flags =
      ⟨Guid.empty, 0, 0, Compact.mapToFullFlags e.flags, e.flags.getLsbD 7, false⟩ := by
    unfold Compact.setCompactStateFlags
    rw [Compact.bit6, Compact.bit7, h6]
    rfl
  rw [hset]
  unfold Compact.decodeTime
  simp only [Bool.not_true, Bool.false_eq_true, if_false]
  rw [readBE_beBytes _ _ _ (by have := e.time.isLt; omega), Res.bind_ok]
  refine ⟨_, ?_, rfl⟩
  unfold ofCompact FullEntry.meaning
  simp

theorem bpos (b : Byte) : decide (b > 0) = decide (b ≠ 0) := by
  revert b; decide +kernel

theorem receive_half {cfg : Cfg} {env : Env} {body : List Byte} {s s' : St} (h : receive cfg env body s = .ok s')
    (j : Bool) (hb : ¬ NamesHalf cfg.version body j) : (s'.half j).cache = (s.half j).cache := by
  rcases receive_cases h with ⟨-, -, -, h1⟩ | ⟨rc, cc, rest, hbody, hlen, ⟨-, h1⟩ | ⟨-, h1⟩⟩
  · rw [h1, half_fail]; cases j <;> rfl
  · rw [h1, half_fail]; cases j <;> rfl
  · have h0 : ∀ j, ({ s.counted (4 + BitVec.ofNat 64 body.length) with validated := true } : St).half j = s.half j := by
      intro j; cases j <;> rfl
    cases h1 with
    | data _ h =>
      rcases handleDataPacket_cases h with h | ⟨flags, rest, payload, count, ms, s1, -, -, -, -, -, ho, h⟩
      · rw [h, half_fail, h0]
      · rw [h, half_total, half_emit]
        by_cases hj : j = decide (flags &&& flagCacheIndex > 0)
        · rw [hj, ho.cache, h0]
        · have : j = !decide (flags &&& flagCacheIndex > 0) := by
            cases j <;> cases hd : decide (flags &&& flagCacheIndex > 0) <;> simp_all
          rw [this, ho.otherHalf, h0]
    | cache hr h =>
      rcases handleUpdateSignalIndexCache_cases h with ⟨g, h⟩ | ⟨i, payload, plain, sub, cache, s1, hi, -, -, h1, h⟩
      · rw [h, half_emit]; cases j <;> rfl
      · have hij : i ≠ j := by
          intro hij
          apply hb
          refine ⟨by rw [hbody, hr]; rfl, ?_⟩
          by_cases hv : cfg.version > 1
          · rw [if_pos hv] at hi
            rw [if_pos (show 1 < cfg.version.toNat from hv)]
            obtain ⟨b, hb1, hb2⟩ := hi
            refine ⟨b, ?_, by rw [← hij, hb2, bpos]⟩
            have : (body.drop 6)[0]? = some b := by rw [hb1]; rfl
            simpa using this
          · rw [if_neg hv] at hi
            rw [if_neg (show ¬ 1 < cfg.version.toNat from hv), ← hij]
            exact hi.2
        rw [h, half_emit]
        by_cases hv : cfg.version > 1
        · rw [if_pos hv] at h1
          have hf := sendCommand_frame h1
          rw [hf.half]
          cases i <;> cases j <;> first | exact absurd rfl hij | rfl
        · rw [if_neg hv] at h1
          rw [h1]
          cases i <;> cases j <;> first | exact absurd rfl hij | rfl
    | times _ h =>
      obtain ⟨-, h⟩ := handleUpdateBaseTimes_cases h
      rw [h, half_emit]; cases j <;> rfl
    | block _ h =>
      obtain ⟨-, h⟩ := handleBufferBlock_cases h
      dsimp only at h
      rcases h with ⟨_, _, _, h⟩ | ⟨-, s1, _, _, _, _, h1, -, -, -, ⟨-, h⟩ | ⟨-, h⟩⟩
      · rw [h]; cases j <;> rfl
      · have hf := (sendCommand_frame h1).half j
        rw [h, half_emit]
        refine Eq.trans (congrArg Half.cache (?_ : _ = s1.half j)) (by rw [hf, h0])
        cases j <;> rfl
      · have hf := (sendCommand_frame h1).half j
        rw [h]
        refine Eq.trans (congrArg Half.cache (?_ : _ = s1.half j)) (by rw [hf, h0])
        cases j <;> rfl
    | notify _ h => rw [(handleNotification_frame h).half, h0]
    | other _ _ _ _ _ hf _ => rw [hf.half, h0]

theorem receiveAll_half {cfg : Cfg} {ps : List (Env × List Byte)} {s s' : St} (h : receiveAll cfg ps s = .ok s')
    (j : Bool) (hb : ∀ p ∈ ps, ¬ NamesHalf cfg.version p.2 j) : (s'.half j).cache = (s.half j).cache := by
  induction ps generalizing s with
  | nil => rw [receiveAll] at h; injection h with h; subst h; rfl
  | cons p ps ih =>
    obtain ⟨env, body⟩ := p
    rw [receiveAll, Res.bind_eq_ok] at h
    obtain ⟨s1, h1, h2⟩ := h
    rw [ih h2 (fun p hp => hb p (by simp [hp])), receive_half h1 j (hb (env, body) (by simp))]

theorem receiveAll_validated {cfg : Cfg} {ps : List (Env × List Byte)} {s s' : St} (h : receiveAll cfg ps s = .ok s')
    (hv : s.validated = true) : s'.validated = true := by
  induction ps generalizing s with
  | nil => rw [receiveAll] at h; injection h with h; subst h; exact hv
  | cons p ps ih =>
    obtain ⟨env, body⟩ := p
    rw [receiveAll, Res.bind_eq_ok] at h
    obtain ⟨s1, h1, h2⟩ := h
    exact ih h2 (receive_validated hv h1)

theorem cacheBytes_decode {cfg : Cfg} {sub : Guid} {rs : List Sic.Rec} {bytes : List Byte}
    (h : CacheBytes cfg sub rs bytes) :
    ∃ plain, (if cfg.compressSignalIndexCache then cfg.gunzip bytes else some bytes) = some plain ∧
      Sic.decode cfg.swapGuidEndianness plain = .ok (sub, Sic.build rs) := by
  obtain ⟨size, rest, h1, h2, h3⟩ := h
  have hd := Sic.decode_wire cfg.swapGuidEndianness size sub rs rest h2 (by rw [List.length_append]; omega)
  by_cases hc : cfg.compressSignalIndexCache = true
  · rw [if_pos hc] at h3 ⊢
    exact ⟨_, h3, hd⟩
  · rw [if_neg hc] at h3 ⊢
    exact ⟨_, rfl, by rw [h3]; exact hd⟩

theorem set_length {K V : Type} [DecidableEq K] (m : GoMap K V) (k : K) (v : V) :
    0 < (GoMap.set m k v).length ∧ (GoMap.set m k v).length ≤ m.length + 1 := by
  unfold GoMap.set
  split
  · rename_i h
    cases m with
    | nil => simp at h
    | cons p m => simp
  · simp

theorem build_count (rs : List Sic.Rec) :
    (Sic.build rs).signalIDCache.length ≤ rs.length ∧ (rs ≠ [] → 0 < (Sic.build rs).signalIDCache.length) := by
  induction rs using List.reverseRecOn with
  | nil => exact ⟨Nat.le_refl _, fun h => absurd rfl h⟩
  | append_singleton rs r ih =>
    rw [Sic.build_append]
    have h := set_length (Sic.build rs).signalIDCache r.signalID r.index
    have e : (Sic.addRecord (Sic.build rs) r.index r.signalID r.source r.id 1).signalIDCache =
        (Sic.build rs).signalIDCache.set r.signalID r.index := rfl
    rw [e]
    constructor
    · rw [List.length_append, List.length_singleton]; omega
    · intro _; exact h.1

theorem cacheBytes_count {cfg : Cfg} {sub : Guid} {rs : List Sic.Rec} {bytes : List Byte}
    (h : CacheBytes cfg sub rs bytes) (hrs : rs ≠ []) : Sic.count (Sic.build rs) ≠ 0 := by
  obtain ⟨size, rest, h1, h2, -⟩ := h
  have hcount : rs.length ≤ (rs.flatMap (Sic.wireRecord cfg.swapGuidEndianness)).length := by
    clear h1 h2 hrs
    induction rs with
    | nil => simp
    | cons r rs ih =>
      simp only [List.flatMap_cons, List.length_append, List.length_cons, Sic.wireRecord, beBytes_length]
      omega
  have h3 : rs.length < 2 ^ 32 := by
    simp only [Sic.wireCache, List.length_append] at h2
    omega
  obtain ⟨c1, c2⟩ := build_count rs
  have c2 := c2 hrs
  intro h0
  have := congrArg BitVec.toNat h0
  unfold Sic.count at this
  rw [BitVec.toNat_ofNat, Nat.mod_eq_of_lt (show (Sic.build rs).signalIDCache.length < 2 ^ 32 by omega)] at this
  simp at this
  rw [this] at c2
  simp at c2

/-! ## Theorems -/

/-- C28, updates after version 1: an update naming half `j` (first payload byte 0 or not) makes exactly that half the cache
sent, with no decoder, leaves the other half alone with its decoder, makes `j` active, tells the application, and, when
connected, confirms with command 10 without payload (a failed write ends the connection). -/
theorem C28_update (cfg : Cfg) (hver : 1 < cfg.version.toNat) (env : Env) (s : St) (hv : s.validated = true)
    (cc : Byte) (n : Nat) (b : Byte) (sub : Guid) (rs : List Sic.Rec) (bytes : List Byte)
    (hbytes : CacheBytes cfg sub rs bytes) :
    ∃ s', receive cfg env (packet 0x83 cc n (b :: bytes)) s = .ok s' ∧
      s'.half (decide (b ≠ 0)) = ⟨Sic.build rs, none⟩ ∧ s'.half (!decide (b ≠ 0)) = s.half (!decide (b ≠ 0)) ∧
      s'.cacheIndex = decide (b ≠ 0) ∧ s'.subscriberID = sub ∧
      s'.log = s.log ++ (if s.connected then
          (if env.writeOk then [.sent [0, 0, 0, 1, 0x0A]] else [.error, .terminate]) else []) ++
        [.subscriptionUpdated (Sic.build rs)] := by
  rw [receive_cache _ _ _ _ _ _ hv]
  obtain ⟨plain, h1, h2⟩ := cacheBytes_decode hbytes
  unfold handleUpdateSignalIndexCache
  have hver' : cfg.version > 1 := hver
  simp only [if_pos hver', Res.bind_ok, h1, h2]
  rw [← bpos]
  generalize decide (b > 0) = j
  unfold sendCommand
  have hmax : ¬ 5 + ([] : List Byte).length > maxPacketSize := by decide
  have hcon : ∀ (t : St) (h : Half), ({ (t.setHalf j h) with cacheIndex := j } : St).connected = t.connected := by
    intro t h; cases j <;> rfl
  by_cases hc : s.connected = true
  · rw [hcon]
    have hc' : ({ s.seen (b :: bytes) with subscriberID := sub } : St).connected = true := hc
    rw [hc', if_neg (by simp), if_neg hmax, hc, if_pos rfl]
    by_cases hw : env.writeOk = true
    · rw [if_pos hw, if_pos hw, Res.bind_ok]
      refine ⟨_, rfl, ?_⟩
      cases j <;> exact ⟨rfl, rfl, rfl, rfl, rfl⟩
    · rw [if_neg hw, if_neg hw, Res.bind_ok]
      refine ⟨_, rfl, ?_⟩
      cases j <;> exact ⟨rfl, rfl, rfl, rfl, by simp [St.emit, St.fail, St.setHalf, St.seen, St.counted]⟩
  · rw [hcon]
    have hc1 : s.connected = false := by simpa using hc
    have hc' : ({ s.seen (b :: bytes) with subscriberID := sub } : St).connected = false := hc1
    rw [hc', if_pos (by rfl), if_neg hc, Res.bind_ok]
    refine ⟨_, rfl, ?_⟩
    cases j <;> exact ⟨rfl, rfl, rfl, rfl, by simp [St.emit, St.setHalf, St.seen, St.counted]⟩

/-- C28, histories: after an update naming half `j`, any packets at all of which none is another update naming `j` (updates of
the other half included) leave that cache in place, and a data packet naming `j` is decoded with exactly that cache. -/
theorem C28_data_uses_named_half (cfg : Cfg) (hver : 1 < cfg.version.toNat) (ht : cfg.includeTime = true)
    (env0 env : Env) (s s2 : St) (hv : s.validated = true)
    (cc0 cc : Byte) (n0 n : Nat) (b : Byte) (sub : Guid) (rs : List Sic.Rec) (hrs : rs ≠ []) (bytes : List Byte)
    (hbytes : CacheBytes cfg sub rs bytes) (ps : List (Env × List Byte))
    (hps : ∀ p ∈ ps, ¬ NamesHalf cfg.version p.2 (decide (b ≠ 0)))
    (hrec : receiveAll cfg ((env0, packet 0x83 cc0 n0 (b :: bytes)) :: ps) s = .ok s2) (hk : s2.keyIVs = none)
    (flags : Byte) (f1 : flags.getLsbD 1 = true) (f3 : flags.getLsbD 3 = false)
    (f4 : flags.getLsbD 4 = decide (b ≠ 0))
    (es : List FullEntry) (hl : es.length < 2 ^ 32) (h6 : ∀ e ∈ es, e.flags.getLsbD 6 = false) (tail : List Byte) :
    (s2.half (decide (b ≠ 0))).cache = Sic.build rs ∧
    ∃ s3, receive cfg env (packet 0x82 cc n (dataPayload flags es.length
        ((es.map FullEntry.bytes).flatten ++ tail))) s2 = .ok s3 ∧
      s3.log = s2.log ++ [.newMeasurements (es.map (FullEntry.meaning rs))] := by
  rw [receiveAll, Res.bind_eq_ok] at hrec
  obtain ⟨s1, g1, g2⟩ := hrec
  obtain ⟨s1', t1, t2, -⟩ := C28_update cfg hver env0 s hv cc0 n0 b sub rs bytes hbytes
  rw [t1] at g1
  injection g1 with g1
  subst g1
  have hcache : (s2.half (decide (b ≠ 0))).cache = Sic.build rs := by
    rw [receiveAll_half g2 _ hps, t2]
  have hv2 : s2.validated = true := receiveAll_validated g2 (receive_validated hv t1)
  refine ⟨hcache, ?_⟩
  generalize hj : decide (b ≠ 0) = j at *
  have hne : Sic.count (s2.half j).cache ≠ 0 := by
    rw [hcache]
    exact cacheBytes_count hbytes hrs
  have hcfg : compactConfig cfg j s2 =
      ⟨Sic.build rs, s2.baseTimeOffset0, s2.baseTimeOffset1, true, cfg.useMillisecondResolution⟩ := by
    unfold compactConfig; rw [hcache, ht]
  have hws : ∀ es : List FullEntry, (∀ e ∈ es, e.flags.getLsbD 6 = false) →
      ∃ ws : List (List Byte × Compact.CM), ws.length = es.length ∧
        ws.map Prod.fst = es.map FullEntry.bytes ∧
        ws.map (fun w => ofCompact w.2) = es.map (FullEntry.meaning rs) ∧
        ∀ w ∈ ws, ∀ rest, Compact.decode (compactConfig cfg j s2) Compact.CM.new (w.1 ++ rest) =
          .ok (w.1.length, w.2) := by
    intro es
    induction es with
    | nil => intro _; exact ⟨[], rfl, rfl, rfl, by simp⟩
    | cons e es ih =>
      intro a1
      obtain ⟨ws, b1, b2, b3, b4⟩ := ih (fun x hx => a1 x (by simp [hx]))
      obtain ⟨cm, c1, c2⟩ := full_decode rs s2.baseTimeOffset0 s2.baseTimeOffset1 cfg.useMillisecondResolution e
        (a1 e (by simp)) []
      rw [List.append_nil, ← hcfg] at c2
      refine ⟨(e.bytes, cm) :: ws, by simp [b1], by simp [b2], by simp [b3, c1], ?_⟩
      intro w hw
      rcases List.mem_cons.mp hw with rfl | hw
      · exact fun rest => decode_append rest c2
      · exact b4 w hw
  obtain ⟨ws, b1, b2, b3, b4⟩ := hws es h6
  obtain ⟨s3, r1, r2, -⟩ := compact_packet cfg env j s2 cc n flags f1 f3 f4 ws tail (by omega) hv2 hk hne b4
  rw [b2, b1] at r1
  exact ⟨s3, r1, by rw [r2, b3]⟩

/-- C28, version 1: every update replaces half 0, nothing is confirmed, and no packet whatever changes half 1. -/
theorem C28_version1_partial (cfg : Cfg) (hver : cfg.version.toNat ≤ 1) (env : Env) (s : St) (hv : s.validated = true)
    (cc : Byte) (n : Nat) (sub : Guid) (rs : List Sic.Rec) (bytes : List Byte) (hbytes : CacheBytes cfg sub rs bytes) :
    (∃ s', receive cfg env (packet 0x83 cc n bytes) s = .ok s' ∧ s'.half0 = ⟨Sic.build rs, none⟩ ∧ s'.half1 = s.half1 ∧
      s'.cacheIndex = false ∧ s'.log = s.log ++ [.subscriptionUpdated (Sic.build rs)]) ∧
    ∀ ps s', receiveAll cfg ps s = .ok s' → s'.half1.cache = s.half1.cache := by
  refine ⟨?_, ?_⟩
  · rw [receive_cache _ _ _ _ _ _ hv]
    obtain ⟨plain, h1, h2⟩ := cacheBytes_decode hbytes
    unfold handleUpdateSignalIndexCache
    have hver' : ¬ cfg.version > 1 := by
      intro hx
      have : 1 < cfg.version.toNat := hx
      omega
    simp only [if_neg hver', Res.bind_ok, h1, h2]
    exact ⟨_, rfl, rfl, rfl, rfl, rfl⟩
  · intro ps s' h
    exact receiveAll_half (j := true) h (fun p _ hn => by
      have := hn.2
      rw [if_neg (by omega)] at this
      cases this)

/-- "For version 1 there is a single cache" fails: after any update in version 1 by a subscriber that never had version 2,
a data packet with the cache-index bit set is looked up in the other, empty cache, and none of its measurements is decoded. -/
theorem C28_version1_index_false (cfg : Cfg) (hver : cfg.version.toNat ≤ 1) (env0 env : Env)
    (cc0 cc : Byte) (n0 n : Nat) (sub : Guid) (rs : List Sic.Rec) (bytes : List Byte)
    (hbytes : CacheBytes cfg sub rs bytes) (count : Nat) (hl : count < 2 ^ 32) (data : List Byte) :
    ∃ s1 s2, receive cfg env0 (packet 0x83 cc0 n0 bytes) (establish (setupConnection St.new)) = .ok s1 ∧
      s1.half0.cache = Sic.build rs ∧
      receive cfg env (packet 0x82 cc n (dataPayload 0x12 count data)) s1 = .ok s2 ∧
      s2.log = s1.log ++ [.newMeasurements (leftOver env count)] := by
  obtain ⟨⟨s1, h1, h2, h3, -⟩, -⟩ := C28_version1_partial cfg hver env0 (establish (setupConnection St.new)) rfl cc0 n0 sub rs bytes hbytes
  have hv1 := receive_validated (s := establish (setupConnection St.new)) rfl h1
  have hk1 : s1.keyIVs = none := by
    rw [receive_cache _ _ _ _ _ _ rfl] at h1
    rcases handleUpdateSignalIndexCache_cases h1 with ⟨g, h⟩ | ⟨i, payload, plain, sub, cache, s1', -, -, -, h5, h⟩
    · rw [h]; rfl
    · rw [if_neg (by intro hx; have : 1 < cfg.version.toNat := hx; omega)] at h5
      rw [h, h5]; cases i <;> rfl
  obtain ⟨s2, h4, h5⟩ := C24_missing_cache_false cfg env true s1 cc n 0x12 (by decide) (by decide) (by decide) count data hl
    hv1 hk1 (by
      have : s1.half true = s1.half1 := rfl
      rw [this, h3]; decide)
  exact ⟨s1, s2, h1, by rw [h2], h4, h5⟩

/-! ## Cases meeting the hypotheses -/

/-- The example cache as bytes. -/
theorem exCacheBytes (cfg : Cfg) (hs : cfg.swapGuidEndianness = false) (hc : cfg.compressSignalIndexCache = false) :
    CacheBytes cfg Sic.gB Sic.exRecs (Sic.wireCache false 91 Sic.gB Sic.exRecs) := by
  refine ⟨91, [], ?_, ?_, ?_⟩
  · rw [hs]; decide
  · rw [hs, List.append_nil]; decide
  · rw [hc, hs]; simp

/-- A case meeting the hypotheses of `C28_update` and `C28_data_uses_named_half`: an update of half 1, then one of half 0 with
one record less. -/
example : ∃ ps s2, ps.length = 1 ∧ 1 < exCfg.version.toNat ∧ exSt.validated = true ∧
    CacheBytes exCfg Sic.gB Sic.exRecs (Sic.wireCache false 91 Sic.gB Sic.exRecs) ∧
    (∀ p ∈ ps, ¬ NamesHalf exCfg.version p.2 (decide ((1 : Byte) ≠ 0))) ∧
    receiveAll exCfg ((⟨true, none⟩, packet 0x83 2 0 (1 :: Sic.wireCache false 91 Sic.gB Sic.exRecs)) :: ps) exSt = .ok s2 ∧
    s2.keyIVs = none ∧ (0x12 : Byte).getLsbD 1 = true ∧ (0x12 : Byte).getLsbD 3 = false ∧
    (0x12 : Byte).getLsbD 4 = decide ((1 : Byte) ≠ 0) := by
  refine ⟨[(⟨true, none⟩, packet 0x83 2 0 (0 :: Sic.wireCache false 59 Sic.gB [⟨7, Sic.gA, [80, 77, 85], 12⟩]))], _, rfl,
    by decide, rfl, exCacheBytes _ rfl rfl, ?_, rfl, rfl, by decide, by decide, by decide⟩
  intro p hp
  rw [List.mem_singleton.mp hp]
  rintro ⟨-, h⟩
  rw [if_pos (by decide)] at h
  obtain ⟨b, h1, h2⟩ := h
  have : b = 0 := by
    simp [packet, beBytes] at h1
    exact h1.symm
  subst this
  exact absurd h2 (by decide)

/-- A case meeting the hypotheses of the version-1 theorems. -/
example : ({ exCfg with version := 1 } : Cfg).version.toNat ≤ 1 ∧
    CacheBytes { exCfg with version := 1 } Sic.gB Sic.exRecs (Sic.wireCache false 91 Sic.gB Sic.exRecs) :=
  ⟨by decide, exCacheBytes _ rfl rfl⟩

end Verif.Session
