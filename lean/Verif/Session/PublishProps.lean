import Verif.Session.Publisher

/-!
# From publisher to application: theorem (C106)
-/

namespace Verif.Session

open Verif.Guid (Guid)
open Function (update)

theorem sendCommand_ok (env : Env) (hw : env.writeOk = true) (c : Byte) (p : List Byte) (hp : p.length ≤ 4) (s : St) :
    ∃ s' es, sendCommand env c p s = .ok s' ∧ Frame s s' ∧ s'.keyIVs = s.keyIVs ∧ s'.log = s.log ++ es ∧
      ∀ e ∈ es, ∃ b, e = Event.sent b := by
  have hmax : ¬ 5 + p.length > maxPacketSize := by unfold maxPacketSize; omega
  cases hc : s.connected
  · have h : sendCommand env c p s = .ok s := by unfold sendCommand; rw [hc]; rfl
    exact ⟨s, [], h, sendCommand_frame h, rfl, by simp, by simp⟩
  · have h : sendCommand env c p s = .ok (s.emit (.sent (beBytes 4 (p.length + 1) ++ [c] ++ p))) := by
      unfold sendCommand; rw [hc, if_neg (by simp), if_neg hmax, if_pos hw]
    exact ⟨_, [_], h, sendCommand_frame h, rfl, rfl, by simp⟩

theorem gives_sent {s s' : St} {es : List Event} (h : s'.log = s.log ++ es) (he : ∀ e ∈ es, ∃ b, e = Event.sent b) : Gives s s' [] := by
  refine ⟨es, h, delivered_nodata ?_, ?_⟩
  · intro e hm; obtain ⟨b, rfl⟩ := he e hm; rfl
  · intro hm; obtain ⟨b, h⟩ := he _ hm; cases h

theorem Gives.of_log {s s' : St} (es : List Event) (h : s'.log = s.log ++ es) (hd : delivered es = []) (ht : Event.terminate ∉ es) :
    Gives s s' [] := ⟨es, h, hd, ht⟩

theorem Gives.trans {a b c : St} {o1 o2 : List (List Measurement)} (h1 : Gives a b o1) (h2 : Gives b c o2) : Gives a c (o1 ++ o2) := by
  obtain ⟨e1, a1, a2, a3⟩ := h1
  obtain ⟨e2, b1, b2, b3⟩ := h2
  refine ⟨e1 ++ e2, by rw [b1, a1, List.append_assoc], by rw [delivered_append, a2, b2], ?_⟩
  simp [a3, b3]

theorem follows_cache {cfg : Cfg} (hver : 1 < cfg.version.toNat) {t : Told} {s : St} (hf : Follows t s) (env : Env) (hw : env.writeOk = true)
    (cc : Byte) (n : Nat) (b : Byte) (sub : Guid) (rs : List Sic.Rec) (bytes : List Byte) (h : CacheBytes cfg sub rs bytes) :
    ∃ s', receive cfg env (packet 0x83 cc n (b :: bytes)) s = .ok s' ∧
      Follows { t with cache := update t.cache (decide (b ≠ 0)) (some rs), run := update t.run (decide (b ≠ 0)) none } s' ∧ Gives s s' [] := by
  obtain ⟨s', h1, h2, h3, -, -, h4⟩ := C28_update cfg hver env s hf.validated cc n b sub rs bytes h
  obtain ⟨o0, o1⟩ := receive_offsets h1 (by
    show some (0x83 : Byte) ≠ some 0x84
    decide)
  have hk := (receive_side hf.validated h1).1 (by
    show some (0x83 : Byte) ≠ some rspUpdateCipherKeys
    decide)
  generalize decide (b ≠ 0) = j at h2 h3 ⊢
  have hj : ∀ i, i ≠ j → s'.half i = s.half i := by
    intro i hi
    have : i = !j := by cases i <;> cases j <;> simp_all
    rw [this, h3]
  refine ⟨s', h1, ⟨receive_validated hf.validated h1, hk.trans hf.keys, ?_, ?_, ?_⟩, ?_⟩
  · intro i rs' h'
    by_cases hi : i = j
    · subst hi
      have h'' : update t.cache i (some rs) i = some rs' := h'
      rw [Function.update_self] at h''
      injection h'' with h''
      subst h''
      rw [h2]
      exact ⟨rfl, fun hne => cacheBytes_count h hne⟩
    · have h'' : update t.cache j (some rs) i = some rs' := h'
      rw [Function.update_of_ne hi] at h''
      rw [hj i hi]
      exact hf.cache i rs' h''
  · intro i k p h'
    by_cases hi : i = j
    · subst hi
      have h'' : update t.run i none i = some (k, p) := h'
      rw [Function.update_self] at h''
      cases h''
    · have h'' : update t.run j none i = some (k, p) := h'
      rw [Function.update_of_ne hi] at h''
      rw [hj i hi]
      exact hf.run i k p h''
  · intro o h'
    exact ⟨o0.trans (hf.times o h').1, o1.trans (hf.times o h').2⟩
  · refine Gives.of_log _ (by rw [h4, List.append_assoc]) ?_ ?_
    · rw [if_pos hw]; cases s.connected <;> rfl
    · rw [if_pos hw]; cases s.connected <;> simp

theorem follows_times {cfg : Cfg} {t : Told} {s : St} (hf : Follows t s) (env : Env) (cc : Byte) (n index o0 o1 : Nat) (tail : List Byte)
    (hi : index < 2 ^ 32) (h0 : o0 < 2 ^ 64) (h1 : o1 < 2 ^ 64) :
    ∃ s', receive cfg env (packet 0x84 cc n (timesPayload index o0 o1 ++ tail)) s = .ok s' ∧
      Follows { t with times := some (BitVec.ofNat 64 o0, BitVec.ofNat 64 o1) } s' ∧ Gives s s' [] := by
  obtain ⟨s', r1, r2, r3, r4, r5⟩ := times_step cfg env cc n index o0 o1 hi h0 h1 tail s hf.validated
  have hk := (receive_side hf.validated r1).1 (by
    show some (0x84 : Byte) ≠ some rspUpdateCipherKeys
    decide)
  have hh : ∀ i, s'.half i = s.half i := by
    have r1' := r1
    rw [receive_times _ _ _ _ _ _ hf.validated] at r1'
    obtain ⟨-, h⟩ := handleUpdateBaseTimes_cases r1'
    intro i
    rw [h, half_emit]; cases i <;> rfl
  refine ⟨s', r1, ⟨r2, hk.trans hf.keys, ?_, ?_, ?_⟩, Gives.of_log _ r5 rfl (by simp)⟩
  · intro i rs h; rw [hh]; exact hf.cache i rs h
  · intro i k p h; rw [hh]; exact hf.run i k p h
  · intro o h
    injection h with h
    subst h
    exact ⟨r3, r4⟩

theorem handleUpdateCipherKeys_log {d : List Byte} {s s' : St} (h : handleUpdateCipherKeys d s = .ok s') : s'.log = s.log ++ [.status] := by
  unfold handleUpdateCipherKeys at h
  simp only [Res.bind_eq_ok] at h
  obtain ⟨a, -, b, -, c, -, d, -, h⟩ := h
  injection h with h
  subst h
  rfl

theorem follows_keys {cfg : Cfg} {t : Told} {s : St} (hf : Follows t s) (env : Env) (cc : Byte) (n : Nat) (index : Byte) (k : KeyIVs)
    (h : (keyMessage index k).length < 2 ^ 32) :
    ∃ s', receive cfg env (packet 0x85 cc n (keyMessage index k)) s = .ok s' ∧ Follows { t with keys := some k } s' ∧ Gives s s' [] := by
  obtain ⟨s', r1, r2⟩ := receive_keys cfg env cc n index k s hf.validated h
  have r3 : handleUpdateCipherKeys (keyMessage index k) (s.seen (keyMessage index k)) = .ok s' := by
    rw [← r1, receive_packet _ _ _ _ _ _ _ hf.validated]
    rfl
  have hfr := handleUpdateCipherKeys_frame r3
  have hh : ∀ i, s'.half i = s.half i := by
    intro i; rw [hfr.half]; cases i <;> rfl
  have hlog : s'.log = s.log ++ [.status] := handleUpdateCipherKeys_log (s := s.seen (keyMessage index k)) r3
  have hg : Gives s s' [] := ⟨[.status], hlog, rfl, by simp⟩
  have h0 : s'.baseTimeOffset0 = s.baseTimeOffset0 := hfr.offset0
  have h1 : s'.baseTimeOffset1 = s.baseTimeOffset1 := hfr.offset1
  have hv : s'.validated = true := hfr.validated.trans hf.validated
  clear r3 hfr
  refine ⟨s', r1, ?_, hg⟩
  constructor
  · exact hv
  · exact r2
  · intro i rs h; rw [hh]; exact hf.cache i rs h
  · intro i k p h; rw [hh]; exact hf.run i k p h
  · intro o h
    exact ⟨h0.trans (hf.times o h).1, h1.trans (hf.times o h).2⟩

theorem follows_block {cfg : Cfg} (hver : 1 < cfg.version.toNat) {t : Told} {s : St} (hf : Follows t s) (env : Env) (hw : env.writeOk = true)
    (cc : Byte) (n seq : Nat) (b : Byte) (rs : List Sic.Rec) (index : Nat) (content : List Byte) (hc : t.cache (decide (b ≠ 0)) = some rs) :
    ∃ s', receive cfg env (packet 0x88 cc n (beBytes 4 seq ++ b :: (beBytes 4 index ++ content))) s = .ok s' ∧ Follows t s' ∧ Gives s s' [] := by
  obtain ⟨k1, -⟩ := hf.cache _ _ hc
  generalize hd : beBytes 4 seq ++ b :: (beBytes 4 index ++ content) = d
  have d4 : d.drop 4 = b :: (beBytes 4 index ++ content) := by
    rw [← hd, List.drop_append_of_le_length (by simp), List.drop_of_length_le (by simp), List.nil_append]
  have d5 : d.drop 5 = beBytes 4 index ++ content := by
    have := congrArg List.tail d4
    rw [List.tail_drop] at this
    exact this
  have hidx : ∃ k, readBE 4 (beBytes 4 index ++ content) = .ok k := by
    unfold readBE; rw [if_pos (by simp)]; exact ⟨_, rfl⟩
  have hseq : ∃ k, readBE 4 d = .ok k := by
    unfold readBE; rw [if_pos (by rw [← hd]; simp)]; exact ⟨_, rfl⟩
  have ht4 : (d.take 4).length ≤ 4 := by simp
  obtain ⟨index', hidx⟩ := hidx
  obtain ⟨seq', hseq⟩ := hseq
  have hver' : cfg.version > 1 := hver
  have hex : ∃ s', receive cfg env (packet 0x88 cc n d) s = .ok s' := by
    rw [receive_block _ _ _ _ _ _ hf.validated]
    unfold handleBufferBlock
    rw [hseq, Res.bind_ok]
    dsimp only
    unfold blockCacheIndex
    rw [if_pos hver', d4, Res.bind_ok]
    split
    · exact ⟨_, rfl⟩
    · obtain ⟨s1, es, e1, e2, -, -, -⟩ := sendCommand_ok env hw cmdConfirmBufferBlock (d.take 4) ht4 (s.seen d)
      rw [e1, Res.bind_ok, if_pos hver', d5, hidx, Res.bind_ok, e2.half]
      have hcache : ((s.seen d).half (decide (b > 0))).cache = Sic.build rs := by
        rw [bpos, ← k1]; cases decide (b ≠ 0) <;> rfl
      rw [hcache, signalID_build, Res.bind_ok]
      split
      · exact ⟨_, rfl⟩
      · exact ⟨_, rfl⟩
  obtain ⟨s', r1⟩ := hex
  have hv := receive_validated hf.validated r1
  obtain ⟨o0, o1⟩ := receive_offsets r1 (by rw [← hd]; simp [packet])
  have hk := (receive_side hf.validated r1).1 (by
    show some (0x88 : Byte) ≠ some rspUpdateCipherKeys
    decide)
  have r1' := r1
  rw [receive_block _ _ _ _ _ _ hf.validated] at r1'
  obtain ⟨-, hcase⟩ := handleBufferBlock_cases r1'
  dsimp only at hcase
  obtain ⟨s2, es, e1, e2, -, e3, e4⟩ := sendCommand_ok env hw cmdConfirmBufferBlock (d.take 4) ht4 (s.seen d)
  have hseen : ∀ i, (s.seen d).half i = s.half i := by intro i; cases i <;> rfl
  rcases hcase with ⟨_, _, _, h⟩ | ⟨-, s1, _, _, _, _, h1, -, -, -, ⟨-, h⟩ | ⟨-, h⟩⟩
  · refine ⟨s', r1, follows_frame hf hv hk ?_ o0 o1, Gives.of_log [] (by rw [h]; simp [St.seen, St.counted]) rfl (by simp)⟩
    intro i; rw [h, hseen]
  · rw [e1] at h1
    injection h1 with h1
    subst h1
    refine ⟨s', r1, follows_frame hf hv hk ?_ o0 o1, ?_⟩
    · intro i
      rw [h, half_emit, ← hseen, ← e2.half]
      cases i <;> rfl
    · refine (gives_sent (s := s) e3 e4).trans (Gives.of_log [_] (by rw [h]; rfl) rfl (by simp)) (o2 := [])
  · rw [e1] at h1
    injection h1 with h1
    subst h1
    refine ⟨s', r1, follows_frame hf hv hk ?_ o0 o1, ?_⟩
    · intro i
      rw [h, ← hseen, ← e2.half]
      cases i <;> rfl
    · exact gives_sent (s := s) (by rw [h]; exact e3) e4

theorem handled_plain {cfg : Cfg} {env : Env} (hw : env.writeOk = true) {rc cc : Byte} {data : List Byte} {s : St} {n : Nat}
    (hv : s.validated = true) (h : Plain rc data) :
    ∃ s' es, receive cfg env (packet rc cc n data) s = .ok s' ∧ s'.log = s.log ++ es ∧ Event.terminate ∉ es ∧ delivered es = [] := by
  obtain ⟨h2, h3, h4, h5, h8, h6, h9⟩ := h
  have h2 : rc ≠ rspDataPacket := h2
  have h3 : rc ≠ rspUpdateSignalIndexCache := h3
  have h4 : rc ≠ rspUpdateBaseTimes := h4
  have h5 : rc ≠ rspUpdateCipherKeys := h5
  have h8 : rc ≠ rspBufferBlock := h8
  rw [receive_packet _ _ _ _ _ _ _ hv]
  by_cases hc : rc = rspSucceeded
  · rw [if_pos hc]
    unfold handleSucceeded handleMetadataRefresh
    dsimp only
    split
    · split
      · split
        · exact ⟨_, [.status, .error], rfl, by simp [St.emit, St.seen, St.counted], by simp, rfl⟩
        · rename_i plain _
          exact ⟨_, [.status, .status, .metadata plain], rfl, by simp [St.emit, St.seen, St.counted], by simp, rfl⟩
      · exact ⟨_, [.status, .metadata data], rfl, by simp [St.emit, St.seen, St.counted], by simp, rfl⟩
    · split
      · exact ⟨_, [.status], rfl, rfl, by simp, rfl⟩
      · split
        · exact ⟨_, [.status], rfl, rfl, by simp, rfl⟩
        · exact ⟨_, [.error], rfl, rfl, by simp, rfl⟩
  rw [if_neg hc]
  by_cases hc : rc = rspFailed
  · rw [if_pos hc]
    unfold handleFailed
    dsimp only
    split
    · split
      · exact ⟨_, [.error], rfl, rfl, by simp, rfl⟩
      · exact ⟨_, [], rfl, by simp [St.seen, St.counted], by simp, rfl⟩
    · exact ⟨_, [.error], rfl, rfl, by simp, rfl⟩
  rw [if_neg hc, if_neg h2]
  by_cases hc : rc = rspDataStartTime
  · rw [if_pos hc]
    unfold handleDataStartTime readBE
    rw [if_pos (h6 hc), Res.bind_ok]
    exact ⟨_, [.dataStartTime _], rfl, rfl, by simp, rfl⟩
  rw [if_neg hc]
  by_cases hc : rc = rspProcessingComplete
  · rw [if_pos hc]
    exact ⟨_, [.processingComplete _], rfl, rfl, by simp, rfl⟩
  rw [if_neg hc, if_neg h3, if_neg h4, if_neg h5]
  by_cases hc : rc = rspConfigurationChanged
  · rw [if_pos hc]
    exact ⟨_, [.status, .configurationChanged], rfl, by simp [St.emit, St.seen, St.counted], by simp, rfl⟩
  rw [if_neg hc, if_neg h8]
  by_cases hc : rc = rspNotify
  · rw [if_pos hc]
    unfold handleNotification
    rw [if_neg (by have := h9 hc; omega)]
    dsimp only
    obtain ⟨s1, es, e1, -, -, e3, e4⟩ := sendCommand_ok env hw cmdConfirmNotification (data.take 4) (by simp)
      (((s.seen data).emit .status).emit (.notification (data.drop 4)))
    obtain ⟨es', g1, g2, g3⟩ := gives_sent (s := ((s.seen data).emit .status).emit (.notification (data.drop 4))) e3 e4
    refine ⟨s1, [.status, .notification (data.drop 4)] ++ es', e1, ?_, by simp [g3], by rw [delivered_append, g2]; rfl⟩
    rw [g1]
    simp [St.emit, St.seen, St.counted]
  rw [if_neg hc]
  by_cases hc : rc = rspNoOP
  · rw [if_pos hc]
    exact ⟨_, [], rfl, by simp [St.seen, St.counted], by simp, rfl⟩
  rw [if_neg hc]
  exact ⟨_, [.error], rfl, rfl, by simp, rfl⟩

theorem follows_plain {cfg : Cfg} {t : Told} {s : St} (hf : Follows t s) (env : Env) (hw : env.writeOk = true) (rc cc : Byte) (n : Nat)
    (data : List Byte) (h : Plain rc data) :
    ∃ s', receive cfg env (packet rc cc n data) s = .ok s' ∧ Follows t s' ∧ Gives s s' [] := by
  obtain ⟨s', es, r1, r2, r3, r4⟩ := handled_plain (cfg := cfg) (cc := cc) (n := n) hw hf.validated h
  have hk := (receive_side hf.validated r1).1 (by
    show some rc ≠ some rspUpdateCipherKeys
    intro hx; injection hx with hx; exact h.2.2.2.1 hx)
  refine ⟨s', r1, ?_, es, r2, r4, r3⟩
  rcases receive_cases r1 with ⟨h1, -⟩ | ⟨rc', cc', rest, hb, -, ⟨h1, -⟩ | ⟨-, h1⟩⟩
  · rw [hf.validated] at h1; cases h1
  · have h1 := h1.1; rw [hf.validated] at h1; cases h1
  · have hrc : rc' = rc := by
      have : packet rc cc n data = rc :: cc :: (beBytes 4 n ++ data) := rfl
      rw [this] at hb
      injection hb with hb _
      exact hb.symm
    subst hrc
    have hfr : Frame { s.counted (4 + BitVec.ofNat 64 (packet rc' cc n data).length) with validated := true } s' := by
      cases h1 with
      | data hr _ => exact absurd hr h.1
      | cache hr _ => exact absurd hr h.2.1
      | times hr _ => exact absurd hr h.2.2.1
      | block hr _ => exact absurd hr h.2.2.2.2.1
      | notify _ h => exact handleNotification_frame h
      | other _ _ _ _ _ h _ => exact h
    refine follows_frame hf hfr.validated hk ?_ hfr.offset0 hfr.offset1
    intro i; rw [hfr.half]; cases i <;> rfl

theorem follows_step {cfg : Cfg} (hver : 1 < cfg.version.toNat) (env : Env) (hw : env.writeOk = true) {t t' : Told} {body : List Byte}
    {out : List (List Measurement)} (h : Sends cfg t body out t') {s : St} (hf : Follows t s) :
    ∃ s', receive cfg env body s = .ok s' ∧ Follows t' s' ∧ Gives s s' out := by
  cases h with
  | cache cc n b sub rs bytes h => exact follows_cache hver hf env hw cc n b sub rs bytes h
  | times cc n index o0 o1 tail hi h0 h1 => exact follows_times hf env cc n index o0 o1 tail hi h0 h1
  | keys cc n index k h => exact follows_keys hf env cc n index k h
  | compact cc n flags enc rs es tail h1 h3 hc hrs hl hes henc =>
    exact follows_compact hf env cc n flags enc rs es tail h1 h3 hc hrs hl hes henc
  | first cc n flags enc rs b data p h3 hc hl hb henc =>
    exact follows_tssc hf env cc n flags enc rs b data 0 Tssc.Pub.new p h3 hc hl (Or.inl ⟨rfl, rfl⟩) hb henc
  | next cc n flags enc rs b data k q p h3 hc hl hr hb henc =>
    exact follows_tssc hf env cc n flags enc rs b data k q p h3 hc hl (Or.inr hr) hb henc
  | block cc n seq b rs index content hc => exact follows_block hver hf env hw cc n seq b rs index content hc
  | plain rc cc n data h => exact follows_plain hf env hw rc cc n data h

theorem follows_all {cfg : Cfg} (hver : 1 < cfg.version.toNat) {t t' : Told} {bodies : List (List Byte)} {outs : List (List Measurement)}
    (h : SendsAll cfg t bodies outs t') : ∀ (ps : List (Env × List Byte)), (∀ p ∈ ps, p.1.writeOk = true) → ps.map Prod.snd = bodies →
      ∀ s, Follows t s → ∃ s', receiveAll cfg ps s = .ok s' ∧ Follows t' s' ∧ Gives s s' outs := by
  induction h with
  | nil t =>
    intro ps _ hb s hf
    rw [List.map_eq_nil_iff] at hb
    subst hb
    exact ⟨s, rfl, hf, Gives.of_log [] (by simp) rfl (by simp)⟩
  | cons h1 _ ih =>
    intro ps hw hb s hf
    rcases ps with _ | ⟨⟨env, body⟩, ps⟩
    · cases hb
    · rw [List.map_cons] at hb
      injection hb with hb1 hb2
      dsimp only at hb1
      subst hb1
      obtain ⟨s1, r1, r2, r3⟩ := follows_step hver env (hw (env, body) (by simp)) h1 hf
      obtain ⟨s2, q1, q2, q3⟩ := ih ps (fun p hp => hw p (by simp [hp])) hb2 s1 r2
      exact ⟨s2, by rw [receiveAll, r1, Res.bind_ok, q1], q2, r3.trans q3⟩

/-- C106: on a connection of protocol version 2 or later, first or later, whatever happened before, a publisher answers the negotiation and then
sends any packets a publisher may send: caches, base times and cipher keys in any order and any number, compact packets and TSSC blocks of either
cache half in any order, encrypted when keys were sent, buffer blocks, and responses without data in between. However the bytes arrive in pieces
and whatever the pooled slices hold, the subscriber reads it all without panicking or ending the connection, and the application gets exactly the
measurements of each data packet, in order. (Confirmations can be written.) -/
theorem C106_published_is_received (cfg : Cfg) (hver : 1 < cfg.version.toNat) (s : St) (hs : s.keyIVs = none) (n : Nat) (text : List Byte)
    (htext : text.length ≤ 8192) (bodies : List (List Byte)) (outs : List (List Measurement)) (t : Told)
    (hsend : SendsAll cfg Told.new bodies outs t) (hsize : ∀ b ∈ bodies, b.length < 2 ^ 32)
    (env : Env) (envs : List Env) (hlen : envs.length = bodies.length) (hw : ∀ e ∈ envs, e.writeOk = true)
    (tail : List Byte) (r : Reader) (hr : r.Ok) (hc : r.content = frame (packet 0x80 6 n text) ++ ((bodies.map frame).flatten ++ tail)) :
    ∃ r' s' es, turns cfg ((env :: envs).map fun e => ⟨e, false, false⟩) r s = .ok (r', s') ∧ r'.content = tail ∧
      s'.log = s.log ++ es ∧ delivered es = outs ∧ Event.terminate ∉ es := by
  have hp : packet 0x80 6 n text = 0x80 :: 6 :: (beBytes 4 n ++ text) := rfl
  obtain ⟨l0, l1, l2, l3, hl⟩ : ∃ l0 l1 l2 l3, beBytes 4 n = [l0, l1, l2, l3] := ⟨_, _, _, _, rfl⟩
  rw [hl] at hp
  obtain ⟨s1, a1, a2, a3, -, a4, -, a5⟩ := C23_handshake cfg env s 0x80 l0 l1 l2 l3 text (Or.inl rfl) htext
  have hlen0 : (packet 0x80 6 n text).length = 6 + text.length := packet_length _ _ _ _
  obtain ⟨r1, b1, b2, b3⟩ := turn_frame cfg env (packet 0x80 6 n text) _ r s hr (by omega) hc
    (Or.inr (Or.inr (by unfold maxInitialPacketSize responseHeaderSize; omega)))
  rw [hp] at b3
  rw [show (0x80 : Byte) :: 6 :: ([l0, l1, l2, l3] ++ text) = 0x80 :: 6 :: l0 :: l1 :: l2 :: l3 :: text from rfl, a1, Res.bind_ok] at b3
  have hf1 : Follows Told.new s1 := by
    refine ⟨a2, a4.trans hs, ?_, ?_, ?_⟩
    · intro i rs h; cases h
    · intro i k p h; cases h
    · intro o h; cases h
  have hz1 : (envs.zip bodies).map Prod.snd = bodies := List.map_snd_zip (by omega)
  have hz2 : (envs.zip bodies).map Prod.fst = envs := List.map_fst_zip (by omega)
  obtain ⟨s2, c1, -, es, c3, c4, c5⟩ := follows_all hver hsend (envs.zip bodies)
    (fun p hp => hw p.1 (List.of_mem_zip hp).1) hz1 s1 hf1
  have hcont : r1.content = ((envs.zip bodies).map fun p => frame p.2).flatten ++ tail := by
    rw [b1]
    congr 2
    conv_lhs => rw [← hz1]
    rw [List.map_map]; rfl
  obtain ⟨r2, d1, d2, d3⟩ := C22_chunking_partial cfg (envs.zip bodies) tail r1 s1 b2
    (fun p hp => hsize p.2 (List.of_mem_zip hp).2) hcont (Or.inr (Or.inl a2))
  have hmap : ((envs.zip bodies).map fun p => (⟨p.1, false, false⟩ : Turn)) = envs.map fun e => (⟨e, false, false⟩ : Turn) := by
    conv_rhs => rw [← hz2]
    rw [List.map_map]; rfl
  rw [hmap, c1, Res.bind_ok] at d3
  refine ⟨r2, s2, [.status] ++ es, ?_, d1, ?_, ?_, ?_⟩
  · rw [List.map_cons, turns, b3, Res.bind_ok]
    exact d3
  · rw [c3, a5, if_pos rfl, List.append_assoc]
  · rw [delivered_append, c4]; rfl
  · simp [c5]

/-! ## A case meeting the hypotheses -/

/-- A cipher that is not the identity. -/
def exCfgKeys : Cfg := { exCfg with decipherAES := fun _ _ d => .ok d.reverse }

/-- The encoder after the first block. -/
def exPub1 : Tssc.Pub := ((Tssc.Pub.new.sendBlock exBlock).map Prod.snd).getD Tssc.Pub.new

/-- The block after it. -/
def exBlock2 : Tssc.Block := ⟨Tssc.bestItems exPub1 [⟨1, 1033, 0, 7⟩, ⟨2, 1033, 1, 6⟩], .endCode (List.replicate 7 false)⟩

theorem exBlock_first : Tssc.Pub.new.sendBlock exBlock = some (exData, exPub1) := by
  have h : (Tssc.Pub.new.sendBlock exBlock).map Prod.fst = some exData := by decide +kernel
  obtain ⟨x, h1, h2⟩ := Option.map_eq_some_iff.mp h
  rw [exPub1, h1, ← h2]
  rfl

theorem exBlock_second : ∃ p, exPub1.sendBlock exBlock2 = some ([1, 33, 17, 225, 15, 130, 128, 0], p) := by
  have h : (exPub1.sendBlock exBlock2).map Prod.fst = some [1, 33, 17, 225, 15, 130, 128, 0] := by decide +kernel
  obtain ⟨x, h1, h2⟩ := Option.map_eq_some_iff.mp h
  exact ⟨x.2, by rw [h1, ← h2]⟩

/-- A cache for half 1, keys, two enciphered TSSC blocks, base times, an enciphered compact packet with a full and a short time, a notification:
three lists of two measurements each. -/
theorem exSends : ∃ bodies outs t, bodies.length = 7 ∧ outs.map List.length = [2, 2, 2] ∧ SendsAll exCfgKeys Told.new bodies outs t := by
  obtain ⟨p2, h2⟩ := exBlock_second
  refine ⟨_, _, _, ?_, ?_,
    SendsAll.cons (Sends.cache Told.new 2 0 1 Sic.gB Sic.exRecs _ (exCacheBytes exCfgKeys rfl rfl))
    (SendsAll.cons (Sends.keys _ 4 0 0 ⟨[1], [2], [3], [4]⟩ (by decide))
    (SendsAll.cons (Sends.first _ 2 0 0x18 (beBytes 4 2 ++ tsscPayload 0 exData).reverse Sic.exRecs exBlock exData exPub1 (by decide) rfl
      (by decide +kernel) exBlock_first ?_)
    (SendsAll.cons (Sends.next _ 2 0 0x18 (beBytes 4 2 ++ tsscPayload 1 [1, 33, 17, 225, 15, 130, 128, 0]).reverse Sic.exRecs exBlock2 _ 1 exPub1 p2
      (by decide) rfl (by decide +kernel) rfl h2 ?_)
    (SendsAll.cons (Sends.times _ 0 0 1 5000 6000 [] (by decide) (by decide) (by decide))
    (SendsAll.cons (Sends.compact _ 2 0 0x12
      (beBytes 4 2 ++ (([Entry.full ⟨0, 7, 5, 9000⟩, Entry.short ⟨0x40, 8, 6, 12⟩].map (Entry.bytes false)).flatten ++ [])).reverse Sic.exRecs
      [.full ⟨0, 7, 5, 9000⟩, .short ⟨0x40, 8, 6, 12⟩] [] (by decide) (by decide) rfl (by decide) (by decide) ?_ ?_)
    (SendsAll.cons (Sends.plain _ 0x89 0 0 [1, 2, 3, 4, 65] (by unfold Plain; decide))
    (SendsAll.nil _)))))))⟩
  · rfl
  · have h1 : exBlock.items.length = 2 := by decide +kernel
    have h2 : exBlock2.items.length = 2 := by decide +kernel
    simp only [List.nil_append, List.cons_append, List.map_cons, List.map_nil, List.length_map, h1, h2, List.length_cons, List.length_nil]
  · show Res.ok (List.reverse _) = _
    rw [List.reverse_reverse]
    rfl
  · show Res.ok (List.reverse _) = _
    rw [List.reverse_reverse]
    rfl
  · intro e he
    simp only [List.mem_cons, List.not_mem_nil, or_false] at he
    rcases he with rfl | rfl
    · exact ⟨rfl, by decide⟩
    · exact ⟨rfl, by decide, by simp, by decide⟩
  · show Res.ok (List.reverse _) = _
    rw [List.reverse_reverse]
    rfl

/-- On any later connection, arriving byte by byte. -/
example : ∃ (s : St) (bodies : List (List Byte)) (outs : List (List Measurement)) (t : Told) (envs : List Env) (r : Reader),
    1 < exCfgKeys.version.toNat ∧ s = reconnected exSt ∧ s.keyIVs = none ∧ SendsAll exCfgKeys Told.new bodies outs t ∧
    outs.map List.length = [2, 2, 2] ∧ envs.length = bodies.length ∧ (∀ e ∈ envs, e.writeOk = true) ∧ r.Ok ∧
    r.content = frame (packet 0x80 6 0 [79, 75]) ++ ((bodies.map frame).flatten ++ [7]) := by
  obtain ⟨bodies, outs, t, -, h1, h2⟩ := exSends
  refine ⟨reconnected exSt, bodies, outs, t, List.replicate bodies.length ⟨true, some [⟨Sic.gA, 1, 2, 3⟩]⟩,
    ⟨[], (frame (packet 0x80 6 0 [79, 75]) ++ ((bodies.map frame).flatten ++ [7])).map fun b => [b]⟩, by decide, rfl, rfl, h2, h1, by simp, ?_, ?_, ?_⟩
  · intro e he; rw [List.eq_of_mem_replicate he]
  · intro c hc
    obtain ⟨b, -, rfl⟩ := List.mem_map.mp hc
    simp
  · generalize frame (packet 0x80 6 0 [79, 75]) ++ ((bodies.map frame).flatten ++ [7]) = l
    unfold Reader.content
    rw [List.nil_append]
    induction l with
    | nil => rfl
    | cons b l ih => rw [List.map_cons, List.flatten_cons, ih]; rfl

end Verif.Session
