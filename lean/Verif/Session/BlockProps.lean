import Verif.Session.CacheProps

/-!
# Buffer blocks and confirmations (C29, C30)
-/

namespace Verif.Session

open Verif.Guid (Guid)

/-! ## Specification -/

/-- A buffer block as a publisher writes it: number, cache half (after version 1), signal index, content. -/
def blockPayload (version : Byte) (seq : BitVec 32) (half : Byte) (index : BitVec 32) (content : List Byte) : List Byte :=
  beBytes 4 seq.toNat ++ (if 1 < version.toNat then [half] else []) ++ beBytes 4 index.toNat ++ content

/-- The buffer blocks handed to the application. -/
def deliveredBlocks (log : List Event) : List (List BufferBlock) :=
  log.filterMap fun e => match e with | .newBufferBlocks bs => some bs | _ => none

/-- The bytes written to the command channel, write by write. -/
def sentCommands (log : List Event) : List (List Byte) :=
  log.filterMap fun e => match e with | .sent b => some b | _ => none

/-- No cached block has a content. -/
def NoContent (s : St) : Prop := ∀ b ∈ s.bufferBlockCache, b.buffer = none

/-- The half a buffer block refers to. -/
def blockHalf (version : Byte) (half : Byte) : Bool := if 1 < version.toNat then decide (half ≠ 0) else false

/-! ## Lemmas -/

theorem sentCommands_append (a b : List Event) : sentCommands (a ++ b) = sentCommands a ++ sentCommands b := by
  simp [sentCommands, List.filterMap_append]

theorem deliveredBlocks_append (a b : List Event) :
    deliveredBlocks (a ++ b) = deliveredBlocks a ++ deliveredBlocks b := by
  simp [deliveredBlocks, List.filterMap_append]

theorem deliveredBlocks_nodata {es : List Event} (h : ∀ e ∈ es, e.isData = false) : deliveredBlocks es = [] := by
  unfold deliveredBlocks
  rw [List.filterMap_eq_nil_iff]
  intro e he
  have := h e he
  cases e <;> first | rfl | (simp [Event.isData] at this)

theorem publishable_none {bs : List BufferBlock} (h : ∀ b ∈ bs, b.buffer = none) : publishable bs = [] := by
  cases bs with
  | nil => rfl
  | cons b bs => rw [publishable, if_pos (h b (by simp))]

/-- What processing a packet does to the blocks. -/
theorem receive_noContent {cfg : Cfg} {env : Env} {body : List Byte} {s s' : St} (h : receive cfg env body s = .ok s')
    (hn : NoContent s) :
    NoContent s' ∧ ∃ es, s'.log = s.log ++ es ∧ ∀ bs ∈ deliveredBlocks es, ∀ b ∈ bs, b.buffer = none := by
  have keep : ∀ {t t' : St}, KeepsOther t t' → NoContent t → NoContent t' ∧ ∃ es, t'.log = t.log ++ es ∧
      ∀ bs ∈ deliveredBlocks es, ∀ b ∈ bs, b.buffer = none := by
    intro t t' hf ht
    obtain ⟨es, e1, e2⟩ := hf.nodata
    refine ⟨by unfold NoContent; rw [hf.blocks]; exact ht, es, e1, ?_⟩
    rw [deliveredBlocks_nodata e2]; simp
  rcases receive_cases h with ⟨-, -, -, h1⟩ | ⟨rc, cc, rest, hbody, -, ⟨-, h1⟩ | ⟨-, h1⟩⟩
  · rw [h1]; exact keep (t := s.counted 4) (Frame.fail _).other hn
  · rw [h1]; exact keep (t := s.counted _) (Frame.fail _).other hn
  · have hn' : NoContent { s.counted (4 + BitVec.ofNat 64 body.length) with validated := true } := hn
    cases h1 with
    | data _ h =>
      rcases handleDataPacket_cases h with h | ⟨flags, rest, payload, count, ms, s1, -, -, -, -, -, ho, h⟩
      · rw [h]; exact keep (t := { s.counted (4 + BitVec.ofNat 64 body.length) with validated := true }) (Frame.fail _).other hn'
      · obtain ⟨k1, es, k2, k3⟩ := keep ho.toKeepsOther hn'
        rw [h]
        refine ⟨k1, es ++ [.newMeasurements ms], ?_, ?_⟩
        · simp only [St.emit, k2, List.append_assoc]; rfl
        · rw [deliveredBlocks_append]; simpa [deliveredBlocks] using k3
    | cache _ h =>
      rcases handleUpdateSignalIndexCache_cases h with ⟨g, h⟩ | ⟨i, payload, plain, sub, cache, s1, -, -, -, h1, h⟩
      · rw [h]; exact ⟨hn', [.error], rfl, by simp [deliveredBlocks]⟩
      · by_cases hv : cfg.version > 1
        · rw [if_pos hv] at h1
          obtain ⟨k1, es, k2, k3⟩ := keep (sendCommand_frame h1).other (by cases i <;> exact hn)
          rw [h]
          refine ⟨k1, es ++ [.subscriptionUpdated cache], ?_, ?_⟩
          · simp only [St.emit, k2, ← List.append_assoc]; cases i <;> rfl
          · rw [deliveredBlocks_append]; simpa [deliveredBlocks] using k3
        · rw [if_neg hv] at h1
          rw [h, h1]
          refine ⟨by cases i <;> exact hn, [.subscriptionUpdated cache], by cases i <;> rfl, by simp [deliveredBlocks]⟩
    | times _ h =>
      obtain ⟨-, h⟩ := handleUpdateBaseTimes_cases h
      rw [h]; exact ⟨hn', [.status], rfl, by simp [deliveredBlocks]⟩
    | block _ h =>
      obtain ⟨-, h⟩ := handleBufferBlock_cases h
      dsimp only at h
      have hp : publishable (List.drop 1 (s.counted (4 + BitVec.ofNat 64 body.length)).bufferBlockCache) = [] :=
        publishable_none (fun b hb => hn b (List.mem_of_mem_drop hb))
      rcases h with ⟨_, _, _, h⟩ | ⟨-, s1, _, _, _, g, h1, -, -, -, ⟨-, h⟩ | ⟨-, h⟩⟩
      · rw [h]; exact ⟨hn', [], by simp [St.counted], by simp [deliveredBlocks]⟩
      · obtain ⟨k1, es, k2, k3⟩ := keep (sendCommand_frame h1).other hn'
        rw [h, hp]
        have hall : ∀ b ∈ ((⟨g, none⟩ : BufferBlock) :: [] ++ List.replicate
            ((s.counted (4 + BitVec.ofNat 64 body.length)).bufferBlockCache.length - ([] : List BufferBlock).length)
              BufferBlock.zero), b.buffer = none := by
          intro b hb
          simp only [List.nil_append, List.cons_append, List.mem_cons, List.mem_replicate] at hb
          rcases hb with rfl | ⟨-, rfl⟩ <;> rfl
        generalize ((⟨g, none⟩ : BufferBlock) :: [] ++ List.replicate
            ((s.counted (4 + BitVec.ofNat 64 body.length)).bufferBlockCache.length - ([] : List BufferBlock).length)
              BufferBlock.zero) = bs at hall
        refine ⟨fun b hb => hn b (List.mem_of_mem_drop hb), es ++ [.newBufferBlocks bs], ?_, ?_⟩
        · exact (congrArg (· ++ [Event.newBufferBlocks bs]) k2).trans (List.append_assoc _ _ _)
        · rw [deliveredBlocks_append]
          intro bs' hbs
          rcases List.mem_append.mp hbs with hbs | hbs
          · exact k3 bs' hbs
          · have : bs' = bs := by simpa [deliveredBlocks] using hbs
            rw [this]
            exact hall
      · obtain ⟨k1, es, k2, k3⟩ := keep (sendCommand_frame h1).other hn'
        rw [h]
        refine ⟨?_, es, k2, k3⟩
        intro b hb
        rcases List.mem_or_eq_of_mem_set hb with hb | hb
        · rcases List.mem_append.mp hb with hb | hb
          · exact hn b hb
          · rw [(List.mem_replicate.mp hb).2]; rfl
        · rw [hb]
    | notify _ h => exact keep (t := { s.counted (4 + BitVec.ofNat 64 body.length) with validated := true }) (handleNotification_frame h).other hn'
    | other _ _ _ _ _ hf _ => exact keep (t := { s.counted (4 + BitVec.ofNat 64 body.length) with validated := true }) hf.other hn'

theorem receiveAll_noContent {cfg : Cfg} {ps : List (Env × List Byte)} {s s' : St} (h : receiveAll cfg ps s = .ok s')
    (hn : NoContent s) :
    NoContent s' ∧ ∃ es, s'.log = s.log ++ es ∧ ∀ bs ∈ deliveredBlocks es, ∀ b ∈ bs, b.buffer = none := by
  induction ps generalizing s with
  | nil => rw [receiveAll] at h; injection h with h; subst h; exact ⟨hn, [], by simp, by simp [deliveredBlocks]⟩
  | cons p ps ih =>
    obtain ⟨env, body⟩ := p
    rw [receiveAll, Res.bind_eq_ok] at h
    obtain ⟨s1, h1, h2⟩ := h
    obtain ⟨a1, es1, a2, a3⟩ := receive_noContent h1 hn
    obtain ⟨b1, es2, b2, b3⟩ := ih h2 a1
    refine ⟨b1, es1 ++ es2, by rw [b2, a2, List.append_assoc], ?_⟩
    intro bs hbs
    rw [deliveredBlocks_append] at hbs
    rcases List.mem_append.mp hbs with hbs | hbs
    · exact a3 bs hbs
    · exact b3 bs hbs

theorem receiveAll_connected {cfg : Cfg} {ps : List (Env × List Byte)} {s s' : St} (h : receiveAll cfg ps s = .ok s') :
    s'.connected = s.connected := by
  induction ps generalizing s with
  | nil => rw [receiveAll] at h; injection h with h; subst h; rfl
  | cons p ps ih =>
    obtain ⟨env, body⟩ := p
    rw [receiveAll, Res.bind_eq_ok] at h
    obtain ⟨s1, h1, h2⟩ := h
    rw [ih h2]
    rcases receive_cases h1 with ⟨-, -, -, h1⟩ | ⟨rc, cc, rest, hbody, -, ⟨-, h1⟩ | ⟨-, h1⟩⟩
    · rw [h1]; rfl
    · rw [h1]; rfl
    · rw [h1.grows.connected]; rfl

theorem send_ok {env : Env} {c : Byte} {p : List Byte} {s : St} (hc : s.connected = true) (hw : env.writeOk = true)
    (hp : p.length = 4) : sendCommand env c p s = .ok (s.emit (.sent ([0, 0, 0, 5, c] ++ p))) := by
  unfold sendCommand
  rw [hc, hp]
  rw [if_neg (by simp), if_neg (by decide), if_pos hw]
  rfl

theorem send_sent {env : Env} {c : Byte} {p : List Byte} {s s' : St} (h : sendCommand env c p s = .ok s') (b : List Byte)
    (hb : Event.sent b ∈ s'.log) : Event.sent b ∈ s.log ∨ b = beBytes 4 (p.length + 1) ++ [c] ++ p := by
  unfold sendCommand at h
  split at h
  · injection h with h; subst h; exact Or.inl hb
  · split at h
    · cases h
    · split at h
      · injection h with h; subst h
        simp only [St.emit, List.mem_append, List.mem_singleton] at hb
        rcases hb with hb | hb
        · exact Or.inl hb
        · injection hb with hb; exact Or.inr hb
      · injection h with h; subst h
        left; simpa [St.fail, St.emit] using hb

theorem prepare_sent (i : Bool) (seq : BitVec 16) (s : St) (b : List Byte)
    (hb : Event.sent b ∈ (tsscPrepare i seq s).2.2.log) : Event.sent b ∈ s.log := by
  obtain ⟨-, -, -, -, -, es, h1, h2⟩ := tsscPrepare_spec i seq s
  rw [h1] at hb
  rcases List.mem_append.mp hb with hb | hb
  · exact hb
  · have := h2 _ hb; cases this

theorem parseTSSC_sent {i : Bool} {data : List Byte} {ms ms' : List Measurement} {s s' : St}
    (h : parseTSSC i data ms s = .ok (ms', s')) (b : List Byte) (hb : Event.sent b ∈ s'.log) : Event.sent b ∈ s.log := by
  cases data with
  | nil => unfold parseTSSC at h; cases h
  | cons v rest =>
    by_cases hv : v = 85
    · subst hv
      rw [parseTSSC_eq, Res.bind_eq_ok] at h
      obtain ⟨n, -, h⟩ := h
      apply prepare_sent i (BitVec.ofNat 16 n) s b
      generalize tsscPrepare i (BitVec.ofNat 16 n) s = p at *
      obtain ⟨d, m, t⟩ := p
      unfold tsscBody at h
      dsimp only at h
      split at h
      · injection h with h; injection h with _ h; subst h; exact hb
      · split at h
        · cases h
        · rw [Res.bind_eq_ok] at h
          obtain ⟨new, -, h⟩ := h
          split at h
          · cases h
          · injection h with h; injection h with _ h; subst h
            simpa [St.fail, St.emit] using hb
          · injection h with h; injection h with _ h; subst h
            simpa using hb
    · unfold parseTSSC at h
      dsimp only at h
      rw [if_pos hv] at h
      injection h with h; injection h with _ h; subst h
      simpa [St.fail, St.emit] using hb

theorem parse_sent {cfg : Cfg} {c i : Bool} {data : List Byte} {ms ms' : List Measurement} {s s' : St}
    (h : (if c = true then parseTSSC i data ms s else parseCompact cfg i data ms s) = .ok (ms', s')) (b : List Byte)
    (hb : Event.sent b ∈ s'.log) : Event.sent b ∈ s.log := by
  split at h
  · exact parseTSSC_sent h b hb
  · unfold parseCompact at h
    dsimp only at h
    split at h
    · injection h with h; injection h with _ h; subst h; exact hb
    · rw [Res.bind_eq_ok] at h
      obtain ⟨⟨x, f⟩, -, h⟩ := h
      injection h with h; injection h with _ h
      rw [← h] at hb
      split at hb
      · simpa [St.fail, St.emit] using hb
      · exact hb

/-- A block the cache does not hold with a content. -/
theorem block_step (cfg : Cfg) (env : Env) (s : St) (hv : s.validated = true) (hc : s.connected = true)
    (hw : env.writeOk = true) (hn : NoContent s) (cc : Byte) (n : Nat) (seq : BitVec 32) (half : Byte) (index : BitVec 32)
    (content : List Byte) (rs : List Sic.Rec) (hrs : (s.half (blockHalf cfg.version half)).cache = Sic.build rs) :
    ∃ s', receive cfg env (packet 0x88 cc n (blockPayload cfg.version seq half index content)) s = .ok s' ∧
      s'.validated = true ∧ s'.connected = true ∧ (∀ j, (s'.half j) = s.half j) ∧
      if seq = s.bufferBlockExpectedSequenceNumber then
        s'.bufferBlockExpectedSequenceNumber = s.bufferBlockExpectedSequenceNumber + 1 ∧
        s'.bufferBlockCache = s.bufferBlockCache.drop 1 ∧
        s'.log = s.log ++ [.sent ([0, 0, 0, 5, 8] ++ beBytes 4 seq.toNat),
          .newBufferBlocks (⟨sigOf rs index, none⟩ :: List.replicate s.bufferBlockCache.length BufferBlock.zero)]
      else
        s'.bufferBlockExpectedSequenceNumber = s.bufferBlockExpectedSequenceNumber ∧
        s'.bufferBlockCache = (s.bufferBlockCache ++ List.replicate
          ((seq - s.bufferBlockExpectedSequenceNumber).toNat + 1 - s.bufferBlockCache.length) BufferBlock.zero).set
            (seq - s.bufferBlockExpectedSequenceNumber).toNat ⟨sigOf rs index, none⟩ ∧
        s'.log = s.log ++ [.sent ([0, 0, 0, 5, 8] ++ beBytes 4 seq.toNat)] := by
  rw [receive_block _ _ _ _ _ _ hv]
  generalize hd : blockPayload cfg.version seq half index content = d
  have hlt : seq.toNat < 256 ^ 4 := by have := seq.isLt; omega
  have hlt2 : index.toNat < 256 ^ 4 := by have := index.isLt; omega
  have d0 : d = beBytes 4 seq.toNat ++ ((if 1 < cfg.version.toNat then [half] else []) ++ (beBytes 4 index.toNat ++ content)) := by
    rw [← hd, blockPayload]; simp
  have r0 : readBE 4 d = .ok seq.toNat := by rw [d0, readBE_beBytes _ _ _ hlt]
  have d1 : d.drop 4 = (if 1 < cfg.version.toNat then [half] else []) ++ (beBytes 4 index.toNat ++ content) := by
    rw [d0, List.drop_append_of_le_length (by simp), List.drop_of_length_le (by simp), List.nil_append]
  have t0 : d.take 4 = beBytes 4 seq.toNat := by
    rw [d0, List.take_append_of_le_length (by simp), List.take_of_length_le (by simp)]
  have hx : blockCacheIndex cfg d = .ok (blockHalf cfg.version half) := by
    unfold blockCacheIndex blockHalf
    rw [d1]
    by_cases hver : cfg.version > 1
    · rw [if_pos hver, if_pos (show 1 < cfg.version.toNat from hver), if_pos (show 1 < cfg.version.toNat from hver)]
      dsimp only [List.cons_append]
      rw [bpos]
    · rw [if_neg hver, if_neg (show ¬ 1 < cfg.version.toNat from hver)]
  have hy : (if cfg.version > 1 then d.drop 5 else d.drop 4) = beBytes 4 index.toNat ++ content := by
    by_cases hver : cfg.version > 1
    · have : (5 : Nat) = 4 + 1 := rfl
      rw [if_pos hver, this, ← List.drop_drop, d1, if_pos (show 1 < cfg.version.toNat from hver)]
      rfl
    · rw [if_neg hver, d1, if_neg (show ¬ 1 < cfg.version.toNat from hver)]
      rfl
  have hcont : ∀ (k : Nat) (g : Guid) (b : List Byte), (s.seen d).bufferBlockCache[k]? ≠ some (BufferBlock.mk g (some b)) := by
    intro k g b hk
    have := hn _ (List.mem_of_getElem? (show s.bufferBlockCache[k]? = some ⟨g, some b⟩ from hk))
    cases this
  have hseq : BitVec.ofNat 32 seq.toNat = seq := by simp
  unfold handleBufferBlock
  rw [r0, Res.bind_ok, hx, Res.bind_ok, hseq]
  dsimp only
  split
  · rename_i h; exact absurd h (hcont _ _ _)
  · rw [t0, send_ok (s := s.seen d) hc hw (by simp), Res.bind_ok, hy, readBE_beBytes _ _ _ hlt2, Res.bind_ok]
    have hh : ∀ j, ((s.seen d).emit (.sent ([0, 0, 0, 5, cmdConfirmBufferBlock] ++ beBytes 4 seq.toNat))).half j = s.half j := by
      intro j; cases j <;> rfl
    have hi : BitVec.ofNat 32 index.toNat = index := by simp
    rw [hh, hrs, hi, signalID_build, Res.bind_ok]
    have hp : publishable (List.drop 1 s.bufferBlockCache) = [] :=
      publishable_none (fun b hb => hn b (List.mem_of_mem_drop hb))
    by_cases he : seq = s.bufferBlockExpectedSequenceNumber
    · have he' : seq = ((s.seen d).emit (.sent ([0, 0, 0, 5, cmdConfirmBufferBlock] ++ beBytes 4 seq.toNat))).bufferBlockExpectedSequenceNumber := he
      have hp' : publishable (List.drop 1 ((s.seen d).emit (.sent ([0, 0, 0, 5, cmdConfirmBufferBlock] ++ beBytes 4 seq.toNat))).bufferBlockCache) = [] := hp
      rw [if_pos he', hp']
      refine ⟨_, rfl, hv, hc, fun j => ?_, ?_⟩
      · cases j <;> rfl
      rw [if_pos he]
      refine ⟨?_, rfl, ?_⟩
      · simp [St.emit, St.seen, St.counted]
      · simp [St.emit, St.seen, St.counted, cmdConfirmBufferBlock]
    · have he' : ¬ seq = ((s.seen d).emit (.sent ([0, 0, 0, 5, cmdConfirmBufferBlock] ++ beBytes 4 seq.toNat))).bufferBlockExpectedSequenceNumber := he
      rw [if_neg he']
      refine ⟨_, rfl, hv, hc, fun j => ?_, ?_⟩
      · cases j <;> rfl
      rw [if_neg he]
      refine ⟨rfl, rfl, ?_⟩
      · simp [St.emit, St.seen, St.counted, cmdConfirmBufferBlock]

/-! ## C29 -/

/-- C29 fails for every content: whatever packets arrive, from any state whose cached blocks have no content (as when the
subscriber is made), no block handed to the application has its content: the buffer is always nil. -/
theorem C29_content_never_delivered (cfg : Cfg) (ps : List (Env × List Byte)) (s s' : St)
    (hn : ∀ b ∈ s.bufferBlockCache, b.buffer = none) (h : receiveAll cfg ps s = .ok s') :
    ∃ es, s'.log = s.log ++ es ∧ ∀ bs ∈ deliveredBlocks es, ∀ b ∈ bs, b.buffer = none :=
  (receiveAll_noContent h hn).2

/-- A block as the publisher numbers it. -/
structure SentBlock where
  half : Byte
  index : BitVec 32
  content : List Byte

/-- The packets of blocks numbered from `seq` on (with wrap-around at 2^32). -/
def blockPackets (version : Byte) : BitVec 32 → List (Env × Byte × Nat × SentBlock) → List (Env × List Byte)
  | _, [] => []
  | seq, (env, cc, n, b) :: rest =>
    (env, packet 0x88 cc n (blockPayload version seq b.half b.index b.content)) :: blockPackets version (seq + 1) rest

/-- What should be seen outside for blocks numbered from `seq` on, but for their contents: confirmation and delivery. -/
def blockEvents (version : Byte) (rs : Bool → List Sic.Rec) : BitVec 32 → List (Env × Byte × Nat × SentBlock) → List Event
  | _, [] => []
  | seq, (_, _, _, b) :: rest =>
    .sent ([0, 0, 0, 5, 8] ++ beBytes 4 seq.toNat) ::
      .newBufferBlocks [⟨sigOf (rs (blockHalf version b.half)) b.index, none⟩] :: blockEvents version rs (seq + 1) rest

/-- C29 for blocks that arrive in order, without repetitions: any number of blocks from the expected number on, for either
cache half: each is confirmed with its number and handed to the application exactly once, in order, with its signal. Missing
from the full statement: the contents, which are never delivered (`C29_content_never_delivered`), and arrival out of order
(`C29_out_of_order_false`) or repeated (`C29_repeated_false`). -/
theorem C29_in_order_partial (cfg : Cfg) (rs : Bool → List Sic.Rec) (bs : List (Env × Byte × Nat × SentBlock)) (s : St)
    (hv : s.validated = true) (hc : s.connected = true) (hempty : s.bufferBlockCache = [])
    (hcache : ∀ j, (s.half j).cache = Sic.build (rs j)) (hw : ∀ b ∈ bs, b.1.writeOk = true) :
    ∃ s', receiveAll cfg (blockPackets cfg.version s.bufferBlockExpectedSequenceNumber bs) s = .ok s' ∧
      s'.bufferBlockExpectedSequenceNumber = s.bufferBlockExpectedSequenceNumber + BitVec.ofNat 32 bs.length ∧
      s'.log = s.log ++ blockEvents cfg.version rs s.bufferBlockExpectedSequenceNumber bs := by
  induction bs generalizing s with
  | nil => exact ⟨s, rfl, by simp, by simp [blockEvents]⟩
  | cons b bs ih =>
    obtain ⟨env, cc, n, b⟩ := b
    obtain ⟨s1, h1, h2, h3, h4, h5⟩ := block_step cfg env s hv hc (hw (env, cc, n, b) (by simp))
      (by rw [NoContent, hempty]; simp) cc n s.bufferBlockExpectedSequenceNumber b.half b.index b.content _ (hcache _)
    rw [if_pos rfl, hempty] at h5
    obtain ⟨h5, h6, h7⟩ := h5
    obtain ⟨s2, g1, g2, g3⟩ := ih s1 h2 h3 (by rw [h6]; rfl) (fun j => by rw [h4, hcache]) (fun b hb => hw b (by simp [hb]))
    refine ⟨s2, ?_, ?_, ?_⟩
    · rw [blockPackets, receiveAll, h1, Res.bind_ok, ← h5, g1]
    · rw [g2, h5, List.length_cons, Nat.add_comm bs.length 1, BitVec.ofNat_add, BitVec.add_assoc]
      rfl
    · rw [g3, h7, h5, List.append_assoc, blockEvents]
      rfl

/-- C29 fails for blocks out of order: when block e+1 arrives before the expected block e, both are confirmed, so neither will
be sent again, but only block e is handed over, followed by two made-up empty blocks; block e+1 is not delivered and is still
the expected one. -/
theorem C29_out_of_order_false (cfg : Cfg) (env : Env) (hw : env.writeOk = true) (rs : Bool → List Sic.Rec) (a b : SentBlock)
    (cc : Byte) (n : Nat) (s : St)
    (hv : s.validated = true) (hc : s.connected = true) (hempty : s.bufferBlockCache = [])
    (hcache : ∀ j, (s.half j).cache = Sic.build (rs j)) (e : BitVec 32) (he : s.bufferBlockExpectedSequenceNumber = e) :
    ∃ s', receiveAll cfg
        [(env, packet 0x88 cc n (blockPayload cfg.version (e + 1) b.half b.index b.content)),
         (env, packet 0x88 cc n (blockPayload cfg.version e a.half a.index a.content))] s = .ok s' ∧
      s'.log = s.log ++ [.sent ([0, 0, 0, 5, 8] ++ beBytes 4 (e + 1).toNat), .sent ([0, 0, 0, 5, 8] ++ beBytes 4 e.toNat),
        .newBufferBlocks [⟨sigOf (rs (blockHalf cfg.version a.half)) a.index, none⟩, ⟨Guid.empty, none⟩, ⟨Guid.empty, none⟩]] ∧
      s'.bufferBlockExpectedSequenceNumber = e + 1 := by
  have hne : ¬ e + 1 = s.bufferBlockExpectedSequenceNumber := by
    rw [he]; intro h
    have := congrArg BitVec.toNat h
    simp [BitVec.toNat_add] at this
    have := e.isLt
    omega
  have hsub : e + 1 - e = 1 := by
    apply BitVec.eq_of_toNat_eq
    simp [BitVec.toNat_sub, BitVec.toNat_add]
    have := e.isLt
    omega
  obtain ⟨s1, h1, h2, h3, h4, h5⟩ := block_step cfg env s hv hc hw (by rw [NoContent, hempty]; simp) cc n (e + 1) b.half b.index
    b.content _ (hcache _)
  rw [if_neg hne, hempty, he, hsub] at h5
  obtain ⟨h5, h6, h7⟩ := h5
  have h6' : s1.bufferBlockCache = [BufferBlock.zero, ⟨sigOf (rs (blockHalf cfg.version b.half)) b.index, none⟩] := by
    rw [h6]; rfl
  obtain ⟨s2, g1, g2, g3, g4, g5⟩ := block_step cfg env s1 h2 h3 hw (by
      rw [NoContent, h6']
      intro x hx
      simp only [List.mem_cons, List.not_mem_nil, or_false] at hx
      rcases hx with rfl | rfl <;> rfl) cc n e a.half a.index a.content _ (by rw [h4]; exact hcache _)
  rw [if_pos h5.symm, h6', h5] at g5
  obtain ⟨g5, g6, g7⟩ := g5
  refine ⟨s2, ?_, ?_, g5⟩
  · rw [receiveAll, h1, Res.bind_ok, receiveAll, g1, Res.bind_ok, receiveAll]
  · rw [g7, h7, List.append_assoc]
    rfl

/-- C29 fails for repeated blocks: when the block before the expected one arrives once more, the cache grows to 2^32 entries
(it takes 40 bytes for each). -/
theorem C29_repeated_false (cfg : Cfg) (env : Env) (hw : env.writeOk = true) (rs : Bool → List Sic.Rec) (b : SentBlock)
    (cc : Byte) (n : Nat) (s : St)
    (hv : s.validated = true) (hc : s.connected = true) (hempty : s.bufferBlockCache = [])
    (hcache : ∀ j, (s.half j).cache = Sic.build (rs j)) (e : BitVec 32) (he : s.bufferBlockExpectedSequenceNumber = e) :
    ∃ s', receive cfg env (packet 0x88 cc n (blockPayload cfg.version (e - 1) b.half b.index b.content)) s = .ok s' ∧
      s'.bufferBlockCache.length = 2 ^ 32 := by
  have hne : ¬ e - 1 = s.bufferBlockExpectedSequenceNumber := by
    rw [he]; intro h
    have := congrArg BitVec.toNat h
    simp [BitVec.toNat_sub] at this
    have := e.isLt
    omega
  have hsub : (e - 1 - e).toNat = 2 ^ 32 - 1 := by
    simp [BitVec.toNat_sub]
    have := e.isLt
    omega
  obtain ⟨s1, h1, h2, h3, h4, h5⟩ := block_step cfg env s hv hc hw (by rw [NoContent, hempty]; simp) cc n (e - 1) b.half b.index
    b.content _ (hcache _)
  rw [if_neg hne, hempty, he, hsub] at h5
  obtain ⟨h5, h6, h7⟩ := h5
  refine ⟨s1, h1, ?_⟩
  rw [h6, List.length_set, List.nil_append, List.length_replicate, List.length_nil]
  omega

/-- Blocks as they arrive, with whatever numbers. -/
structure BlockArrival where
  env : Env
  cc : Byte
  n : Nat
  seq : BitVec 32
  block : SentBlock

/-- The packet of a block. -/
def BlockArrival.packet (version : Byte) (a : BlockArrival) : Env × List Byte :=
  (a.env, Session.packet 0x88 a.cc a.n (blockPayload version a.seq a.block.half a.block.index a.block.content))

/-- What happens outside when blocks arrive, the number expected being `e` and the cache `k` long: each is confirmed; the expected one is
handed over with as many made-up empty blocks behind it as the cache is long; no other is ever handed over. -/
def blockArrivalEvents (version : Byte) (rs : Bool → List Sic.Rec) : BitVec 32 → Nat → List BlockArrival → List Event
  | _, _, [] => []
  | e, k, a :: rest =>
    .sent ([0, 0, 0, 5, 8] ++ beBytes 4 a.seq.toNat) ::
      if a.seq = e then
        .newBufferBlocks (⟨sigOf (rs (blockHalf version a.block.half)) a.block.index, none⟩ :: List.replicate k BufferBlock.zero) ::
          blockArrivalEvents version rs (e + 1) (k - 1) rest
      else blockArrivalEvents version rs e (max k ((a.seq - e).toNat + 1)) rest

theorem noContent_set {bs : List BufferBlock} (h : ∀ b ∈ bs, b.buffer = none) (n i : Nat) (g : Guid) :
    ∀ b ∈ (bs ++ List.replicate n BufferBlock.zero).set i ⟨g, none⟩, b.buffer = none := by
  intro b hb
  rcases List.mem_or_eq_of_mem_set hb with hb | rfl
  · rcases List.mem_append.1 hb with hb | hb
    · exact h b hb
    · rw [List.eq_of_mem_replicate hb]
      rfl
  · rfl

/-- **C29 for blocks in any order, repeated, or with numbers left out**: exactly what is confirmed and handed over. -/
theorem C29_any_order (cfg : Cfg) (rs : Bool → List Sic.Rec) (as : List BlockArrival) (s : St) (hv : s.validated = true) (hc : s.connected = true)
    (hn : ∀ b ∈ s.bufferBlockCache, b.buffer = none) (hcache : ∀ j, (s.half j).cache = Sic.build (rs j)) (hw : ∀ a ∈ as, a.env.writeOk = true) :
    ∃ s', receiveAll cfg (as.map (BlockArrival.packet cfg.version)) s = .ok s' ∧
      s'.log = s.log ++ blockArrivalEvents cfg.version rs s.bufferBlockExpectedSequenceNumber s.bufferBlockCache.length as := by
  induction as generalizing s with
  | nil => exact ⟨s, rfl, by simp [blockArrivalEvents]⟩
  | cons a as ih =>
    obtain ⟨s1, h1, h2, h3, h4, h5⟩ := block_step cfg a.env s hv hc (hw a (by simp)) hn a.cc a.n a.seq a.block.half a.block.index
      a.block.content _ (hcache _)
    by_cases he : a.seq = s.bufferBlockExpectedSequenceNumber
    · rw [if_pos he] at h5
      obtain ⟨h5, h6, h7⟩ := h5
      obtain ⟨s2, g1, g2⟩ := ih s1 h2 h3 (by rw [h6]; exact fun b hb => hn b (List.mem_of_mem_drop hb)) (fun j => by rw [h4, hcache])
        (fun b hb => hw b (by simp [hb]))
      refine ⟨s2, ?_, ?_⟩
      · rw [List.map_cons, BlockArrival.packet, receiveAll, h1, Res.bind_ok, g1]
      · rw [g2, h7, h5, h6, List.length_drop, blockArrivalEvents, if_pos he, List.append_assoc]
        rfl
    · rw [if_neg he] at h5
      obtain ⟨h5, h6, h7⟩ := h5
      obtain ⟨s2, g1, g2⟩ := ih s1 h2 h3 (by rw [h6]; exact noContent_set hn _ _ _) (fun j => by rw [h4, hcache])
        (fun b hb => hw b (by simp [hb]))
      refine ⟨s2, ?_, ?_⟩
      · rw [List.map_cons, BlockArrival.packet, receiveAll, h1, Res.bind_ok, g1]
      · have hlen : s1.bufferBlockCache.length = max s.bufferBlockCache.length ((a.seq - s.bufferBlockExpectedSequenceNumber).toNat + 1) := by
          rw [h6, List.length_set, List.length_append, List.length_replicate]
          omega
        rw [g2, h7, h5, hlen, blockArrivalEvents, if_neg he, List.append_assoc]
        rfl

/-- The blocks handed over are those that arrive when expected: with made-up ones between them, but never another one. -/
theorem blockArrivalEvents_delivered (version : Byte) (rs : Bool → List Sic.Rec) : ∀ (as : List BlockArrival) (e : BitVec 32) (k : Nat),
    ∀ bs ∈ deliveredBlocks (blockArrivalEvents version rs e k as), ∃ a ∈ as, ∃ j,
      bs = ⟨sigOf (rs (blockHalf version a.block.half)) a.block.index, none⟩ :: List.replicate j BufferBlock.zero
  | [], _, _, bs, h => by simp [blockArrivalEvents, deliveredBlocks] at h
  | a :: as, e, k, bs, h => by
    rw [blockArrivalEvents] at h
    by_cases he : a.seq = e
    · rw [if_pos he] at h
      have : deliveredBlocks (.sent ([0, 0, 0, 5, 8] ++ beBytes 4 a.seq.toNat) ::
          .newBufferBlocks (⟨sigOf (rs (blockHalf version a.block.half)) a.block.index, none⟩ :: List.replicate k BufferBlock.zero) ::
          blockArrivalEvents version rs (e + 1) (k - 1) as) =
          (⟨sigOf (rs (blockHalf version a.block.half)) a.block.index, none⟩ :: List.replicate k BufferBlock.zero) ::
          deliveredBlocks (blockArrivalEvents version rs (e + 1) (k - 1) as) := by simp [deliveredBlocks]
      rw [this] at h
      rcases List.mem_cons.1 h with rfl | h
      · exact ⟨a, by simp, k, rfl⟩
      · obtain ⟨b, hb, j, hj⟩ := blockArrivalEvents_delivered version rs as _ _ bs h
        exact ⟨b, by simp [hb], j, hj⟩
    · rw [if_neg he] at h
      have : deliveredBlocks (.sent ([0, 0, 0, 5, 8] ++ beBytes 4 a.seq.toNat) :: blockArrivalEvents version rs e (max k ((a.seq - e).toNat + 1)) as) =
          deliveredBlocks (blockArrivalEvents version rs e (max k ((a.seq - e).toNat + 1)) as) := by simp [deliveredBlocks]
      rw [this] at h
      obtain ⟨b, hb, j, hj⟩ := blockArrivalEvents_delivered version rs as _ _ bs h
      exact ⟨b, by simp [hb], j, hj⟩

/-- Blocks 2, 0, 1, 2 where 0 is expected: the first of the two numbered 2 is confirmed and never handed over. -/
example (rs : Bool → List Sic.Rec) (env : Env) (a b c d : SentBlock) :
    deliveredBlocks (blockArrivalEvents 2 rs 0 0 [⟨env, 0, 0, 2, a⟩, ⟨env, 0, 0, 0, b⟩, ⟨env, 0, 0, 1, c⟩, ⟨env, 0, 0, 2, d⟩]) =
      [[⟨sigOf (rs (blockHalf 2 b.half)) b.index, none⟩, BufferBlock.zero, BufferBlock.zero, BufferBlock.zero],
       [⟨sigOf (rs (blockHalf 2 c.half)) c.index, none⟩, BufferBlock.zero, BufferBlock.zero],
       [⟨sigOf (rs (blockHalf 2 d.half)) d.index, none⟩, BufferBlock.zero]] := by
  simp [blockArrivalEvents, deliveredBlocks, List.replicate_succ]

/-- A case meeting the hypotheses of the theorems about C29. -/
example : exSt.validated = true ∧ exSt.connected = true ∧ exSt.bufferBlockCache = [] ∧
    ∃ rs : Bool → List Sic.Rec, ∀ j, (exSt.half j).cache = Sic.build (rs j) :=
  ⟨rfl, rfl, rfl, fun j => if j then [] else Sic.exRecs, fun j => by cases j <;> rfl⟩

/-! ## C30 -/

/-- C30: after any packets, a buffer block or a notification that is processed at all (on an open connection, the write
succeeding) is answered with exactly one command: ConfirmBufferBlock (8) or ConfirmNotification (7), with exactly the first
four payload bytes of the response. Missing from the full statement: responses too short to have a token, which end the
program (`C30_short_panics`). -/
theorem C30_tokens_partial (cfg : Cfg) (ps : List (Env × List Byte)) (s0 s s' : St)
    (hn : ∀ b ∈ s0.bufferBlockCache, b.buffer = none) (hps : receiveAll cfg ps s0 = .ok s)
    (hv : s0.validated = true) (hc : s0.connected = true) (env : Env) (hw : env.writeOk = true) (rc cc : Byte) (n : Nat)
    (data : List Byte) (hrc : rc = 0x88 ∨ rc = 0x89) (h : receive cfg env (packet rc cc n data) s = .ok s') :
    4 ≤ data.length ∧ ∃ es, s'.log = s.log ++ es ∧
      sentCommands es = [[0, 0, 0, 5, if rc = 0x88 then 8 else 7] ++ data.take 4] := by
  have hn1 := (receiveAll_noContent hps hn).1
  have hv1 := receiveAll_validated hps hv
  have hc1 : s.connected = true := (receiveAll_connected hps).trans hc
  rcases hrc with rfl | rfl
  · rw [receive_block _ _ _ _ _ _ hv1] at h
    obtain ⟨hl, h⟩ := handleBufferBlock_cases h
    refine ⟨hl, ?_⟩
    dsimp only at h
    have hsend := send_ok (env := env) (c := cmdConfirmBufferBlock) (p := data.take 4) (s := s.seen data) hc1 hw
      (by simp; omega)
    rw [if_pos rfl]
    rcases h with ⟨g, b, hx, -⟩ | ⟨-, s1, _, _, _, g, h1, -, -, -, ⟨-, h⟩ | ⟨-, h⟩⟩
    · have := hn1 _ (List.mem_of_getElem? (show s.bufferBlockCache[_]? = some ⟨g, some b⟩ from hx))
      cases this
    · rw [hsend] at h1
      injection h1 with h1
      generalize (_ :: publishable _ ++ List.replicate _ _ : List BufferBlock) = bs at h
      refine ⟨[.sent ([0, 0, 0, 5, 8] ++ data.take 4), .newBufferBlocks bs], ?_, rfl⟩
      rw [h, ← h1]
      simp [St.emit, St.seen, St.counted, cmdConfirmBufferBlock]
    · rw [hsend] at h1
      injection h1 with h1
      refine ⟨[.sent ([0, 0, 0, 5, 8] ++ data.take 4)], ?_, rfl⟩
      rw [h, ← h1]
      simp [St.emit, St.seen, St.counted, cmdConfirmBufferBlock]
  · rw [receive_notify _ _ _ _ _ _ hv1] at h
    unfold handleNotification at h
    split at h
    · cases h
    · rename_i hl
      refine ⟨by omega, ?_⟩
      dsimp only at h
      rw [send_ok (env := env) (c := cmdConfirmNotification) (p := data.take 4)
        (s := ((s.seen data).emit .status).emit (.notification (data.drop 4))) hc1 hw (by simp; omega)] at h
      injection h with h
      refine ⟨[.status, .notification (data.drop 4), .sent ([0, 0, 0, 5, 7] ++ data.take 4)], ?_, ?_⟩
      · rw [← h]; simp [St.emit, St.seen, St.counted, cmdConfirmNotification]
      · rw [if_neg (by decide)]; rfl

/-- No other response is confirmed with one of these commands: whatever else is received, all that is ever sent in answer is
the confirmation of a cache update (command 10). -/
theorem C30_nothing_else (cfg : Cfg) (env : Env) (rc cc : Byte) (n : Nat) (data : List Byte) (s s' : St)
    (hrc : rc ≠ 0x88 ∧ rc ≠ 0x89) (h : receive cfg env (packet rc cc n data) s = .ok s') :
    ∀ b, Event.sent b ∈ s'.log → Event.sent b ∈ s.log ∨ b = [0, 0, 0, 1, 0x0A] := by
  have hbody : packet rc cc n data = rc :: cc :: (beBytes 4 n ++ data) := rfl
  have hfail : ∀ t : St, ∀ b, Event.sent b ∈ t.fail.log → Event.sent b ∈ t.log := by
    intro t b hb; simpa [St.fail, St.emit] using hb
  intro b hb
  rcases receive_cases h with ⟨-, -, -, h1⟩ | ⟨rc', cc', rest, hbody', -, ⟨-, h1⟩ | ⟨-, h1⟩⟩
  · rw [h1] at hb; exact Or.inl (hfail _ b hb)
  · rw [h1] at hb; exact Or.inl (hfail _ b hb)
  · rw [hbody] at hbody'
    injection hbody' with hr _
    subst hr
    cases h1 with
    | data _ h =>
      left
      rcases handleDataPacket_cases h with h | ⟨flags, rest, payload, count, ms, s1, -, -, -, hparse, -, ho, h⟩
      · rw [h] at hb; exact hfail _ b hb
      · rw [h] at hb
        have hb1 : Event.sent b ∈ s1.log := by simpa [St.emit] using hb
        have := parse_sent hparse b hb1
        exact this
    | cache _ h =>
      rcases handleUpdateSignalIndexCache_cases h with ⟨g, h⟩ | ⟨i, payload, plain, sub, cache, s1, -, -, -, h1, h⟩
      · rw [h] at hb; left; simpa [St.emit, St.counted] using hb
      · rw [h] at hb
        have hb1 : Event.sent b ∈ s1.log := by simpa [St.emit] using hb
        have hlog : ∀ t : St, ({ (t.setHalf i ⟨cache, none⟩) with cacheIndex := i } : St).log = t.log := by
          intro t; cases i <;> rfl
        by_cases hv : cfg.version > 1
        · rw [if_pos hv] at h1
          rcases send_sent h1 b hb1 with h2 | h2
          · left; rw [hlog] at h2; exact h2
          · right; rw [h2]; rfl
        · rw [if_neg hv] at h1
          rw [h1, hlog] at hb1
          exact Or.inl hb1
    | times _ h =>
      obtain ⟨-, h⟩ := handleUpdateBaseTimes_cases h
      rw [h] at hb; left; simpa [St.emit, St.counted] using hb
    | block hr _ => exact absurd hr hrc.1
    | notify hr _ => exact absurd hr hrc.2
    | other _ _ _ _ _ _ hs => exact Or.inl (hs b hb)

/-- C30 fails for responses too short to hold a token: fewer than four payload bytes end the program. -/
theorem C30_short_panics (cfg : Cfg) (env : Env) (s : St) (hv : s.validated = true) (rc cc : Byte) (n : Nat)
    (data : List Byte) (hrc : rc = 0x88 ∨ rc = 0x89) (hd : data.length < 4) :
    receive cfg env (packet rc cc n data) s = .panic := by
  rcases hrc with rfl | rfl
  · rw [receive_block _ _ _ _ _ _ hv]
    unfold handleBufferBlock readBE
    rw [if_neg (by omega), Res.bind_panic]
  · rw [receive_notify _ _ _ _ _ _ hv]
    unfold handleNotification
    rw [if_pos hd]

/-- A case meeting the hypotheses of `C30_tokens_partial`: a buffer block out of order, then a notification. -/
example : ∃ s s', receiveAll exCfg [(⟨true, none⟩, packet 0x88 0 0 (blockPayload 2 3 0 7 [1, 2]))] exSt = .ok s ∧
    receive exCfg ⟨true, none⟩ (packet 0x89 0 0 [9, 8, 7, 6, 65]) s = .ok s' ∧
    (∀ b ∈ exSt.bufferBlockCache, b.buffer = none) ∧ exSt.validated = true ∧ exSt.connected = true :=
  ⟨_, _, rfl, rfl, by simp [exSt, establish, setupConnection, St.new], rfl, rfl⟩

/-- A case meeting the hypotheses of `C30_nothing_else` and `C30_short_panics`. -/
example : ((0x83 : Byte) ≠ 0x88 ∧ (0x83 : Byte) ≠ 0x89) ∧ ([1, 2, 3] : List Byte).length < 4 := by decide

end Verif.Session
