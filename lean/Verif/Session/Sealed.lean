import Verif.Session.PublishProps
import Verif.Lib.AesProps

/-!
# C129: enciphered data packets

`C63` and `C106` hold for every cipher. Here the cipher is AES in cipher block chaining mode (`Lib.Aes`, transport/Common.go L36-49): what a publisher
enciphers with the keys it announced is received as the plain packet would be. AES takes whole blocks of 16 bytes, so a publisher pads; `decipherAES` does
not remove the padding, it stays behind the measurements.
-/

namespace Verif.Tssc

/-- The bits of a byte, most significant first. -/
def byteBits (b : Byte) : List Bool := (List.range 8).map fun i => b.getLsbD (7 - i)

theorem packNat_append : ∀ (n : Nat) (l m : List Bool), n ≤ l.length → packNat n (l ++ m) = packNat n l
  | 0, _, _, _ => by simp [packNat]
  | n + 1, [], _, h => by simp at h
  | n + 1, b :: l, m, h => by
    rw [List.cons_append, packNat, packNat, packNat_append n l m (by simpa using h)]

theorem packNat_bits : ∀ b : Byte, BitVec.ofNat 8 (packNat 8 (byteBits b)) = b := by decide +kernel

theorem tokBits_bits (l : List Bool) : tokBits (l.map .bit) = l := by
  induction l with
  | nil => rfl
  | cons a l ih => simp [tokBits, ih]

theorem layout_tail (tail : List Byte) : layout 0 ((tail.flatMap byteBits).map .bit) = tail := by
  induction tail with
  | nil => rfl
  | cons b tail ih =>
    obtain ⟨b0, b1, b2, b3, b4, b5, b6, b7, hb⟩ : ∃ b0 b1 b2 b3 b4 b5 b6 b7, byteBits b = [b0, b1, b2, b3, b4, b5, b6, b7] := ⟨_, _, _, _, _, _, _, _, rfl⟩
    have h := packNat_bits b
    rw [List.flatMap_cons, List.map_append, hb]
    rw [hb] at h
    have e : layout 0 (List.map Tok.bit [b0, b1, b2, b3, b4, b5, b6, b7] ++ List.map Tok.bit (List.flatMap byteBits tail)) =
        BitVec.ofNat 8 (packNat 8 ([b0, b1, b2, b3, b4, b5, b6, b7] ++ tokBits (List.map Tok.bit (List.flatMap byteBits tail)))) ::
          layout 0 (List.map Tok.bit (List.flatMap byteBits tail)) := rfl
    rw [e, packNat_append _ _ _ (by simp), h, ih]

theorem layout_append : ∀ (t : List Tok) (n : Nat) (tail : List Byte), (tokBits t).length % 8 = n →
    layout n (t ++ (tail.flatMap byteBits).map .bit) = layout n t ++ tail
  | [], n, tail, h => by
    obtain rfl : n = 0 := by simpa [tokBits] using h.symm
    rw [List.nil_append, layout_tail]; rfl
  | .byte b :: t, n, tail, h => by
    rw [List.cons_append, layout, layout, layout_append t n tail (by simpa [tokBits] using h), List.cons_append]
  | .bit b :: t, 0, tail, h => by
    simp only [tokBits, List.length_cons] at h
    have h7 : (tokBits t).length % 8 = 7 := by omega
    rw [List.cons_append, layout, layout, layout_append t 7 tail h7, tokBits_append, tokBits_bits]
    have e := packNat_append 8 (b :: tokBits t) (tail.flatMap byteBits) (by simp only [List.length_cons]; omega)
    rw [List.cons_append] at e
    rw [e, List.cons_append]
  | .bit b :: t, n + 1, tail, h => by
    simp only [tokBits, List.length_cons] at h
    rw [List.cons_append, layout, layout, layout_append t n tail (by omega)]

/-- Bytes after the end code word are further padding: the publisher might as well have sent them. -/
theorem sendBlock_padded (q p : Pub) (items : List (Meas × Choice)) (pad : List Bool) (data tail : List Byte)
    (h : q.sendBlock ⟨items, .endCode pad⟩ = some (data, p)) :
    q.sendBlock ⟨items, .endCode (pad ++ tail.flatMap byteBits)⟩ = some (data ++ tail, p) := by
  simp only [Pub.sendBlock, Option.bind_eq_bind, Option.bind_eq_some_iff] at h ⊢
  obtain ⟨⟨t1, s1⟩, h1, ⟨t2, s2⟩, h2, h⟩ := h
  simp only [Option.some.injEq, Prod.mk.injEq] at h
  obtain ⟨rfl, rfl⟩ := h
  simp only [Pub.finish, Option.bind_eq_bind, Option.bind_eq_some_iff] at h2
  obtain ⟨⟨tE, sE⟩, he, h2⟩ := h2
  split at h2
  · rename_i hal
    simp only [Option.some.injEq, Prod.mk.injEq] at h2
    obtain ⟨rfl, rfl⟩ := h2
    refine ⟨_, h1, (t1 ++ tE ++ pad.map .bit ++ (tail.flatMap byteBits).map .bit, sE), ?_, ?_⟩
    · simp only [Pub.finish, Option.bind_eq_bind, Option.bind_eq_some_iff]
      refine ⟨_, he, ?_⟩
      have hl : ∀ l : List Byte, (l.flatMap byteBits).length % 8 = 0 := by
        intro l
        induction l with
        | nil => rfl
        | cons b l ih =>
          rw [List.flatMap_cons, List.length_append, show (byteBits b).length = 8 from rfl]; omega
      have hal2 : (tokBits (t1 ++ tE ++ (pad ++ tail.flatMap byteBits).map .bit)).length % 8 = 0 := by
        rw [List.map_append, ← List.append_assoc, tokBits_append, List.length_append, tokBits_bits]
        have := hl tail
        dsimp only at hal
        omega
      rw [if_pos hal2, List.map_append, List.append_assoc (t1 ++ tE)]
    · simp only [Option.some.injEq, Prod.mk.injEq, and_true]
      exact layout_append _ 0 tail hal
  · cases h2

end Verif.Tssc

namespace Verif.Session

open Lib.Aes (KeyOk encipher)

/-- Keys and initialisation vectors that AES can be used with. -/
structure KeyIVs.Ok (k : KeyIVs) : Prop where
  evenKey : KeyOk k.evenKey
  evenIV : k.evenIV.length = 16
  oddKey : KeyOk k.oddKey
  oddIV : k.oddIV.length = 16

/-- What a publisher sends for `plain` in a packet with these flags. -/
def sealed (k : KeyIVs) (flags : Byte) (plain : List Byte) : List Byte :=
  if flags.getLsbD 2 then encipher k.oddKey k.oddIV plain else encipher k.evenKey k.evenIV plain

theorem plaintext_sealed (k : KeyIVs) (hk : k.Ok) (flags : Byte) (plain : List Byte) (h : plain.length % 16 = 0) :
    plaintext Lib.Aes.decipherAES (some k) flags (sealed k flags plain) = .ok plain := by
  unfold plaintext sealed
  dsimp only
  cases flags.getLsbD 2
  · exact (Lib.Aes.C129_roundtrip _ _ _ hk.evenKey hk.evenIV h).1
  · exact (Lib.Aes.C129_roundtrip _ _ _ hk.oddKey hk.oddIV h).1

/-- C129: with AES keys announced, a publisher may send any compact packet, padded to whole blocks with any bytes and enciphered, and any TSSC block that
ends with the end code word, padded and enciphered in the same way: these are packets of `Sends`, so that by `C106_published_is_received` exactly their
measurements are handed out. -/
theorem C129_sealed_may_be_sent_partial (cfg : Cfg) (hcfg : cfg.decipherAES = Lib.Aes.decipherAES) (t : Told) (k : KeyIVs) (hk : k.Ok) (ht : t.keys = some k)
    (cc : Byte) (n : Nat) (flags : Byte) (rs : List Sic.Rec) (hc : t.cache (flags.getLsbD 4) = some rs) (tail : List Byte) :
    (∀ es : List Entry, flags.getLsbD 1 = true → flags.getLsbD 3 = false → rs ≠ [] → es.length < 2 ^ 32 → (∀ e ∈ es, e.Fits cfg t.times) →
      ∀ plain, plain = beBytes 4 es.length ++ ((es.map (Entry.bytes cfg.useMillisecondResolution)).flatten ++ tail) → plain.length % 16 = 0 →
      Sends cfg t (packet 0x82 cc n (flags :: sealed k flags plain)) [es.map (Entry.meaning rs cfg.useMillisecondResolution t.times)] t) ∧
    (∀ (items : List (Tssc.Meas × Tssc.Choice)) (pad : List Bool) (data : List Byte) (j : Nat) (q p : Tssc.Pub), flags.getLsbD 3 = true →
      items.length < 2 ^ 32 → (j = 0 ∧ q = Tssc.Pub.new ∨ t.run (flags.getLsbD 4) = some (j, q)) → q.sendBlock ⟨items, .endCode pad⟩ = some (data, p) →
      ∀ plain, plain = beBytes 4 items.length ++ tsscPayload (blockNumber j) (data ++ tail) → plain.length % 16 = 0 →
      Sends cfg t (packet 0x82 cc n (flags :: sealed k flags plain)) [items.map fun x => expected rs x.1]
        { t with run := Function.update t.run (flags.getLsbD 4) (some (j + 1, p)) }) := by
  refine ⟨fun es h1 h3 hrs hl hes plain hp hm => ?_, fun items pad data j q p h3 hl hj hb plain hp hm => ?_⟩
  · refine Sends.compact t cc n flags _ rs es tail h1 h3 hc hrs hl hes ?_
    rw [hcfg, ht, plaintext_sealed k hk flags plain hm, hp]
  · have hb' := Tssc.sendBlock_padded q p items pad data tail hb
    have hpl : plaintext cfg.decipherAES t.keys flags (sealed k flags plain) =
        .ok (beBytes 4 items.length ++ tsscPayload (blockNumber j) (data ++ tail)) := by
      rw [hcfg, ht, plaintext_sealed k hk flags plain hm, hp]
    rcases hj with ⟨rfl, rfl⟩ | hj
    · exact Sends.first t cc n flags _ rs ⟨items, .endCode (pad ++ tail.flatMap Tssc.byteBits)⟩ (data ++ tail) p h3 hc hl hb' hpl
    · exact Sends.next t cc n flags _ rs ⟨items, .endCode (pad ++ tail.flatMap Tssc.byteBits)⟩ (data ++ tail) j q p h3 hc hl hj hb' hpl

/-- A block of one measurement that ends with a whole byte. -/
def exAligned : Tssc.Block := ⟨Tssc.bestItems Tssc.Pub.new [⟨1, 1000, 0, 5⟩], .aligned⟩

/-- Its bytes. -/
def exAlignedData : List Byte := [1, 17, 17, 232, 7, 133]

theorem exAligned_data : ∃ p, Tssc.Pub.new.sendBlock exAligned = some (exAlignedData, p) := by
  have h : (Tssc.Pub.new.sendBlock exAligned).map Prod.fst = some exAlignedData := by decide +kernel
  obtain ⟨x, h1, h2⟩ := Option.map_eq_some_iff.mp h
  exact ⟨x.2, by rw [h1, ← h2]⟩

/-- C129 fails for blocks without the end code word: a block whose bits fill whole bytes needs none, and decodes without it (C13). Padded by three bytes 3
(PKCS #7) and enciphered, its padding is decoded as two more measurements. The slice has room for one: every subscriber, whatever its state, panics. -/
theorem C129_padding_panics (cfg : Cfg) (hcfg : cfg.decipherAES = Lib.Aes.decipherAES) (env : Env) (k : KeyIVs) (hk : k.Ok) (s : St)
    (hv : s.validated = true) (hs : s.keyIVs = some k) (cc : Byte) (n : Nat) (flags : Byte) (h3 : flags.getLsbD 3 = true) :
    (∃ p, Tssc.Pub.new.sendBlock exAligned = some (exAlignedData, p)) ∧ exAligned.items.length = 1 ∧
    receive cfg env (packet 0x82 cc n (flags :: sealed k flags (beBytes 4 1 ++ tsscPayload 0 (exAlignedData ++ [3, 3, 3])))) s = .panic := by
  refine ⟨exAligned_data, by decide +kernel, ?_⟩
  have hpl : plaintext cfg.decipherAES s.keyIVs flags (sealed k flags (beBytes 4 1 ++ tsscPayload 0 (exAlignedData ++ [3, 3, 3]))) =
      .ok (beBytes 4 1 ++ tsscPayload 0 (exAlignedData ++ [3, 3, 3])) := by
    rw [hcfg, hs]
    exact plaintext_sealed k hk flags _ (by decide)
  rw [receive_sealed cfg env cc n flags _ 1 _ s hv hpl]
  have hdec : (Tssc.decodeBlock Tssc.newDecoder (exAlignedData ++ [3, 3, 3])).1.length = 3 := by decide +kernel
  have hp : receive cfg env (packet 0x82 cc n (dataPayload flags 1 (tsscPayload 0 (exAlignedData ++ [3, 3, 3])))) { s with keyIVs := none } = .panic := by
    rw [receive_data _ _ _ _ _ _ (show St.validated { s with keyIVs := none } = true from hv), handleData_payload _ _ _ _ _ (St.seen _ _) rfl (by decide) (Or.inl h3),
      if_pos h3, parseTSSC_payload _ 0 (by decide)]
    generalize (St.half _ _).cache = c
    obtain ⟨p1, p2, -⟩ := tsscPrepare_spec (flags.getLsbD 4) (BitVec.ofNat 16 0)
      (St.seen { s with keyIVs := none } (dataPayload flags 1 (tsscPayload 0 (exAlignedData ++ [3, 3, 3]))))
    generalize tsscPrepare (flags.getLsbD 4) (BitVec.ofNat 16 0)
      (St.seen { s with keyIVs := none } (dataPayload flags 1 (tsscPayload 0 (exAlignedData ++ [3, 3, 3])))) = p at *
    obtain ⟨pd, pn, ps⟩ := p
    dsimp only at p1 p2
    rw [if_pos (show BitVec.ofNat 16 0 = 0 from rfl)] at p1 p2
    unfold tsscBody
    dsimp only
    rw [p1, p2, if_neg (by simp)]
    rw [if_pos (by rw [sliceFor_length, hdec]; decide)]
    rfl
  rw [hp]
  rfl

/-- C129: with keys announced, a data packet of any content that is not whole blocks, or that comes when the initialisation vector is not of 16 bytes, makes the
subscriber panic; a key of another length than 16, 24 or 32 bytes ends the connection. -/
theorem C129_lengths (cfg : Cfg) (hcfg : cfg.decipherAES = Lib.Aes.decipherAES) (env : Env) (k : KeyIVs) (s : St)
    (hv : s.validated = true) (hs : s.keyIVs = some k) (cc : Byte) (n : Nat) (flags : Byte) (hf : flags.getLsbD 3 = true ∨ flags.getLsbD 1 = true)
    (enc : List Byte) :
    let key := if flags.getLsbD 2 then k.oddKey else k.evenKey
    let iv := if flags.getLsbD 2 then k.oddIV else k.evenIV
    (KeyOk key → iv.length ≠ 16 ∨ enc.length % 16 ≠ 0 → receive cfg env (packet 0x82 cc n (flags :: enc)) s = .panic) ∧
    (¬ KeyOk key → receive cfg env (packet 0x82 cc n (flags :: enc)) s = .ok (s.seen (flags :: enc)).fail) := by
  intro key iv
  have hd : decipher cfg flags enc (s.seen (flags :: enc)) = Lib.Aes.decipherAES key iv enc := by
    rw [decipher_eq, hcfg, show (s.seen (flags :: enc)).keyIVs = some k from hs]
    unfold plaintext
    dsimp only [key, iv]
    cases flags.getLsbD 2 <;> rfl
  have h0 : (!flags.getLsbD 3 && !flags.getLsbD 1) = false := by rcases hf with h | h <;> simp [h]
  rw [receive_data _ _ _ _ _ _ hv]
  unfold handleDataPacket
  dsimp only
  rw [bitCompressed, bitCompact, h0, hd]
  obtain ⟨o1, o2, -⟩ := Lib.Aes.C129_outcomes key iv enc
  refine ⟨fun h1 h2 => ?_, fun h1 => ?_⟩
  · rw [o2.mpr ⟨h1, h2⟩]; rfl
  · rw [o1.mpr h1]; rfl

/-! ## Cases meeting the hypotheses -/

/-- AES with a key of 32 and one of 16 bytes. -/
def exCfgAes : Cfg := { exCfg with decipherAES := Lib.Aes.decipherAES }

def exKeys : KeyIVs := ⟨Lib.Aes.counting 32, Lib.Aes.counting 16, Lib.Aes.exPlain, Lib.Aes.counting 16⟩

theorem exKeys_ok : exKeys.Ok := by
  constructor <;> first | decide | (unfold KeyOk; decide)

/-- A cache, keys, an enciphered TSSC block with the even key, an enciphered compact packet with the odd key. -/
example : ∃ bodies outs t, outs.map List.length = [2, 1] ∧ bodies.length = 4 ∧ SendsAll exCfgAes Told.new bodies outs t := by
  refine ⟨_, _, _, ?_, ?_,
    SendsAll.cons (Sends.cache Told.new 2 0 1 Sic.gB Sic.exRecs _ (exCacheBytes exCfgAes rfl rfl))
    (SendsAll.cons (Sends.keys _ 4 0 0 exKeys (by decide))
    (SendsAll.cons ((C129_sealed_may_be_sent_partial exCfgAes rfl _ exKeys exKeys_ok rfl 2 0 0x18 Sic.exRecs rfl (List.replicate 14 14)).2
      exBlock.items _ exData 0 Tssc.Pub.new exPub1 (by decide) (by decide +kernel) (Or.inl ⟨rfl, rfl⟩) exBlock_first _ rfl (by decide +kernel))
    (SendsAll.cons ((C129_sealed_may_be_sent_partial exCfgAes rfl _ exKeys exKeys_ok rfl 2 0 0x16 Sic.exRecs rfl (List.replicate 11 11)).1
      [.full ⟨0, 7, 5, 9000⟩] (by decide) (by decide) (by decide) (by decide) ?_ _ rfl (by decide +kernel))
    (SendsAll.nil _))))⟩
  · have h1 : exBlock.items.length = 2 := by decide +kernel
    simp only [List.nil_append, List.cons_append, List.map_cons, List.map_nil, List.length_map, h1, List.length_cons, List.length_nil]
  · rfl
  · intro e he
    simp only [List.mem_cons, List.not_mem_nil, or_false] at he
    subst he
    exact ⟨rfl, by decide⟩

example : ∃ s : St, s.validated = true ∧ s.keyIVs = some exKeys ∧ exKeys.Ok ∧ exCfgAes.decipherAES = Lib.Aes.decipherAES ∧
    (0x08 : Byte).getLsbD 3 = true ∧ ([1, 2, 3] : List Byte).length % 16 ≠ 0 ∧ KeyOk exKeys.evenKey ∧ ¬ KeyOk [1] :=
  ⟨{ exSt with keyIVs := some exKeys }, rfl, rfl, exKeys_ok, rfl, by decide, by decide, exKeys_ok.evenKey, by unfold KeyOk; decide⟩

end Verif.Session
