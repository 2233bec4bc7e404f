import Verif.Session.CacheProps
import Verif.Lib.InflateProps

/-!
# Compressed signal index caches and metadata (C130)
-/

namespace Verif.Session

open Verif.Guid (Guid)
open Verif.Lib

/-- A cache compressed in any way is the cache. -/
theorem cacheBytes_compressed {cfg : Cfg} (hz : cfg.gunzip = Gzip.decompressGZip) (hc : cfg.compressSignalIndexCache = true) {sub : Guid} {rs : List Sic.Rec}
    {z rest : List Byte} {size : Nat} (hs : size = (Sic.wireCache cfg.swapGuidEndianness size sub rs).length)
    (hl : (Sic.wireCache cfg.swapGuidEndianness size sub rs ++ rest).length < 2 ^ 32)
    (hf : Gzip.Rfc.File (Gzip.Rfc.bytes z) (Sic.wireCache cfg.swapGuidEndianness size sub rs ++ rest)) : CacheBytes cfg sub rs z := by
  refine ⟨size, rest, hs, hl, ?_⟩
  rw [if_pos hc, hz]
  exact (Gzip.C130_decompress _ _).mpr hf

/-- An update of the signal index cache, compressed as RFC 1951 and 1952 allow, by whatever program: the half it names becomes the cache that was
compressed, and the application is told. -/
theorem C130_cache_received (cfg : Cfg) (hz : cfg.gunzip = Gzip.decompressGZip) (hc : cfg.compressSignalIndexCache = true) (hver : 1 < cfg.version.toNat)
    (env : Env) (s : St) (hv : s.validated = true) (cc : Byte) (n : Nat) (b : Byte) (sub : Guid) (rs : List Sic.Rec) (z rest : List Byte) (size : Nat)
    (hs : size = (Sic.wireCache cfg.swapGuidEndianness size sub rs).length)
    (hl : (Sic.wireCache cfg.swapGuidEndianness size sub rs ++ rest).length < 2 ^ 32)
    (hf : Gzip.Rfc.File (Gzip.Rfc.bytes z) (Sic.wireCache cfg.swapGuidEndianness size sub rs ++ rest)) :
    ∃ s', receive cfg env (packet 0x83 cc n (b :: z)) s = .ok s' ∧ s'.half (decide (b ≠ 0)) = ⟨Sic.build rs, none⟩ ∧ s'.cacheIndex = decide (b ≠ 0) ∧
      s'.subscriberID = sub ∧ .subscriptionUpdated (Sic.build rs) ∈ s'.log.drop s.log.length := by
  obtain ⟨s', h1, h2, -, h4, h5, h6⟩ := C28_update cfg hver env s hv cc n b sub rs z (cacheBytes_compressed hz hc hs hl hf)
  refine ⟨s', h1, h2, h4, h5, ?_⟩
  rw [h6, List.append_assoc, List.drop_left' rfl]
  simp

/-- A compressed cache that is damaged, not complete, or no such file at all: the subscriber keeps what it had, and reports an error. -/
theorem C130_cache_refused (cfg : Cfg) (hz : cfg.gunzip = Gzip.decompressGZip) (hc : cfg.compressSignalIndexCache = true) (hver : 1 < cfg.version.toNat)
    (env : Env) (s : St) (hv : s.validated = true) (cc : Byte) (n : Nat) (b : Byte) (z : List Byte)
    (hf : ¬ ∃ text, Gzip.Rfc.File (Gzip.Rfc.bytes z) text) :
    ∃ s', receive cfg env (packet 0x83 cc n (b :: z)) s = .ok s' ∧ s'.half0 = s.half0 ∧ s'.half1 = s.half1 ∧ s'.cacheIndex = s.cacheIndex ∧
      s'.subscriberID = s.subscriberID ∧ s'.log = s.log ++ [.error] := by
  rw [receive_cache _ _ _ _ _ _ hv]
  unfold handleUpdateSignalIndexCache
  have hver' : cfg.version > 1 := hver
  simp only [if_pos hver', Res.bind_ok, if_pos hc, hz, (Gzip.C130_refused z).mpr hf]
  exact ⟨_, rfl, rfl, rfl, rfl, rfl, rfl⟩

/-- Compressed metadata: the application is given exactly what was compressed; bytes that are no such file are reported as an error, and no metadata is given
to the application. -/
theorem C130_metadata_received (cfg : Cfg) (hz : cfg.gunzip = Gzip.decompressGZip) (hc : cfg.compressMetadata = true) (env : Env) (s : St)
    (hv : s.validated = true) (n : Nat) (z : List Byte) :
    ∃ s', receive cfg env (packet 0x80 0x01 n z) s = .ok s' ∧
      (∀ text, Gzip.Rfc.File (Gzip.Rfc.bytes z) text → s'.log = s.log ++ [.status, .status, .metadata text]) ∧
      ((¬ ∃ text, Gzip.Rfc.File (Gzip.Rfc.bytes z) text) → s'.log = s.log ++ [.status, .error]) := by
  rw [receive_packet _ _ _ _ _ _ _ hv, if_pos (show (0x80 : Byte) = rspSucceeded from rfl)]
  unfold handleSucceeded
  rw [if_pos (show (0x01 : Byte) = cmdMetadataRefresh from rfl)]
  unfold handleMetadataRefresh
  rw [if_pos hc, hz]
  dsimp only
  cases hd : Gzip.decompressGZip z with
  | none =>
    refine ⟨_, rfl, fun text ht => ?_, fun _ => ?_⟩
    · rw [(Gzip.C130_decompress z text).mpr ht] at hd
      cases hd
    · simp [St.emit, St.seen, St.counted]
  | some text =>
    refine ⟨_, rfl, fun text' ht => ?_, fun h => absurd ⟨text, (Gzip.C130_decompress z text).mp hd⟩ h⟩
    rw [(Gzip.C130_decompress z text').mpr ht] at hd
    injection hd with hd
    subst hd
    simp [St.emit, St.seen, St.counted]

set_option maxRecDepth 10000

/-- A compressed cache: two signals. -/
def exCompressed : List Byte :=
  [31, 139, 8, 0, 0, 0, 0, 0, 2, 3, 99, 96, 96, 136, 222, 132, 6, 24, 24, 24, 152, 128, 152, 125, 33, 26, 0, 138, 49, 7, 248, 134, 50, 64, 0,
    15, 16, 115, 96, 209, 10, 3, 188, 0, 106, 248, 124, 200, 91, 0, 0, 0]

/-- Options with compression. -/
def exCfgZip : Cfg := ⟨2, true, true, false, true, false, Gzip.decompressGZip, fun _ _ d => .ok d⟩

theorem exCompressed_cache : Gzip.Rfc.File (Gzip.Rfc.bytes exCompressed) (Sic.wireCache exCfgZip.swapGuidEndianness 91 Sic.gB Sic.exRecs ++ []) :=
  (Gzip.C130_decompress _ _).mp (by decide +kernel)

/- The hypotheses are met by the compressed cache of two signals, and it is decoded; the same bytes as metadata. -/
example : ∃ s', receive exCfgZip ⟨true, none⟩ (packet 0x83 2 0 (1 :: exCompressed)) (establish (setupConnection St.new)) = .ok s' ∧
    s'.half true = ⟨Sic.build Sic.exRecs, none⟩ := by
  obtain ⟨s', h1, h2, -⟩ := C130_cache_received exCfgZip rfl rfl (by decide) ⟨true, none⟩ (establish (setupConnection St.new)) rfl 2 0 1 Sic.gB Sic.exRecs
    exCompressed [] 91 (by decide) (by decide) exCompressed_cache
  exact ⟨s', h1, h2⟩

example : ¬ ∃ text, Gzip.Rfc.File (Gzip.Rfc.bytes exCompressed.dropLast) text := (Gzip.C130_refused _).mp (by decide +kernel)

example : ∃ s', receive exCfgZip ⟨true, none⟩ (packet 0x80 0x01 0 Gzip.exStored) (establish (setupConnection St.new)) = .ok s' ∧
    .metadata [115, 116, 111, 114, 101, 100] ∈ s'.log := by
  obtain ⟨s', h1, h2, -⟩ := C130_metadata_received exCfgZip rfl rfl ⟨true, none⟩ (establish (setupConnection St.new)) rfl 0 Gzip.exStored
  refine ⟨s', h1, ?_⟩
  rw [h2 _ ((Gzip.C130_decompress _ _).mp Gzip.exStored_text)]
  simp

end Verif.Session
