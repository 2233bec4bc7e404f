import Verif.Sic.CutProps

/-!
# The binary length of a cache (C121)

`BinaryLength` (SignalIndexCache.go L150-153) is documented as the length of the cache in bytes.
-/

namespace Verif.Sic

open Verif.Guid (Guid)

/-- `BinaryLength` (SignalIndexCache.go L150-153) -/
def binaryLength (c : Cache) : BitVec 32 := c.binaryLength

theorem wireRecord_length (swap : Bool) (r : Rec) : (wireRecord swap r).length = 32 + r.source.length := by
  simp only [wireRecord, List.length_append, beBytes_length, wireGuid_length]
  omega

theorem wireCache_length (swap : Bool) (size : Nat) (sub : Guid) (rs : List Rec) :
    (wireCache swap size sub rs).length = 24 + (rs.flatMap (wireRecord swap)).length := by
  simp only [wireCache, List.length_append, beBytes_length, wireGuid_length]
  omega

theorem build_length (swap : Bool) (rs : List Rec) : binaryLength (build rs) = BitVec.ofNat 32 (rs.flatMap (wireRecord swap)).length := by
  unfold binaryLength
  induction rs using List.reverseRecOn with
  | nil => rfl
  | append_singleton rs r ih =>
    rw [build_append]
    show (build rs).binaryLength + (32 + BitVec.ofNat 32 r.source.length * 1#32) = _
    rw [ih, List.flatMap_append, List.length_append, List.flatMap_singleton, wireRecord_length, BitVec.ofNat_add, BitVec.ofNat_add, BitVec.mul_one]
    rfl

/-- **C121**: whatever bytes a cache was decoded from, its binary length is that of its records as received, which is that of the cache without the header
of 24 bytes (size, subscriber and count). Partial: the header is missing, so it is not the length of the cache (`C121_length_false`). -/
theorem C121_length_partial (swap : Bool) (b : List Byte) (hb : b.length < 2 ^ 32) (sub : Guid) (c : Cache) (h : decode swap b = .ok (sub, c)) :
    ∃ size rs rest, b = wireCache swap size sub rs ++ rest ∧ c = build rs ∧ (binaryLength c).toNat + 24 = (wireCache swap size sub rs).length := by
  rcases C17_outcome swap b hb with ⟨-, e⟩ | ⟨-, -, -, e⟩ | ⟨size, sub', n, rs, tail, -, e, ⟨h1, h2⟩ | ⟨-, -, h2⟩⟩
  · rw [h] at e; cases e
  · rw [h] at e; cases e
  · rw [h] at h2
    injection h2 with h2
    injection h2 with hs hc
    subst hs hc h1
    have hw : b = wireCache swap size sub rs ++ tail := by
      rw [e]; unfold wireCache; simp only [List.append_assoc]
    refine ⟨size, rs, tail, hw, rfl, ?_⟩
    have hl := wireCache_length swap size sub rs
    have : b.length = (wireCache swap size sub rs).length + tail.length := by rw [hw, List.length_append]
    rw [build_length swap, BitVec.toNat_ofNat, Nat.mod_eq_of_lt (by omega)]
    omega
  · rw [h] at h2
    split at h2 <;> cases h2

/-- **C121 is false**: no cache decoded from a buffer of fewer than 2^32 bytes has the length of its wire form. -/
theorem C121_length_false (swap : Bool) (b : List Byte) (hb : b.length < 2 ^ 32) (sub : Guid) (c : Cache) (h : decode swap b = .ok (sub, c)) :
    ∃ size rs rest, b = wireCache swap size sub rs ++ rest ∧ c = build rs ∧ (binaryLength c).toNat < (wireCache swap size sub rs).length := by
  obtain ⟨size, rs, rest, h1, h2, h3⟩ := C121_length_partial swap b hb sub c h
  exact ⟨size, rs, rest, h1, h2, by omega⟩

/-- C121: adding a record makes the cache longer by the length of the record, modulo 2^32, whatever its index, also when the record replaces another. -/
theorem C121_record (swap : Bool) (c : Cache) (r : Rec) :
    (binaryLength (addRecord c r.index r.signalID r.source r.id 1)).toNat = ((binaryLength c).toNat + (wireRecord swap r).length) % 2 ^ 32 := by
  unfold binaryLength addRecord
  dsimp only
  rw [wireRecord_length]
  simp [BitVec.toNat_add]

/-- Two records with 3 and 0 bytes of source: 67 bytes of 91. -/
example : (binaryLength (build exRecs)).toNat = 67 ∧ (wireCache true 91 gB exRecs).length = 91 ∧
    decode true (wireCache true 91 gB exRecs ++ [1, 2, 3]) = .ok (gB, build exRecs) := by
  refine ⟨by decide +kernel, by decide +kernel, ?_⟩
  exact decode_wire true 91 gB exRecs [1, 2, 3] (by decide +kernel) (by decide +kernel)

end Verif.Sic
