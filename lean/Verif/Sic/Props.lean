import Verif.Sic.Model
import Verif.Guid.Props
import Mathlib.Data.Finset.Card
import Mathlib.Data.Finset.Dedup

/-!
# Properties of the signal index cache (C15, C16, C17)
-/

set_option linter.unusedSimpArgs false

namespace Verif.Sic

open Verif.Guid (Guid)

/-! ## Specification -/

/-- Wire form of a Guid. -/
def wireGuid (swap : Bool) (g : Guid) : List Byte := if swap then Guid.microsoftOrder g.bytes else g.bytes

/-- Wire form of a record: index, Guid, source length and bytes, numeric ID. -/
def wireRecord (swap : Bool) (r : Rec) : List Byte :=
  beBytes 4 r.index.toNat ++ (wireGuid swap r.signalID ++ (beBytes 4 r.source.length ++ (r.source ++ beBytes 8 r.id.toNat)))

/-- Wire form of a cache with the size field `size`. -/
def wireCache (swap : Bool) (size : Nat) (sub : Guid) (rs : List Rec) : List Byte :=
  beBytes 4 size ++ (wireGuid swap sub ++ (beBytes 4 rs.length ++ rs.flatMap (wireRecord swap)))

/-- The record last given for an index. -/
def lastByIndex (rs : List Rec) (i : BitVec 32) : Option Rec := rs.reverse.find? (fun r => r.index = i)

/-- The record last given for a signal. -/
def lastBySignal (rs : List Rec) (g : Guid) : Option Rec := rs.reverse.find? (fun r => r.signalID = g)

/-- The cache after adding records in order. -/
def build (rs : List Rec) : Cache :=
  rs.foldl (fun c r => addRecord c r.index r.signalID r.source r.id 1) Cache.new

/-! ## Contents after adding records -/

theorem build_append (rs : List Rec) (r : Rec) :
    build (rs ++ [r]) = addRecord (build rs) r.index r.signalID r.source r.id 1 := by
  simp [build, List.foldl_append]

theorem build_lists (rs : List Rec) : (build rs).signalIDList = rs.map Rec.signalID ∧
    (build rs).sourceList = rs.map Rec.source ∧ (build rs).idList = rs.map Rec.id := by
  induction rs using List.reverseRecOn with
  | nil => exact ⟨rfl, rfl, rfl⟩
  | append_singleton rs r ih =>
    obtain ⟨h1, h2, h3⟩ := ih
    rw [build_append]
    simp [addRecord, h1, h2, h3]

theorem lastByIndex_append (rs : List Rec) (r : Rec) (i : BitVec 32) :
    lastByIndex (rs ++ [r]) i = if r.index = i then some r else lastByIndex rs i := by
  unfold lastByIndex
  rw [List.reverse_append, List.reverse_singleton, List.singleton_append, List.find?_cons]
  by_cases h : r.index = i <;> simp [h]

theorem lastBySignal_append (rs : List Rec) (r : Rec) (g : Guid) :
    lastBySignal (rs ++ [r]) g = if r.signalID = g then some r else lastBySignal rs g := by
  unfold lastBySignal
  rw [List.reverse_append, List.reverse_singleton, List.singleton_append, List.find?_cons]
  by_cases h : r.signalID = g <;> simp [h]

theorem build_reference (rs : List Rec) (i : BitVec 32) :
    match lastByIndex rs i with
    | some r => ∃ k, (build rs).reference.get i = some k ∧ rs[k]? = some r
    | none => (build rs).reference.get i = none := by
  induction rs using List.reverseRecOn with
  | nil => rfl
  | append_singleton rs r ih =>
    rw [lastByIndex_append, build_append]
    have hlen : (build rs).signalIDList.length = rs.length := by rw [(build_lists rs).1]; simp
    by_cases h : r.index = i
    · rw [if_pos h]
      refine ⟨rs.length, ?_, by simp⟩
      simp only [addRecord, GoMap.get_set, h, hlen, if_true]
    · rw [if_neg h]
      have h' : ¬ i = r.index := fun e => h e.symm
      cases hl : lastByIndex rs i with
      | some q =>
        rw [hl] at ih
        obtain ⟨k, hk, hq⟩ := ih
        refine ⟨k, ?_, ?_⟩
        · simp only [addRecord, GoMap.get_set, if_neg h', hk]
        · have hlt : k < rs.length := by
            by_contra hc
            rw [List.getElem?_eq_none (by omega)] at hq
            cases hq
          rw [List.getElem?_append_left hlt, hq]
      | none =>
        rw [hl] at ih
        simp only at ih
        simp only [addRecord, GoMap.get_set, if_neg h', ih]

theorem build_reverse (rs : List Rec) (g : Guid) :
    (build rs).signalIDCache.get g = (lastBySignal rs g).map Rec.index := by
  induction rs using List.reverseRecOn with
  | nil => rfl
  | append_singleton rs r ih =>
    rw [lastBySignal_append, build_append]
    simp only [addRecord, GoMap.get_set]
    by_cases h : r.signalID = g
    · simp [h]
    · have h' : ¬ g = r.signalID := fun e => h e.symm
      simp [h, h', ih]

theorem build_keys (rs : List Rec) : (GoMap.keys (build rs).signalIDCache).Nodup := by
  induction rs using List.reverseRecOn with
  | nil => simp [build, Cache.new, GoMap.keys]
  | append_singleton rs r ih => rw [build_append]; exact GoMap.nodup_set _ _ _ ih

theorem build_mem_keys (rs : List Rec) (g : Guid) :
    g ∈ GoMap.keys (build rs).signalIDCache ↔ ∃ r ∈ rs, r.signalID = g := by
  induction rs using List.reverseRecOn with
  | nil => simp [build, Cache.new, GoMap.keys]
  | append_singleton rs r ih =>
    rw [build_append]
    simp only [addRecord, GoMap.mem_keys_set, ih, List.mem_append, List.mem_singleton]
    constructor
    · rintro (rfl | ⟨q, hq, e⟩)
      · exact ⟨r, Or.inr rfl, rfl⟩
      · exact ⟨q, Or.inl hq, e⟩
    · rintro ⟨q, hq | rfl, e⟩
      · exact Or.inr ⟨q, hq, e⟩
      · exact Or.inl e.symm

/-- All lookups by index answer with the record last given for the index. -/
theorem build_lookup (rs : List Rec) (i : BitVec 32) :
    match lastByIndex rs i with
    | some r => contains (build rs) i = true ∧ signalID (build rs) i = .ok r.signalID ∧
        source (build rs) i = .ok r.source ∧ idOf (build rs) i = .ok r.id ∧
        record (build rs) i = .ok (r.signalID, r.source, r.id, true)
    | none => contains (build rs) i = false ∧ signalID (build rs) i = .ok Guid.empty ∧
        source (build rs) i = .ok [] ∧ idOf (build rs) i = .ok (BitVec.allOnes 64) ∧
        record (build rs) i = .ok (Guid.empty, [], 0, false) := by
  have h := build_reference rs i
  obtain ⟨h1, h2, h3⟩ := build_lists rs
  cases hl : lastByIndex rs i with
  | some r =>
    rw [hl] at h
    obtain ⟨k, hk, hr⟩ := h
    simp [contains, signalID, source, idOf, record, hk, at', h1, h2, h3, hr]
  | none =>
    rw [hl] at h
    simp only at h
    simp only [contains, signalID, source, idOf, record, h]
    exact ⟨by simp, trivial, trivial, by decide, trivial⟩

/-! ## Decoding -/

theorem wireGuid_length (swap : Bool) (g : Guid) : (wireGuid swap g).length = 16 := by
  unfold wireGuid
  split
  · exact Guid.microsoftOrder_length _ (by rw [g.len])
  · exact g.len

theorem fromBytes_wire (swap : Bool) (g : Guid) (rest : List Byte) :
    Guid.fromBytes (wireGuid swap g ++ rest) swap = .ok g := by
  obtain ⟨bs, -, -, hb, h⟩ := Guid.C04_roundtrip g swap rest
  unfold wireGuid
  rw [← hb]
  exact h

theorem drop_len {α : Type} {n : Nat} (l r : List α) (h : l.length = n) : (l ++ r).drop n = r := by
  subst h; simp

theorem decodeRecord_wire (swap : Bool) (r : Rec) (hs : r.source.length < 2 ^ 32) (rest : List Byte) :
    decodeRecord swap (wireRecord swap r ++ rest) = .ok (r, rest) := by
  unfold decodeRecord wireRecord
  simp only [List.append_assoc]
  rw [readBE_beBytes 4 _ _ r.index.isLt]
  simp only [Res.bind_ok, drop_len _ _ (beBytes_length 4 _), fromBytes_wire, drop_len _ _ (wireGuid_length swap _)]
  rw [readBE_beBytes 4 _ _ hs]
  simp only [Res.bind_ok, drop_len _ _ (beBytes_length 4 _)]
  rw [if_neg (by simp)]
  rw [drop_len _ _ rfl, readBE_beBytes 8 _ _ r.id.isLt]
  simp only [Res.bind_ok, drop_len _ _ (beBytes_length 8 _), List.take_left']
  simp

theorem decodeLoop_wire (swap : Bool) (rs : List Rec) (hs : ∀ r ∈ rs, r.source.length < 2 ^ 32) (c : Cache)
    (rest : List Byte) : decodeLoop swap rs.length c (rs.flatMap (wireRecord swap) ++ rest) =
      .ok (rs.foldl (fun c r => addRecord c r.index r.signalID r.source r.id 1) c) := by
  induction rs generalizing c with
  | nil => rfl
  | cons r rs ih =>
    rw [List.flatMap_cons, List.append_assoc, List.length_cons, decodeLoop,
      decodeRecord_wire swap r (hs r (by simp))]
    simp only [Res.bind_ok]
    rw [ih (fun q hq => hs q (List.mem_cons_of_mem _ hq))]
    rfl

theorem decode_wire (swap : Bool) (size : Nat) (sub : Guid) (rs : List Rec) (rest : List Byte)
    (hlen : (wireCache swap size sub rs ++ rest).length < 2 ^ 32)
    (hsize : size ≤ (wireCache swap size sub rs ++ rest).length) :
    decode swap (wireCache swap size sub rs ++ rest) = .ok (sub, build rs) := by
  have hlen0 := hlen
  have hrs : ∀ r ∈ rs, r.source.length ≤ (rs.flatMap (wireRecord swap)).length := by
    intro r hr
    obtain ⟨l, m, rfl⟩ := List.append_of_mem hr
    simp only [List.flatMap_append, List.flatMap_cons, List.length_append, wireRecord]
    omega
  have hcount : rs.length ≤ (rs.flatMap (wireRecord swap)).length := by
    clear hlen hsize hrs hlen0
    induction rs with
    | nil => simp
    | cons r rs ih =>
      simp only [List.flatMap_cons, List.length_append, List.length_cons, wireRecord, beBytes_length]
      omega
  have hl : (wireCache swap size sub rs ++ rest).length =
      24 + (rs.flatMap (wireRecord swap)).length + rest.length := by
    simp only [wireCache, List.length_append, beBytes_length, wireGuid_length]
    omega
  unfold decode
  dsimp only
  rw [Nat.mod_eq_of_lt hlen, if_neg (by omega)]
  have hsz : size < 256 ^ 4 := by
    have : (256 : Nat) ^ 4 = 2 ^ 32 := by norm_num
    omega
  have e1 : readBE 4 (wireCache swap size sub rs ++ rest) = .ok size := by
    unfold wireCache
    rw [List.append_assoc, readBE_beBytes 4 _ _ hsz]
  rw [e1]
  simp only [Res.bind_ok]
  rw [if_neg (by omega)]
  unfold wireCache
  simp only [List.append_assoc]
  rw [drop_len _ _ (beBytes_length 4 _), fromBytes_wire]
  simp only [Res.bind_ok]
  rw [drop_len _ _ (wireGuid_length swap _), readBE_beBytes 4]
  · simp only [Res.bind_ok, drop_len _ _ (beBytes_length 4 _)]
    rw [decodeLoop_wire swap rs (fun r hr => by have := hrs r hr; omega)]
    rfl
  · have : (256 : Nat) ^ 4 = 2 ^ 32 := by norm_num
    omega

/-- C15: decoding the wire form of any subscriber ID and record list, followed by any bytes (the whole fits 32 bits
of length), gives back the subscriber ID, and every lookup by index answers with the record last serialized for
the index, or the documented value for a missing index. -/
theorem C15_cache_decode (swap : Bool) (sub : Guid) (rs : List Rec) (rest : List Byte) (size : Nat)
    (hsize : size = (wireCache swap size sub rs).length)
    (hlen : (wireCache swap size sub rs ++ rest).length < 2 ^ 32) :
    ∃ c, decode swap (wireCache swap size sub rs ++ rest) = .ok (sub, c) ∧
      ∀ i, match lastByIndex rs i with
        | some r => contains c i = true ∧ signalID c i = .ok r.signalID ∧ source c i = .ok r.source ∧
            idOf c i = .ok r.id ∧ record c i = .ok (r.signalID, r.source, r.id, true)
        | none => contains c i = false ∧ signalID c i = .ok Guid.empty ∧ source c i = .ok [] ∧
            idOf c i = .ok (BitVec.allOnes 64) ∧ record c i = .ok (Guid.empty, [], 0, false) :=
  ⟨build rs, decode_wire swap size sub rs rest hlen (by rw [List.length_append]; omega), build_lookup rs⟩

/-- Guids and records for the examples. -/
def gA : Guid := ⟨List.replicate 16 0xA1, by decide⟩
def gB : Guid := ⟨List.replicate 16 0xB2, by decide⟩
def exRecs : List Rec := [⟨7, gA, [80, 77, 85], 12⟩, ⟨8, gB, [], 13⟩]

/-- A case meeting the hypotheses of `C15_cache_decode`: two records, one with empty source, and three trailing bytes. -/
example : 91 = (wireCache true 91 gB exRecs).length ∧
    (wireCache true 91 gB exRecs ++ [1, 2, 3]).length < 2 ^ 32 := by decide

/-! ## Lookups -/

theorem lastByIndex_some {rs : List Rec} {i : BitVec 32} {r : Rec} (h : lastByIndex rs i = some r) :
    r ∈ rs ∧ r.index = i := by
  unfold lastByIndex at h
  exact ⟨List.mem_reverse.mp (List.mem_of_find?_eq_some h), by simpa using List.find?_some h⟩

theorem lastBySignal_some {rs : List Rec} {g : Guid} {r : Rec} (h : lastBySignal rs g = some r) :
    r ∈ rs ∧ r.signalID = g := by
  unfold lastBySignal at h
  exact ⟨List.mem_reverse.mp (List.mem_of_find?_eq_some h), by simpa using List.find?_some h⟩

theorem lastBySignal_exists {rs : List Rec} {r : Rec} (h : r ∈ rs) :
    ∃ q, lastBySignal rs r.signalID = some q := by
  cases hq : lastBySignal rs r.signalID with
  | some q => exact ⟨q, rfl⟩
  | none =>
    unfold lastBySignal at hq
    rw [List.find?_eq_none] at hq
    exact absurd (by simp) (hq r (List.mem_reverse.mpr h))

theorem lastByIndex_exists {rs : List Rec} {r : Rec} (h : r ∈ rs) :
    ∃ q, lastByIndex rs r.index = some q := by
  cases hq : lastByIndex rs r.index with
  | some q => exact ⟨q, rfl⟩
  | none =>
    unfold lastByIndex at hq
    rw [List.find?_eq_none] at hq
    exact absurd (by simp) (hq r (List.mem_reverse.mpr h))

/-- C16, first direction: after any history of added records in which no signal appears under two indexes,
`SignalIndex(SignalID(i)) = i` for every contained index, and `Contains`, `Record` and `SignalID` agree. -/
theorem C16_index_roundtrip (rs : List Rec) (h : ∀ r ∈ rs, ∀ q ∈ rs, r.signalID = q.signalID → r.index = q.index)
    (i : BitVec 32) (hi : contains (build rs) i = true) :
    ∃ g s d, signalID (build rs) i = .ok g ∧ record (build rs) i = .ok (g, s, d, true) ∧ g ∈ signalIDs (build rs) ∧
      signalIndex (build rs) g = i := by
  have hb := build_lookup rs i
  cases hl : lastByIndex rs i with
  | none => rw [hl] at hb; rw [hb.1] at hi; cases hi
  | some r =>
    rw [hl] at hb
    obtain ⟨hm, hx⟩ := lastByIndex_some hl
    obtain ⟨q, hq⟩ := lastBySignal_exists hm
    obtain ⟨hqm, hqs⟩ := lastBySignal_some hq
    refine ⟨r.signalID, r.source, r.id, hb.2.1, hb.2.2.2.2, ?_, ?_⟩
    · unfold signalIDs
      rw [(build_lists rs).1]
      exact List.mem_map_of_mem hm
    · unfold signalIndex
      rw [build_reverse, hq]
      simp only [Option.map_some]
      rw [h q hqm r hm hqs, hx]

/-- Misses return the documented sentinels, after any history. -/
theorem C16_misses (rs : List Rec) :
    (∀ i, contains (build rs) i = false → signalID (build rs) i = .ok Guid.empty ∧ source (build rs) i = .ok [] ∧
      idOf (build rs) i = .ok (BitVec.allOnes 64) ∧ record (build rs) i = .ok (Guid.empty, [], 0, false)) ∧
    (∀ g, g ∉ signalIDs (build rs) → (signalIndex (build rs) g).toInt = -1) ∧
    (∀ i, contains (build rs) i = true ↔ ∃ r ∈ rs, r.index = i) ∧
    (∀ g, g ∈ signalIDs (build rs) ↔ ∃ r ∈ rs, r.signalID = g) := by
  refine ⟨?_, ?_, ?_, ?_⟩
  · intro i hi
    have hb := build_lookup rs i
    cases hl : lastByIndex rs i with
    | some r => rw [hl] at hb; rw [hb.1] at hi; cases hi
    | none => rw [hl] at hb; exact hb.2
  · intro g hg
    unfold signalIDs at hg
    rw [(build_lists rs).1] at hg
    have : lastBySignal rs g = none := by
      cases hq : lastBySignal rs g with
      | none => rfl
      | some q =>
        obtain ⟨h1, rfl⟩ := lastBySignal_some hq
        exact absurd (List.mem_map_of_mem h1) hg
    unfold signalIndex
    rw [build_reverse, this]
    decide
  · intro i
    have hb := build_lookup rs i
    constructor
    · intro hi
      cases hl : lastByIndex rs i with
      | none => rw [hl] at hb; rw [hb.1] at hi; cases hi
      | some r => exact ⟨r, lastByIndex_some hl⟩
    · rintro ⟨r, hr, rfl⟩
      obtain ⟨q, hq⟩ := lastByIndex_exists hr
      rw [hq] at hb
      exact hb.1
  · intro g
    unfold signalIDs
    rw [(build_lists rs).1]
    simp

/-- C16 fails as stated when an index is given to a second signal: the first signal is still listed and counted,
and its index now belongs to the other signal. -/
theorem C16_reassigned_index_false : ∃ rs : List Rec,
    (∀ r ∈ rs, ∀ q ∈ rs, r.signalID = q.signalID → r.index = q.index) ∧
    (∃ g ∈ signalIDs (build rs), signalID (build rs) (signalIndex (build rs) g) ≠ .ok g) ∧
    count (build rs) ≠ BitVec.ofNat 32 (rs.map Rec.index).dedup.length := by
  refine ⟨[⟨7, gA, [], 1⟩, ⟨7, gB, [], 2⟩], by decide, ⟨gA, by decide, by decide⟩, by decide⟩

theorem lastBySignal_split (a b : List Rec) (r : Rec) (hb : ∀ q ∈ b, q.signalID ≠ r.signalID) : lastBySignal (a ++ r :: b) r.signalID = some r := by
  unfold lastBySignal
  rw [List.reverse_append, List.reverse_cons, List.append_assoc, List.find?_append, List.find?_eq_none.2 (by simpa using hb)]
  simp

theorem lastByIndex_split (a b : List Rec) (r : Rec) (hb : ∀ q ∈ b, q.index ≠ r.index) : lastByIndex (a ++ r :: b) r.index = some r := by
  unfold lastByIndex
  rw [List.reverse_append, List.reverse_cons, List.append_assoc, List.find?_append, List.find?_eq_none.2 (by simpa using hb)]
  simp

/-- Of the records of a signal one is the last. -/
theorem split_last (rs : List Rec) (p : Rec → Prop) [DecidablePred p] (h : ∃ r ∈ rs, p r) : ∃ a r b, rs = a ++ r :: b ∧ p r ∧ ∀ q ∈ b, ¬ p q := by
  induction rs using List.reverseRecOn with
  | nil => simp at h
  | append_singleton rs r ih =>
    by_cases hr : p r
    · exact ⟨rs, r, [], by simp, hr, by simp⟩
    · obtain ⟨q, hq, hp⟩ := h
      have hq' : q ∈ rs := by
        rcases List.mem_append.1 hq with h | h
        · exact h
        · rw [List.mem_singleton.1 h] at hp
          exact absurd hp hr
      obtain ⟨a, x, b, e, hx, hb⟩ := ih ⟨q, hq', hp⟩
      refine ⟨a, x, b ++ [r], by rw [e]; simp, hx, ?_⟩
      intro y hy
      rcases List.mem_append.1 hy with h | h
      · exact hb y h
      · rw [List.mem_singleton.1 h]
        exact hr

/-- **C16 after any history**: the index of a signal is that of its last record, the signal of an index that of the last record for the index, the count
that of the different signals; and a signal is found again under its index exactly if no later record took the index. -/
theorem C16_exact (rs : List Rec) :
    (∀ a r b, rs = a ++ r :: b → (∀ q ∈ b, q.signalID ≠ r.signalID) → signalIndex (build rs) r.signalID = r.index) ∧
    (∀ a r b, rs = a ++ r :: b → (∀ q ∈ b, q.index ≠ r.index) →
      signalID (build rs) r.index = .ok r.signalID ∧ source (build rs) r.index = .ok r.source ∧ idOf (build rs) r.index = .ok r.id) ∧
    count (build rs) = BitVec.ofNat 32 (rs.map Rec.signalID).dedup.length ∧
    (∀ a r b, rs = a ++ r :: b → (∀ q ∈ b, q.signalID ≠ r.signalID) →
      (signalID (build rs) (signalIndex (build rs) r.signalID) = .ok r.signalID ↔ ∀ q ∈ b, q.index ≠ r.index)) := by
  have h1 : ∀ a r b, rs = a ++ r :: b → (∀ q ∈ b, q.signalID ≠ r.signalID) → signalIndex (build rs) r.signalID = r.index := by
    intro a r b e hb
    unfold signalIndex
    rw [build_reverse, e, lastBySignal_split a b r hb]
    rfl
  have h2 : ∀ a r b, rs = a ++ r :: b → (∀ q ∈ b, q.index ≠ r.index) →
      signalID (build rs) r.index = .ok r.signalID ∧ source (build rs) r.index = .ok r.source ∧ idOf (build rs) r.index = .ok r.id := by
    intro a r b e hb
    have h := build_lookup rs r.index
    rw [e, lastByIndex_split a b r hb] at h
    rw [e]
    exact ⟨h.2.1, h.2.2.1, h.2.2.2.1⟩
  refine ⟨h1, h2, ?_, ?_⟩
  · unfold count
    congr 1
    rw [← GoMap.length_keys, ← List.toFinset_card_of_nodup (build_keys rs), ← List.card_toFinset]
    congr 1
    ext g
    simp only [List.mem_toFinset, build_mem_keys, List.mem_map]
  · intro a r b e hb
    rw [h1 a r b e hb]
    constructor
    · intro h q hq hi
      obtain ⟨c, x, d, e', hx, hd⟩ := split_last b (fun q => q.index = r.index) ⟨q, hq, hi⟩
      have h3 := (h2 (a ++ r :: c) x d (by rw [e, e']; simp) (by rw [hx]; exact hd)).1
      rw [hx, h] at h3
      simp only [Res.ok.injEq] at h3
      exact hb x (by rw [e']; simp) h3.symm
    · intro hi
      exact (h2 a r b e hi).1

/-- Index 7 is given to `gA`, then to `gB`, and `gA` is given 8 then: both are found, and the count is 2. -/
example : let rs : List Rec := [⟨7, gA, [], 1⟩, ⟨7, gB, [], 2⟩, ⟨8, gA, [], 3⟩]
    signalIndex (build rs) gA = 8 ∧ signalIndex (build rs) gB = 7 ∧ signalID (build rs) 7 = .ok gB ∧ count (build rs) = 2 := by decide

/-- C16, second direction and count, when moreover no index is given to two signals. Missing: histories that reassign
an index (`C16_reassigned_index_false`). -/
theorem C16_signal_roundtrip_partial (rs : List Rec)
    (h : ∀ r ∈ rs, ∀ q ∈ rs, (r.signalID = q.signalID ↔ r.index = q.index)) :
    (∀ g ∈ signalIDs (build rs), contains (build rs) (signalIndex (build rs) g) = true ∧
      signalID (build rs) (signalIndex (build rs) g) = .ok g) ∧
    count (build rs) = BitVec.ofNat 32 (rs.map Rec.index).dedup.length := by
  constructor
  · intro g hg
    unfold signalIDs at hg
    rw [(build_lists rs).1, List.mem_map] at hg
    obtain ⟨r, hr, rfl⟩ := hg
    obtain ⟨q, hq⟩ := lastBySignal_exists hr
    obtain ⟨hqm, hqs⟩ := lastBySignal_some hq
    have e : signalIndex (build rs) r.signalID = q.index := by
      unfold signalIndex
      rw [build_reverse, hq]
      rfl
    rw [e]
    obtain ⟨p, hp⟩ := lastByIndex_exists hqm
    obtain ⟨hpm, hpi⟩ := lastByIndex_some hp
    have hb := build_lookup rs q.index
    rw [hp] at hb
    refine ⟨hb.1, ?_⟩
    rw [hb.2.1, (h p hpm q hqm).mpr hpi, hqs]
  · unfold count
    congr 1
    rw [← GoMap.length_keys]
    have h1 : (GoMap.keys (build rs).signalIDCache).length = (rs.map Rec.signalID).toFinset.card := by
      rw [← List.toFinset_card_of_nodup (build_keys rs)]
      congr 1
      ext g
      simp only [List.mem_toFinset, build_mem_keys, List.mem_map]
    have h2 : (rs.map Rec.index).dedup.length = (rs.map Rec.index).toFinset.card := (List.card_toFinset _).symm
    rw [h1, h2]
    -- the index of a signal is a bijection
    apply Finset.card_bij (fun g _ => ((lastBySignal rs g).map Rec.index).getD 0)
    · intro g hg
      simp only [List.mem_toFinset, List.mem_map] at hg ⊢
      obtain ⟨r, hr, rfl⟩ := hg
      obtain ⟨q, hq⟩ := lastBySignal_exists hr
      exact ⟨q, (lastBySignal_some hq).1, by rw [hq]; rfl⟩
    · intro g1 hg1 g2 hg2 e
      simp only [List.mem_toFinset, List.mem_map] at hg1 hg2
      obtain ⟨r1, hr1, rfl⟩ := hg1
      obtain ⟨r2, hr2, rfl⟩ := hg2
      obtain ⟨q1, hq1⟩ := lastBySignal_exists hr1
      obtain ⟨q2, hq2⟩ := lastBySignal_exists hr2
      rw [hq1, hq2] at e
      simp only [Option.map_some, Option.getD_some] at e
      obtain ⟨m1, s1⟩ := lastBySignal_some hq1
      obtain ⟨m2, s2⟩ := lastBySignal_some hq2
      rw [← s1, ← s2]
      exact (h q1 m1 q2 m2).mpr e
    · intro i hi
      simp only [List.mem_toFinset, List.mem_map] at hi
      obtain ⟨r, hr, rfl⟩ := hi
      obtain ⟨q, hq⟩ := lastBySignal_exists hr
      obtain ⟨hm, hs⟩ := lastBySignal_some hq
      refine ⟨r.signalID, by simp only [List.mem_toFinset]; exact List.mem_map_of_mem hr, ?_⟩
      rw [hq]
      exact (h q hm r hr).mp hs

/-- A case meeting the hypotheses: two signals, one of them given twice. -/
example : ∀ r ∈ exRecs ++ [⟨7, gA, [80], 12⟩], ∀ q ∈ exRecs ++ [⟨7, gA, [80], 12⟩],
    (r.signalID = q.signalID ↔ r.index = q.index) := by decide

/-! ## Corrupt caches -/

/-- C17 fails: a cache that announces one record and ends there makes the decoder slice past the end. -/
theorem C17_truncated_cache_panics : ∃ b : List Byte, decode false b = .panic :=
  ⟨beBytes 4 24 ++ List.replicate 16 0 ++ beBytes 4 1, by decide⟩

/-- Taking `n` bytes off a list that is long enough. -/
theorem take_split {α : Type} (n : Nat) (l : List α) (h : n ≤ l.length) :
    ∃ a b, l = a ++ b ∧ a.length = n ∧ l.drop n = b ∧ l.take n = a :=
  ⟨l.take n, l.drop n, (List.take_append_drop n l).symm, by simp [h], rfl, rfl⟩

theorem readBE_ok {n : Nat} {l : List Byte} {v : Nat} (h : readBE n l = .ok v) :
    ∃ rest, l = beBytes n v ++ rest ∧ l.drop n = rest ∧ v < 256 ^ n := by
  unfold readBE at h
  split at h
  · rename_i hl
    obtain ⟨a, b, rfl, ha, hd, ht⟩ := take_split n l hl
    rw [ht] at h
    cases h
    refine ⟨b, ?_, hd, ?_⟩
    · rw [← ha, beBytes_beNat]
    · rw [← ha]; exact beNat_lt a
  · cases h

theorem fromBytes_ok {swap : Bool} {l : List Byte} {g : Guid} (h : Guid.fromBytes l swap = .ok g) :
    ∃ rest, l = wireGuid swap g ++ rest ∧ l.drop 16 = rest := by
  have hl : 16 ≤ l.length := by
    by_contra hc
    rw [(Guid.C04_fromBytes l swap).1 (by omega)] at h
    cases h
  obtain ⟨g', hg', ht⟩ := (Guid.C04_fromBytes l swap).2 hl
  rw [h] at hg'
  cases hg'
  obtain ⟨bs, hb, -, hw, -⟩ := Guid.C04_roundtrip g swap []
  rw [ht] at hb
  cases hb
  refine ⟨l.drop 16, ?_, rfl⟩
  unfold wireGuid
  rw [← hw, List.take_append_drop]

theorem decodeRecord_ok {swap : Bool} {b : List Byte} {r : Rec} {rest : List Byte}
    (h : decodeRecord swap b = .ok (r, rest)) : b = wireRecord swap r ++ rest := by
  unfold decodeRecord at h
  simp only [Res.bind_eq_ok] at h
  obtain ⟨i, hi, g, hg, n, hn, h⟩ := h
  obtain ⟨b1, e1, d1, l1⟩ := readBE_ok hi
  rw [d1] at hg hn h
  obtain ⟨b2, e2, d2⟩ := fromBytes_ok hg
  rw [d2] at hn h
  obtain ⟨b3, e3, d3, l3⟩ := readBE_ok hn
  rw [d3] at h
  split at h
  · cases h
  · rename_i hlen
    simp only [Res.bind_eq_ok] at h
    obtain ⟨id, hid, h⟩ := h
    obtain ⟨a, b4, e4, ha, d4, t4⟩ := take_split n b3 (by omega)
    rw [d4] at hid h
    obtain ⟨b5, e5, d5, l5⟩ := readBE_ok hid
    rw [d5] at h
    simp only [Res.ok.injEq, Prod.mk.injEq] at h
    obtain ⟨rfl, rfl⟩ := h
    have h4 : (256 : Nat) ^ 4 = 2 ^ 32 := by norm_num
    have h8 : (256 : Nat) ^ 8 = 2 ^ 64 := by norm_num
    rw [h4] at l1 l3
    rw [h8] at l5
    unfold wireRecord
    simp only [BitVec.toNat_ofNat, Nat.mod_eq_of_lt l1, Nat.mod_eq_of_lt l5, t4, ha, List.append_assoc]
    rw [e1, e2, e3, e4, e5]

theorem decodeLoop_ok {swap : Bool} (n : Nat) (c : Cache) (b : List Byte) (c' : Cache)
    (h : decodeLoop swap n c b = .ok c') : ∃ (rs : List Rec) (rest : List Byte), rs.length = n ∧ b = rs.flatMap (wireRecord swap) ++ rest ∧
      c' = rs.foldl (fun c r => addRecord c r.index r.signalID r.source r.id 1) c := by
  induction n generalizing c b with
  | zero =>
    simp only [decodeLoop, Res.ok.injEq] at h
    exact ⟨[], b, rfl, rfl, h.symm⟩
  | succ n ih =>
    rw [decodeLoop] at h
    simp only [Res.bind_eq_ok] at h
    obtain ⟨⟨r, b1⟩, hr, h⟩ := h
    have e := decodeRecord_ok hr
    dsimp only at h
    obtain ⟨rs, rest, hl, hb, hc⟩ := ih _ _ h
    exact ⟨r :: rs, rest, by simp [hl], by rw [e, hb]; simp, hc⟩

/-- C17, the part that holds: a buffer shorter than its size field or than the fixed fields (20 bytes) is
rejected with an error, and a buffer accepted without error is the wire form of the records put in
the cache. Missing: buffers cut inside the record count or a record may panic
(`C17_truncated_cache_panics`). -/
theorem C17_corrupt_cache_partial (swap : Bool) (b : List Byte) (hb : b.length < 2 ^ 32) :
    (b.length < 20 → decode swap b = .err) ∧
    (b.length < beNat (b.take 4) → decode swap b = .err) ∧
    (∀ sub c, decode swap b = .ok (sub, c) → ∃ size rs rest, size ≤ b.length ∧
      b = wireCache swap size sub rs ++ rest ∧ c = build rs) := by
  have h4 : ∀ l : List Byte, 4 ≤ l.length → readBE 4 l = .ok (beNat (l.take 4)) := by
    intro l hl; unfold readBE; rw [if_pos hl]
  refine ⟨?_, ?_, ?_⟩
  · intro hlt
    unfold decode
    dsimp only
    rw [Nat.mod_eq_of_lt hb]
    split
    · rfl
    · rw [h4 b (by omega)]
      simp only [Res.bind_ok]
      split
      · rfl
      · rw [(Guid.C04_fromBytes _ swap).1 (by rw [List.length_drop]; omega)]
        rfl
  · intro hlt
    unfold decode
    dsimp only
    rw [Nat.mod_eq_of_lt hb]
    split
    · rfl
    · rw [h4 b (by omega)]
      simp only [Res.bind_ok]
      rw [if_pos hlt]
  · intro sub c h
    unfold decode at h
    dsimp only at h
    rw [Nat.mod_eq_of_lt hb] at h
    split at h
    · cases h
    · simp only [Res.bind_eq_ok] at h
      obtain ⟨size, hs, h⟩ := h
      obtain ⟨b1, e1, d1, l1⟩ := readBE_ok hs
      rw [d1] at h
      split at h
      · cases h
      · rename_i hsz
        simp only [Res.bind_eq_ok] at h
        obtain ⟨g, hg, n, hn, c', hc, h⟩ := h
        obtain ⟨b2, e2, d2⟩ := fromBytes_ok hg
        rw [d2] at hn hc
        obtain ⟨b3, e3, d3, l3⟩ := readBE_ok hn
        rw [d3] at hc
        obtain ⟨rs, rest, hl, hb3, hc'⟩ := decodeLoop_ok n _ _ _ hc
        simp only [Res.ok.injEq, Prod.mk.injEq] at h
        obtain ⟨rfl, rfl⟩ := h
        refine ⟨size, rs, rest, by omega, ?_, hc'⟩
        unfold wireCache
        simp only [List.append_assoc]
        rw [e1, e2, e3, hb3, hl]

/-- Cases meeting the hypotheses: a short buffer, a buffer shorter than announced, and an accepted one. -/
example : ([0, 0, 0, 9] : List Byte).length < 20 ∧
    (beBytes 4 99 ++ List.replicate 30 0 : List Byte).length < beNat ((beBytes 4 99 ++ List.replicate 30 0 : List Byte).take 4) ∧
    (∃ c, decode false (wireCache false 91 gB exRecs) = .ok (gB, c)) :=
  ⟨by decide, by decide, build exRecs, by
    have := decode_wire false 91 gB exRecs [] (by decide) (by decide)
    rwa [List.append_nil] at this⟩

end Verif.Sic
