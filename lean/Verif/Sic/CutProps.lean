import Verif.Sic.Props

/-!
# Signal index caches that end too early

`C17_corrupt_cache_partial` says what is accepted; here is what happens to every other buffer.
-/

namespace Verif.Sic

open Verif.Guid (Guid)

/-- No record begins here: the bytes end within it. -/
def NoRecord (swap : Bool) (tail : List Byte) : Prop :=
  ∀ r rest, r.source.length < 2 ^ 32 → tail ≠ wireRecord swap r ++ rest

theorem readBE_cases (n : Nat) (l : List Byte) : (l.length < n ∧ readBE n l = .panic) ∨ (n ≤ l.length ∧ ∃ v, readBE n l = .ok v) := by
  unfold readBE
  by_cases h : n ≤ l.length
  · exact Or.inr ⟨h, _, if_pos h⟩
  · exact Or.inl ⟨by omega, if_neg h⟩

/-- How reading a record fails. -/
theorem decodeRecord_fails (swap : Bool) (b : List Byte) (h : ∀ x, decodeRecord swap b ≠ .ok x) :
    decodeRecord swap b = if 4 ≤ b.length ∧ b.length < 20 then .err else .panic := by
  unfold decodeRecord at h ⊢
  rcases readBE_cases 4 b with ⟨l1, e1⟩ | ⟨l1, i, e1⟩
  · rw [e1, if_neg (by omega)]; rfl
  rw [e1] at h ⊢
  simp only [Res.bind_ok] at h ⊢
  by_cases l2 : (b.drop 4).length < 16
  · rw [(Guid.C04_fromBytes _ swap).1 l2]
    rw [List.length_drop] at l2
    rw [if_pos (by omega)]
    rfl
  obtain ⟨g, hg, -⟩ := (Guid.C04_fromBytes (b.drop 4) swap).2 (by omega)
  rw [List.length_drop] at l2
  rw [if_neg (by omega)]
  rw [hg] at h ⊢
  simp only [Res.bind_ok] at h ⊢
  rcases readBE_cases 4 ((b.drop 4).drop 16) with ⟨-, e3⟩ | ⟨-, n, e3⟩
  · rw [e3]; rfl
  rw [e3] at h ⊢
  simp only [Res.bind_ok] at h ⊢
  split
  · rfl
  · rename_i hn
    rw [if_neg hn] at h
    rcases readBE_cases 8 ((((b.drop 4).drop 16).drop 4).drop n) with ⟨-, e4⟩ | ⟨-, d, e4⟩
    · rw [e4]; rfl
    · rw [e4] at h
      exact absurd rfl (h _)

theorem decodeRecord_cases (swap : Bool) (b : List Byte) :
    (∃ r rest, decodeRecord swap b = .ok (r, rest) ∧ b = wireRecord swap r ++ rest) ∨
      (NoRecord swap b ∧ decodeRecord swap b = if 4 ≤ b.length ∧ b.length < 20 then .err else .panic) := by
  by_cases h : ∀ x, decodeRecord swap b ≠ .ok x
  · refine Or.inr ⟨fun r rest hr e => ?_, decodeRecord_fails swap b h⟩
    exact h (r, rest) (by rw [e, decodeRecord_wire swap r hr])
  · push Not at h
    obtain ⟨⟨r, rest⟩, h⟩ := h
    exact Or.inl ⟨r, rest, h, decodeRecord_ok h⟩

theorem decodeLoop_cases (swap : Bool) (n : Nat) (c : Cache) (b : List Byte) :
    ∃ (rs : List Rec) (tail : List Byte), b = rs.flatMap (wireRecord swap) ++ tail ∧
      ((rs.length = n ∧
          decodeLoop swap n c b = .ok (rs.foldl (fun c r => addRecord c r.index r.signalID r.source r.id 1) c)) ∨
        (rs.length < n ∧ NoRecord swap tail ∧
          decodeLoop swap n c b = if 4 ≤ tail.length ∧ tail.length < 20 then .err else .panic)) := by
  induction n generalizing c b with
  | zero => exact ⟨[], b, rfl, Or.inl ⟨rfl, rfl⟩⟩
  | succ n ih =>
    rw [decodeLoop]
    rcases decodeRecord_cases swap b with ⟨r, rest, h, e⟩ | ⟨hn, h⟩
    · obtain ⟨rs, tail, hb, hc⟩ := ih (addRecord c r.index r.signalID r.source r.id 1) rest
      refine ⟨r :: rs, tail, by rw [e, hb]; simp, ?_⟩
      rw [h]
      simp only [Res.bind_ok, List.length_cons, List.foldl_cons]
      rcases hc with ⟨h1, h2⟩ | ⟨h1, h2, h3⟩
      · exact Or.inl ⟨by omega, h2⟩
      · exact Or.inr ⟨by omega, h2, h3⟩
    · refine ⟨[], b, rfl, Or.inr ⟨by simp, hn, ?_⟩⟩
      rw [h]
      split <;> rfl

/-- C17, what happens to every buffer. With fewer than 20 bytes, or fewer than it announces, it is an error; with fewer than
24 the decoder panics. Otherwise the buffer is a header, some complete records and a tail: if as many records as the
header announces are complete, these make the cache; if not, the tail ends within a record, and this is an
error when it ends within the Guid of the record and a panic when it ends anywhere else. -/
theorem C17_outcome (swap : Bool) (b : List Byte) (hb : b.length < 2 ^ 32) :
    ((b.length < 20 ∨ b.length < beNat (b.take 4)) ∧ decode swap b = .err) ∨
    (20 ≤ b.length ∧ b.length < 24 ∧ beNat (b.take 4) ≤ b.length ∧ decode swap b = .panic) ∨
    ∃ size sub n rs tail, size ≤ b.length ∧
      b = beBytes 4 size ++ (wireGuid swap sub ++ (beBytes 4 n ++ (rs.flatMap (wireRecord swap) ++ tail))) ∧
      ((rs.length = n ∧ decode swap b = .ok (sub, build rs)) ∨
        (rs.length < n ∧ NoRecord swap tail ∧
          decode swap b = if 4 ≤ tail.length ∧ tail.length < 20 then .err else .panic)) := by
  obtain ⟨hshort, hsize, -⟩ := C17_corrupt_cache_partial swap b hb
  by_cases h20 : b.length < 20
  · exact Or.inl ⟨Or.inl h20, hshort h20⟩
  by_cases hs : b.length < beNat (b.take 4)
  · exact Or.inl ⟨Or.inr hs, hsize hs⟩
  have h4 : readBE 4 b = .ok (beNat (b.take 4)) := by unfold readBE; rw [if_pos (by omega)]
  have hd : decode swap b = (Guid.fromBytes (b.drop 4) swap >>= fun sub =>
      readBE 4 ((b.drop 4).drop 16) >>= fun n =>
      decodeLoop swap n Cache.new (((b.drop 4).drop 16).drop 4) >>= fun c => .ok (sub, c)) := by
    unfold decode
    dsimp only
    rw [Nat.mod_eq_of_lt hb, if_neg (by omega), h4]
    simp only [Res.bind_ok]
    rw [if_neg hs]
  obtain ⟨sub, hg, -⟩ := (Guid.C04_fromBytes (b.drop 4) swap).2 (by rw [List.length_drop]; omega)
  obtain ⟨b2, e2, d2⟩ := fromBytes_ok hg
  obtain ⟨b1, e1, d1, -⟩ := readBE_ok h4
  rw [hg, d2] at hd
  simp only [Res.bind_ok] at hd
  have hl2 : b2.length = b.length - 20 := by
    rw [← d2, List.length_drop, List.length_drop]; omega
  rcases readBE_cases 4 b2 with ⟨l3, e3⟩ | ⟨l3, n, e3⟩
  · rw [e3] at hd
    exact Or.inr (Or.inl ⟨by omega, by omega, by omega, hd⟩)
  · right; right
    obtain ⟨b3, f3, d3, -⟩ := readBE_ok e3
    rw [e3, d3] at hd
    simp only [Res.bind_ok] at hd
    obtain ⟨rs, tail, hb3, hc⟩ := decodeLoop_cases swap n Cache.new b3
    refine ⟨beNat (b.take 4), sub, n, rs, tail, by omega, ?_, ?_⟩
    · rw [← hb3, ← f3, ← e2, d1]; exact e1
    · rcases hc with ⟨h1, h2⟩ | ⟨h1, h2, h3⟩
      · rw [h2] at hd
        exact Or.inl ⟨h1, hd⟩
      · rw [h3] at hd
        refine Or.inr ⟨h1, h2, ?_⟩
        rw [hd]
        split <;> rfl

/-- Caches of one record cut at each kind of place: within the index, the Guid, the length, the source, the number. -/
example : decode false ((wireCache false 24 gB (exRecs.take 1)).take 26) = .panic ∧
    decode false ((wireCache false 24 gB (exRecs.take 1)).take 43) = .err ∧
    decode false ((wireCache false 24 gB (exRecs.take 1)).take 45) = .panic ∧
    decode false ((wireCache false 24 gB (exRecs.take 1)).take 49) = .panic := by decide

end Verif.Sic
