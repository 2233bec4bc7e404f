import Verif.Guid.Model

/-!
# Properties of the Guid API (C04, C05)

Specification: a Guid is a 128-bit big-endian number (`beNat` of its bytes); the alternative byte order
reverses the first 4, the next 2 and the next 2 bytes.
-/

namespace Verif.Guid

/-- The Microsoft byte order of 16 RFC-order bytes. -/
def microsoftOrder (l : List Byte) : List Byte :=
  (l.take 4).reverse ++ ((l.drop 4).take 2).reverse ++ ((l.drop 6).take 2).reverse ++
    (l.drop 8).take 8

theorem exists16 (l : List Byte) (h : 16 ≤ l.length) :
    ∃ b0 b1 b2 b3 b4 b5 b6 b7 b8 b9 b10 b11 b12 b13 b14 b15 rest, l = b0 :: b1 :: b2 :: b3 :: b4 :: b5 ::
      b6 :: b7 :: b8 :: b9 :: b10 :: b11 :: b12 :: b13 :: b14 :: b15 :: rest := by
  match l, h with
  | b0 :: b1 :: b2 :: b3 :: b4 :: b5 :: b6 :: b7 :: b8 :: b9 :: b10 :: b11 :: b12 :: b13 :: b14 ::
      b15 :: rest, _ => exact ⟨b0, b1, b2, b3, b4, b5, b6, b7, b8, b9, b10, b11, b12, b13, b14, b15, rest, rfl⟩

theorem swap_eq (l : List Byte) (h : 16 ≤ l.length) :
    swapGuidEndianness l = .ok (microsoftOrder l) := by
  obtain ⟨b0, b1, b2, b3, b4, b5, b6, b7, b8, b9, b10, b11, b12, b13, b14, b15, rest, rfl⟩ :=
    exists16 l h
  rfl

theorem microsoftOrder_length (l : List Byte) (h : 16 ≤ l.length) :
    (microsoftOrder l).length = 16 := by
  simp [microsoftOrder]; omega

/-- **C04 (round trip).** Both byte orders: serializing never fails, yields 16 bytes (the RFC
order, or its documented rearrangement), and reading them back, with any bytes after, gives the
same Guid. -/
theorem C04_roundtrip (g : Guid) (swap : Bool) (rest : List Byte) :
    ∃ bs, toBytes g swap = .ok bs ∧ bs.length = 16 ∧
      bs = (if swap then microsoftOrder g.bytes else g.bytes) ∧
      fromBytes (bs ++ rest) swap = .ok g := by
  obtain ⟨l, hl⟩ := g
  obtain ⟨b0, b1, b2, b3, b4, b5, b6, b7, b8, b9, b10, b11, b12, b13, b14, b15, r, rfl⟩ :=
    exists16 l (by omega)
  have : r = [] := by simpa using hl
  subst this
  cases swap with
  | false => exact ⟨_, rfl, rfl, rfl, by simp [fromBytes]⟩
  | true => exact ⟨_, rfl, rfl, rfl, by simp [fromBytes, swapGuidEndianness]⟩

/-- **C04 (reading).** `FromBytes` never panics; it fails exactly when fewer than 16 bytes are
given; otherwise the result depends on the first 16 bytes only and serializes back to them. -/
theorem C04_fromBytes (data : List Byte) (swap : Bool) :
    (data.length < 16 → fromBytes data swap = .err) ∧
    (16 ≤ data.length → ∃ g, fromBytes data swap = .ok g ∧
      toBytes g swap = .ok (data.take 16)) := by
  constructor
  · intro h; simp [fromBytes, h]
  · intro h
    obtain ⟨b0, b1, b2, b3, b4, b5, b6, b7, b8, b9, b10, b11, b12, b13, b14, b15, r, rfl⟩ :=
      exists16 data h
    cases swap with
    | false =>
      exact ⟨⟨[b0, b1, b2, b3, b4, b5, b6, b7, b8, b9, b10, b11, b12, b13, b14, b15], rfl⟩,
        by simp [fromBytes], rfl⟩
    | true =>
      exact ⟨⟨[b3, b2, b1, b0, b5, b4, b7, b6, b8, b9, b10, b11, b12, b13, b14, b15], rfl⟩,
        by simp [fromBytes, swapGuidEndianness], rfl⟩

example : (16 : Nat) ≤ (List.replicate 20 7#8).length := by decide

/-- **C04 (involution).** The two byte orders are exchanged by one involution. -/
theorem C04_swap_involution (l : List Byte) (h : l.length = 16) :
    microsoftOrder (microsoftOrder l) = l := by
  obtain ⟨b0, b1, b2, b3, b4, b5, b6, b7, b8, b9, b10, b11, b12, b13, b14, b15, r, rfl⟩ :=
    exists16 l (by omega)
  have : r = [] := by simpa using h
  subst this
  rfl

example : ([0x10#8, 1, 2, 3, 4, 5, 6, 7, 8, 9, 10, 11, 12, 13, 14, 15] : List Byte).length = 16 := by
  decide

/-- A Guid as the 128-bit number its RFC bytes spell. -/
def number (g : Guid) : Nat := beNat g.bytes

theorem number_inj {a b : Guid} (h : number a = number b) : a = b := by
  obtain ⟨l, hl⟩ := a
  obtain ⟨m, hm⟩ := b
  have : l = m := beNat_inj (by omega) h
  subst this
  rfl

/-- Sign of a comparison of two numbers. -/
def signOf (m n : Nat) : Int := if m < n then -1 else if m = n then 0 else 1

theorem compareD_eq (l m : List Byte) (h : l.length = m.length) :
    compareD l m = signOf (beNat l) (beNat m) := by
  induction l generalizing m with
  | nil => cases m with
    | nil => rfl
    | cons _ _ => simp at h
  | cons x xs ih => cases m with
    | nil => simp at h
    | cons y ys =>
      simp only [List.length_cons, Nat.add_right_cancel_iff] at h
      have hx := beNat_lt xs
      have hy := beNat_lt ys
      rw [h] at hx
      rw [compareD, beNat_cons, beNat_cons, h]
      by_cases hxy : x = y
      · subst hxy
        simp only [ne_eq, not_true_eq_false, if_false]
        rw [ih ys h]
        unfold signOf
        simp
      · simp only [ne_eq, hxy, not_false_eq_true, if_true]
        have hne : x.toNat ≠ y.toNat := fun e => hxy (BitVec.eq_of_toNat_eq e)
        unfold result signOf
        by_cases hlt : x.toNat < y.toNat
        · have : (x.toNat + 1) * 256 ^ ys.length ≤ y.toNat * 256 ^ ys.length :=
            Nat.mul_le_mul_right _ hlt
          rw [Nat.add_mul] at this
          rw [if_pos hlt, if_pos (by omega)]
        · have : (y.toNat + 1) * 256 ^ ys.length ≤ x.toNat * 256 ^ ys.length :=
            Nat.mul_le_mul_right _ (by omega)
          rw [Nat.add_mul] at this
          rw [if_neg hlt, if_neg (by omega), if_neg (by omega)]

theorem signOf_split (a b x y k : Nat) (hx : x < k) (hy : y < k) :
    signOf (a * k + x) (b * k + y) = if a ≠ b then result a b else signOf x y := by
  unfold signOf result
  by_cases h : a = b
  · subst h
    simp
  · rw [if_pos h]
    by_cases hlt : a < b
    · have : (a + 1) * k ≤ b * k := Nat.mul_le_mul_right _ hlt
      rw [Nat.add_mul] at this
      rw [if_pos hlt, if_pos (by omega)]
    · have : (b + 1) * k ≤ a * k := Nat.mul_le_mul_right _ (by omega)
      rw [Nat.add_mul] at this
      rw [if_neg hlt, if_neg (by omega), if_neg (by omega)]

/-- **C05.** `Compare` is the comparison of the 128-bit big-endian numbers, i.e. the lexicographic
order of the RFC bytes. -/
theorem C05_compare_is_number_order (a b : Guid) :
    compare a b =
      if number a < number b then -1 else if number a = number b then 0 else 1 := by
  obtain ⟨l, hl⟩ := a
  obtain ⟨m, hm⟩ := b
  obtain ⟨b0, b1, b2, b3, b4, b5, b6, b7, b8, b9, b10, b11, b12, b13, b14, b15, r, rfl⟩ :=
    exists16 l (by omega)
  have hr : r = [] := by simpa using hl
  subst hr
  obtain ⟨c0, c1, c2, c3, c4, c5, c6, c7, c8, c9, c10, c11, c12, c13, c14, c15, r, rfl⟩ :=
    exists16 m (by omega)
  have hr : r = [] := by simpa using hm
  subst hr
  change compare _ _ = signOf _ _
  have e1 : ∀ x0 x1 x2 x3 x4 x5 x6 x7 x8 x9 x10 x11 x12 x13 x14 x15 : Byte,
      beNat [x0, x1, x2, x3, x4, x5, x6, x7, x8, x9, x10, x11, x12, x13, x14, x15]
      = beNat [x0, x1, x2, x3] * 256 ^ 12 + (beNat [x4, x5] * 256 ^ 10 +
        (beNat [x6, x7] * 256 ^ 8 + beNat [x8, x9, x10, x11, x12, x13, x14, x15])) := by
    intros
    simp only [beNat_cons, beNat_nil, List.length_cons, List.length_nil]
    ring
  have hlt2 : ∀ x y : Byte, beNat [x, y] < 256 ^ 2 := fun x y => beNat_lt [x, y]
  have hlt8 : ∀ x8 x9 x10 x11 x12 x13 x14 x15 : Byte,
      beNat [x8, x9, x10, x11, x12, x13, x14, x15] < 256 ^ 8 := fun _ _ _ _ _ _ _ _ =>
    beNat_lt [_, _, _, _, _, _, _, _]
  unfold number
  simp only
  rw [e1, e1]
  have h8a := hlt8 b8 b9 b10 b11 b12 b13 b14 b15
  have h8b := hlt8 c8 c9 c10 c11 c12 c13 c14 c15
  have h4a := hlt2 b4 b5
  have h4b := hlt2 c4 c5
  have h6a := hlt2 b6 b7
  have h6b := hlt2 c6 c7
  rw [signOf_split _ _ _ _ _ (by omega) (by omega), signOf_split _ _ _ _ _ (by omega) (by omega),
    signOf_split _ _ _ _ _ h8a h8b,
    ← compareD_eq [b8, b9, b10, b11, b12, b13, b14, b15] [c8, c9, c10, c11, c12, c13, c14, c15] rfl]
  rfl

/-- **C05 (laws).** `Compare` is zero exactly on equal Guids, antisymmetric and transitive. -/
theorem C05_total_order :
    (∀ a b, compare a b = 0 ↔ a = b) ∧
    (∀ a b, compare b a = - compare a b) ∧
    (∀ a b c, compare a b ≤ 0 → compare b c ≤ 0 → compare a c ≤ 0) ∧
    (∀ a b c, compare a b < 0 → compare b c ≤ 0 → compare a c < 0) := by
  refine ⟨?_, ?_, ?_, ?_⟩
  · intro a b
    rw [C05_compare_is_number_order]
    constructor
    · intro h
      apply number_inj
      split at h <;> [simp at h; (split at h <;> [assumption; simp at h])]
    · rintro rfl; simp
  · intro a b
    rw [C05_compare_is_number_order, C05_compare_is_number_order]
    split <;> split <;> (try split) <;> (try split) <;> omega
  · intro a b c
    rw [C05_compare_is_number_order, C05_compare_is_number_order, C05_compare_is_number_order]
    intro h1 h2
    split at h1 <;> split at h2 <;> split <;> (try split) <;> (try split at h1) <;>
      (try split at h2) <;> omega
  · intro a b c
    rw [C05_compare_is_number_order, C05_compare_is_number_order, C05_compare_is_number_order]
    intro h1 h2
    split at h1 <;> split at h2 <;> split <;> (try split) <;> (try split at h1) <;>
      (try split at h2) <;> omega

/-- Guids that differ only in one late byte are ordered by it. -/
example : compare ⟨[1, 2, 3, 4, 5, 6, 7, 8, 9, 10, 11, 12, 13, 14, 15, 16], rfl⟩
    ⟨[1, 2, 3, 4, 5, 6, 7, 8, 9, 10, 11, 12, 13, 14, 15, 255], rfl⟩ = -1 := by decide

/-- **C04/C05 (equality).** `Equal` and `IsZero` decide equality of all 16 bytes. -/
theorem C04_equal (a b : Guid) :
    (equal a b = true ↔ a.bytes = b.bytes) ∧ (isZero a = true ↔ ∀ x ∈ a.bytes, x = 0#8) := by
  constructor
  · unfold equal
    rw [decide_eq_true_iff]
    constructor
    · rintro rfl; rfl
    · intro h
      obtain ⟨l, hl⟩ := a; obtain ⟨m, hm⟩ := b
      simp only at h
      subst h; rfl
  · unfold isZero empty
    rw [decide_eq_true_iff]
    constructor
    · rintro rfl x hx
      exact List.eq_of_mem_replicate hx
    · intro h
      obtain ⟨l, hl⟩ := a
      have : l = List.replicate 16 0#8 := List.eq_replicate_iff.mpr ⟨hl, h⟩
      subst this; rfl

end Verif.Guid
