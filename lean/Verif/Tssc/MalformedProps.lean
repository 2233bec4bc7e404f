import Verif.Tssc.StreamProps

/-!
# Malformed TSSC data (C14)
-/

set_option linter.unusedSimpArgs false

namespace Verif.Tssc

/-! ## When decoding does not run past the end of the buffer -/

/-- Decoder states that occur: valid adaptive codes, `lastPoint` points somewhere, fewer than eight cached bits, and
the point `k`, if given, is known. -/
structure DGood (k : Option (BitVec 32)) (d : Decoder) : Prop where
  initial : d.initial.code.Valid
  points : ∀ i p, d.points i = some p → p.code.Valid
  last : ∀ i, d.last = some i → ∃ p, d.points i = some p
  bits : d.buf.bitCount ≤ 7
  point : ∀ i, k = some i → ∃ p, d.points i = some p

theorem DGood.new : DGood none newDecoder :=
  ⟨new_valid, fun _ _ h => by simp [newDecoder] at h, fun _ h => by simp [newDecoder] at h, by simp [newDecoder],
    fun _ h => by cases h⟩

theorem DGood.getLast {k : Option (BitVec 32)} {d : Decoder} (h : DGood k d) :
    ∃ p, getLast d = .ok p ∧ p.code.Valid := by
  unfold Tssc.getLast
  cases hl : d.last with
  | none => exact ⟨_, rfl, h.initial⟩
  | some i =>
    obtain ⟨p, hp⟩ := h.last i hl
    exact ⟨p, by simp [hp], h.points i p hp⟩

theorem DGood.setPoint {k : Option (BitVec 32)} {d : Decoder} (h : DGood k d) (i : BitVec 32) (p : Point)
    (hp : p.code.Valid) : DGood k (setPoint d i p) := by
  refine ⟨h.initial, ?_, ?_, h.bits, ?_⟩
  · intro j q hq
    simp only [Tssc.setPoint] at hq
    split at hq
    · cases hq; exact hp
    · exact h.points j q hq
  · intro j hj
    obtain ⟨q, hq⟩ := h.last j hj
    by_cases e : j = i
    · exact ⟨p, by simp [Tssc.setPoint, e]⟩
    · exact ⟨q, by simp [Tssc.setPoint, e, hq]⟩
  · intro j hj
    obtain ⟨q, hq⟩ := h.point j hj
    by_cases e : j = i
    · exact ⟨p, by simp [Tssc.setPoint, e]⟩
    · exact ⟨q, by simp [Tssc.setPoint, e, hq]⟩

theorem DGood.setLast {k : Option (BitVec 32)} {d : Decoder} (h : DGood k d) (p : Point) (hp : p.code.Valid) :
    DGood k (setLast d p) := by
  unfold Tssc.setLast
  cases hl : d.last with
  | none => exact ⟨hp, h.points, fun i hi => by simp [hl] at hi, h.bits, h.point⟩
  | some i =>
    have := DGood.setPoint h i p hp
    simp only [Tssc.setPoint, hl] at this
    exact this

theorem DGood.buf {k : Option (BitVec 32)} {d : Decoder} (h : DGood k d) (b : Buf) (hb : b.bitCount ≤ 7) :
    DGood k { d with buf := b } := ⟨h.initial, h.points, h.last, hb, h.point⟩

/-- Started with at least `n + 7` unread bits, the call does not panic, uses at most `n` bits and leaves a good state. -/
def Safe (k : Option (BitVec 32)) (n : Nat) {α : Type} (f : DecM α) : Prop :=
  ∀ d, DGood k d → n + 7 ≤ unread d.buf → ∀ r d', f d = (r, d') →
    r ≠ .panic ∧ ∀ a, r = .ok a → DGood k d' ∧ unread d.buf ≤ unread d'.buf + n

theorem Safe.bind {k : Option (BitVec 32)} {n m : Nat} {α β : Type} {f : DecM α} {g : α → DecM β}
    (hf : Safe k n f) (hg : ∀ a, Safe k m (g a)) : Safe k (n + m) (f >>= g) := by
  intro d hd hu r d' h
  rw [DecM.bind_def] at h
  cases hfd : f d with
  | mk r1 d1 =>
    rw [hfd] at h
    obtain ⟨hp, hok⟩ := hf d hd (by omega) _ _ hfd
    cases r1 with
    | ok a =>
      obtain ⟨hd1, hu1⟩ := hok a rfl
      obtain ⟨hp2, hok2⟩ := hg a d1 hd1 (by omega) _ _ h
      refine ⟨hp2, fun b hb => ?_⟩
      obtain ⟨hd2, hu2⟩ := hok2 b hb
      exact ⟨hd2, by omega⟩
    | err =>
      simp only [Prod.mk.injEq] at h
      obtain ⟨rfl, rfl⟩ := h
      exact ⟨by simp, by simp⟩
    | panic => exact absurd rfl hp

theorem Safe.mono {k : Option (BitVec 32)} {n m : Nat} {α : Type} {f : DecM α} (h : Safe k n f) (hm : n ≤ m) :
    Safe k m f := by
  intro d hd hu r d' hr
  obtain ⟨h1, h2⟩ := h d hd (by omega) r d' hr
  exact ⟨h1, fun a ha => ⟨(h2 a ha).1, by have := (h2 a ha).2; omega⟩⟩

theorem Safe.pure {k : Option (BitVec 32)} {n : Nat} {α : Type} (a : α) : Safe k n (pure a : DecM α) := by
  intro d hd hu r d' h
  simp only [DecM.pure_def, Prod.mk.injEq] at h
  obtain ⟨rfl, rfl⟩ := h
  exact ⟨by simp, fun _ _ => ⟨hd, by omega⟩⟩

theorem Safe.fail {k : Option (BitVec 32)} {n : Nat} {α : Type} : Safe k n (DecM.fail : DecM α) := by
  intro d hd hu r d' h
  simp only [DecM.fail, Prod.mk.injEq] at h
  obtain ⟨rfl, rfl⟩ := h
  exact ⟨by simp, by simp⟩

theorem Safe.ite {k : Option (BitVec 32)} {n : Nat} {α : Type} {c : Prop} [Decidable c] {f g : DecM α}
    (hf : Safe k n f) (hg : Safe k n g) : Safe k n (if c then f else g) := by
  split <;> assumption

theorem readBit_safe (b : Buf) (h : b.bitCount ≤ 7) (hu : 8 ≤ unread b) :
    ∃ x b', readBit b = .ok (x, b') ∧ b'.bitCount ≤ 7 ∧ unread b' + 1 = unread b := by
  obtain ⟨rest, n, c⟩ := b
  dsimp only at h
  simp only [unread] at hu
  cases hr : readBit ⟨rest, n, c⟩ with
  | ok r =>
    obtain ⟨x, b'⟩ := r
    refine ⟨x, b', rfl, ?_, readBit_unread hr⟩
    unfold readBit at hr
    dsimp only at hr
    split at hr
    · cases rest with
      | nil => simp at hr
      | cons y ys => simp at hr; obtain ⟨-, rfl⟩ := hr; simp
    · simp at hr; obtain ⟨-, rfl⟩ := hr; dsimp only; omega
  | err =>
    unfold readBit at hr
    dsimp only at hr
    split at hr
    · cases rest <;> simp at hr
    · simp at hr
  | panic =>
    unfold readBit at hr
    dsimp only at hr
    split at hr
    · cases rest with
      | nil => simp at hu; omega
      | cons y ys => simp at hr
    · simp at hr

/-- A buffer reader that, with `n + 7` unread bits, succeeds and uses `n`. -/
def BSafe (n : Nat) {α : Type} (f : Buf → Res (α × Buf)) : Prop :=
  ∀ b : Buf, b.bitCount ≤ 7 → n + 7 ≤ unread b → ∃ x b', f b = .ok (x, b') ∧ b'.bitCount ≤ 7 ∧ unread b ≤ unread b' + n

theorem BSafe.onBuf {k : Option (BitVec 32)} {n : Nat} {α : Type} {f : Buf → Res (α × Buf)} (h : BSafe n f) :
    Safe k n (onBuf f) := by
  intro d hd hu r d' hr
  obtain ⟨x, b', hx, hb, hub⟩ := h d.buf hd.bits hu
  unfold Tssc.onBuf at hr
  rw [hx] at hr
  simp only [Prod.mk.injEq] at hr
  obtain ⟨rfl, rfl⟩ := hr
  exact ⟨by simp, fun _ _ => ⟨hd.buf b' hb, hub⟩⟩

theorem bits4_safe : BSafe 4 readBits4 := by
  intro b h hu
  obtain ⟨x1, b1, e1, h1, u1⟩ := readBit_safe b h (by omega)
  obtain ⟨x2, b2, e2, h2, u2⟩ := readBit_safe b1 h1 (by omega)
  obtain ⟨x3, b3, e3, h3, u3⟩ := readBit_safe b2 h2 (by omega)
  obtain ⟨x4, b4, e4, h4, u4⟩ := readBit_safe b3 h3 (by omega)
  exact ⟨x1.toNat <<< 3 ||| x2.toNat <<< 2 ||| x3.toNat <<< 1 ||| x4.toNat, b4,
    by simp only [readBits4, e1, e2, e3, e4, Res.bind_ok], h4, by omega⟩

theorem bits5_safe (b : Buf) (h : b.bitCount ≤ 7) (hu : 5 + 7 ≤ unread b) :
    ∃ x b', readBits5 b = .ok (x, b') ∧ x < 32 ∧ b'.bitCount ≤ 7 ∧ unread b' + 5 = unread b := by
  obtain ⟨x1, b1, e1, h1, u1⟩ := readBit_safe b h (by omega)
  obtain ⟨x2, b2, e2, h2, u2⟩ := readBit_safe b1 h1 (by omega)
  obtain ⟨x3, b3, e3, h3, u3⟩ := readBit_safe b2 h2 (by omega)
  obtain ⟨x4, b4, e4, h4, u4⟩ := readBit_safe b3 h3 (by omega)
  obtain ⟨x5, b5, e5, h5, u5⟩ := readBit_safe b4 h4 (by omega)
  exact ⟨x1.toNat <<< 4 ||| x2.toNat <<< 3 ||| x3.toNat <<< 2 ||| x4.toNat <<< 1 ||| x5.toNat, b5,
    by simp only [readBits5, e1, e2, e3, e4, e5, Res.bind_ok],
    by cases x1 <;> cases x2 <;> cases x3 <;> cases x4 <;> cases x5 <;> decide, h5, by omega⟩

theorem byte_safe : BSafe 8 readByte := by
  intro b h hu
  obtain ⟨rest, n, c⟩ := b
  cases rest with
  | nil => simp [unread] at hu h; omega
  | cons y ys => exact ⟨y, ⟨ys, n, c⟩, rfl, h, by simp [unread]; omega⟩

theorem decode64_total (l : List Byte) (h : 9 ≤ l.length) : ∃ v n, decode7BitUInt64 l = .ok (v, n) ∧ n ≤ 9 := by
  match l, h with
  | s0 :: s1 :: s2 :: s3 :: s4 :: s5 :: s6 :: s7 :: s8 :: t, _ =>
    unfold decode7BitUInt64
    dsimp only
    repeat' split
    all_goals exact ⟨_, _, rfl, by omega⟩

theorem decode32_total (l : List Byte) (h : 5 ≤ l.length) : ∃ v n, decode7BitUInt32 l = .ok (v, n) ∧ n ≤ 5 := by
  match l, h with
  | s0 :: s1 :: s2 :: s3 :: s4 :: t, _ =>
    unfold decode7BitUInt32
    dsimp only
    repeat' split
    all_goals exact ⟨_, _, rfl, by omega⟩

theorem read64_safe {k : Option (BitVec 32)} : Safe k 72 read7Bit64 := by
  apply BSafe.onBuf
  intro b h hu
  have hl : 9 ≤ b.rest.length := by simp only [unread] at hu; omega
  obtain ⟨v, n, e, hn⟩ := decode64_total b.rest hl
  exact ⟨v, { b with rest := b.rest.drop n }, by simp only [e], h, by simp only [unread, List.length_drop]; omega⟩

theorem read32_safe {k : Option (BitVec 32)} : Safe k 40 read7Bit32 := by
  apply BSafe.onBuf
  intro b h hu
  have hl : 5 ≤ b.rest.length := by simp only [unread] at hu; omega
  obtain ⟨v, n, e, hn⟩ := decode32_total b.rest hl
  exact ⟨v, { b with rest := b.rest.drop n }, by simp only [e], h, by simp only [unread, List.length_drop]; omega⟩

/-- The part of `readCode` that reads the bits. -/
def readWord (cs : CodeState) (b : Buf) : Res (Nat × Buf) :=
  match cs.mode with
  | 1 => readBits5 b
  | 2 => do
    let (x, s) ← readBit b
    if x then .ok (cs.mode21, s) else readBits5 s
  | 3 => do
    let (x, s) ← readBit b
    if x then .ok (cs.mode31, s) else
      let (x, s) ← readBit s
      if x then .ok (cs.mode301, s) else readBits5 s
  | 4 => do
    let (x, s) ← readBit b
    if x then .ok (cs.mode41, s) else
      let (x, s) ← readBit s
      if x then .ok (cs.mode401, s) else
        let (x, s) ← readBit s
        if x then .ok (cs.mode4001, s) else readBits5 s
  | _ => .err

theorem readCode_word (cs : CodeState) (b : Buf) : readCode readBit readBits5 cs b =
    (readWord cs b >>= fun p => updatedCodeStatistics cs p.1 >>= fun c => Res.ok (p.1, c, p.2)) := rfl

/-- Reading a code word with a valid adaptive code. -/
theorem readCode_safe (cs : CodeState) (hv : cs.Valid) (b : Buf) (h : b.bitCount ≤ 7) (hu : 8 + 7 ≤ unread b) :
    ∃ c cs' b', readCode readBit readBits5 cs b = .ok (c, cs', b') ∧ cs'.Valid ∧ b'.bitCount ≤ 7 ∧
      unread b ≤ unread b' + 8 := by
  suffices H : ∃ c b', readWord cs b = .ok (c, b') ∧ c < 32 ∧ b'.bitCount ≤ 7 ∧ unread b ≤ unread b' + 8 by
    obtain ⟨c, b', e, hc, hb, hub⟩ := H
    obtain ⟨cs', hcs, hv'⟩ := updated_ok cs hv c hc
    refine ⟨c, cs', b', ?_, hv', hb, hub⟩
    rw [readCode_word, e]
    simp only [Res.bind_ok, hcs]
  unfold readWord
  have hm := hv.mode_lo
  have hm' := hv.mode_hi
  have h5 := fun (b1 : Buf) (hb : b1.bitCount ≤ 7) (hu1 : unread b ≤ unread b1 + 3) =>
    bits5_safe b1 hb (by omega)
  obtain ⟨x1, b1, e1, hb1, hu1⟩ := readBit_safe b h (by omega)
  obtain ⟨x2, b2, e2, hb2, hu2⟩ := readBit_safe b1 hb1 (by omega)
  obtain ⟨x3, b3, e3, hb3, hu3⟩ := readBit_safe b2 hb2 (by omega)
  obtain ⟨y0, c0, f0, lt0, hc0, hv0⟩ := h5 b h (by omega)
  obtain ⟨y1, c1, f1, lt1, hc1, hv1⟩ := h5 b1 hb1 (by omega)
  obtain ⟨y2, c2, f2, lt2, hc2, hv2⟩ := h5 b2 hb2 (by omega)
  obtain ⟨y3, c3, f3, lt3, hc3, hv3⟩ := h5 b3 hb3 (by omega)
  have s1 := hv.short21
  have s2 := hv.short31
  have s3 := hv.short301
  have s4 := hv.short41
  have s5 := hv.short401
  have s6 := hv.short4001
  clear h5
  generalize cs.mode = m at *
  have hcase : m = 1 ∨ m = 2 ∨ m = 3 ∨ m = 4 := by omega
  rcases hcase with rfl | rfl | rfl | rfl
  · exact ⟨y0, c0, f0, lt0, hc0, by omega⟩
  · simp only [e1, Res.bind_ok]
    cases x1
    · exact ⟨y1, c1, by simpa using f1, lt1, hc1, by omega⟩
    · exact ⟨_, b1, by simp, s1, hb1, by omega⟩
  · simp only [e1, Res.bind_ok]
    cases x1
    · simp only [e2, Res.bind_ok, Bool.false_eq_true, if_false]
      cases x2
      · exact ⟨y2, c2, by simpa using f2, lt2, hc2, by omega⟩
      · exact ⟨_, b2, by simp, s3, hb2, by omega⟩
    · exact ⟨_, b1, by simp, s2, hb1, by omega⟩
  · simp only [e1, Res.bind_ok]
    cases x1
    · simp only [e2, Res.bind_ok, Bool.false_eq_true, if_false]
      cases x2
      · simp only [e3, Res.bind_ok, Bool.false_eq_true, if_false]
        cases x3
        · exact ⟨y3, c3, by simpa using f3, lt3, hc3, by omega⟩
        · exact ⟨_, b3, by simp, s6, hb3, by omega⟩
      · exact ⟨_, b2, by simp, s5, hb2, by omega⟩
    · exact ⟨_, b1, by simp, s4, hb1, by omega⟩

theorem code_safe {k : Option (BitVec 32)} : Safe k 8 readLastCode := by
  intro d hd hu r d' h
  obtain ⟨p, hp, hv⟩ := hd.getLast
  obtain ⟨c, cs, b, e, hv', hb, hub⟩ := readCode_safe p.code hv d.buf hd.bits hu
  unfold readLastCode at h
  simp only [hp, e, Prod.mk.injEq] at h
  obtain ⟨rfl, rfl⟩ := h
  exact ⟨by simp, fun _ _ => ⟨(hd.buf b hb).setLast _ hv', by simpa using hub⟩⟩

theorem point_safe {i : BitVec 32} : Safe (some i) 0 (pointOf i) := by
  intro d hd hu r d' h
  obtain ⟨p, hp⟩ := hd.point i rfl
  unfold pointOf at h
  simp only [hp, Prod.mk.injEq] at h
  obtain ⟨rfl, rfl⟩ := h
  exact ⟨by simp, fun _ _ => ⟨hd, by omega⟩⟩

/-- A step that reads the point `i` and goes on with it; the point's code is valid. -/
theorem withPoint_safe {i : BitVec 32} {n : Nat} {α : Type} {g : Point → DecM α}
    (hg : ∀ p : Point, p.code.Valid → Safe (some i) n (g p)) : Safe (some i) n (pointOf i >>= g) := by
  intro d hd hu r d' h
  obtain ⟨p, hp⟩ := hd.point i rfl
  rw [DecM.bind_def] at h
  unfold pointOf at h
  simp only [hp] at h
  exact hg p (hd.points i p hp) d hd hu r d' h

theorem withLast_safe {k : Option (BitVec 32)} {n : Nat} {α : Type} {g : Point → DecM α}
    (hg : ∀ p : Point, p.code.Valid → Safe k n (g p)) : Safe k n (lastPoint >>= g) := by
  intro d hd hu r d' h
  obtain ⟨p, hp, hv⟩ := hd.getLast
  rw [DecM.bind_def] at h
  unfold lastPoint at h
  simp only [hp] at h
  exact hg p hv d hd hu r d' h

theorem put_safe {k : Option (BitVec 32)} {i : BitVec 32} {p : Point} (hv : p.code.Valid) :
    Safe k 0 (putPoint i p) := by
  intro d hd hu r d' h
  unfold putPoint at h
  simp only [Prod.mk.injEq] at h
  obtain ⟨rfl, rfl⟩ := h
  exact ⟨by simp, fun _ _ => ⟨hd.setPoint i p hv, by simp [setPoint]⟩⟩

theorem xorByte {k : Option (BitVec 32)} {n : Nat} {α : Type} {g : Byte → DecM α} (hg : ∀ a, Safe k n (g a)) :
    Safe k (n + 8) (onBuf readByte >>= g) := by
  rw [Nat.add_comm]; exact Safe.bind (BSafe.onBuf byte_safe) hg

theorem xorNibble {k : Option (BitVec 32)} {n : Nat} {α : Type} {g : Nat → DecM α} (hg : ∀ a, Safe k n (g a)) :
    Safe k (n + 4) (onBuf readBits4 >>= g) := by
  rw [Nat.add_comm]; exact Safe.bind (BSafe.onBuf bits4_safe) hg

theorem idBits_safe {k : Option (BitVec 32)} (c : Nat) : Safe k 32 (pointIDBits c) := by
  unfold pointIDBits
  refine Safe.ite ?_ (Safe.ite ?_ (Safe.ite ?_ (Safe.ite ?_ (Safe.ite ?_ (Safe.ite ?_ (Safe.ite ?_ Safe.fail))))))
  · exact (xorNibble (n := 0) fun _ => Safe.pure _).mono (by omega)
  · exact (xorByte (n := 0) fun _ => Safe.pure _).mono (by omega)
  · exact (xorNibble (n := 8) fun _ => xorByte (n := 0) fun _ => Safe.pure _).mono (by omega)
  · exact (xorByte (n := 8) fun _ => xorByte (n := 0) fun _ => Safe.pure _).mono (by omega)
  · exact (xorNibble (n := 16) fun _ => xorByte (n := 8) fun _ => xorByte (n := 0) fun _ => Safe.pure _).mono (by omega)
  · exact (xorByte (n := 16) fun _ => xorByte (n := 8) fun _ => xorByte (n := 0) fun _ => Safe.pure _).mono (by omega)
  · exact (xorByte (n := 24) fun _ => xorByte (n := 16) fun _ => xorByte (n := 8) fun _ =>
      xorByte (n := 0) fun _ => Safe.pure _).mono (by omega)

theorem valueBits_safe {k : Option (BitVec 32)} (c : Nat) : Safe k 32 (valueBits c) := by
  unfold valueBits
  refine Safe.ite ?_ (Safe.ite ?_ (Safe.ite ?_ (Safe.ite ?_ (Safe.ite ?_ (Safe.ite ?_ (Safe.ite ?_
    (Safe.ite ?_ Safe.fail)))))))
  · exact (xorNibble (n := 0) fun _ => Safe.pure _).mono (by omega)
  · exact (xorByte (n := 0) fun _ => Safe.pure _).mono (by omega)
  · exact (xorNibble (n := 8) fun _ => xorByte (n := 0) fun _ => Safe.pure _).mono (by omega)
  · exact (xorByte (n := 8) fun _ => xorByte (n := 0) fun _ => Safe.pure _).mono (by omega)
  · exact (xorNibble (n := 16) fun _ => xorByte (n := 8) fun _ => xorByte (n := 0) fun _ => Safe.pure _).mono (by omega)
  · exact (xorByte (n := 16) fun _ => xorByte (n := 8) fun _ => xorByte (n := 0) fun _ => Safe.pure _).mono (by omega)
  · exact (xorNibble (n := 24) fun _ => xorByte (n := 16) fun _ => xorByte (n := 8) fun _ =>
      xorByte (n := 0) fun _ => Safe.pure _).mono (by omega)
  · exact (xorByte (n := 24) fun _ => xorByte (n := 16) fun _ => xorByte (n := 8) fun _ =>
      xorByte (n := 0) fun _ => Safe.pure _).mono (by omega)

theorem decodeID_safe {k : Option (BitVec 32)} (c : Nat) : Safe k 32 (decodePointID c) := by
  unfold decodePointID
  refine (Safe.bind (n := 32) (m := 0) (idBits_safe c) fun x => withLast_safe fun p hv => ?_)
  intro d hd hu r d' h
  simp only [Prod.mk.injEq] at h
  obtain ⟨rfl, rfl⟩ := h
  exact ⟨by simp, fun _ _ => ⟨hd.setLast _ hv, by simp⟩⟩

theorem idPart_safe {k : Option (BitVec 32)} (c : Nat) : Safe k 40 (idPart c) := by
  unfold idPart
  refine Safe.ite ?_ (Safe.pure _)
  exact Safe.bind (n := 32) (m := 8) (decodeID_safe c) fun _ => Safe.bind (n := 8) (m := 0) code_safe fun _ =>
    Safe.ite Safe.fail (Safe.pure _)

theorem timestampFor_safe {k : Option (BitVec 32)} (c : Nat) : Safe k 72 (timestampFor c) := by
  intro d hd hu r d' h
  unfold timestampFor at h
  repeat' split at h
  all_goals first
    | (simp only [Prod.mk.injEq] at h; obtain ⟨rfl, rfl⟩ := h; exact ⟨by simp, fun _ _ => ⟨hd, by omega⟩⟩)
    | exact (Safe.bind (n := 72) (m := 0) read64_safe fun _ => Safe.pure _) d hd hu r d' h

theorem saveDelta_good {k : Option (BitVec 32)} {d : Decoder} (h : DGood k d) (ts : BitVec 64) :
    DGood k (saveDelta d ts) := by
  unfold saveDelta
  dsimp only
  repeat' split
  all_goals exact ⟨h.initial, h.points, h.last, h.bits, h.point⟩

theorem decodeTime_safe {k : Option (BitVec 32)} (c : Nat) : Safe k 72 (decodeTimestamp c) := by
  unfold decodeTimestamp
  refine Safe.bind (n := 72) (m := 0) (timestampFor_safe c) fun ts => ?_
  intro d hd hu r d' h
  simp only [Prod.mk.injEq] at h
  obtain ⟨rfl, rfl⟩ := h
  have hg := saveDelta_good hd ts
  refine ⟨by simp, fun _ _ => ⟨⟨hg.initial, hg.points, hg.last, hg.bits, hg.point⟩, ?_⟩⟩
  simp [saveDelta_buf]

theorem timePart_safe {k : Option (BitVec 32)} (c : Nat) : Safe k 80 (timePart c) := by
  unfold timePart
  refine Safe.ite ?_ ?_
  · exact Safe.bind (n := 72) (m := 8) (decodeTime_safe c) fun _ => Safe.bind (n := 8) (m := 0) code_safe fun _ =>
      Safe.ite Safe.fail (Safe.pure _)
  · intro d hd hu r d' h
    simp only [Prod.mk.injEq] at h
    obtain ⟨rfl, rfl⟩ := h
    exact ⟨by simp, fun _ _ => ⟨hd, by omega⟩⟩

theorem decodeFlags_safe {i : BitVec 32} (c : Nat) : Safe (some i) 40 (decodeStateFlags c i) := by
  unfold decodeStateFlags
  refine Safe.bind (n := 40) (m := 0) (Safe.ite ?_ read32_safe) fun f => withPoint_safe fun p hv => ?_
  · exact withPoint_safe fun p _ => Safe.pure _
  · exact Safe.bind (n := 0) (m := 0) (put_safe hv) fun _ => Safe.pure _

theorem flagsPart_safe {i : BitVec 32} (c : Nat) : Safe (some i) 48 (flagsPart c i) := by
  unfold flagsPart
  refine Safe.ite ?_ ?_
  · exact Safe.bind (n := 40) (m := 8) (decodeFlags_safe c) fun _ => Safe.bind (n := 8) (m := 0) code_safe fun _ =>
      Safe.ite Safe.fail (Safe.pure _)
  · exact withPoint_safe fun p _ => Safe.pure _

theorem decodeValue_safe {i : BitVec 32} (c : Nat) : Safe (some i) 32 (decodeValue c i) := by
  unfold decodeValue
  refine withPoint_safe fun p hv => ?_
  refine Safe.ite (Safe.pure _) (Safe.ite ?_ (Safe.ite ?_ (Safe.ite ?_ ?_)))
  · exact Safe.bind (n := 0) (m := 32) (put_safe hv) fun _ => Safe.pure _
  · exact Safe.bind (n := 0) (m := 32) (put_safe hv) fun _ => Safe.pure _
  · exact Safe.bind (n := 0) (m := 32) (put_safe hv) fun _ => Safe.pure _
  · exact Safe.bind (n := 32) (m := 0) (valueBits_safe c) fun _ => withPoint_safe fun q hq =>
      Safe.bind (n := 0) (m := 0) (put_safe hq) fun _ => Safe.pure _

theorem DGood.forget {k : Option (BitVec 32)} {d : Decoder} (h : DGood k d) : DGood none d :=
  ⟨h.initial, h.points, h.last, h.bits, fun _ h => by cases h⟩

theorem fromNext_safe (c : Nat) : Safe none 160 (fromNext c) := by
  unfold fromNext
  refine withLast_safe fun p _ => ?_
  intro d hd hu r d' h
  dsimp only at h
  rw [DecM.bind_def, ensurePoint_eq] at h
  dsimp only at h
  have hg : DGood (some p.nextID) (ens p.nextID d) := by
    unfold ens
    cases hp : d.points p.nextID with
    | some q => exact ⟨hd.initial, hd.points, hd.last, hd.bits, fun i hi => by cases hi; exact ⟨q, hp⟩⟩
    | none =>
      have h' := hd.setPoint p.nextID { Point.new with nextID := p.nextID + 1 } new_valid
      exact ⟨h'.initial, h'.points, h'.last, h'.bits, fun i hi => by cases hi; exact ⟨_, by simp [setPoint]; rfl⟩⟩
  have hb := ens_buf p.nextID d
  have : Safe (some p.nextID) 160 (fromTime p.nextID c) := by
    unfold fromTime fromFlags fromValue
    refine Safe.bind (n := 80) (m := 80) (timePart_safe c) fun a => ?_
    refine Safe.bind (n := 48) (m := 32) (flagsPart_safe _) fun b => ?_
    refine Safe.bind (n := 32) (m := 0) (decodeValue_safe _) fun v => ?_
    intro d hd hu r d' h
    simp only [Prod.mk.injEq] at h
    obtain ⟨rfl, rfl⟩ := h
    refine ⟨by simp, fun _ _ => ⟨⟨hd.initial, hd.points, ?_, hd.bits, hd.point⟩, by simp⟩⟩
    intro i hi
    simp only [Option.some.injEq] at hi
    exact hd.point i (by rw [hi])
  obtain ⟨h1, h2⟩ := this _ hg (by rw [hb]; exact hu) r d' h
  refine ⟨h1, fun a ha => ⟨(h2 a ha).1.forget, ?_⟩⟩
  have := (h2 a ha).2
  rw [hb] at this
  exact this

theorem tryGet_safe : Safe none 208 tryGetMeasurement := by
  intro d hd hu r d' h
  have h0 : ¬ (d.buf.rest = [] ∧ d.buf.bitCount = 0) := by
    rintro ⟨h1, h2⟩
    simp [unread, h1, h2] at hu
  rw [tryGet_eq d h0] at h
  refine (Safe.bind (n := 8) (m := 200) code_safe fun c => Safe.ite ?_ ?_) d hd hu r d' h
  · intro d hd hu r d' h
    simp only [Prod.mk.injEq] at h
    obtain ⟨rfl, rfl⟩ := h
    have hb := hd.bits
    refine ⟨by simp, fun _ _ => ⟨hd.buf _ (by simp), ?_⟩⟩
    simp only [clearBits, unread]
    omega
  · exact Safe.bind (n := 40) (m := 160) (idPart_safe c) fun c => fromNext_safe c

/-! ## Good states are kept whatever the buffer holds -/

/-- Successful calls keep good states good. -/
def Keeps (k : Option (BitVec 32)) {α : Type} (f : DecM α) : Prop :=
  ∀ d, DGood k d → ∀ a d', f d = (.ok a, d') → DGood k d'

theorem Keeps.bind {k : Option (BitVec 32)} {α β : Type} {f : DecM α} {g : α → DecM β} (hf : Keeps k f)
    (hg : ∀ a, Keeps k (g a)) : Keeps k (f >>= g) := by
  intro d hd a d' h
  rw [DecM.bind_def] at h
  cases hfd : f d with
  | mk r1 d1 =>
    rw [hfd] at h
    cases r1 with
    | ok x => exact hg x d1 (hf d hd x d1 hfd) a d' h
    | err => simp at h
    | panic => simp at h

theorem Keeps.pure {k : Option (BitVec 32)} {α : Type} (a : α) : Keeps k (pure a : DecM α) := by
  intro d hd x d' h
  simp only [DecM.pure_def, Prod.mk.injEq] at h
  obtain ⟨-, rfl⟩ := h
  exact hd

theorem Keeps.fail {k : Option (BitVec 32)} {α : Type} : Keeps k (DecM.fail : DecM α) := by
  intro d hd x d' h
  simp [DecM.fail] at h

theorem Keeps.ite {k : Option (BitVec 32)} {α : Type} {c : Prop} [Decidable c] {f g : DecM α}
    (hf : Keeps k f) (hg : Keeps k g) : Keeps k (if c then f else g) := by
  split <;> assumption

theorem Keeps.onBuf {k : Option (BitVec 32)} {α : Type} {f : Buf → Res (α × Buf)}
    (h : ∀ b x b', b.bitCount ≤ 7 → f b = .ok (x, b') → b'.bitCount ≤ 7) : Keeps k (onBuf f) := by
  intro d hd a d' hr
  unfold Tssc.onBuf at hr
  split at hr
  · rename_i hx
    simp only [Prod.mk.injEq] at hr
    obtain ⟨-, rfl⟩ := hr
    exact hd.buf _ (h _ _ _ hd.bits hx)
  · simp at hr
  · simp at hr

theorem readBit_count {b b' : Buf} {x : Bool} (h : b.bitCount ≤ 7) (hr : readBit b = .ok (x, b')) :
    b'.bitCount ≤ 7 := by
  obtain ⟨rest, n, c⟩ := b
  dsimp only at h
  unfold readBit at hr
  dsimp only at hr
  split at hr
  · cases rest with
    | nil => simp at hr
    | cons y ys => simp at hr; obtain ⟨-, rfl⟩ := hr; simp
  · simp at hr; obtain ⟨-, rfl⟩ := hr; dsimp only; omega

theorem readBits4_count {b b' : Buf} {x : Nat} (h : b.bitCount ≤ 7) (hr : readBits4 b = .ok (x, b')) :
    b'.bitCount ≤ 7 := by
  unfold readBits4 at hr
  simp only [Res.bind_eq_ok] at hr
  obtain ⟨⟨_, b1⟩, h1, ⟨_, b2⟩, h2, ⟨_, b3⟩, h3, ⟨_, b4⟩, h4, hr⟩ := hr
  simp only [Res.ok.injEq, Prod.mk.injEq] at hr
  obtain ⟨-, rfl⟩ := hr
  exact readBit_count (readBit_count (readBit_count (readBit_count h h1) h2) h3) h4

theorem readBits5_count {b b' : Buf} {x : Nat} (h : b.bitCount ≤ 7) (hr : readBits5 b = .ok (x, b')) :
    b'.bitCount ≤ 7 := by
  unfold readBits5 at hr
  simp only [Res.bind_eq_ok] at hr
  obtain ⟨⟨_, b1⟩, h1, ⟨_, b2⟩, h2, ⟨_, b3⟩, h3, ⟨_, b4⟩, h4, ⟨_, b5⟩, h5, hr⟩ := hr
  simp only [Res.ok.injEq, Prod.mk.injEq] at hr
  obtain ⟨-, rfl⟩ := hr
  exact readBit_count (readBit_count (readBit_count (readBit_count (readBit_count h h1) h2) h3) h4) h5

theorem readWord_count {cs : CodeState} {b b' : Buf} {x : Nat} (h : b.bitCount ≤ 7)
    (hr : readWord cs b = .ok (x, b')) : b'.bitCount ≤ 7 := by
  unfold readWord at hr
  split at hr
  · exact readBits5_count h hr
  · simp only [Res.bind_eq_ok] at hr
    obtain ⟨⟨x1, b1⟩, h1, hr⟩ := hr
    have c1 := readBit_count h h1
    dsimp only at hr
    split at hr
    · simp only [Res.ok.injEq, Prod.mk.injEq] at hr; obtain ⟨-, rfl⟩ := hr; exact c1
    · exact readBits5_count c1 hr
  · simp only [Res.bind_eq_ok] at hr
    obtain ⟨⟨x1, b1⟩, h1, hr⟩ := hr
    have c1 := readBit_count h h1
    dsimp only at hr
    split at hr
    · simp only [Res.ok.injEq, Prod.mk.injEq] at hr; obtain ⟨-, rfl⟩ := hr; exact c1
    · simp only [Res.bind_eq_ok] at hr
      obtain ⟨⟨x2, b2⟩, h2, hr⟩ := hr
      have c2 := readBit_count c1 h2
      dsimp only at hr
      split at hr
      · simp only [Res.ok.injEq, Prod.mk.injEq] at hr; obtain ⟨-, rfl⟩ := hr; exact c2
      · exact readBits5_count c2 hr
  · simp only [Res.bind_eq_ok] at hr
    obtain ⟨⟨x1, b1⟩, h1, hr⟩ := hr
    have c1 := readBit_count h h1
    dsimp only at hr
    split at hr
    · simp only [Res.ok.injEq, Prod.mk.injEq] at hr; obtain ⟨-, rfl⟩ := hr; exact c1
    · simp only [Res.bind_eq_ok] at hr
      obtain ⟨⟨x2, b2⟩, h2, hr⟩ := hr
      have c2 := readBit_count c1 h2
      dsimp only at hr
      split at hr
      · simp only [Res.ok.injEq, Prod.mk.injEq] at hr; obtain ⟨-, rfl⟩ := hr; exact c2
      · simp only [Res.bind_eq_ok] at hr
        obtain ⟨⟨x3, b3⟩, h3, hr⟩ := hr
        have c3 := readBit_count c2 h3
        dsimp only at hr
        split at hr
        · simp only [Res.ok.injEq, Prod.mk.injEq] at hr; obtain ⟨-, rfl⟩ := hr; exact c3
        · exact readBits5_count c3 hr
  · cases hr

theorem keeps_bits4 {k : Option (BitVec 32)} : Keeps k (onBuf readBits4) :=
  Keeps.onBuf fun _ _ _ h hr => readBits4_count h hr

theorem keeps_byte {k : Option (BitVec 32)} : Keeps k (onBuf readByte) := by
  apply Keeps.onBuf
  intro b x b' h hr
  obtain ⟨rest, n, c⟩ := b
  cases rest with
  | nil => simp [readByte] at hr
  | cons y ys => simp [readByte] at hr; obtain ⟨-, rfl⟩ := hr; exact h

theorem keeps_7bit64 {k : Option (BitVec 32)} : Keeps k read7Bit64 := by
  apply Keeps.onBuf
  intro b x b' h hr
  split at hr
  · simp only [Res.ok.injEq, Prod.mk.injEq] at hr; obtain ⟨-, rfl⟩ := hr; exact h
  · cases hr
  · cases hr

theorem keeps_7bit32 {k : Option (BitVec 32)} : Keeps k read7Bit32 := by
  apply Keeps.onBuf
  intro b x b' h hr
  split at hr
  · simp only [Res.ok.injEq, Prod.mk.injEq] at hr; obtain ⟨-, rfl⟩ := hr; exact h
  · cases hr
  · cases hr

theorem keeps_code {k : Option (BitVec 32)} : Keeps k readLastCode := by
  intro d hd c d' h
  obtain ⟨p, hp, hv⟩ := hd.getLast
  unfold readLastCode at h
  simp only [hp] at h
  cases hc : readCode readBit readBits5 p.code d.buf with
  | ok r =>
    obtain ⟨c1, cs, b⟩ := r
    rw [hc] at h
    simp only [Prod.mk.injEq] at h
    obtain ⟨-, rfl⟩ := h
    rw [readCode_word] at hc
    simp only [Res.bind_eq_ok] at hc
    obtain ⟨⟨c2, b2⟩, h1, cs2, h2, h3⟩ := hc
    simp only [Res.ok.injEq, Prod.mk.injEq] at h3
    obtain ⟨rfl, rfl, rfl⟩ := h3
    exact (hd.buf _ (readWord_count hd.bits h1)).setLast _ (updated_valid hv h2)
  | err => rw [hc] at h; simp at h
  | panic => rw [hc] at h; simp at h

theorem keeps_withPoint {k : Option (BitVec 32)} {i : BitVec 32} {α : Type} {g : Point → DecM α}
    (hg : ∀ p : Point, p.code.Valid → Keeps k (g p)) : Keeps k (pointOf i >>= g) := by
  intro d hd a d' h
  rw [DecM.bind_def] at h
  unfold pointOf at h
  cases hp : d.points i with
  | some p =>
    simp only [hp] at h
    exact hg p (hd.points i p hp) d hd a d' h
  | none => simp [hp] at h

theorem keeps_withLast {k : Option (BitVec 32)} {α : Type} {g : Point → DecM α}
    (hg : ∀ p : Point, p.code.Valid → Keeps k (g p)) : Keeps k (lastPoint >>= g) := by
  intro d hd a d' h
  obtain ⟨p, hp, hv⟩ := hd.getLast
  rw [DecM.bind_def] at h
  unfold lastPoint at h
  simp only [hp] at h
  exact hg p hv d hd a d' h

theorem keeps_put {k : Option (BitVec 32)} {i : BitVec 32} {p : Point} (hv : p.code.Valid) :
    Keeps k (putPoint i p) := by
  intro d hd a d' h
  unfold putPoint at h
  simp only [Prod.mk.injEq] at h
  obtain ⟨-, rfl⟩ := h
  exact hd.setPoint i p hv

/-- Goals about sequences of reading calls. -/
macro "keep" : tactic => `(tactic| repeat' (first
  | exact keeps_bits4 | exact keeps_byte | exact keeps_7bit64 | exact keeps_7bit32
  | exact keeps_code | exact Keeps.pure _ | exact Keeps.fail
  | apply Keeps.ite | (refine Keeps.bind ?_ ?_) | intro _))

theorem keeps_idBits {k : Option (BitVec 32)} (c : Nat) : Keeps k (pointIDBits c) := by unfold pointIDBits; keep
theorem keeps_valueBits {k : Option (BitVec 32)} (c : Nat) : Keeps k (valueBits c) := by unfold valueBits; keep

theorem keeps_idPart {k : Option (BitVec 32)} (c : Nat) : Keeps k (idPart c) := by
  unfold idPart
  refine Keeps.ite (Keeps.bind ?_ fun _ => by keep) (Keeps.pure _)
  unfold decodePointID
  refine Keeps.bind (keeps_idBits c) fun x => keeps_withLast fun p hv => ?_
  intro d hd a d' h
  simp only [Prod.mk.injEq] at h
  obtain ⟨-, rfl⟩ := h
  exact hd.setLast _ hv

theorem keeps_timePart {k : Option (BitVec 32)} (c : Nat) : Keeps k (timePart c) := by
  unfold timePart
  refine Keeps.ite (Keeps.bind ?_ fun _ => by keep) ?_
  · unfold decodeTimestamp
    refine Keeps.bind ?_ fun ts => ?_
    · intro d hd a d' h
      unfold timestampFor at h
      repeat' split at h
      all_goals first
        | (simp only [Prod.mk.injEq] at h; obtain ⟨-, rfl⟩ := h; exact hd)
        | exact (Keeps.bind keeps_7bit64 fun _ => Keeps.pure _) d hd a d' h
    · intro d hd a d' h
      simp only [Prod.mk.injEq] at h
      obtain ⟨-, rfl⟩ := h
      have hg := saveDelta_good hd ts
      exact ⟨hg.initial, hg.points, hg.last, hg.bits, hg.point⟩
  · intro d hd a d' h
    simp only [Prod.mk.injEq] at h
    obtain ⟨-, rfl⟩ := h
    exact hd

theorem keeps_flagsPart {k : Option (BitVec 32)} {i : BitVec 32} (c : Nat) : Keeps k (flagsPart c i) := by
  unfold flagsPart
  refine Keeps.ite (Keeps.bind ?_ fun _ => by keep) (keeps_withPoint fun p _ => Keeps.pure _)
  unfold decodeStateFlags
  refine Keeps.bind (Keeps.ite (keeps_withPoint fun p _ => Keeps.pure _) keeps_7bit32) fun f =>
    keeps_withPoint fun p hv => Keeps.bind (keeps_put hv) fun _ => Keeps.pure _

theorem keeps_decodeValue {k : Option (BitVec 32)} {i : BitVec 32} (c : Nat) : Keeps k (decodeValue c i) := by
  unfold decodeValue
  refine keeps_withPoint fun p hv => ?_
  refine Keeps.ite (Keeps.pure _) (Keeps.ite ?_ (Keeps.ite ?_ (Keeps.ite ?_ ?_)))
  · exact Keeps.bind (keeps_put hv) fun _ => Keeps.pure _
  · exact Keeps.bind (keeps_put hv) fun _ => Keeps.pure _
  · exact Keeps.bind (keeps_put hv) fun _ => Keeps.pure _
  · exact Keeps.bind (keeps_valueBits c) fun _ => keeps_withPoint fun q hq =>
      Keeps.bind (keeps_put hq) fun _ => Keeps.pure _

theorem good_ens {d : Decoder} (hd : DGood none d) (i : BitVec 32) : DGood (some i) (ens i d) := by
  unfold ens
  cases hp : d.points i with
  | some q => exact ⟨hd.initial, hd.points, hd.last, hd.bits, fun i hi => by cases hi; exact ⟨q, hp⟩⟩
  | none =>
    have h' := hd.setPoint i { Point.new with nextID := i + 1 } new_valid
    exact ⟨h'.initial, h'.points, h'.last, h'.bits, fun i hi => by cases hi; exact ⟨_, by simp [setPoint]; rfl⟩⟩

theorem keeps_tryGet : Keeps none tryGetMeasurement := by
  intro d hd a d' h
  by_cases h0 : d.buf.rest = [] ∧ d.buf.bitCount = 0
  · unfold tryGetMeasurement at h
    rw [if_pos h0] at h
    simp only [Prod.mk.injEq] at h
    obtain ⟨-, rfl⟩ := h
    exact hd.buf _ (by simp)
  · rw [tryGet_eq d h0] at h
    refine (Keeps.bind keeps_code fun c => Keeps.ite ?_ ?_) d hd a d' h
    · intro d hd a d' h
      simp only [Prod.mk.injEq] at h
      obtain ⟨-, rfl⟩ := h
      exact hd.buf _ (by simp)
    · unfold fromID
      refine Keeps.bind (keeps_idPart c) fun c => ?_
      unfold fromNext
      refine keeps_withLast fun p _ => ?_
      intro d hd a d' h
      dsimp only at h
      rw [DecM.bind_def, ensurePoint_eq] at h
      dsimp only at h
      have hg := good_ens hd p.nextID
      have : Keeps (some p.nextID) (fromTime p.nextID c) := by
        unfold fromTime fromFlags fromValue
        refine Keeps.bind (keeps_timePart c) fun a => Keeps.bind (keeps_flagsPart _) fun b =>
          Keeps.bind (keeps_decodeValue _) fun v => ?_
        intro d hd a d' h
        simp only [Prod.mk.injEq] at h
        obtain ⟨-, rfl⟩ := h
        refine ⟨hd.initial, hd.points, ?_, hd.bits, hd.point⟩
        intro i hi
        simp only [Option.some.injEq] at hi
        exact hd.point i (by rw [hi])
      exact (this _ hg a d' h).forget

/-! ## C14 -/

/-- C14 fails: a block of one byte, the code word announcing a 32-bit ID with nothing after it, makes the decoder
index past the end of its buffer. -/
theorem C14_truncated_block_panics : ∃ data : List Byte, (tryGetMeasurement (setBuffer newDecoder data)).1 = .panic :=
  ⟨[7], by decide +kernel⟩

/-- States of a decoder between calls: created by `NewDecoder`, given any buffers, asked for any number of
measurements without error. -/
inductive DReachable : Decoder → Prop
  | new : DReachable newDecoder
  | setBuffer {d : Decoder} (data : List Byte) : DReachable d → DReachable (setBuffer d data)
  | get {d d' : Decoder} {m : Option Meas} : DReachable d → tryGetMeasurement d = (.ok m, d') → DReachable d'

theorem reachable_good {d : Decoder} (h : DReachable d) : DGood none d := by
  induction h with
  | new => exact DGood.new
  | setBuffer data _ ih => exact ih.buf _ (by simp)
  | get _ hr ih => exact keeps_tryGet _ ih _ _ hr

/-- C14, the part that holds, for every reachable decoder and every buffer content:
asking for a measurement never panics while at least 27 bytes are unread, and every measurement returned uses up
input.  Missing: within the last 26 bytes of a malformed block the decoder can panic
(`C14_truncated_block_panics`). -/
theorem C14_no_panic_partial (d : Decoder) (h : DReachable d) :
    (27 ≤ d.buf.rest.length → (tryGetMeasurement d).1 ≠ .panic) ∧
      (∀ m d', tryGetMeasurement d = (.ok (some m), d') →
        8 * d'.buf.rest.length + d'.buf.bitCount < 8 * d.buf.rest.length + d.buf.bitCount) := by
  refine ⟨fun hl => ?_, fun m d' hr => tryGet_unread hr⟩
  exact (tryGet_safe d (reachable_good h) (by simp only [unread]; omega) _ _ rfl).1

/-- A case meeting the hypotheses: 27 arbitrary bytes given to a new decoder. -/
example : DReachable (setBuffer newDecoder (List.replicate 27 0xA5)) ∧
    27 ≤ (setBuffer newDecoder (List.replicate 27 0xA5)).buf.rest.length :=
  ⟨.setBuffer _ .new, by decide⟩

/-- The caller's loop over a block is not cut short by the bound used to model it: any larger bound gives the
same outcome. -/
theorem C14_loop_finite (d : Decoder) (n : Nat) (h : fuelFor d ≤ n) : decodeAll n d = decodeAll (fuelFor d) d := by
  suffices H : ∀ u (d : Decoder), unread d.buf = u → ∀ n m, u < n → u < m → decodeAll n d = decodeAll m d by
    have : fuelFor d = unread d.buf + 1 := rfl
    exact H _ d rfl _ _ (by omega) (by omega)
  intro u
  induction u using Nat.strongRecOn with
  | _ u ih =>
    intro d hu n m hn hm
    obtain ⟨n, rfl⟩ : ∃ k, n = k + 1 := ⟨n - 1, by omega⟩
    obtain ⟨m, rfl⟩ : ∃ k, m = k + 1 := ⟨m - 1, by omega⟩
    rw [decodeAll, decodeAll]
    cases hr : tryGetMeasurement d with
    | mk r d' =>
      cases r with
      | ok o =>
        cases o with
        | some m' =>
          have := tryGet_unread hr
          dsimp only
          rw [ih (unread d'.buf) (by omega) d' rfl n m (by omega) (by omega)]
        | none => rfl
      | err => rfl
      | panic => rfl

/-- A block of `k` bytes yields at most `8 k` measurements, whatever the bytes are. -/
theorem C14_bounded_measurements (d : Decoder) (data : List Byte) :
    (decodeBlock d data).1.length ≤ 8 * data.length := by
  have H : ∀ n (d : Decoder), (decodeAll n d).1.length ≤ unread d.buf := by
    intro n
    induction n with
    | zero => intro d; simp [decodeAll]
    | succ n ih =>
      intro d
      rw [decodeAll]
      cases hr : tryGetMeasurement d with
      | mk r d' =>
        cases r with
        | ok o =>
          cases o with
          | some m' =>
            have := tryGet_unread hr
            have := ih d'
            simp only [List.length_cons]
            omega
          | none => simp
        | err => simp
        | panic => simp
  have := H (fuelFor (setBuffer d data)) (setBuffer d data)
  simpa [decodeBlock, unread, setBuffer] using this

end Verif.Tssc
