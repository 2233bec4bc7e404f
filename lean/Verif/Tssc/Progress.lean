import Verif.Tssc.IdSim

/-!
# Decoding uses up the buffer

Every decoder call leaves at most as many unread bits as before, and reading a code word strictly fewer.
-/

set_option linter.unusedSimpArgs false

namespace Verif.Tssc

/-- Unread bits. -/
def unread (b : Buf) : Nat := 8 * b.rest.length + b.bitCount

/-- The call leaves at most as many unread bits. -/
def Shrinks {α : Type} (f : DecM α) : Prop := ∀ d r d', f d = (r, d') → unread d'.buf ≤ unread d.buf

theorem readBit_unread {b b' : Buf} {x : Bool} (h : readBit b = .ok (x, b')) : unread b' + 1 = unread b := by
  obtain ⟨rest, n, cache⟩ := b
  unfold readBit at h
  dsimp only at h
  split at h
  · rename_i h0
    subst h0
    cases rest with
    | nil => simp at h
    | cons y ys =>
      simp only [Res.bind_ok, Res.ok.injEq, Prod.mk.injEq] at h
      obtain ⟨-, rfl⟩ := h
      simp only [unread, List.length_cons]
      omega
  · simp only [Res.bind_ok, Res.ok.injEq, Prod.mk.injEq] at h
    obtain ⟨-, rfl⟩ := h
    simp only [unread]
    omega

theorem readBits4_unread {b b' : Buf} {x : Nat} (h : readBits4 b = .ok (x, b')) : unread b' + 4 = unread b := by
  unfold readBits4 at h
  simp only [Res.bind_eq_ok] at h
  obtain ⟨⟨_, b1⟩, h1, ⟨_, b2⟩, h2, ⟨_, b3⟩, h3, ⟨_, b4⟩, h4, h⟩ := h
  simp only [Res.ok.injEq, Prod.mk.injEq] at h
  obtain ⟨-, rfl⟩ := h
  have := readBit_unread h1
  have := readBit_unread h2
  have := readBit_unread h3
  have := readBit_unread h4
  dsimp only at *
  omega

theorem readBits5_unread {b b' : Buf} {x : Nat} (h : readBits5 b = .ok (x, b')) : unread b' + 5 = unread b := by
  unfold readBits5 at h
  simp only [Res.bind_eq_ok] at h
  obtain ⟨⟨_, b1⟩, h1, ⟨_, b2⟩, h2, ⟨_, b3⟩, h3, ⟨_, b4⟩, h4, ⟨_, b5⟩, h5, h⟩ := h
  simp only [Res.ok.injEq, Prod.mk.injEq] at h
  obtain ⟨-, rfl⟩ := h
  have := readBit_unread h1
  have := readBit_unread h2
  have := readBit_unread h3
  have := readBit_unread h4
  have := readBit_unread h5
  dsimp only at *
  omega

theorem readByte_unread {b b' : Buf} {x : Byte} (h : readByte b = .ok (x, b')) : unread b' + 8 = unread b := by
  obtain ⟨rest, n, cache⟩ := b
  unfold readByte at h
  cases rest with
  | nil => cases h
  | cons y ys =>
    simp only [Res.ok.injEq, Prod.mk.injEq] at h
    obtain ⟨-, rfl⟩ := h
    simp only [unread, List.length_cons]
    omega

theorem readCode_unread {cs cs' : CodeState} {b b' : Buf} {c : Nat}
    (h : readCode readBit readBits5 cs b = .ok (c, cs', b')) : unread b' < unread b := by
  unfold readCode at h
  simp only [Res.bind_eq_ok] at h
  obtain ⟨⟨c1, b1⟩, h1, c2, h2, h⟩ := h
  simp only [Res.ok.injEq, Prod.mk.injEq] at h
  obtain ⟨-, -, rfl⟩ := h
  split at h1
  · have := readBits5_unread h1; omega
  · simp only [Res.bind_eq_ok] at h1
    obtain ⟨⟨x, b2⟩, h2, h1⟩ := h1
    have := readBit_unread h2
    dsimp only at h1
    split at h1
    · simp only [Res.ok.injEq, Prod.mk.injEq] at h1; obtain ⟨-, rfl⟩ := h1; omega
    · have := readBits5_unread h1; omega
  · simp only [Res.bind_eq_ok] at h1
    obtain ⟨⟨x, b2⟩, h2, h1⟩ := h1
    have := readBit_unread h2
    dsimp only at h1
    split at h1
    · simp only [Res.ok.injEq, Prod.mk.injEq] at h1; obtain ⟨-, rfl⟩ := h1; omega
    · simp only [Res.bind_eq_ok] at h1
      obtain ⟨⟨x, b3⟩, h3, h1⟩ := h1
      have := readBit_unread h3
      dsimp only at h1
      split at h1
      · simp only [Res.ok.injEq, Prod.mk.injEq] at h1; obtain ⟨-, rfl⟩ := h1; omega
      · have := readBits5_unread h1; omega
  · simp only [Res.bind_eq_ok] at h1
    obtain ⟨⟨x, b2⟩, h2, h1⟩ := h1
    have := readBit_unread h2
    dsimp only at h1
    split at h1
    · simp only [Res.ok.injEq, Prod.mk.injEq] at h1; obtain ⟨-, rfl⟩ := h1; omega
    · simp only [Res.bind_eq_ok] at h1
      obtain ⟨⟨x, b3⟩, h3, h1⟩ := h1
      have := readBit_unread h3
      dsimp only at h1
      split at h1
      · simp only [Res.ok.injEq, Prod.mk.injEq] at h1; obtain ⟨-, rfl⟩ := h1; omega
      · simp only [Res.bind_eq_ok] at h1
        obtain ⟨⟨x, b4⟩, h4, h1⟩ := h1
        have := readBit_unread h4
        dsimp only at h1
        split at h1
        · simp only [Res.ok.injEq, Prod.mk.injEq] at h1; obtain ⟨-, rfl⟩ := h1; omega
        · have := readBits5_unread h1; omega
  · cases h1

theorem readLastCode_unread {d d' : Decoder} {c : Nat} (h : readLastCode d = (.ok c, d')) :
    unread d'.buf < unread d.buf := by
  unfold readLastCode at h
  split at h
  · split at h
    · rename_i hc
      simp only [Prod.mk.injEq] at h
      obtain ⟨-, rfl⟩ := h
      simpa using readCode_unread hc
    · simp at h
    · simp at h
  · simp at h
  · simp at h

/-! ## Nothing gives bits back -/

theorem Shrinks.bind {α β : Type} {f : DecM α} {g : α → DecM β} (hf : Shrinks f) (hg : ∀ a, Shrinks (g a)) :
    Shrinks (f >>= g) := by
  intro d r d' h
  rw [DecM.bind_def] at h
  cases hfd : f d with
  | mk r1 d1 =>
    rw [hfd] at h
    have h1 := hf _ _ _ hfd
    cases r1 with
    | ok a => have h2 := hg a _ _ _ h; omega
    | err => simp only [Prod.mk.injEq] at h; obtain ⟨-, rfl⟩ := h; exact h1
    | panic => simp only [Prod.mk.injEq] at h; obtain ⟨-, rfl⟩ := h; exact h1

theorem Shrinks.pure {α : Type} (a : α) : Shrinks (pure a : DecM α) := by
  intro d r d' h
  simp only [DecM.pure_def, Prod.mk.injEq] at h
  obtain ⟨-, rfl⟩ := h
  exact Nat.le_refl _

theorem Shrinks.fail {α : Type} : Shrinks (DecM.fail : DecM α) := by
  intro d r d' h
  simp only [DecM.fail, Prod.mk.injEq] at h
  obtain ⟨-, rfl⟩ := h
  exact Nat.le_refl _

theorem Shrinks.ite {α : Type} {c : Prop} [Decidable c] {f g : DecM α} (hf : Shrinks f) (hg : Shrinks g) :
    Shrinks (if c then f else g) := by
  split <;> assumption

/-- Calls that do not touch the buffer. -/
theorem Shrinks.same {α : Type} {f : DecM α} (h : ∀ d, (f d).2.buf = d.buf) : Shrinks f := by
  intro d r d' hd
  have := h d
  rw [hd] at this
  dsimp only at this
  rw [this]

theorem Shrinks.onBuf {α : Type} {f : Buf → Res (α × Buf)}
    (h : ∀ b x b', f b = .ok (x, b') → unread b' ≤ unread b) : Shrinks (onBuf f) := by
  intro d r d' hd
  unfold Tssc.onBuf at hd
  split at hd
  · rename_i hx
    simp only [Prod.mk.injEq] at hd
    obtain ⟨-, rfl⟩ := hd
    exact h _ _ _ hx
  · simp only [Prod.mk.injEq] at hd; obtain ⟨-, rfl⟩ := hd; exact Nat.le_refl _
  · simp only [Prod.mk.injEq] at hd; obtain ⟨-, rfl⟩ := hd; exact Nat.le_refl _

theorem shrinks_bits4 : Shrinks (onBuf readBits4) :=
  Shrinks.onBuf fun _ _ _ h => by have := readBits4_unread h; omega

theorem shrinks_byte : Shrinks (onBuf readByte) :=
  Shrinks.onBuf fun _ _ _ h => by have := readByte_unread h; omega

theorem shrinks_drop (b : Buf) (n : Nat) : unread { b with rest := b.rest.drop n } ≤ unread b := by
  simp only [unread, List.length_drop]; omega

theorem shrinks_7bit64 : Shrinks read7Bit64 := by
  apply Shrinks.onBuf
  intro b x b' h
  split at h
  · simp only [Res.ok.injEq, Prod.mk.injEq] at h
    obtain ⟨-, rfl⟩ := h
    exact shrinks_drop _ _
  · cases h
  · cases h

theorem shrinks_7bit32 : Shrinks read7Bit32 := by
  apply Shrinks.onBuf
  intro b x b' h
  split at h
  · simp only [Res.ok.injEq, Prod.mk.injEq] at h
    obtain ⟨-, rfl⟩ := h
    exact shrinks_drop _ _
  · cases h
  · cases h

theorem shrinks_code : Shrinks readLastCode := by
  intro d r d' h
  cases r with
  | ok c => have := readLastCode_unread h; omega
  | err =>
    unfold readLastCode at h
    split at h
    · split at h <;> simp_all
    · simp_all
    · simp_all
  | panic =>
    unfold readLastCode at h
    split at h
    · split at h <;> simp_all
    · simp_all
    · simp_all

theorem shrinks_last : Shrinks lastPoint := Shrinks.same fun _ => rfl
theorem shrinks_pointOf (id : BitVec 32) : Shrinks (pointOf id) := Shrinks.same fun d => by
  unfold pointOf; split <;> rfl
theorem shrinks_put (id : BitVec 32) (p : Point) : Shrinks (putPoint id p) := Shrinks.same fun _ => rfl
theorem shrinks_ensure (id : BitVec 32) : Shrinks (ensurePoint id) := Shrinks.same fun d => by
  rw [ensurePoint_eq]; exact ens_buf id d

/-- Goals about sequences of the calls above. -/
macro "shrink" : tactic => `(tactic| repeat' (first
  | exact shrinks_bits4 | exact shrinks_byte | exact shrinks_7bit64 | exact shrinks_7bit32
  | exact shrinks_code | exact shrinks_last | exact shrinks_pointOf _ | exact shrinks_put _ _
  | exact shrinks_ensure _ | exact Shrinks.pure _ | exact Shrinks.fail
  | apply Shrinks.ite | (refine Shrinks.bind ?_ ?_) | intro _))

theorem shrinks_idBits (c : Nat) : Shrinks (pointIDBits c) := by unfold pointIDBits; shrink
theorem shrinks_valueBits (c : Nat) : Shrinks (valueBits c) := by unfold valueBits; shrink

theorem shrinks_decodeID (c : Nat) : Shrinks (decodePointID c) := by
  unfold decodePointID
  refine Shrinks.bind (shrinks_idBits c) fun x => Shrinks.bind shrinks_last fun p => ?_
  exact Shrinks.same fun d => setLast_buf _ _

theorem shrinks_timestampFor (c : Nat) : Shrinks (timestampFor c) := by
  intro d r d' h
  unfold timestampFor at h
  repeat' split at h
  all_goals first
    | (simp only [Prod.mk.injEq] at h; obtain ⟨-, rfl⟩ := h; exact Nat.le_refl _)
    | exact (Shrinks.bind shrinks_7bit64 fun _ => Shrinks.pure _) _ _ _ h

theorem saveDelta_buf (d : Decoder) (ts : BitVec 64) : (saveDelta d ts).buf = d.buf := by
  unfold saveDelta
  dsimp only
  repeat' split
  all_goals rfl

theorem shrinks_decodeTime (c : Nat) : Shrinks (decodeTimestamp c) := by
  unfold decodeTimestamp
  refine Shrinks.bind (shrinks_timestampFor c) fun ts => Shrinks.same fun d => ?_
  exact saveDelta_buf d ts

theorem shrinks_decodeFlags (c : Nat) (id : BitVec 32) : Shrinks (decodeStateFlags c id) := by
  unfold decodeStateFlags; shrink

theorem shrinks_decodeValue (c : Nat) (id : BitVec 32) : Shrinks (decodeValue c id) := by
  unfold decodeValue
  refine Shrinks.bind (shrinks_pointOf id) fun p => ?_
  refine Shrinks.ite (by shrink) (Shrinks.ite (by shrink) (Shrinks.ite (by shrink) (Shrinks.ite (by shrink) ?_)))
  refine Shrinks.bind (shrinks_valueBits c) fun x => ?_
  shrink

theorem shrinks_idPart (c : Nat) : Shrinks (idPart c) := by
  unfold idPart
  refine Shrinks.ite (Shrinks.bind (shrinks_decodeID c) fun _ => ?_) (Shrinks.pure _)
  shrink

theorem shrinks_timePart (c : Nat) : Shrinks (timePart c) := by
  unfold timePart
  refine Shrinks.ite (Shrinks.bind (shrinks_decodeTime c) fun _ => ?_) (Shrinks.same fun _ => rfl)
  shrink

theorem shrinks_flagsPart (c : Nat) (id : BitVec 32) : Shrinks (flagsPart c id) := by
  unfold flagsPart
  refine Shrinks.ite (Shrinks.bind (shrinks_decodeFlags c id) fun _ => ?_) ?_
  · shrink
  · shrink

theorem shrinks_fromID (c : Nat) : Shrinks (fromID c) := by
  unfold fromID fromNext fromTime fromFlags fromValue
  refine Shrinks.bind (shrinks_idPart c) fun c => Shrinks.bind shrinks_last fun p =>
    Shrinks.bind (shrinks_ensure _) fun _ => Shrinks.bind (shrinks_timePart c) fun r =>
    Shrinks.bind (shrinks_flagsPart _ _) fun r2 => Shrinks.bind (shrinks_decodeValue _ _) fun v =>
    Shrinks.same fun _ => rfl

/-- A measurement uses up at least one bit. -/
theorem tryGet_unread {d d' : Decoder} {m : Meas} (h : tryGetMeasurement d = (.ok (some m), d')) :
    unread d'.buf < unread d.buf := by
  by_cases h0 : d.buf.rest = [] ∧ d.buf.bitCount = 0
  · unfold tryGetMeasurement at h
    rw [if_pos h0] at h
    simp at h
  · rw [tryGet_eq d h0, DecM.bind_def] at h
    cases hr : readLastCode d with
    | mk r d1 =>
      rw [hr] at h
      cases r with
      | ok c =>
        have h1 := readLastCode_unread hr
        dsimp only at h
        split at h
        · simp at h
        · have := shrinks_fromID c _ _ _ h
          omega
      | err => simp at h
      | panic => simp at h

end Verif.Tssc
