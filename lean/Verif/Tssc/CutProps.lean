import Verif.Tssc.MalformedProps

/-!
# Blocks that end too early

A decoder call looks at the buffer only through the bytes and bits it takes from the front. So a call that ends
without a panic ends in the same way when bytes are added at the end of the block, and a call that panics would
have gone on into the added bytes. With the bound of `C14_no_panic_partial` this tells exactly which blocks make
the decoder panic: those that end in the middle of a measurement.
-/

set_option linter.unusedSimpArgs false

namespace Verif.Tssc

/-- The buffer with bytes added at its end. -/
def Buf.more (b : Buf) (e : List Byte) : Buf := { b with rest := b.rest ++ e }

/-- The decoder with bytes added at the end of its buffer. -/
def more (d : Decoder) (e : List Byte) : Decoder := { d with buf := d.buf.more e }

/-- A reader that sees only what it takes, and fails only by running out of bytes. -/
def Reads {α : Type} (f : Buf → Res (α × Buf)) : Prop :=
  ∀ b e, match f b with
    | .ok (a, b') => b'.rest.length ≤ b.rest.length ∧ f (b.more e) = .ok (a, b'.more e)
    | .err => False
    | .panic => f (b.more e) = .panic ∨ ∃ a b', f (b.more e) = .ok (a, b') ∧ b'.rest.length < e.length

/-- Successful calls do not lengthen the buffer. -/
theorem Reads.le {α : Type} {f : Buf → Res (α × Buf)} (h : Reads f) {b b' : Buf} {a : α} (hr : f b = .ok (a, b')) :
    b'.rest.length ≤ b.rest.length := by
  have := h b []
  rw [hr] at this
  exact this.1

theorem Reads.bindP {α β : Type} {f : Buf → Res (α × Buf)} {g : α → Buf → Res (β × Buf)} {P : α → Prop}
    (hf : Reads f) (hp : ∀ b a b', f b = .ok (a, b') → P a) (hg : ∀ a, P a → Reads (g a)) :
    Reads (fun b => f b >>= fun p => g p.1 p.2) := by
  intro b e
  have h1 := hf b e
  cases hb : f b with
  | ok p =>
    obtain ⟨a, b1⟩ := p
    rw [hb] at h1
    dsimp only at h1
    have h2 := hg a (hp _ _ _ hb) b1 e
    simp only [hb, Res.bind_ok, h1.2]
    cases hb2 : g a b1 with
    | ok q =>
      obtain ⟨x, b2⟩ := q
      rw [hb2] at h2
      dsimp only at h2 ⊢
      exact ⟨by omega, h2.2⟩
    | err => rw [hb2] at h2; exact h2
    | panic => rw [hb2] at h2; exact h2
  | err => rw [hb] at h1; exact h1.elim
  | panic =>
    rw [hb] at h1
    simp only at h1
    simp only [hb, Res.bind_panic]
    rcases h1 with h1 | ⟨a, b1, h1, hl⟩
    · simp [h1]
    · simp only [h1, Res.bind_ok]
      cases hb2 : g a b1 with
      | ok q =>
        obtain ⟨x, b2⟩ := q
        have := (hg a (hp _ _ _ h1)).le hb2
        exact Or.inr ⟨x, b2, rfl, by omega⟩
      | err =>
        have := hg a (hp _ _ _ h1) b1 []
        rw [hb2] at this
        exact this.elim
      | panic => simp

theorem Reads.bind {α β : Type} {f : Buf → Res (α × Buf)} {g : α → Buf → Res (β × Buf)} (hf : Reads f)
    (hg : ∀ a, Reads (g a)) : Reads (fun b => f b >>= fun p => g p.1 p.2) :=
  Reads.bindP (P := fun _ => True) hf (fun _ _ _ _ => trivial) fun a _ => hg a

theorem Reads.pure {α : Type} (a : α) : Reads (fun b => Res.ok (a, b)) := by
  intro b e
  exact ⟨Nat.le_refl _, rfl⟩

theorem Reads.ite {α : Type} {c : Prop} [Decidable c] {f g : Buf → Res (α × Buf)} (hf : Reads f) (hg : Reads g) :
    Reads (fun b => if c then f b else g b) := by
  split <;> assumption

theorem reads_bit : Reads readBit := by
  intro b e
  obtain ⟨rest, n, c⟩ := b
  by_cases h0 : n = 0
  · subst h0
    cases rest with
    | nil =>
      cases e with
      | nil => simp [readBit, Buf.more]
      | cons y ys => simp [readBit, Buf.more]
    | cons y ys => simp [readBit, Buf.more]
  · simp [readBit, Buf.more, h0]

theorem reads_byte : Reads readByte := by
  intro b e
  obtain ⟨rest, n, c⟩ := b
  cases rest with
  | nil =>
    cases e with
    | nil => simp [readByte, Buf.more]
    | cons y ys => simp [readByte, Buf.more]
  | cons y ys => simp [readByte, Buf.more]

/-- A bit, then what follows. -/
def bitThen {β : Type} (g : Bool → Buf → Res (β × Buf)) (b : Buf) : Res (β × Buf) :=
  readBit b >>= fun p => g p.1 p.2

theorem Reads.bit {β : Type} {g : Bool → Buf → Res (β × Buf)} (hg : ∀ a, Reads (g a)) : Reads (bitThen g) :=
  Reads.bind reads_bit hg

theorem reads_bits4 : Reads readBits4 := by
  show Reads (bitThen fun b3 => bitThen fun b2 => bitThen fun b1 => bitThen fun b0 => fun b =>
    .ok (b3.toNat <<< 3 ||| b2.toNat <<< 2 ||| b1.toNat <<< 1 ||| b0.toNat, b))
  exact Reads.bit fun _ => Reads.bit fun _ => Reads.bit fun _ => Reads.bit fun _ => Reads.pure _

theorem reads_bits5 : Reads readBits5 := by
  show Reads (bitThen fun b4 => bitThen fun b3 => bitThen fun b2 => bitThen fun b1 => bitThen fun b0 => fun b =>
    .ok (b4.toNat <<< 4 ||| b3.toNat <<< 3 ||| b2.toNat <<< 2 ||| b1.toNat <<< 1 ||| b0.toNat, b))
  exact Reads.bit fun _ => Reads.bit fun _ => Reads.bit fun _ => Reads.bit fun _ => Reads.bit fun _ => Reads.pure _

theorem reads_word (cs : CodeState) (hv : cs.Valid) : Reads (readWord cs) := by
  have h1 := hv.mode_lo
  have h4 := hv.mode_hi
  unfold readWord
  split
  · exact reads_bits5
  · show Reads (bitThen fun x s => if x then .ok (cs.mode21, s) else readBits5 s)
    exact Reads.bit fun x => Reads.ite (Reads.pure _) reads_bits5
  · show Reads (bitThen fun x s => if x then .ok (cs.mode31, s) else
      bitThen (fun x s => if x then .ok (cs.mode301, s) else readBits5 s) s)
    exact Reads.bit fun x => Reads.ite (Reads.pure _) (Reads.bit fun x => Reads.ite (Reads.pure _) reads_bits5)
  · show Reads (bitThen fun x s => if x then .ok (cs.mode41, s) else
      bitThen (fun x s => if x then .ok (cs.mode401, s) else
        bitThen (fun x s => if x then .ok (cs.mode4001, s) else readBits5 s) s) s)
    exact Reads.bit fun x => Reads.ite (Reads.pure _) (Reads.bit fun x => Reads.ite (Reads.pure _)
      (Reads.bit fun x => Reads.ite (Reads.pure _) reads_bits5))
  · have hc : cs.mode = 1 ∨ cs.mode = 2 ∨ cs.mode = 3 ∨ cs.mode = 4 := by omega
    rcases hc with h | h | h | h <;> simp_all

theorem readBits5_lt {b b' : Buf} {c : Nat} (h : readBits5 b = .ok (c, b')) : c < 32 := by
  unfold readBits5 at h
  simp only [Res.bind_eq_ok] at h
  obtain ⟨⟨x1, b1⟩, h1, ⟨x2, b2⟩, h2, ⟨x3, b3⟩, h3, ⟨x4, b4⟩, h4, ⟨x5, b5⟩, h5, h⟩ := h
  simp only [Res.ok.injEq, Prod.mk.injEq] at h
  obtain ⟨rfl, -⟩ := h
  cases x1 <;> cases x2 <;> cases x3 <;> cases x4 <;> cases x5 <;> decide

theorem readWord_lt {cs : CodeState} (hv : cs.Valid) {b b' : Buf} {c : Nat} (h : readWord cs b = .ok (c, b')) :
    c < 32 := by
  have s1 := hv.short21
  have s2 := hv.short31
  have s3 := hv.short301
  have s4 := hv.short41
  have s5 := hv.short401
  have s6 := hv.short4001
  unfold readWord at h
  split at h
  · exact readBits5_lt h
  · simp only [Res.bind_eq_ok] at h
    obtain ⟨⟨x1, b1⟩, h1, h⟩ := h
    dsimp only at h
    split at h
    · simp only [Res.ok.injEq, Prod.mk.injEq] at h; obtain ⟨rfl, -⟩ := h; assumption
    · exact readBits5_lt h
  · simp only [Res.bind_eq_ok] at h
    obtain ⟨⟨x1, b1⟩, h1, h⟩ := h
    dsimp only at h
    split at h
    · simp only [Res.ok.injEq, Prod.mk.injEq] at h; obtain ⟨rfl, -⟩ := h; assumption
    · simp only [Res.bind_eq_ok] at h
      obtain ⟨⟨x2, b2⟩, h2, h⟩ := h
      dsimp only at h
      split at h
      · simp only [Res.ok.injEq, Prod.mk.injEq] at h; obtain ⟨rfl, -⟩ := h; assumption
      · exact readBits5_lt h
  · simp only [Res.bind_eq_ok] at h
    obtain ⟨⟨x1, b1⟩, h1, h⟩ := h
    dsimp only at h
    split at h
    · simp only [Res.ok.injEq, Prod.mk.injEq] at h; obtain ⟨rfl, -⟩ := h; assumption
    · simp only [Res.bind_eq_ok] at h
      obtain ⟨⟨x2, b2⟩, h2, h⟩ := h
      dsimp only at h
      split at h
      · simp only [Res.ok.injEq, Prod.mk.injEq] at h; obtain ⟨rfl, -⟩ := h; assumption
      · simp only [Res.bind_eq_ok] at h
        obtain ⟨⟨x3, b3⟩, h3, h⟩ := h
        dsimp only at h
        split at h
        · simp only [Res.ok.injEq, Prod.mk.injEq] at h; obtain ⟨rfl, -⟩ := h; assumption
        · exact readBits5_lt h
  · cases h

/-! ## Numbers of varying length -/

/-- What a number reader may do: the value and the number of bytes depend on these bytes alone. -/
def Stream {α : Type} (f : List Byte → Res (α × Nat)) : Prop :=
  ∀ s e, match f s with
    | .ok (v, n) => n ≤ s.length ∧ f (s ++ e) = .ok (v, n)
    | .err => False
    | .panic => f (s ++ e) = .panic ∨ ∃ v n, f (s ++ e) = .ok (v, n) ∧ s.length < n

theorem stream_decode7 (w last : Nat) (s e : List Byte) (k : Nat) (acc : BitVec w) :
    match decode7 w last k acc s with
    | .ok (v, n) => n ≤ k + s.length ∧ decode7 w last k acc (s ++ e) = .ok (v, n)
    | .err => False
    | .panic => decode7 w last k acc (s ++ e) = .panic ∨
        ∃ v n, decode7 w last k acc (s ++ e) = .ok (v, n) ∧ k + s.length < n := by
  induction s generalizing k acc with
  | nil =>
    simp only [decode7, List.nil_append]
    have H : ∀ (e : List Byte) k acc, decode7 w last k acc e = .panic ∨
        ∃ v n, decode7 w last k acc e = .ok (v, n) ∧ k < n := by
      intro e
      induction e with
      | nil => intro k acc; exact Or.inl rfl
      | cons x e ih =>
        intro k acc
        simp only [decode7]
        split
        · rcases ih (k + 1) (acc ^^^ (x.setWidth w <<< (7 * k))) with h | ⟨v, n, h, hn⟩
          · exact Or.inl h
          · exact Or.inr ⟨v, n, h, by omega⟩
        · exact Or.inr ⟨_, _, rfl, by omega⟩
    simpa using H e k acc
  | cons x s ih =>
    simp only [decode7, List.cons_append]
    by_cases hc : k < last ∧ ¬ acc ^^^ (x.setWidth w <<< (7 * k)) < BitVec.ofNat w (2 ^ (7 * (k + 1)))
    · rw [if_pos hc, if_pos hc]
      have := ih (k + 1) (acc ^^^ (x.setWidth w <<< (7 * k)))
      cases hd : decode7 w last (k + 1) (acc ^^^ (x.setWidth w <<< (7 * k))) s with
      | ok p =>
        obtain ⟨v, n⟩ := p
        rw [hd] at this
        dsimp only [List.length_cons] at this ⊢
        exact ⟨by omega, this.2⟩
      | err => rw [hd] at this; exact this
      | panic =>
        rw [hd] at this
        dsimp only [List.length_cons] at this ⊢
        rcases this with h | ⟨v, n, h, hn⟩
        · exact Or.inl h
        · exact Or.inr ⟨v, n, h, by omega⟩
    · rw [if_neg hc, if_neg hc]
      dsimp only [List.length_cons]
      exact ⟨by omega, rfl⟩

theorem stream_64 : Stream decode7BitUInt64 := by
  intro s e
  rw [decode7_64, decode7_64]
  have := stream_decode7 64 8 s e 0 0#64
  split <;> simp_all

theorem stream_32 : Stream decode7BitUInt32 := by
  intro s e
  rw [decode7_32, decode7_32]
  have := stream_decode7 32 4 s e 0 0#32
  split <;> simp_all

theorem reads_stream {w : Nat} {f : List Byte → Res (BitVec w × Nat)} (hf : Stream f)
    (hn : ∀ s v n, f s = .ok (v, n) → n ≤ s.length) {g : Buf → Res (BitVec w × Buf)}
    (hg : ∀ b, g b = match f b.rest with
      | .ok (v, n) => .ok (v, { b with rest := b.rest.drop n })
      | .err => .err
      | .panic => .panic) : Reads g := by
  intro b e
  rw [hg, hg]
  have h := hf b.rest e
  obtain ⟨rest, c, x⟩ := b
  dsimp only [Buf.more] at h ⊢
  cases hr : f rest with
  | ok p =>
    obtain ⟨v, n⟩ := p
    rw [hr] at h
    dsimp only at h ⊢
    rw [h.2]
    dsimp only
    refine ⟨by simp, ?_⟩
    rw [List.drop_append_of_le_length h.1]
  | err =>
    rw [hr] at h
    exact h.elim
  | panic =>
    rw [hr] at h
    dsimp only at h ⊢
    rcases h with h | ⟨v, n, h, hl⟩
    · rw [h]; exact Or.inl rfl
    · rw [h]
      have := hn _ _ _ h
      rw [List.length_append] at this
      refine Or.inr ⟨_, _, rfl, ?_⟩
      simp only [List.length_drop, List.length_append]
      omega

theorem stream_len {w : Nat} {f : List Byte → Res (BitVec w × Nat)} (hf : Stream f) (s : List Byte) (v : BitVec w)
    (n : Nat) (h : f s = .ok (v, n)) : n ≤ s.length := by
  have := hf s []
  rw [h] at this
  exact this.1

/-! ## Decoder calls -/

/-- A decoder call that sees of the buffer only what it takes, and panics only by running out of bytes. -/
def Local (k : Option (BitVec 32)) {α : Type} (f : DecM α) : Prop :=
  ∀ d, DGood k d → ∀ e, (f d).2.buf.rest.length ≤ d.buf.rest.length ∧
    ((f d).1 ≠ .panic → f (more d e) = ((f d).1, more (f d).2 e)) ∧
    ((f d).1 = .panic → (f (more d e)).1 = .panic ∨ (f (more d e)).2.buf.rest.length < e.length)

theorem DGood.more {k : Option (BitVec 32)} {d : Decoder} (h : DGood k d) (e : List Byte) :
    DGood k (more d e) := ⟨h.initial, h.points, h.last, h.bits, h.point⟩

theorem Local.bind {k : Option (BitVec 32)} {α β : Type} {f : DecM α} {g : α → DecM β} (hf : Local k f)
    (hk : Keeps k f) (hg : ∀ a, Local k (g a)) : Local k (f >>= g) := by
  intro d hd e
  obtain ⟨l1, ok1, p1⟩ := hf d hd e
  simp only [DecM.bind_def]
  cases hfd : f d with
  | mk r1 d1 =>
    rw [hfd] at l1 ok1 p1
    dsimp only at l1 ok1 p1 ⊢
    cases r1 with
    | ok a =>
      rw [ok1 (by simp)]
      obtain ⟨l2, ok2, p2⟩ := hg a d1 (hk d hd a d1 hfd) e
      dsimp only
      exact ⟨by omega, ok2, p2⟩
    | err => rw [ok1 (by simp)]; exact ⟨l1, fun _ => rfl, by simp⟩
    | panic =>
      refine ⟨l1, by simp, fun _ => ?_⟩
      have p1 := p1 rfl
      cases hfe : f (Tssc.more d e) with
      | mk r2 d2 =>
        rw [hfe] at p1
        cases r2 with
        | ok a =>
          simp only [reduceCtorEq, false_or] at p1
          dsimp only
          have := (hg a d2 (hk _ (hd.more e) a d2 hfe) []).1
          exact Or.inr (by omega)
        | err =>
          simp only [reduceCtorEq, false_or] at p1
          exact Or.inr p1
        | panic => simp

theorem Local.pure {k : Option (BitVec 32)} {α : Type} (a : α) : Local k (pure a : DecM α) := by
  intro d hd e
  simp

theorem Local.fail {k : Option (BitVec 32)} {α : Type} : Local k (DecM.fail : DecM α) := by
  intro d hd e
  simp [DecM.fail]

theorem Local.ite {k : Option (BitVec 32)} {α : Type} {c : Prop} [Decidable c] {f g : DecM α} (hf : Local k f)
    (hg : Local k g) : Local k (if c then f else g) := by
  split <;> assumption

theorem Reads.onBuf {α : Type} {f : Buf → Res (α × Buf)} (h : Reads f) (d : Decoder) (e : List Byte) :
    (Tssc.onBuf f d).2.buf.rest.length ≤ d.buf.rest.length ∧
    ((Tssc.onBuf f d).1 ≠ .panic → Tssc.onBuf f (more d e) = ((Tssc.onBuf f d).1, more (Tssc.onBuf f d).2 e)) ∧
    ((Tssc.onBuf f d).1 = .panic → (Tssc.onBuf f (more d e)).1 = .panic ∨
      (Tssc.onBuf f (more d e)).2.buf.rest.length < e.length) := by
  have h1 := h d.buf e
  unfold Tssc.onBuf
  have hm : (more d e).buf = d.buf.more e := rfl
  rw [hm]
  cases hr : f d.buf with
  | ok p =>
    obtain ⟨a, b⟩ := p
    rw [hr] at h1
    dsimp only at h1 ⊢
    rw [h1.2]
    exact ⟨h1.1, fun _ => rfl, by simp⟩
  | err =>
    rw [hr] at h1
    exact h1.elim
  | panic =>
    rw [hr] at h1
    dsimp only at h1 ⊢
    refine ⟨Nat.le_refl _, by simp, fun _ => ?_⟩
    rcases h1 with h1 | ⟨a, b, h1, hl⟩
    · rw [h1]; simp
    · rw [h1]; exact Or.inr hl

theorem Local.onBuf {k : Option (BitVec 32)} {α : Type} {f : Buf → Res (α × Buf)} (h : Reads f) :
    Local k (onBuf f) := fun d _ e => h.onBuf d e

/-- Calls that neither look at the buffer nor change it. -/
theorem Local.same {k : Option (BitVec 32)} {α : Type} {f : DecM α}
    (h : ∀ d b, f { d with buf := b } = ((f d).1, { (f d).2 with buf := b })) : Local k f := by
  intro d _ e
  have h1 := h d d.buf
  have h2 := h d (d.buf.more e)
  have h3 : (f d).2.buf = d.buf := by
    have : f d = ((f d).1, { (f d).2 with buf := d.buf }) := h1
    exact congrArg (fun p => p.2.buf) this
  refine ⟨by rw [h3], fun _ => ?_, fun hp => Or.inl ?_⟩
  · show f { d with buf := d.buf.more e } = _
    rw [h2, more, h3]
  · show (f { d with buf := d.buf.more e }).1 = _
    rw [h2, hp]

theorem local_bits4 {k : Option (BitVec 32)} : Local k (onBuf readBits4) := Local.onBuf reads_bits4
theorem local_byte {k : Option (BitVec 32)} : Local k (onBuf readByte) := Local.onBuf reads_byte
theorem local_7bit64 {k : Option (BitVec 32)} : Local k read7Bit64 :=
  Local.onBuf (reads_stream stream_64 (stream_len stream_64) fun b => by cases decode7BitUInt64 b.rest <;> rfl)
theorem local_7bit32 {k : Option (BitVec 32)} : Local k read7Bit32 :=
  Local.onBuf (reads_stream stream_32 (stream_len stream_32) fun b => by cases decode7BitUInt32 b.rest <;> rfl)

theorem setLast_more (d : Decoder) (p : Point) (b : Buf) :
    setLast { d with buf := b } p = { setLast d p with buf := b } := by
  unfold setLast
  cases d.last <;> rfl

/-- The update of the adaptive code after its word was read. -/
def counted (cs : CodeState) (c : Nat) (b : Buf) : Res ((Nat × CodeState) × Buf) :=
  updatedCodeStatistics cs c >>= fun c' => .ok ((c, c'), b)

/-- A code word and the adaptive code afterwards. -/
def codeAndState (cs : CodeState) (b : Buf) : Res ((Nat × CodeState) × Buf) :=
  readWord cs b >>= fun p => counted cs p.1 p.2

theorem reads_code (cs : CodeState) (hv : cs.Valid) : Reads (codeAndState cs) := by
  refine Reads.bindP (P := (· < 32)) (g := counted cs) (reads_word cs hv) (fun _ _ _ h => readWord_lt hv h)
    fun c hc => ?_
  unfold counted
  obtain ⟨cs', hcs, -⟩ := updated_ok cs hv c hc
  rw [hcs]
  exact Reads.pure _

theorem local_code {k : Option (BitVec 32)} : Local k readLastCode := by
  have key : ∀ d p, getLast d = .ok p → readLastCode d =
      match onBuf (codeAndState p.code) d with
      | (.ok q, d') => (.ok q.1, setLast d' { p with code := q.2 })
      | (.err, d') => (.err, d')
      | (.panic, d') => (.panic, d') := by
    intro d p hp
    unfold readLastCode
    rw [hp]
    simp only [onBuf, readCode_word, codeAndState]
    cases readWord p.code d.buf with
    | ok q =>
      simp only [Res.bind_ok, counted]
      cases updatedCodeStatistics p.code q.1 <;> rfl
    | err => rfl
    | panic => rfl
  intro d hd e
  obtain ⟨p, hp, hv⟩ := hd.getLast
  rw [key d p hp, key (more d e) p hp]
  obtain ⟨h1, h2, h3⟩ := (reads_code p.code hv).onBuf d e
  cases hr : onBuf (codeAndState p.code) d with
  | mk r d1 =>
    rw [hr] at h1 h2 h3
    cases r with
    | ok q =>
      rw [h2 (by simp)]
      refine ⟨by simpa using h1, fun _ => ?_, by simp⟩
      dsimp only
      rw [more, setLast_more, more, setLast_buf]
    | err =>
      rw [h2 (by simp)]
      exact ⟨h1, fun _ => rfl, by simp⟩
    | panic =>
      refine ⟨h1, by simp, fun _ => ?_⟩
      have h3 := h3 rfl
      cases hr2 : onBuf (codeAndState p.code) (more d e) with
      | mk r d2 =>
        rw [hr2] at h3
        cases r with
        | ok q => simpa using h3
        | err => simpa using h3
        | panic => simp

theorem local_withPoint {k : Option (BitVec 32)} {i : BitVec 32} {α : Type} {g : Point → DecM α}
    (hg : ∀ p : Point, p.code.Valid → Local k (g p)) : Local k (pointOf i >>= g) := by
  intro d hd e
  simp only [DecM.bind_def, pointOf]
  rw [show (more d e).points i = d.points i from rfl]
  cases hp : d.points i with
  | some p => exact hg p (hd.points i p hp) d hd e
  | none => simp

theorem local_withLast {k : Option (BitVec 32)} {α : Type} {g : Point → DecM α}
    (hg : ∀ p : Point, p.code.Valid → Local k (g p)) : Local k (lastPoint >>= g) := by
  intro d hd e
  obtain ⟨p, hp, hv⟩ := hd.getLast
  simp only [DecM.bind_def, lastPoint]
  rw [show getLast (more d e) = getLast d from rfl, hp]
  exact hg p hv d hd e

theorem local_put {k : Option (BitVec 32)} (id : BitVec 32) (p : Point) : Local k (putPoint id p) :=
  Local.same fun _ _ => rfl

/-- Goals about sequences of reading calls. -/
macro "localize" : tactic => `(tactic| repeat' (first
  | exact local_bits4 | exact local_byte | exact local_7bit64 | exact local_7bit32
  | exact local_code | exact Local.pure _ | exact Local.fail
  | exact keeps_bits4 | exact keeps_byte | exact keeps_7bit64 | exact keeps_7bit32 | exact keeps_code
  | apply Local.ite | (refine Local.bind ?_ ?_ ?_) | intro _))

theorem local_idBits {k : Option (BitVec 32)} (c : Nat) : Local k (pointIDBits c) := by unfold pointIDBits; localize
theorem local_valueBits {k : Option (BitVec 32)} (c : Nat) : Local k (valueBits c) := by unfold valueBits; localize

theorem keeps_decodeID {k : Option (BitVec 32)} (c : Nat) : Keeps k (decodePointID c) := by
  unfold decodePointID
  refine Keeps.bind (keeps_idBits c) fun x => keeps_withLast fun p hv => ?_
  intro d hd a d' h
  simp only [Prod.mk.injEq] at h
  obtain ⟨-, rfl⟩ := h
  exact hd.setLast _ hv

theorem local_decodeID {k : Option (BitVec 32)} (c : Nat) : Local k (decodePointID c) := by
  unfold decodePointID
  refine Local.bind (local_idBits c) (keeps_idBits c) fun x => local_withLast fun p _ => ?_
  exact Local.same fun d b => by rw [setLast_more]

theorem local_timestampFor {k : Option (BitVec 32)} (c : Nat) : Local k (timestampFor c) := by
  intro d hd e
  unfold timestampFor
  repeat' split
  all_goals first
    | exact ⟨Nat.le_refl _, fun _ => rfl, by simp⟩
    | exact (Local.bind local_7bit64 keeps_7bit64 fun _ => Local.pure _) d hd e

theorem saveDelta_more (d : Decoder) (ts : BitVec 64) (b : Buf) :
    saveDelta { d with buf := b } ts = { saveDelta d ts with buf := b } := by
  unfold saveDelta
  dsimp only
  repeat' split
  all_goals rfl

theorem keeps_timestampFor {k : Option (BitVec 32)} (c : Nat) : Keeps k (timestampFor c) := by
  intro d hd a d' h
  unfold timestampFor at h
  repeat' split at h
  all_goals first
    | (simp only [Prod.mk.injEq] at h; obtain ⟨-, rfl⟩ := h; exact hd)
    | exact (Keeps.bind keeps_7bit64 fun _ => Keeps.pure _) d hd a d' h

theorem keeps_decodeTime {k : Option (BitVec 32)} (c : Nat) : Keeps k (decodeTimestamp c) := by
  unfold decodeTimestamp
  refine Keeps.bind (keeps_timestampFor c) fun ts => ?_
  intro d hd a d' h
  simp only [Prod.mk.injEq] at h
  obtain ⟨-, rfl⟩ := h
  have hg := saveDelta_good hd ts
  exact ⟨hg.initial, hg.points, hg.last, hg.bits, hg.point⟩

theorem local_decodeTime {k : Option (BitVec 32)} (c : Nat) : Local k (decodeTimestamp c) := by
  unfold decodeTimestamp
  refine Local.bind (local_timestampFor c) (keeps_timestampFor c) fun ts => Local.same fun d b => ?_
  rw [saveDelta_more]

theorem keeps_decodeFlags {k : Option (BitVec 32)} (c : Nat) (id : BitVec 32) : Keeps k (decodeStateFlags c id) := by
  unfold decodeStateFlags
  refine Keeps.bind (Keeps.ite (keeps_withPoint fun p _ => Keeps.pure _) keeps_7bit32) fun f =>
    keeps_withPoint fun p hv => Keeps.bind (keeps_put hv) fun _ => Keeps.pure _

theorem local_decodeFlags {k : Option (BitVec 32)} (c : Nat) (id : BitVec 32) : Local k (decodeStateFlags c id) := by
  unfold decodeStateFlags
  refine Local.bind (Local.ite (local_withPoint fun p _ => Local.pure _) local_7bit32)
    (Keeps.ite (keeps_withPoint fun p _ => Keeps.pure _) keeps_7bit32) fun f =>
    local_withPoint fun p hv => Local.bind (local_put _ _) (keeps_put hv) fun _ => Local.pure _

theorem local_decodeValue {k : Option (BitVec 32)} (c : Nat) (id : BitVec 32) : Local k (decodeValue c id) := by
  unfold decodeValue
  refine local_withPoint fun p hv => ?_
  refine Local.ite (Local.pure _) (Local.ite ?_ (Local.ite ?_ (Local.ite ?_ ?_)))
  · exact Local.bind (local_put _ _) (keeps_put hv) fun _ => Local.pure _
  · exact Local.bind (local_put _ _) (keeps_put hv) fun _ => Local.pure _
  · exact Local.bind (local_put _ _) (keeps_put hv) fun _ => Local.pure _
  · exact Local.bind (local_valueBits c) (keeps_valueBits c) fun _ => local_withPoint fun q hq =>
      Local.bind (local_put _ _) (keeps_put hq) fun _ => Local.pure _

theorem local_idPart {k : Option (BitVec 32)} (c : Nat) : Local k (idPart c) := by
  unfold idPart
  refine Local.ite (Local.bind (local_decodeID c) (keeps_decodeID c) fun _ => ?_) (Local.pure _)
  localize

theorem local_timePart {k : Option (BitVec 32)} (c : Nat) : Local k (timePart c) := by
  unfold timePart
  refine Local.ite (Local.bind (local_decodeTime c) (keeps_decodeTime c) fun _ => ?_) (Local.same fun _ _ => rfl)
  localize

theorem local_flagsPart {k : Option (BitVec 32)} (c : Nat) (id : BitVec 32) : Local k (flagsPart c id) := by
  unfold flagsPart
  refine Local.ite (Local.bind (local_decodeFlags c id) (keeps_decodeFlags c id) fun _ => ?_)
    (local_withPoint fun p _ => Local.pure _)
  localize

theorem local_fromTime {k : Option (BitVec 32)} (c : Nat) (id : BitVec 32) : Local k (fromTime id c) := by
  unfold fromTime fromFlags fromValue
  refine Local.bind (local_timePart c) (keeps_timePart c) fun a =>
    Local.bind (local_flagsPart _ _) (keeps_flagsPart _) fun b =>
    Local.bind (local_decodeValue _ _) (keeps_decodeValue _) fun v => Local.same fun _ _ => rfl

theorem local_fromID (c : Nat) : Local none (fromID c) := by
  unfold fromID fromNext
  refine Local.bind (local_idPart c) (keeps_idPart c) fun c => local_withLast fun p _ => ?_
  intro d hd e
  simp only [DecM.bind_def, ensurePoint_eq]
  have hg := good_ens hd p.nextID
  have hb := ens_buf p.nextID d
  have hm : ens p.nextID (more d e) = more (ens p.nextID d) e := by
    unfold ens
    rw [show (more d e).points p.nextID = d.points p.nextID from rfl]
    cases d.points p.nextID <;> rfl
  rw [hm]
  have := local_fromTime c p.nextID _ hg e
  rw [hb] at this
  exact this

/-- A call on a buffer with something in it. -/
theorem tryGet_local {d : Decoder} (hd : DGood none d) (h : ¬ (d.buf.rest = [] ∧ d.buf.bitCount = 0))
    (e : List Byte) :
    ((tryGetMeasurement d).1 ≠ .panic →
      tryGetMeasurement (more d e) = ((tryGetMeasurement d).1, more (tryGetMeasurement d).2 e)) ∧
    ((tryGetMeasurement d).1 = .panic → (tryGetMeasurement (more d e)).1 = .panic ∨
      (tryGetMeasurement (more d e)).2.buf.rest.length < e.length) := by
  have h' : ¬ ((more d e).buf.rest = [] ∧ (more d e).buf.bitCount = 0) := by
    rintro ⟨h1, h2⟩
    exact h ⟨(List.append_eq_nil_iff.mp h1).1, h2⟩
  rw [tryGet_eq d h, tryGet_eq _ h']
  refine ((Local.bind local_code keeps_code fun c => Local.ite ?_ (local_fromID c)) d hd e).2
  intro d _ e
  exact ⟨Nat.le_refl _, fun _ => rfl, by simp⟩

/-! ## C14: which blocks make the decoder panic -/

/-- C14, exactly: whatever 27 or more bytes `e` one imagines behind the end of the block, a reachable decoder asked
for a measurement panics if and only if the block is not used up and the measurement, read from the block with `e`
behind it, takes bytes of `e`: the block ends in the middle of a measurement. -/
theorem C14_panics_iff_cut (d : Decoder) (h : DReachable d) (e : List Byte) (he : 27 ≤ e.length) :
    (tryGetMeasurement d).1 = .panic ↔
      ¬ (d.buf.rest = [] ∧ d.buf.bitCount = 0) ∧
        (tryGetMeasurement (more d e)).1 ≠ .panic ∧
        (tryGetMeasurement (more d e)).2.buf.rest.length < e.length := by
  have hd := reachable_good h
  have hs : (tryGetMeasurement (more d e)).1 ≠ .panic := by
    refine (tryGet_safe (more d e) (hd.more e) ?_ _ _ rfl).1
    simp only [unread, more, Buf.more, List.length_append]
    omega
  constructor
  · intro hp
    have h0 : ¬ (d.buf.rest = [] ∧ d.buf.bitCount = 0) := by
      intro h0
      unfold tryGetMeasurement at hp
      rw [if_pos h0] at hp
      cases hp
    refine ⟨h0, hs, ?_⟩
    rcases (tryGet_local hd h0 e).2 hp with h1 | h1
    · exact absurd h1 hs
    · exact h1
  · rintro ⟨h0, -, hl⟩
    by_contra hp
    rw [(tryGet_local hd h0 e).1 hp] at hl
    simp only [more, Buf.more, List.length_append] at hl
    omega

/-- A call that does not panic never saw the end of the block: with any bytes `e` added it returns the same and
leaves the same state, but for these bytes. -/
theorem C14_same_with_more (d : Decoder) (h : DReachable d) (h0 : ¬ (d.buf.rest = [] ∧ d.buf.bitCount = 0))
    (hp : (tryGetMeasurement d).1 ≠ .panic) (e : List Byte) :
    tryGetMeasurement (more d e) = ((tryGetMeasurement d).1, more (tryGetMeasurement d).2 e) :=
  (tryGet_local (reachable_good h) h0 e).1 hp

/-- The measurements of a block that ends early are the first measurements of the whole block. -/
theorem C14_cut_block_prefix (d : Decoder) (h : DReachable d) (data e : List Byte) :
    (decodeBlock d data).1 <+: (decodeBlock d (data ++ e)).1 := by
  suffices H : ∀ n (d : Decoder), DGood none d → ∀ m, unread (more d e).buf < m →
      (decodeAll n d).1 <+: (decodeAll m (more d e)).1 by
    have hd : DGood none (setBuffer d data) := (reachable_good h).buf _ (by simp)
    exact H (fuelFor (setBuffer d data)) _ hd (fuelFor (setBuffer d (data ++ e))) (Nat.lt_succ_self _)
  intro n
  induction n with
  | zero => intro d _ m _; simp [decodeAll]
  | succ n ih =>
    intro d hd m hm
    obtain ⟨m, rfl⟩ : ∃ k, m = k + 1 := ⟨m - 1, by omega⟩
    rw [decodeAll]
    cases hr : tryGetMeasurement d with
    | mk r d1 =>
      cases r with
      | ok o =>
        cases o with
        | none => simp
        | some a =>
          have h0 : ¬ (d.buf.rest = [] ∧ d.buf.bitCount = 0) := by
            intro h0
            unfold tryGetMeasurement at hr
            rw [if_pos h0] at hr
            cases hr
          have h1 := (tryGet_local hd h0 e).1 (by rw [hr]; simp)
          rw [hr] at h1
          have h2 : unread (more d1 e).buf < unread (more d e).buf := tryGet_unread h1
          rw [decodeAll, h1]
          dsimp only
          rw [List.prefix_cons_inj]
          exact ih d1 (keeps_tryGet d hd _ d1 hr) m (by omega)
      | err => simp
      | panic => simp

/-- The decoder after the measurements `ms` were taken from the buffer. -/
inductive Took : Decoder → List Meas → Decoder → Prop
  | nil (d : Decoder) : Took d [] d
  | cons {d d1 d2 : Decoder} {m : Meas} {ms : List Meas} : tryGetMeasurement d = (.ok (some m), d1) →
      Took d1 ms d2 → Took d (m :: ms) d2

theorem Took.reachable {d d' : Decoder} {ms : List Meas} (h : Took d ms d') (hd : DReachable d) : DReachable d' := by
  induction h with
  | nil => exact hd
  | cons hr _ ih => exact ih (.get hd hr)

/-- C14 for whole blocks: decoding a block panics if and only if, after some number of measurements, the block is not
used up and ends in the middle of the next one. -/
theorem C14_block_panics_iff_cut (d : Decoder) (h : DReachable d) (data e : List Byte) (he : 27 ≤ e.length) :
    (decodeBlock d data).2.1 = .panic ↔
      ∃ ms d1, Took (setBuffer d data) ms d1 ∧ ¬ (d1.buf.rest = [] ∧ d1.buf.bitCount = 0) ∧
        (tryGetMeasurement (more d1 e)).1 ≠ .panic ∧
        (tryGetMeasurement (more d1 e)).2.buf.rest.length < e.length := by
  have H : ∀ n (d : Decoder), unread d.buf < n → ((decodeAll n d).2.1 = .panic ↔
      ∃ ms d1, Took d ms d1 ∧ (tryGetMeasurement d1).1 = .panic) := by
    intro n
    induction n with
    | zero => intro d hn; omega
    | succ n ih =>
      intro d hn
      rw [decodeAll]
      cases hr : tryGetMeasurement d with
      | mk r d1 =>
        have stop : r ≠ .panic → (∀ m, r ≠ .ok (some m)) →
            ¬ ∃ ms d1, Took d ms d1 ∧ (tryGetMeasurement d1).1 = .panic := by
          rintro h1 h2 ⟨ms, d2, ht, hp⟩
          cases ht with
          | nil => rw [hr] at hp; exact h1 hp
          | cons hr' _ => rw [hr] at hr'; cases hr'; exact h2 _ rfl
        cases r with
        | ok o =>
          cases o with
          | none => exact iff_of_false (by simp) (stop (by simp) (by simp))
          | some m =>
            have := tryGet_unread hr
            dsimp only
            rw [ih d1 (by omega)]
            constructor
            · rintro ⟨ms, d2, ht, hp⟩
              exact ⟨m :: ms, d2, .cons hr ht, hp⟩
            · rintro ⟨ms, d2, ht, hp⟩
              cases ht with
              | nil => rw [hr] at hp; cases hp
              | cons hr' ht => rw [hr] at hr'; cases hr'; exact ⟨_, d2, ht, hp⟩
        | err => exact iff_of_false (by simp) (stop (by simp) (by simp))
        | panic => exact iff_of_true rfl ⟨[], d, .nil d, by rw [hr]⟩
  have h1 : DReachable (setBuffer d data) := .setBuffer data h
  rw [decodeBlock, H (fuelFor (setBuffer d data)) _ (Nat.lt_succ_self _)]
  constructor
  · rintro ⟨ms, d1, ht, hp⟩
    exact ⟨ms, d1, ht, (C14_panics_iff_cut d1 (ht.reachable h1) e he).mp hp⟩
  · rintro ⟨ms, d1, ht, hp⟩
    exact ⟨ms, d1, ht, (C14_panics_iff_cut d1 (ht.reachable h1) e he).mpr hp⟩

/-- A block of one byte that announces an ID of 32 bits: the decoder panics, and with 27 zero bytes behind it the call
goes on into them. -/
example : DReachable (setBuffer newDecoder [7]) ∧ 27 ≤ (List.replicate 27 (0 : Byte)).length ∧
    (tryGetMeasurement (setBuffer newDecoder [7])).1 = .panic ∧
    (tryGetMeasurement (more (setBuffer newDecoder [7]) (List.replicate 27 0))).2.buf.rest.length < 27 :=
  ⟨.setBuffer _ .new, by decide, by decide +kernel, by decide +kernel⟩

end Verif.Tssc
