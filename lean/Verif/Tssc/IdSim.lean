import Verif.Tssc.Sim

/-!
# Decoding a whole measurement
-/

set_option linter.unusedSimpArgs false

namespace Verif.Tssc

/-! ## The ID part -/

/-- The decoder after `ensurePoint`. -/
def ens (id : BitVec 32) (d : Decoder) : Decoder :=
  match d.points id with
  | some _ => d
  | none => setPoint d id { Point.new with nextID := id + 1 }

theorem ensurePoint_eq (id : BitVec 32) (d : Decoder) : ensurePoint id d = (.ok (), ens id d) := by
  unfold ensurePoint ens
  cases d.points id <;> rfl

theorem ens_abs (id : BitVec 32) (d : Decoder) : absDec (ens id d) = (absDec d).meet id := by
  unfold ens Pub.meet
  have : (absDec d).known id = (d.points id).map absPoint := rfl
  rw [this]
  cases d.points id with
  | some p => rfl
  | none => exact absDec_setPoint _ _ _

theorem ens_buf (id : BitVec 32) (d : Decoder) : (ens id d).buf = d.buf := by
  unfold ens; split <;> rfl

theorem getLast_ens (id : BitVec 32) (d : Decoder) (p : Point) (h : getLast d = .ok p) :
    getLast (ens id d) = .ok p := by
  unfold ens
  cases hp : d.points id with
  | some _ => exact h
  | none =>
    dsimp only
    unfold getLast at *
    cases hl : d.last with
    | none => rw [hl] at h; simpa [setPoint, hl] using h
    | some i =>
      rw [hl] at h
      dsimp only at h
      have hne : i ≠ id := by rintro rfl; rw [hp] at h; cases h
      simpa [setPoint, hl, hne] using h

theorem ens_setLast (id : BitVec 32) (d : Decoder) (p q : Point) (b : Buf) (h : getLast d = .ok p) :
    setLast { ens id d with buf := b } q = ens id (setLast { d with buf := b } q) := by
  obtain ⟨buf, ts1, ts2, d1, d2, d3, d4, ini, last, pts⟩ := d
  unfold ens
  cases last with
  | none =>
    simp only [setLast]
    cases hp : pts id <;> rfl
  | some i =>
    simp only [setLast]
    unfold getLast at h
    dsimp only at h
    cases hp : pts id with
    | some _ =>
      dsimp only
      split
      · rfl
      · rename_i hn
        split at hn
        · cases hn
        · cases hn
    | none =>
      have hne : ¬ id = i := by rintro rfl; rw [hp] at h; cases h
      simp only [if_neg hne, hp, setPoint]
      congr 1
      funext j
      by_cases hj : j = i
      · subst hj
        have : ¬ j = id := fun e => hne e.symm
        simp [this]
      · by_cases hj2 : j = id
        · subst hj2; simp [hj]
        · simp [hj, hj2]

/-- Looking up the new point does not interfere with reading the next code word. -/
theorem readLast_ens (id : BitVec 32) (d : Decoder) (p : Point) (h : getLast d = .ok p) (c : Nat) (d1 : Decoder)
    (hr : readLastCode (ens id d) = (.ok c, d1)) :
    ∃ d0, readLastCode d = (.ok c, d0) ∧ d1 = ens id d0 := by
  unfold readLastCode at hr ⊢
  rw [getLast_ens id d p h] at hr
  rw [h]
  dsimp only at hr ⊢
  rw [ens_buf] at hr
  cases hc : readCode readBit readBits5 p.code d.buf with
  | ok r =>
    obtain ⟨cc, cs, b⟩ := r
    rw [hc] at hr
    simp only [Prod.mk.injEq, Res.ok.injEq] at hr
    obtain ⟨rfl, rfl⟩ := hr
    exact ⟨_, rfl, ens_setLast id d p _ b h⟩
  | err => rw [hc] at hr; simp at hr
  | panic => rw [hc] at hr; simp at hr

theorem getLast_readLast {d d1 : Decoder} {p : Point} {c : Nat} (h : getLast d = .ok p)
    (hr : readLastCode d = (.ok c, d1)) : ∃ cs, getLast d1 = .ok { p with code := cs } := by
  obtain ⟨p', cs, b, hg, rfl⟩ := readLastCode_eq hr
  rw [h] at hg
  cases hg
  exact ⟨cs, getLast_setLast _ _⟩

/-- Decoder.go L152-256: from the looked-up ID to the end. -/
def fromNext (code : Nat) : DecM (Option Meas) := do
  let p ← lastPoint
  let id := p.nextID
  ensurePoint id
  fromTime id code

/-- Decoder.go L134-256: from the ID part to the end. -/
def fromID (code : Nat) : DecM (Option Meas) := do
  let code ← idPart code
  fromNext code

theorem tryGet_eq (d : Decoder) (h : ¬ (d.buf.rest = [] ∧ d.buf.bitCount = 0)) :
    tryGetMeasurement d = (readLastCode >>= fun code =>
      if code = cEndOfStream then fun d => (.ok none, clearBits d) else fromID code : DecM (Option Meas)) d := by
  unfold tryGetMeasurement
  rw [if_neg h]
  simp only [DecM.bind_def, fromID, fromNext, fromTime, fromFlags, fromValue]

theorem send_sim (d : Decoder) (m : Meas) (ch : Choice) (ts : List Tok) (s' : Pub)
    (hsort : StepsSorted (absDec d).steps) (h : (absDec d).send m ch = some (ts, s')) (t : List Tok)
    (hold : Holds (ts ++ t) d.buf) :
    ∃ d', (readLastCode >>= fun code =>
      if code = cEndOfStream then fun d => (.ok none, clearBits d) else fromID code : DecM (Option Meas)) d =
        (.ok (some m), d') ∧ absDec d' = s' ∧ Holds t d'.buf := by
  obtain ⟨id, mts, mf, mv⟩ := m
  unfold Pub.send at h
  simp only [Option.bind_eq_bind, Option.bind_eq_some_iff] at h
  obtain ⟨⟨t1, s1⟩, h1, ⟨t2, s2⟩, h2, ⟨t3, s3⟩, h3, ⟨t4, s4⟩, h4, h⟩ := h
  simp only [Option.some.injEq, Prod.mk.injEq] at h h1 h2 h3 h4
  obtain ⟨rfl, rfl⟩ := h
  simp only [List.append_assoc] at hold
  -- the rest of the measurement, once the ID is known
  have finish : ∀ (dA : Decoder) (p : Point), absDec dA = s1 → StepsSorted s1.steps → getLast dA = .ok p →
      p.nextID = id → Holds (t2 ++ (t3 ++ (t4 ++ t))) dA.buf →
      ∃ c d0 d2, readLastCode dA = (.ok c, d0) ∧ 8 ≤ c ∧ fromNext c d0 = (.ok (some ⟨id, mts, mf, mv⟩), d2) ∧
        absDec d2 = { s4 with cur := some id } ∧ Holds t d2.buf := by
    intro dA p ha hso hg hnext hh
    have hm := ens_abs id dA
    rw [ha] at hm
    have hso' : StepsSorted (absDec (ens id dA)).steps := by
      rw [hm]
      unfold Pub.meet
      split <;> exact hso
    rw [← hm] at h2
    obtain ⟨c, d1, d2, hr, hc, hs, ha2, hh2⟩ := time_sim (ens id dA) id mts mf mv ch.time ch.flags ch.value t2 t3 t4
      s2 s3 s4 hso' h2 h3 h4 t (by rw [ens_buf]; exact hh)
    obtain ⟨d0, hr0, rfl⟩ := readLast_ens id dA p hg c d1 hr
    refine ⟨c, d0, d2, hr0, hc, ?_, ha2, hh2⟩
    obtain ⟨cs, hg0⟩ := getLast_readLast hg hr0
    simp only [fromNext, DecM.bind_def, lastPoint, hg0, hnext, ensurePoint_eq]
    exact hs
  cases hid : ch.id with
  | none =>
    rw [hid] at h1
    simp only [Pub.sendID, Option.bind_eq_bind, Option.bind_eq_some_iff] at h1
    obtain ⟨q, hq, h1⟩ := h1
    split at h1
    · rename_i hnext
      simp only [Option.some.injEq, Prod.mk.injEq] at h1
      obtain ⟨rfl, rfl⟩ := h1
      obtain ⟨p, hg, hab⟩ := curPoint_abs d q hq
      obtain ⟨c, d0, d2, hr, hc, hs, ha, hh⟩ := finish d p rfl hsort hg
        (by rw [← hnext, ← hab]; rfl) hold
      refine ⟨d2, ?_, ha, hh⟩
      have hne0 : ¬ c = cEndOfStream := by unfold cEndOfStream; omega
      have hgt : ¬ c ≤ cPointIDXor32 := by unfold cPointIDXor32; omega
      simp only [DecM.bind_def, hr, if_neg hne0, fromID, idPart, if_neg hgt, DecM.pure_def]
      exact hs
    · cases h1
  | some c0 =>
    rw [hid] at h1
    simp only [Pub.sendID, Option.bind_eq_bind, Option.bind_eq_some_iff] at h1
    obtain ⟨w, hw, q, hq, h1⟩ := h1
    obtain ⟨hc1, hc2, hww⟩ := idWidth_range c0 w hw
    split at h1
    · rename_i hx
      simp only [Option.bind_eq_some_iff] at h1
      obtain ⟨⟨tc, sE⟩, he, q1, hq1, h1⟩ := h1
      simp only [Option.some.injEq, Prod.mk.injEq] at h1
      obtain ⟨rfl, hs1⟩ := h1
      dsimp only at hq1 hs1
      simp only [List.append_assoc] at hold
      obtain ⟨p, cs, buf1, hg, hr, ha, hh⟩ := emit_abs d c0 (by omega) _ _ he _ hold
      obtain ⟨-, -, hsteps, -⟩ := emit_same he
      generalize hd1 : setLast { d with buf := buf1 } { p with code := cs } = d1 at hr ha
      have hb1 : d1.buf = buf1 := by rw [← hd1]; simp
      have hg1 : getLast d1 = .ok { p with code := cs } := by rw [← hd1]; exact getLast_setLast _ _
      rw [← hb1] at hh
      obtain ⟨p', hg', hab⟩ := curPoint_abs d q hq
      rw [hg] at hg'
      cases hg'
      have hqn : q.next = p.nextID := by rw [← hab]; rfl
      rw [hqn] at hx hh
      obtain ⟨buf2, hx2, hh2⟩ := readXor_holds w hww _ hx _ d1 hh
      have hg2 : getLast { d1 with buf := buf2 } = .ok { p with code := cs } := hg1
      -- the decoder after the ID
      have habs : absDec (setLast { d1 with buf := buf2 } { p with code := cs, nextID := id }) = s1 := by
        rw [absDec_setLast, absDec_buf, ha, ← hs1]
        rw [← ha] at hq1
        obtain ⟨p1, hg3, hab1⟩ := curPoint_abs d1 q1 hq1
        rw [hg1] at hg3
        cases hg3
        rw [← hab1]
        rfl
      have hso1 : StepsSorted s1.steps := by
        have : s1.steps = sE.steps := by
          rw [← hs1]
          unfold Pub.setCur
          split <;> rfl
        rw [this, hsteps]
        exact hsort
      obtain ⟨c, d0, d2, hr0, hc, hs, ha2, hh3⟩ := finish _ _ habs hso1 (getLast_setLast _ _) rfl
        (by simpa using hh2)
      refine ⟨d2, ?_, ha2, hh3⟩
      have hne0 : ¬ c0 = cEndOfStream := by unfold cEndOfStream; omega
      have hle : c0 ≤ cPointIDXor32 := by unfold cPointIDXor32; omega
      have hlt : ¬ c < cTimeDelta1Forward := by unfold cTimeDelta1Forward; omega
      have hxx : id ^^^ p.nextID ^^^ p.nextID = id := by
        rw [BitVec.xor_assoc, BitVec.xor_self, BitVec.xor_zero]
      simp only [DecM.bind_def, hr, if_neg hne0, fromID, idPart, if_pos hle, decodePointID, pointIDBits_eq c0 w hw,
        hx2, lastPoint, hg2, hxx, hr0, if_neg hlt, DecM.pure_def]
      exact hs
    · cases h1

end Verif.Tssc
