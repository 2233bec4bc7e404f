import Verif.Tssc.Progress

/-!
# TSSC streams decode to what the publisher sent (C13), and malformed streams (C14)
-/

set_option linter.unusedSimpArgs false

namespace Verif.Tssc

/-! ## The publisher keeps its timestamp steps sorted -/

theorem setCur_steps (s : Pub) (p : PubPoint) : (s.setCur p).steps = s.steps := by
  unfold Pub.setCur; split <;> rfl

theorem sendID_steps {s s' : Pub} {id : BitVec 32} {c : Option Nat} {t : List Tok}
    (h : s.sendID id c = some (t, s')) : s'.steps = s.steps := by
  cases c with
  | none =>
    simp only [Pub.sendID, Option.bind_eq_bind, Option.bind_eq_some_iff] at h
    obtain ⟨q, hq, h⟩ := h
    split at h
    · simp only [Option.some.injEq, Prod.mk.injEq] at h; obtain ⟨-, rfl⟩ := h; rfl
    · cases h
  | some c =>
    simp only [Pub.sendID, Option.bind_eq_bind, Option.bind_eq_some_iff] at h
    obtain ⟨w, hw, q, hq, h⟩ := h
    split at h
    · simp only [Option.bind_eq_some_iff] at h
      obtain ⟨⟨tc, sE⟩, he, q1, hq1, h⟩ := h
      simp only [Option.some.injEq, Prod.mk.injEq] at h
      obtain ⟨-, rfl⟩ := h
      rw [setCur_steps]
      exact (emit_same he).2.2.1
    · cases h

theorem sendTime_sorted {s s' : Pub} {ts : BitVec 64} {c : Option Nat} {t : List Tok}
    (h : s.sendTime ts c = some (t, s')) (hs : StepsSorted s.steps) : StepsSorted s'.steps := by
  cases c with
  | none =>
    simp only [Pub.sendTime] at h
    split at h
    · simp only [Option.some.injEq, Prod.mk.injEq] at h; obtain ⟨-, rfl⟩ := h; exact hs
    · cases h
  | some c =>
    simp only [Pub.sendTime] at h
    split at h
    · simp only [Option.bind_eq_bind, Option.bind_eq_some_iff] at h
      obtain ⟨⟨tc, sE⟩, he, h⟩ := h
      simp only [Option.some.injEq, Prod.mk.injEq] at h
      obtain ⟨-, rfl⟩ := h
      apply noteStep_sorted
      rw [(emit_same he).2.2.1]; exact hs
    · split at h
      · simp only [Option.bind_eq_bind, Option.bind_eq_some_iff] at h
        obtain ⟨⟨tc, sE⟩, he, h⟩ := h
        simp only [Option.some.injEq, Prod.mk.injEq] at h
        obtain ⟨-, rfl⟩ := h
        apply noteStep_sorted
        rw [(emit_same he).2.2.1]; exact hs
      · cases h

theorem sendFlags_steps {s s' : Pub} {id f : BitVec 32} {c : Option Nat} {t : List Tok}
    (h : s.sendFlags id f c = some (t, s')) : s'.steps = s.steps := by
  cases c with
  | none =>
    simp only [Pub.sendFlags, Option.bind_eq_bind, Option.bind_eq_some_iff] at h
    obtain ⟨q, hq, h⟩ := h
    split at h
    · simp only [Option.some.injEq, Prod.mk.injEq] at h; obtain ⟨-, rfl⟩ := h; rfl
    · cases h
  | some c =>
    simp only [Pub.sendFlags, Option.bind_eq_bind, Option.bind_eq_some_iff] at h
    obtain ⟨ex, hex, ⟨tc, sE⟩, he, q1, hq1, h⟩ := h
    simp only [Option.some.injEq, Prod.mk.injEq] at h
    obtain ⟨-, rfl⟩ := h
    exact (emit_same he).2.2.1

theorem sendValue_steps {s s' : Pub} {id v : BitVec 32} {c : Nat} {t : List Tok}
    (h : s.sendValue id v c = some (t, s')) : s'.steps = s.steps := by
  simp only [Pub.sendValue] at h
  split at h
  · simp only [Option.bind_eq_bind, Option.bind_eq_some_iff] at h
    obtain ⟨p, hp, h⟩ := h
    split at h
    · simp only [Option.bind_eq_some_iff] at h
      obtain ⟨⟨tc, sE⟩, he, q1, hq1, h⟩ := h
      simp only [Option.some.injEq, Prod.mk.injEq] at h
      obtain ⟨-, rfl⟩ := h
      exact (emit_same he).2.2.1
    · cases h
  · split at h
    · split at h
      · simp only [Option.bind_eq_bind, Option.bind_eq_some_iff] at h
        obtain ⟨⟨tc, sE⟩, he, q1, hq1, h⟩ := h
        simp only [Option.some.injEq, Prod.mk.injEq] at h
        obtain ⟨-, rfl⟩ := h
        exact (emit_same he).2.2.1
      · cases h
    · simp only [Option.bind_eq_bind, Option.bind_eq_some_iff] at h
      obtain ⟨w, hw, p, hp, l, hl, h⟩ := h
      split at h
      · simp only [Option.bind_eq_some_iff] at h
        obtain ⟨⟨tc, sE⟩, he, q1, hq1, h⟩ := h
        simp only [Option.some.injEq, Prod.mk.injEq] at h
        obtain ⟨-, rfl⟩ := h
        exact (emit_same he).2.2.1
      · cases h

theorem meet_steps (s : Pub) (id : BitVec 32) : (s.meet id).steps = s.steps := by
  unfold Pub.meet; split <;> rfl

theorem send_sorted {s s' : Pub} {m : Meas} {ch : Choice} {t : List Tok} (h : s.send m ch = some (t, s'))
    (hs : StepsSorted s.steps) : StepsSorted s'.steps := by
  unfold Pub.send at h
  simp only [Option.bind_eq_bind, Option.bind_eq_some_iff] at h
  obtain ⟨⟨t1, s1⟩, h1, ⟨t2, s2⟩, h2, ⟨t3, s3⟩, h3, ⟨t4, s4⟩, h4, h⟩ := h
  simp only [Option.some.injEq, Prod.mk.injEq] at h
  obtain ⟨-, rfl⟩ := h
  dsimp only at *
  rw [sendValue_steps h4, sendFlags_steps h3]
  apply sendTime_sorted h2
  rw [meet_steps, sendID_steps h1]
  exact hs

/-! ## Blocks -/

theorem tryGet_send (d : Decoder) (m : Meas) (ch : Choice) (ts : List Tok) (s' : Pub)
    (hsort : StepsSorted (absDec d).steps) (h : (absDec d).send m ch = some (ts, s')) (t : List Tok)
    (hold : Holds (ts ++ t) d.buf) :
    ∃ d', tryGetMeasurement d = (.ok (some m), d') ∧ absDec d' = s' ∧ Holds t d'.buf := by
  obtain ⟨d', hr, ha, hh⟩ := send_sim d m ch ts s' hsort h t hold
  refine ⟨d', ?_, ha, hh⟩
  rw [tryGet_eq, hr]
  rintro ⟨h1, h2⟩
  rw [DecM.bind_def] at hr
  cases hc : readLastCode d with
  | mk r d1 =>
    rw [hc] at hr
    cases r with
    | ok c =>
      have := readLastCode_unread hc
      simp [unread, h1, h2] at this
    | err => simp at hr
    | panic => simp at hr

theorem sendAll_sim (items : List (Meas × Choice)) (d : Decoder) (ts : List Tok) (s' : Pub)
    (hsort : StepsSorted (absDec d).steps) (h : (absDec d).sendAll items = some (ts, s')) (t : List Tok)
    (hold : Holds (ts ++ t) d.buf) :
    ∃ d', (∀ fuel, decodeAll (fuel + items.length) d =
        (items.map Prod.fst ++ (decodeAll fuel d').1, (decodeAll fuel d').2)) ∧
      absDec d' = s' ∧ Holds t d'.buf ∧ unread d'.buf + items.length ≤ unread d.buf ∧ StepsSorted s'.steps := by
  induction items generalizing d ts with
  | nil =>
    simp only [Pub.sendAll, Option.some.injEq, Prod.mk.injEq] at h
    obtain ⟨rfl, rfl⟩ := h
    exact ⟨d, fun fuel => rfl, rfl, hold, Nat.le_refl _, hsort⟩
  | cons it items ih =>
    obtain ⟨m, ch⟩ := it
    simp only [Pub.sendAll, Option.bind_eq_bind, Option.bind_eq_some_iff] at h
    obtain ⟨⟨t1, s1⟩, h1, ⟨t2, s2⟩, h2, h⟩ := h
    simp only [Option.some.injEq, Prod.mk.injEq] at h
    obtain ⟨rfl, rfl⟩ := h
    rw [List.append_assoc] at hold
    obtain ⟨d1, hr, ha, hh⟩ := tryGet_send d m ch t1 s1 hsort h1 _ hold
    have hs1 := send_sorted h1 hsort
    dsimp only at h2
    rw [← ha] at h2 hs1
    obtain ⟨d2, hf, ha2, hh2, hu, hso⟩ := ih d1 t2 hs1 h2 hh
    have := tryGet_unread hr
    refine ⟨d2, ?_, ha2, hh2, by simp only [List.length_cons]; omega, hso⟩
    intro fuel
    rw [List.length_cons, ← Nat.add_assoc, decodeAll, hr]
    simp only [hf fuel, List.map_cons, List.cons_append]

theorem clear_abs (d : Decoder) : absDec (clearBits d) = absDec d := rfl

theorem holds_start (t : List Tok) (h : (tokBits t).length % 8 = 0) (c : Byte) : Holds t ⟨layout 0 t, 0, c⟩ :=
  ⟨rfl, h.symm, fun _ hi => absurd hi (Nat.not_lt_zero _)⟩

theorem sendBlock_sim (d : Decoder) (b : Block) (data : List Byte) (s' : Pub)
    (hsort : StepsSorted (absDec d).steps) (h : (absDec d).sendBlock b = some (data, s')) :
    ∃ d', decodeBlock d data = (b.items.map Prod.fst, .ok (), d') ∧ absDec d' = s' ∧ StepsSorted s'.steps := by
  obtain ⟨items, ending⟩ := b
  simp only [Pub.sendBlock, Option.bind_eq_bind, Option.bind_eq_some_iff] at h
  obtain ⟨⟨t1, s1⟩, h1, ⟨t2, s2⟩, h2, h⟩ := h
  simp only [Option.some.injEq, Prod.mk.injEq] at h
  obtain ⟨rfl, rfl⟩ := h
  dsimp only at h1 h2
  have hset : absDec (setBuffer d (layout 0 t2)) = absDec d := rfl
  rw [← hset] at h1 hsort
  -- what follows the measurements
  obtain ⟨tail, rfl, hal, hend⟩ : ∃ tail, t2 = t1 ++ tail ∧ (tokBits t2).length % 8 = 0 ∧
      ∀ d1, absDec d1 = s1 → Holds tail d1.buf →
        ∃ d2, tryGetMeasurement d1 = (.ok none, d2) ∧ absDec d2 = s2 := by
    cases ending with
    | aligned =>
      simp only [Pub.finish] at h2
      split at h2
      · rename_i hal
        simp only [Option.some.injEq, Prod.mk.injEq] at h2
        obtain ⟨rfl, rfl⟩ := h2
        refine ⟨[], (List.append_nil _).symm, hal, ?_⟩
        rintro d1 rfl ⟨hr, hc, -⟩
        refine ⟨clearBits d1, ?_, clear_abs d1⟩
        have hr' : d1.buf.rest = [] := by rw [hr]; cases d1.buf.bitCount <;> rfl
        unfold tryGetMeasurement
        rw [if_pos ⟨hr', by simpa [tokBits] using hc⟩]
      · cases h2
    | endCode pad =>
      simp only [Pub.finish, Option.bind_eq_bind, Option.bind_eq_some_iff] at h2
      obtain ⟨⟨tE, sE⟩, he, h2⟩ := h2
      split at h2
      · rename_i hal
        simp only [Option.some.injEq, Prod.mk.injEq] at h2
        obtain ⟨rfl, rfl⟩ := h2
        refine ⟨tE ++ pad.map .bit, List.append_assoc _ _ _, hal, ?_⟩
        rintro d1 rfl hh
        obtain ⟨d2, hr, ha, -⟩ := emit_step d1 0 (by omega) tE sE he _ hh
        refine ⟨clearBits d2, ?_, by rw [clear_abs]; exact ha⟩
        rw [tryGet_eq, DecM.bind_def, hr]
        · rfl
        · rintro ⟨e1, e2⟩
          have := readLastCode_unread hr
          simp [unread, e1, e2] at this
      · cases h2
  have hold : Holds (t1 ++ tail) (setBuffer d (layout 0 (t1 ++ tail))).buf := holds_start _ hal 0
  obtain ⟨d1, hf, ha, hh, hu, hso⟩ := sendAll_sim items _ t1 s1 hsort h1 tail hold
  obtain ⟨d2, hr, ha2⟩ := hend d1 ha hh
  refine ⟨d2, ?_, ha2, ?_⟩
  · have hfuel : ∃ k, fuelFor (setBuffer d (layout 0 (t1 ++ tail))) = k + 1 + items.length := by
      refine ⟨unread (setBuffer d (layout 0 (t1 ++ tail))).buf - items.length, ?_⟩
      have : fuelFor (setBuffer d (layout 0 (t1 ++ tail))) = unread (setBuffer d (layout 0 (t1 ++ tail))).buf + 1 := rfl
      rw [this]; omega
    obtain ⟨k, hk⟩ := hfuel
    unfold decodeBlock
    dsimp only
    rw [hk, hf (k + 1), decodeAll, hr]
    simp
  · cases ending with
    | aligned =>
      simp only [Pub.finish] at h2
      split at h2
      · simp only [Option.some.injEq, Prod.mk.injEq] at h2; obtain ⟨-, rfl⟩ := h2; exact hso
      · cases h2
    | endCode pad =>
      simp only [Pub.finish, Option.bind_eq_bind, Option.bind_eq_some_iff] at h2
      obtain ⟨⟨tE, sE⟩, he, h2⟩ := h2
      split at h2
      · simp only [Option.some.injEq, Prod.mk.injEq] at h2
        obtain ⟨-, rfl⟩ := h2
        have := (emit_same he).2.2.1
        rw [this]; exact hso
      · cases h2

theorem sendBlocks_sim (bs : List Block) (d : Decoder) (datas : List (List Byte))
    (hsort : StepsSorted (absDec d).steps) (h : (absDec d).sendBlocks bs = some datas) :
    ∃ d', decodeBlocks d datas = (bs.map (fun b => b.items.map Prod.fst), .ok (), d') := by
  induction bs generalizing d datas with
  | nil =>
    simp only [Pub.sendBlocks, Option.some.injEq] at h
    subst h
    exact ⟨d, rfl⟩
  | cons b bs ih =>
    simp only [Pub.sendBlocks, Option.bind_eq_bind, Option.bind_eq_some_iff] at h
    obtain ⟨⟨data, s1⟩, h1, rest, h2, h⟩ := h
    simp only [Option.some.injEq] at h
    subst h
    obtain ⟨d1, hd, rfl, hso⟩ := sendBlock_sim d b data s1 hsort h1
    obtain ⟨d2, hd2⟩ := ih d1 rest hso h2
    exact ⟨d2, by simp only [decodeBlocks, hd, hd2, List.map_cons]⟩

/-- C13: whatever conforming publisher produced the blocks (any choice of code words, any block boundaries, either
kind of block ending), a new decoder given the blocks in order returns exactly the measurements sent, in
order, block by block, and reports the end of each block without error. -/
theorem C13_stream_roundtrip (blocks : List Block) (datas : List (List Byte))
    (h : Pub.new.sendBlocks blocks = some datas) :
    (decodeBlocks newDecoder datas).1 = blocks.map (fun b => b.items.map Prod.fst) ∧
      (decodeBlocks newDecoder datas).2.1 = .ok () := by
  rw [← absDec_new] at h
  obtain ⟨d', hd⟩ := sendBlocks_sim blocks newDecoder datas (by unfold StepsSorted absDec newDecoder; decide) h
  rw [hd]
  exact ⟨rfl, rfl⟩

/-! ## Every measurement sequence can be sent -/

/-- Publisher states that occur. -/
structure Pub.Good (s : Pub) : Prop where
  start : s.start.code.Valid
  cur : ∀ i, s.cur = some i → ∃ p, s.known i = some p
  known : ∀ i p, s.known i = some p → p.code.Valid ∧ p.values.length = 3

theorem good_new : Pub.new.Good := by
  refine ⟨new_valid, ?_, ?_⟩
  · intro i h; cases h
  · intro i p h; cases h

theorem good_cur {s : Pub} (h : s.Good) : ∃ p, s.curPoint = some p ∧ p.code.Valid := by
  unfold Pub.curPoint
  cases hc : s.cur with
  | none => exact ⟨_, rfl, h.start⟩
  | some i =>
    obtain ⟨p, hp⟩ := h.cur i hc
    exact ⟨p, hp, (h.known i p hp).1⟩

theorem good_setKnown {s : Pub} (h : s.Good) (i : BitVec 32) (p : PubPoint) (hv : p.code.Valid)
    (hl : p.values.length = 3) : (s.setKnown i p).Good := by
  refine ⟨h.start, ?_, ?_⟩
  · intro j hj
    obtain ⟨q, hq⟩ := h.cur j hj
    by_cases e : j = i
    · exact ⟨p, by simp [Pub.setKnown, e]⟩
    · exact ⟨q, by simp [Pub.setKnown, e, hq]⟩
  · intro j q hq
    simp only [Pub.setKnown] at hq
    split at hq
    · cases hq; exact ⟨hv, hl⟩
    · exact h.known j q hq

theorem good_setCur {s : Pub} (h : s.Good) {p q : PubPoint} (hp : s.curPoint = some p) (hv : q.code.Valid)
    (hl : q.values = p.values) : (s.setCur q).Good := by
  unfold Pub.setCur
  unfold Pub.curPoint at hp
  cases hc : s.cur with
  | none => exact ⟨hv, fun i hi => by simp [hc] at hi, h.known⟩
  | some i =>
    rw [hc] at hp
    exact good_setKnown h i q hv (by rw [hl]; exact (h.known i p hp).2)

theorem good_emit {s : Pub} (h : s.Good) (c : Nat) (hc : c < 32) : ∃ t s', s.emit c = some (t, s') ∧ s'.Good := by
  obtain ⟨p, hp, hv⟩ := good_cur h
  obtain ⟨bits, c', hw, hv'⟩ := writeCode_valid p.code hv c hc
  refine ⟨bits.map .bit, s.setCur { p with code := c' }, ?_, good_setCur h hp hv' rfl⟩
  simp [Pub.emit, hp, hw]

theorem good_curSet {s : Pub} (h : s.Good) (i : BitVec 32) (p : PubPoint) (hp : s.known i = some p) :
    ({ s with cur := some i } : Pub).Good := by
  refine ⟨h.start, ?_, h.known⟩
  intro j hj
  simp only [Option.some.injEq] at hj
  subst hj
  exact ⟨p, hp⟩

/-- The longest code words, which fit every measurement. -/
def longChoice : Choice := ⟨some 7, some 17, some 19, 31⟩

theorem setCur_known {s : Pub} {p : PubPoint} (i : BitVec 32) (q : PubPoint) (h : s.known i = some q) :
    ∃ q', (s.setCur p).known i = some q' := by
  unfold Pub.setCur
  cases hc : s.cur with
  | none => exact ⟨q, h⟩
  | some j =>
    by_cases e : i = j
    · exact ⟨p, by simp [Pub.setKnown, e]⟩
    · exact ⟨q, by simp [Pub.setKnown, e, h]⟩

theorem good_send {s : Pub} (h : s.Good) (m : Meas) : ∃ t s', s.send m longChoice = some (t, s') ∧ s'.Good := by
  obtain ⟨id, ts, f, v⟩ := m
  -- ID
  obtain ⟨p0, hp0, -⟩ := good_cur h
  obtain ⟨t1, s1, he1, g1⟩ := good_emit h 7 (by omega)
  obtain ⟨p1, hp1, hv1⟩ := good_cur g1
  have g1' : (s1.setCur { p1 with next := id }).Good := good_setCur g1 hp1 hv1 rfl
  have hID : s.sendID id (some 7) = some (t1 ++ xorToks 32 (id ^^^ p0.next), s1.setCur { p1 with next := id }) := by
    simp only [Pub.sendID, idWidth, hp0, he1, hp1, Option.bind_eq_bind, Option.bind_some]
    rw [if_pos (id ^^^ p0.next).isLt]
  generalize s1.setCur { p1 with next := id } = s2 at hID g1'
  -- the point
  obtain ⟨q, hq, g2⟩ : ∃ q, (s2.meet id).known id = some q ∧ (s2.meet id).Good := by
    unfold Pub.meet
    cases hk : s2.known id with
    | some q => exact ⟨q, hk, g1'⟩
    | none => exact ⟨PubPoint.fresh (id + 1), by simp [Pub.setKnown], good_setKnown g1' id _ new_valid rfl⟩
  -- timestamp
  obtain ⟨t3, s3, he3, g3⟩ := good_emit g2 17 (by omega)
  obtain ⟨cs3, hk3⟩ := emit_known he3 id q hq
  have hT : ∃ t4 s4, (s2.meet id).sendTime ts (some 17) = some (t4, s4) ∧ s4.Good ∧
      ∃ q4, s4.known id = some q4 := by
    simp only [Pub.sendTime, if_true, he3, Option.bind_eq_bind, Option.bind_some]
    exact ⟨_, _, rfl, ⟨g3.start, g3.cur, g3.known⟩, _, hk3⟩
  obtain ⟨t4, s4, hT, g4, q4, hk4⟩ := hT
  -- flags
  obtain ⟨t5, s5, he5, g5⟩ := good_emit g4 19 (by omega)
  obtain ⟨cs5, hk5⟩ := emit_known he5 id q4 hk4
  have hF : ∃ t6 s6, s4.sendFlags id f (some 19) = some (t6, s6) ∧ s6.Good ∧ ∃ q6, s6.known id = some q6 := by
    simp only [Pub.sendFlags, he5, hk5, Option.bind_eq_bind, Option.bind_some]
    refine ⟨_, _, rfl, good_setKnown g5 _ _ (g5.known _ _ hk5).1 (g5.known _ _ hk5).2,
      { q4 with code := cs5, flags := f, flagsBefore := q4.flags }, ?_⟩
    simp [Pub.setKnown]
  obtain ⟨t6, s6, hF, g6, q6, hk6⟩ := hF
  -- value
  obtain ⟨t7, s7, he7, g7⟩ := good_emit g6 31 (by omega)
  obtain ⟨cs7, hk7⟩ := emit_known he7 id q6 hk6
  have hV : ∃ t8 s8, s6.sendValue id v 31 = some (t8, s8) ∧ s8.Good ∧ ∃ q8, s8.known id = some q8 := by
    have hl := (g6.known _ _ hk6).2
    obtain ⟨x, y, z, hxyz⟩ : ∃ x y z, q6.values = [x, y, z] := by
      match hq : q6.values, hl with
      | [x, y, z], _ => exact ⟨x, y, z, rfl⟩
    have hw : valueWidth 31 = some 32 := rfl
    simp only [Pub.sendValue, hw, hk6, hxyz, he7, hk7, Option.bind_eq_bind, Option.bind_some, List.head?_cons]
    rw [if_neg (by omega), if_neg (by omega), if_pos (v ^^^ x).isLt]
    refine ⟨_, _, rfl, good_setKnown g7 _ _ (g7.known _ _ hk7).1 (by simp),
      { q6 with code := cs7, values := (v :: [x, y, z]).take 3 }, ?_⟩
    simp [Pub.setKnown]
  obtain ⟨t8, s8, hV, g8, q8, hk8⟩ := hV
  refine ⟨t1 ++ xorToks 32 (id ^^^ p0.next) ++ t4 ++ t6 ++ t8, { s8 with cur := some id }, ?_,
    good_curSet g8 id q8 hk8⟩
  simp only [Pub.send, longChoice, hID, hT, hF, hV, Option.bind_eq_bind, Option.bind_some]

theorem good_sendAll (ms : List Meas) {s : Pub} (h : s.Good) :
    ∃ t s', s.sendAll (ms.map (·, longChoice)) = some (t, s') ∧ s'.Good := by
  induction ms generalizing s with
  | nil => exact ⟨[], s, rfl, h⟩
  | cons m ms ih =>
    obtain ⟨t, s1, h1, g1⟩ := good_send h m
    obtain ⟨t', s2, h2, g2⟩ := ih g1
    exact ⟨t ++ t', s2, by simp only [List.map_cons, Pub.sendAll, h1, h2, Option.bind_eq_bind, Option.bind_some], g2⟩

theorem tokBits_pad (n : Nat) : (tokBits ((List.replicate n false).map Tok.bit)).length = n := by
  induction n with
  | zero => rfl
  | succ n ih => simpa [List.replicate_succ, tokBits] using ih

/-- C13, companion: every sequence of blocks of measurements can be sent by a conforming publisher, so the
round trip theorem covers all measurement sequences. -/
theorem C13_every_sequence_sendable (mss : List (List Meas)) :
    ∃ blocks datas, blocks.map (fun b => b.items.map Prod.fst) = mss ∧
      Pub.new.sendBlocks blocks = some datas := by
  suffices H : ∀ s : Pub, s.Good → ∃ blocks datas, blocks.map (fun b => b.items.map Prod.fst) = mss ∧
      s.sendBlocks blocks = some datas from H _ good_new
  induction mss with
  | nil => exact fun s _ => ⟨[], [], rfl, rfl⟩
  | cons ms mss ih =>
    intro s h
    obtain ⟨t, s1, h1, g1⟩ := good_sendAll ms h
    obtain ⟨tE, s2, h2, g2⟩ := good_emit g1 0 (by omega)
    obtain ⟨bs, ds, hb, hs⟩ := ih s2 g2
    generalize hn : (tokBits (t ++ tE)).length = n
    refine ⟨⟨ms.map (·, longChoice), .endCode (List.replicate (8 - n % 8) false)⟩ :: bs,
      layout 0 (t ++ tE ++ (List.replicate (8 - n % 8) false).map .bit) :: ds, ?_, ?_⟩
    · simp [hb, Function.comp_def]
    · have hal : (tokBits (t ++ tE ++ (List.replicate (8 - n % 8) false).map .bit)).length % 8 = 0 := by
        rw [tokBits_append, List.length_append, hn, tokBits_pad]
        omega
      simp only [Pub.sendBlocks, Pub.sendBlock, h1, Pub.finish, h2, Option.bind_eq_bind, Option.bind_some,
        if_pos hal, hs]

/-- A publisher's blocks for a concrete sequence, code words chosen by `bestChoice`. -/
def bestItems (s : Pub) : List Meas → List (Meas × Choice)
  | [] => []
  | m :: ms => (m, s.bestChoice m) :: (match s.send m (s.bestChoice m) with
    | some (_, s') => bestItems s' ms
    | none => [])

/-- A case meeting the hypothesis of `C13_stream_roundtrip`: three points, repeated and new values, changed and unchanged
timestamps and flags, in a block ended by the end-of-stream code word. -/
example : (Pub.new.sendBlocks [⟨bestItems Pub.new
    [⟨1, 1000, 0, 5⟩, ⟨2, 1000, 1, 6⟩, ⟨7, 1033, 0, 0⟩, ⟨1, 1066, 0, 5⟩, ⟨2, 1066, 0, 6⟩], .endCode (List.replicate 1 false)⟩]).isSome
    = true := by decide +kernel

end Verif.Tssc
