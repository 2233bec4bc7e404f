import Verif.Compact.FlagProps
import Verif.Sic.Props

/-!
# Compact measurements: decoding (C19, C20)
-/

set_option linter.unusedSimpArgs false

namespace Verif.Compact

open Verif.Guid (Guid)

/-! ## Specification: the wire image of a measurement

The repo has no `Encode` (L303-306 is a comment); the layout is the one documented at L253-259, with the repo's own
accessors meant for a publisher. -/

/-- The wire image: flags, runtime id, value, time. -/
def wire (cfg : Config) (cm : CM) : List Byte :=
  let cm1 := (getBinaryLength cfg cm).2
  [getCompactStateFlags cm1] ++ beBytes 4 (getRuntimeID cfg cm1).toNat ++ beBytes 4 cm1.value.toNat ++
    (if !cfg.includeTime then []
     else if cm1.usingBaseTimeOffset then
       if cfg.useMillisecondResolution then beBytes 2 (getTimestampC2 cfg cm1).toNat
       else beBytes 4 (getTimestampC4 cfg cm1).toNat
     else beBytes 8 cm1.timestamp.toNat)

/-! ## Lemmas -/

/-- The time part of `decode`. -/
def decodeTime (cfg : Config) (cm : CM) (rest : List Byte) : Res (Nat × CM) :=
  if !cfg.includeTime then .ok (9, cm)
  else if cm.usingBaseTimeOffset then
    let base := baseOffset cfg cm
    if cfg.useMillisecondResolution then
      if (0#64).slt base then do
        let t ← readBE 2 rest
        .ok (9 + 2, { cm with timestamp := base + BitVec.ofNat 64 t * perMs })
      else .ok (9 + 2, cm)
    else
      if (0#64).slt base then do
        let t ← readBE 4 rest
        .ok (9 + 4, { cm with timestamp := base + BitVec.ofNat 64 t })
      else .ok (9 + 4, cm)
  else do
    let t ← readBE 8 rest
    .ok (9 + 8, { cm with timestamp := BitVec.ofNat 64 t })

theorem decode_cons (cfg : Config) (cm : CM) (b0 : Byte) (rest : List Byte) (h : 8 ≤ rest.length) :
    decode cfg cm (b0 :: rest) = (do
      let g ← Sic.signalID cfg.cache (BitVec.ofNat 32 (beNat (rest.take 4)))
      decodeTime cfg { setCompactStateFlags cm b0 with
        signalID := g, value := BitVec.ofNat 32 (beNat ((rest.drop 4).take 4)) } (rest.drop 8)) := by
  have h1 : readBE 4 rest = .ok (beNat (rest.take 4)) := by unfold readBE; rw [if_pos (by omega)]
  have h2 : readBE 4 (rest.drop 4) = .ok (beNat ((rest.drop 4).take 4)) := by
    unfold readBE; rw [if_pos (by simp; omega)]
  have h3 : ¬ (b0 :: rest).length < 9 := by simp; omega
  rw [decode]
  rw [if_neg h3, h1, Res.bind_ok]
  cases Sic.signalID cfg.cache (BitVec.ofNat 32 (beNat (rest.take 4))) with
  | err => rfl
  | panic => rfl
  | ok g =>
    simp only [Res.bind_ok, h2, List.drop_drop]
    rfl

theorem decode_fixed (cfg : Config) (cm : CM) (b0 : Byte) (i v : BitVec 32) (tail : List Byte) (g : Guid)
    (hg : Sic.signalID cfg.cache i = .ok g) :
    decode cfg cm ([b0] ++ beBytes 4 i.toNat ++ beBytes 4 v.toNat ++ tail) =
      decodeTime cfg { setCompactStateFlags cm b0 with signalID := g, value := v } tail := by
  have e : [b0] ++ beBytes 4 i.toNat ++ beBytes 4 v.toNat ++ tail =
      b0 :: (beBytes 4 i.toNat ++ (beBytes 4 v.toNat ++ tail)) := by simp
  have t1 : (beBytes 4 i.toNat ++ (beBytes 4 v.toNat ++ tail)).take 4 = beBytes 4 i.toNat := by
    rw [List.take_append_of_le_length (by simp), List.take_of_length_le (by simp)]
  have t2 : (beBytes 4 i.toNat ++ (beBytes 4 v.toNat ++ tail)).drop 4 = beBytes 4 v.toNat ++ tail := by
    rw [List.drop_append_of_le_length (by simp), List.drop_of_length_le (by simp), List.nil_append]
  have t3 : (beBytes 4 v.toNat ++ tail).take 4 = beBytes 4 v.toNat := by
    rw [List.take_append_of_le_length (by simp), List.take_of_length_le (by simp)]
  have t4 : (beBytes 4 i.toNat ++ (beBytes 4 v.toNat ++ tail)).drop 8 = tail := by
    have : (8 : Nat) = 4 + 4 := rfl
    rw [this, ← List.drop_drop, t2, List.drop_append_of_le_length (by simp), List.drop_of_length_le (by simp),
      List.nil_append]
  have b1 : BitVec.ofNat 32 (beNat (beBytes 4 i.toNat)) = i := by
    rw [beNat_beBytes_of_lt (by have := i.isLt; omega)]; simp
  have b2 : BitVec.ofNat 32 (beNat (beBytes 4 v.toNat)) = v := by
    rw [beNat_beBytes_of_lt (by have := v.isLt; omega)]; simp
  rw [e, decode_cons _ _ _ _ (by simp; omega), t1, t2, t3, t4, b1, b2, hg, Res.bind_ok]

/-- Setting the byte of `getCompactStateFlags` restores the two time bits and the flag classes. -/
theorem flags_roundtrip : ∀ c : BitVec 8, c &&& 0x3F#8 = c → ∀ ti ub : Bool,
    let b := (if ub then (if ti then c ||| fTimeIndex else c) ||| fBaseTimeOffset
      else if ti then c ||| fTimeIndex else c)
    decide (b &&& fTimeIndex > 0#8) = ti ∧ decide (b &&& fBaseTimeOffset > 0#8) = ub ∧
      mapToFullFlags b = mapToFullFlags c := by decide +kernel

theorem compact_low (f : BitVec 32) : mapToCompactFlags f &&& 0x3F#8 = mapToCompactFlags f := by
  have h : ∀ b0 b1 b2 b3 b4 b5, compactOf b0 b1 b2 b3 b4 b5 &&& 0x3F#8 = compactOf b0 b1 b2 b3 b4 b5 := by
    decide
  rw [mapToCompact_eq, h]

theorem set_get (cm0 cm : CM) : setCompactStateFlags cm0 (getCompactStateFlags cm) =
    { cm0 with flags := mapToFullFlags (mapToCompactFlags cm.flags), timeIndex := cm.timeIndex,
               usingBaseTimeOffset := cm.usingBaseTimeOffset } := by
  obtain ⟨h1, h2, h3⟩ := flags_roundtrip (mapToCompactFlags cm.flags) (compact_low _) cm.timeIndex
    cm.usingBaseTimeOffset
  unfold setCompactStateFlags getCompactStateFlags
  dsimp only
  rw [h1, h2, h3]

theorem valueMask_eq : Ticks.valueMask = 0x3FFFFFFFFFFFFFFF#64 := by decide
theorem perMs_eq : perMs = 10000#64 := by decide

theorem tv_lt (cm : CM) : (timestampValue cm).toNat < 2 ^ 62 := by
  unfold timestampValue
  rw [valueMask_eq, BitVec.toNat_and]
  have : cm.timestamp.toNat &&& (0x3FFFFFFFFFFFFFFF#64).toNat ≤ (0x3FFFFFFFFFFFFFFF#64).toNat := Nat.and_le_right
  have e : (0x3FFFFFFFFFFFFFFF#64).toNat = 2 ^ 62 - 1 := by decide
  rw [e] at this
  rw [e]
  omega

theorem toInt_small (x : BitVec 64) (h : x.toNat < 2 ^ 63) : x.toInt = x.toNat := by
  rw [BitVec.toInt_eq_toNat_cond]; split <;> omega

/-- A positive difference to a positive base is the natural difference. -/
theorem diff_spec (cm : CM) (b : BitVec 64) (hb : (0#64).slt b = true)
    (hd : (0#64).slt (timestampValue cm - b) = true) :
    b.toNat < (timestampValue cm).toNat ∧
      (timestampValue cm - b).toNat = (timestampValue cm).toNat - b.toNat := by
  have h1 := tv_lt cm
  generalize timestampValue cm = t at *
  rw [BitVec.slt, BitVec.toInt_zero, decide_eq_true_eq] at hb hd
  have hb' : b.toNat < 2 ^ 63 := by
    by_contra hc
    rw [BitVec.toInt_eq_toNat_cond] at hb; split at hb <;> omega
  have hd' : (t - b).toNat < 2 ^ 63 := by
    by_contra hc
    rw [BitVec.toInt_eq_toNat_cond] at hd; split at hd <;> omega
  rw [toInt_small _ hd'] at hd
  rw [BitVec.toNat_sub] at hd hd' ⊢
  have hm : (2 ^ 64 - b.toNat + t.toNat) % 2 ^ 64 = t.toNat - b.toNat ∧ b.toNat ≤ t.toNat := by omega
  omega

theorem sdiv_ms (d : BitVec 64) (h : d.toNat < 2 ^ 62) : (d.sdiv perMs).toNat = d.toNat / 10000 := by
  have h1 : d.msb = false := by
    rw [BitVec.msb_eq_false_iff_two_mul_lt]; omega
  have h2 : (10000#64).msb = false := by decide
  rw [perMs_eq, BitVec.sdiv_eq, h1, h2]
  simp [BitVec.toNat_udiv]

theorem slt_small (x : BitVec 64) (h : x.toNat < 2 ^ 62) (n : Nat) (hn : n < 2 ^ 62) :
    x.slt (BitVec.ofNat 64 n) = decide (x.toNat < n) := by
  have hn' : (BitVec.ofNat 64 n).toNat = n := by rw [BitVec.toNat_ofNat]; omega
  rw [BitVec.slt, toInt_small x (by omega), toInt_small _ (by omega), hn']
  simp

/-- The format chosen by `GetBinaryLength`, in terms of naturals. -/
theorem C19_format (cfg : Config) (cm : CM) :
    (getBinaryLength cfg cm).1 =
      if cfg.includeTime = false then 9
      else if 0 < (baseOffset cfg cm).toInt ∧ (baseOffset cfg cm).toNat < (timestampValue cm).toNat ∧
          (if cfg.useMillisecondResolution then
            ((timestampValue cm).toNat - (baseOffset cfg cm).toNat) / 10000 < 65535
           else (timestampValue cm).toNat - (baseOffset cfg cm).toNat < 4294967295) then
        if cfg.useMillisecondResolution then 11 else 13
      else 17 := by
  have h1 := tv_lt cm
  unfold getBinaryLength
  dsimp only
  generalize hb : baseOffset cfg cm = b
  cases cfg.includeTime
  · simp
  · simp only [Bool.not_true, Bool.false_eq_true, if_false, Bool.true_eq_false]
    have e0 : (0#64).slt b = decide (0 < b.toInt) := by rw [BitVec.slt, BitVec.toInt_zero]
    by_cases hp : 0 < b.toInt
    · rw [e0, decide_eq_true hp]
      simp only [if_true, hp, true_and]
      by_cases hd : (0#64).slt (timestampValue cm - b) = true
      · obtain ⟨h2, h3⟩ := diff_spec cm b (by rw [e0]; simpa using hp) hd
        rw [if_pos hd]
        cases cfg.useMillisecondResolution
        · simp only [Bool.false_eq_true, if_false]
          rw [show (4294967295#64) = BitVec.ofNat 64 4294967295 from rfl,
            slt_small _ (by omega) _ (by omega), h3]
          simp only [decide_eq_true_eq, h2, true_and]
          split <;> rfl
        · simp only [if_true]
          rw [show (65535#64) = BitVec.ofNat 64 65535 from rfl,
            slt_small _ (by rw [sdiv_ms _ (by omega)]; omega) _ (by omega), sdiv_ms _ (by omega), h3]
          simp only [decide_eq_true_eq, h2, true_and]
          split <;> rfl
      · rw [if_neg hd]
        simp only [Bool.false_eq_true, if_false]
        have : ¬ b.toNat < (timestampValue cm).toNat := by
          intro hc
          apply hd
          have : (timestampValue cm - b).toNat = (timestampValue cm).toNat - b.toNat := by
            rw [BitVec.toNat_sub]; have := b.isLt; omega
          rw [BitVec.slt, BitVec.toInt_zero, toInt_small _ (by omega)]
          simp; omega
        simp [this]
    · rw [e0, decide_eq_false hp]
      simp [hp]

/-- What `GetBinaryLength` stores. -/
theorem binaryLength_cm (cfg : Config) (cm : CM) :
    (getBinaryLength cfg cm).2 = { cm with usingBaseTimeOffset := (
      if cfg.includeTime = true ∧ (0#64).slt (baseOffset cfg cm) = true then
        (decide ((getBinaryLength cfg cm).1 < 17)) else cm.usingBaseTimeOffset) } := by
  unfold getBinaryLength
  dsimp only
  cases cfg.includeTime
  · simp
  · by_cases hp : (0#64).slt (baseOffset cfg cm) = true
    · simp only [Bool.not_true, Bool.false_eq_true, if_false, hp, if_true, and_self]
      generalize (if (0#64).slt (timestampValue cm - baseOffset cfg cm) = true then _ else false) = u
      cases u <;> cases cfg.useMillisecondResolution <;> rfl
    · simp [hp]

/-- C19: for every configuration and measurement whose signal the cache knows, every measurement being overwritten and all
following bytes, decoding the wire image consumes exactly the wire image, whose length is `GetBinaryLength`, and gives the
signal id and value bits; a flag is set exactly when some flag of its class was; and the timestamp is kept (no time on the
wire: the target's; full: all 64 bits; 4 bytes: the 62-bit time value; 2 bytes: the time value to the millisecond).
`hflag`: a measurement encoded without a base time does not carry a stale offset mark (`GetBinaryLength` only resets it when
there is a base time; a new measurement does not carry it). -/
theorem C19_decode_wire (cfg : Config) (cm cm0 : CM) (rest : List Byte)
    (hknown : Sic.signalID cfg.cache (Sic.signalIndex cfg.cache cm.signalID) = .ok cm.signalID)
    (hflag : cfg.includeTime = true → 0 < (baseOffset cfg cm).toInt ∨ cm.usingBaseTimeOffset = false) :
    ∃ out, decode cfg cm0 (wire cfg cm ++ rest) = .ok ((wire cfg cm).length, out) ∧
      (wire cfg cm).length = (getBinaryLength cfg cm).1 ∧
      out.signalID = cm.signalID ∧ out.value = cm.value ∧
      (∀ j, out.flags.getLsbD j = true ↔
        ∃ i < 6, j ∈ flagClass i ∧ ∃ k ∈ flagClass i, cm.flags.getLsbD k = true) ∧
      (((wire cfg cm).length = 9 ∧ out.timestamp = cm0.timestamp) ∨
       ((wire cfg cm).length = 17 ∧ out.timestamp = cm.timestamp) ∨
       ((wire cfg cm).length = 13 ∧ out.timestamp = timestampValue cm) ∨
       ((wire cfg cm).length = 11 ∧ out.timestamp.toNat ≤ (timestampValue cm).toNat ∧
          (timestampValue cm).toNat < out.timestamp.toNat + 10000 ∧
          (out.timestamp - baseOffset cfg cm).toNat % 10000 = 0)) := by
  have h1 := tv_lt cm
  have hfmt := C19_format cfg cm
  have hcm := binaryLength_cm cfg cm
  have e0 : (0#64).slt (baseOffset cfg cm) = decide (0 < (baseOffset cfg cm).toInt) := by
    rw [BitVec.slt, BitVec.toInt_zero]
  generalize hU : (if cfg.includeTime = true ∧ (0#64).slt (baseOffset cfg cm) = true then
        decide ((getBinaryLength cfg cm).1 < 17) else cm.usingBaseTimeOffset) = u at hcm
  have hclos := fun j => C18_full_closure cm.flags j
  have hwire : wire cfg cm = [getCompactStateFlags { cm with usingBaseTimeOffset := u }] ++
      beBytes 4 (Sic.signalIndex cfg.cache cm.signalID).toNat ++ beBytes 4 cm.value.toNat ++
      (if !cfg.includeTime then []
       else if u then
         if cfg.useMillisecondResolution then
           beBytes 2 (getTimestampC2 cfg { cm with usingBaseTimeOffset := u }).toNat
         else beBytes 4 (getTimestampC4 cfg { cm with usingBaseTimeOffset := u }).toNat
       else beBytes 8 cm.timestamp.toNat) := by
    unfold wire
    rw [hcm]
    rfl
  have hdec : ∀ t : List Byte, decode cfg cm0 ([getCompactStateFlags { cm with usingBaseTimeOffset := u }] ++
      beBytes 4 (Sic.signalIndex cfg.cache cm.signalID).toNat ++ beBytes 4 cm.value.toNat ++ t) =
      decodeTime cfg { cm0 with
        flags := mapToFullFlags (mapToCompactFlags cm.flags), timeIndex := cm.timeIndex,
        usingBaseTimeOffset := u, signalID := cm.signalID, value := cm.value } t := by
    intro t
    rw [decode_fixed _ _ _ _ _ _ _ hknown, set_get]
  rw [hwire, List.append_assoc, hdec]
  unfold decodeTime
  cases hinc : cfg.includeTime
  · rw [hinc] at hfmt
    exact ⟨{ cm0 with
        flags := mapToFullFlags (mapToCompactFlags cm.flags), timeIndex := cm.timeIndex,
        usingBaseTimeOffset := u, signalID := cm.signalID, value := cm.value }, by simp, by simp [hfmt], rfl, rfl,
      hclos, Or.inl ⟨by simp, rfl⟩⟩
  · rw [hinc] at hfmt hU
    have hflag := hflag hinc
    rw [e0] at hU
    simp only [Bool.not_true, Bool.false_eq_true, if_false, Bool.true_eq_false, true_and, decide_eq_true_eq]
      at hfmt hU ⊢
    have hfull : u = false → (getBinaryLength cfg cm).1 = 17 := by
      intro hu
      subst hU
      by_cases hp : 0 < (baseOffset cfg cm).toInt
      · rw [if_pos hp, decide_eq_false_iff_not] at hu
        rw [hfmt] at hu ⊢
        by_cases hq : (0 < (baseOffset cfg cm).toInt ∧ (baseOffset cfg cm).toNat < (timestampValue cm).toNat ∧
          (if cfg.useMillisecondResolution then
            ((timestampValue cm).toNat - (baseOffset cfg cm).toNat) / 10000 < 65535
           else (timestampValue cm).toNat - (baseOffset cfg cm).toNat < 4294967295))
        · rw [if_pos hq] at hu ⊢
          exfalso; apply hu
          cases cfg.useMillisecondResolution <;> decide
        · rw [if_neg hq]
      · rw [hfmt, if_neg (fun hc => hp hc.1)]
    have hshort : u = true → 0 < (baseOffset cfg cm).toInt ∧
        (baseOffset cfg cm).toNat < (timestampValue cm).toNat ∧
          (if cfg.useMillisecondResolution then
            ((timestampValue cm).toNat - (baseOffset cfg cm).toNat) / 10000 < 65535
           else (timestampValue cm).toNat - (baseOffset cfg cm).toNat < 4294967295) ∧
        (getBinaryLength cfg cm).1 = if cfg.useMillisecondResolution then 11 else 13 := by
      intro hu
      subst hU
      by_cases hp : 0 < (baseOffset cfg cm).toInt
      · rw [if_pos hp, decide_eq_true_eq] at hu
        rw [hfmt] at hu ⊢
        by_cases hq : (0 < (baseOffset cfg cm).toInt ∧ (baseOffset cfg cm).toNat < (timestampValue cm).toNat ∧
          (if cfg.useMillisecondResolution then
            ((timestampValue cm).toNat - (baseOffset cfg cm).toNat) / 10000 < 65535
           else (timestampValue cm).toNat - (baseOffset cfg cm).toNat < 4294967295))
        · rw [if_pos hq] at hu ⊢
          exact ⟨hq.1, hq.2.1, hq.2.2, rfl⟩
        · rw [if_neg hq] at hu; omega
      · rw [if_neg hp] at hu
        cases hflag with
        | inl h => exact absurd h hp
        | inr h => rw [h] at hu; cases hu
    cases hu : u
    · have h17 := hfull hu
      have hr : readBE 8 (beBytes 8 cm.timestamp.toNat ++ rest) = .ok cm.timestamp.toNat :=
        readBE_beBytes _ _ _ (by have := cm.timestamp.isLt; omega)
      simp only [Bool.false_eq_true, if_false]
      rw [hr, Res.bind_ok]
      exact ⟨{ cm0 with
        flags := mapToFullFlags (mapToCompactFlags cm.flags), timeIndex := cm.timeIndex,
        usingBaseTimeOffset := false, signalID := cm.signalID, value := cm.value,
        timestamp := BitVec.ofNat 64 cm.timestamp.toNat }, by simp, by simp [h17], rfl, rfl, hclos, Or.inr (Or.inl ⟨by simp, by simp⟩)⟩
    · obtain ⟨hp, hlt, hfit, hlen⟩ := hshort hu
      have hb : (0#64).slt (baseOffset cfg cm) = true := by rw [e0]; simpa using hp
      have hdiff : (timestampValue cm - baseOffset cfg cm).toNat =
          (timestampValue cm).toNat - (baseOffset cfg cm).toNat := by
        rw [BitVec.toNat_sub]; have := (baseOffset cfg cm).isLt; omega
      simp only [if_true]
      have hbase : ∀ x : CM, x.timeIndex = cm.timeIndex → baseOffset cfg x = baseOffset cfg cm := by
        intro x hx; unfold baseOffset; rw [hx]
      rw [hbase { cm0 with
        flags := mapToFullFlags (mapToCompactFlags cm.flags), timeIndex := cm.timeIndex,
        usingBaseTimeOffset := true, signalID := cm.signalID, value := cm.value } rfl, hb]
      cases hms : cfg.useMillisecondResolution
      · rw [hms] at hfit hlen
        simp only [Bool.false_eq_true, if_false, if_true] at hfit hlen ⊢
        have hv : (getTimestampC4 cfg { cm with usingBaseTimeOffset := true }).toNat =
            (timestampValue cm).toNat - (baseOffset cfg cm).toNat := by
          unfold getTimestampC4
          have this : timestampValue { cm with usingBaseTimeOffset := true } = timestampValue cm := rfl
          have this2 : baseOffset cfg { cm with usingBaseTimeOffset := true } = baseOffset cfg cm := rfl
          rw [BitVec.toNat_setWidth, this, this2, hdiff]
          omega
        rw [hv, readBE_beBytes _ _ _ (by omega), Res.bind_ok]
        refine ⟨{ cm0 with
        flags := mapToFullFlags (mapToCompactFlags cm.flags), timeIndex := cm.timeIndex,
        usingBaseTimeOffset := true, signalID := cm.signalID, value := cm.value,
        timestamp := baseOffset cfg cm + BitVec.ofNat 64 ((timestampValue cm).toNat - (baseOffset cfg cm).toNat) }, by simp, by simp [hlen], rfl, rfl, hclos, Or.inr (Or.inr (Or.inl ⟨by simp, ?_⟩))⟩
        apply BitVec.eq_of_toNat_eq
        rw [BitVec.toNat_add, BitVec.toNat_ofNat]
        have := (baseOffset cfg cm).isLt
        omega
      · rw [hms] at hfit hlen
        simp only [if_true] at hfit hlen ⊢
        have hv : (getTimestampC2 cfg { cm with usingBaseTimeOffset := true }).toNat =
            ((timestampValue cm).toNat - (baseOffset cfg cm).toNat) / 10000 := by
          unfold getTimestampC2
          have this : timestampValue { cm with usingBaseTimeOffset := true } = timestampValue cm := rfl
          have this2 : baseOffset cfg { cm with usingBaseTimeOffset := true } = baseOffset cfg cm := rfl
          rw [BitVec.toNat_setWidth, this, this2, sdiv_ms _ (by rw [hdiff]; omega), hdiff]
          omega
        rw [hv, readBE_beBytes _ _ _ (by omega), Res.bind_ok]
        have hts : (baseOffset cfg cm + BitVec.ofNat 64
            (((timestampValue cm).toNat - (baseOffset cfg cm).toNat) / 10000) * perMs).toNat =
            (baseOffset cfg cm).toNat +
              ((timestampValue cm).toNat - (baseOffset cfg cm).toNat) / 10000 * 10000 := by
          rw [BitVec.toNat_add, BitVec.toNat_mul, BitVec.toNat_ofNat, perMs_eq]
          have : (10000#64).toNat = 10000 := by decide
          rw [this]
          have := (baseOffset cfg cm).isLt
          omega
        refine ⟨{ cm0 with
        flags := mapToFullFlags (mapToCompactFlags cm.flags), timeIndex := cm.timeIndex,
        usingBaseTimeOffset := true, signalID := cm.signalID, value := cm.value,
        timestamp := baseOffset cfg cm + BitVec.ofNat 64 (((timestampValue cm).toNat - (baseOffset cfg cm).toNat) / 10000) * perMs }, by simp, by simp [hlen], rfl, rfl, hclos,
          Or.inr (Or.inr (Or.inr ⟨by simp, ?_, ?_, ?_⟩))⟩
        · dsimp only; rw [hts]; omega
        · dsimp only; rw [hts]; omega
        · dsimp only
          rw [BitVec.toNat_sub, hts]
          have hbl := (baseOffset cfg cm).isLt
          have hk : ((timestampValue cm).toNat - (baseOffset cfg cm).toNat) / 10000 < 65535 := hfit
          revert hk
          generalize ((timestampValue cm).toNat - (baseOffset cfg cm).toNat) / 10000 = k
          intro hk
          have e : 2 ^ 64 - (baseOffset cfg cm).toNat + ((baseOffset cfg cm).toNat + k * 10000) =
              2 ^ 64 + k * 10000 := by omega
          rw [e, Nat.add_mod_left, Nat.mod_eq_of_lt (show k * 10000 < 2 ^ 64 by omega), Nat.mul_mod_left]

/-- A case meeting the hypotheses in each of the four formats: a cache with two signals, a base time, and a measurement
with two flags and a timestamp 1.5 s after the base. -/
def exCfg (includeTime ms : Bool) : Config :=
  ⟨Sic.build Sic.exRecs, 0#64, 638000000000000000#64, includeTime, ms⟩

def exCM (t : BitVec 64) : CM := ⟨Sic.gB, 0x3FC00000#32, t, 0x00400008#32, true, false⟩

example : (∀ inc ms, Sic.signalID (exCfg inc ms).cache
      (Sic.signalIndex (exCfg inc ms).cache (exCM 638000000015000123#64).signalID) = .ok Sic.gB) ∧
    (∀ inc ms, 0 < (baseOffset (exCfg inc ms) (exCM 638000000015000123#64)).toInt) ∧
    (getBinaryLength (exCfg false true) (exCM 638000000015000123#64)).1 = 9 ∧
    (getBinaryLength (exCfg true true) (exCM 638000000015000123#64)).1 = 11 ∧
    (getBinaryLength (exCfg true false) (exCM 638000000015000123#64)).1 = 13 ∧
    (getBinaryLength (exCfg true false) (exCM 639000000015000123#64)).1 = 17 := by decide +kernel

/-- The stale mark excluded by `hflag` does break decoding: a measurement that was once sent with a base time and is sent
again after the base time was cleared reports 17 bytes but marks its time as an offset. -/
theorem C19_stale_mark_false : ∃ (cfg : Config) (cm : CM),
    Sic.signalID cfg.cache (Sic.signalIndex cfg.cache cm.signalID) = .ok cm.signalID ∧
    (getBinaryLength cfg cm).1 = 17 ∧
    ∀ cm0 rest, ∃ out, decode cfg cm0 (wire cfg cm ++ rest) = .ok (13, out) ∧ out.timestamp = cm0.timestamp := by
  refine ⟨⟨Sic.build Sic.exRecs, 0, 0, true, false⟩, ⟨Sic.gB, 1, 5, 0, false, true⟩, by decide +kernel, by decide +kernel, ?_⟩
  intro cm0 rest
  let cfg : Config := ⟨Sic.build Sic.exRecs, 0, 0, true, false⟩
  let cm : CM := ⟨Sic.gB, 1, 5, 0, false, true⟩
  have hw : wire cfg cm = [getCompactStateFlags cm] ++ beBytes 4 (Sic.signalIndex cfg.cache cm.signalID).toNat ++
      beBytes 4 cm.value.toNat ++ beBytes 4 (getTimestampC4 cfg cm).toNat := rfl
  have hk : Sic.signalID cfg.cache (Sic.signalIndex cfg.cache cm.signalID) = .ok cm.signalID := by decide +kernel
  refine ⟨{ cm0 with
        flags := mapToFullFlags (mapToCompactFlags cm.flags), timeIndex := cm.timeIndex,
        usingBaseTimeOffset := cm.usingBaseTimeOffset, signalID := cm.signalID, value := cm.value }, ?_, rfl⟩
  show decode cfg cm0 (wire cfg cm ++ rest) = _
  rw [hw, List.append_assoc, decode_fixed _ _ _ _ _ _ _ hk, set_get]
  rfl

/-! ## Truncated measurements -/

/-- C20 fails: nine bytes, with time expected, panic. -/
theorem C20_truncated_panics : ∃ (cfg : Config) (b : List Byte), decode cfg CM.new b = .panic :=
  ⟨exCfg true true, List.replicate 9 0, by decide +kernel⟩

/-- The bytes a buffer needs for `Decode` not to panic, given its first byte. -/
def needed (cfg : Config) (b0 : Byte) : Nat :=
  if cfg.includeTime = false then 9
  else if b0.getLsbD 6 then
    if 0 < (if b0.getLsbD 7 then cfg.offset1 else cfg.offset0).toInt then
      if cfg.useMillisecondResolution then 11 else 13
    else 9
  else 17

theorem bit6 : ∀ b : Byte, decide (b &&& fBaseTimeOffset > 0#8) = b.getLsbD 6 := by decide +kernel
theorem bit7 : ∀ b : Byte, decide (b &&& fTimeIndex > 0#8) = b.getLsbD 7 := by decide +kernel

theorem decodeTime_panic (cfg : Config) (cm : CM) (rest : List Byte) :
    decodeTime cfg cm rest = .panic ↔ rest.length + 9 <
      if cfg.includeTime = false then 9
      else if cm.usingBaseTimeOffset then
        if 0 < (baseOffset cfg cm).toInt then
          if cfg.useMillisecondResolution then 11 else 13
        else 9
      else 17 := by
  have e0 : (0#64).slt (baseOffset cfg cm) = decide (0 < (baseOffset cfg cm).toInt) := by
    rw [BitVec.slt, BitVec.toInt_zero]
  unfold decodeTime readBE
  dsimp only
  rw [e0]
  cases cfg.includeTime <;> cases cm.usingBaseTimeOffset <;> cases cfg.useMillisecondResolution <;>
    by_cases hp : 0 < (baseOffset cfg cm).toInt <;> simp [hp] <;> (try split) <;> simp <;> omega

/-- C20 as far as it holds: for every cache built from records, every base-time configuration, every measurement being
overwritten and every buffer, `Decode` gives an error exactly when fewer than nine bytes are given, and otherwise panics
exactly when the buffer is shorter than the time format announced by its first byte needs. In particular 17 bytes suffice.
Missing from the full statement: the cases 9 ≤ length < needed, which panic (`C20_truncated_panics`). -/
theorem C20_panic_exactly_partial (cfg : Config) (rs : List Sic.Rec) (hc : cfg.cache = Sic.build rs) (cm : CM) :
    (∀ b : List Byte, decode cfg cm b = .err ↔ b.length < 9) ∧
    (∀ (b0 : Byte) (rest : List Byte), 9 ≤ (b0 :: rest).length →
      (decode cfg cm (b0 :: rest) = .panic ↔ (b0 :: rest).length < needed cfg b0)) ∧
    (∀ b0 : Byte, needed cfg b0 ≤ 17) := by
  have hs : ∀ i, ∃ g, Sic.signalID cfg.cache i = .ok g := by
    intro i
    have := Sic.build_lookup rs i
    rw [hc]
    cases h : Sic.lastByIndex rs i with
    | none => rw [h] at this; exact ⟨_, this.2.1⟩
    | some r => rw [h] at this; exact ⟨_, this.2.1⟩
  refine ⟨?_, ?_, ?_⟩
  · intro b
    constructor
    · intro h
      by_contra hl
      cases b with
      | nil => simp at hl
      | cons b0 rest =>
        simp only [List.length_cons] at hl
        obtain ⟨g, hg⟩ := hs (BitVec.ofNat 32 (beNat (rest.take 4)))
        rw [decode_cons _ _ _ _ (by omega), hg, Res.bind_ok] at h
        unfold decodeTime readBE at h
        dsimp only at h
        generalize (0#64).slt _ = q at h
        generalize (setCompactStateFlags cm b0).usingBaseTimeOffset = q2 at h
        cases q <;> cases q2 <;> cases h1 : cfg.includeTime <;> cases h2 : cfg.useMillisecondResolution <;>
          simp [h1, h2] at h <;> split at h <;> simp at h
    · intro h
      cases b with
      | nil => rfl
      | cons b0 rest => rw [decode, if_pos h]
  · intro b0 rest hl
    simp only [List.length_cons] at hl ⊢
    obtain ⟨g, hg⟩ := hs (BitVec.ofNat 32 (beNat (rest.take 4)))
    rw [decode_cons _ _ _ _ (by omega), hg, Res.bind_ok, decodeTime_panic]
    have e1 : (setCompactStateFlags cm b0).usingBaseTimeOffset = b0.getLsbD 6 := bit6 b0
    have e2 : (setCompactStateFlags cm b0).timeIndex = b0.getLsbD 7 := bit7 b0
    unfold needed baseOffset
    dsimp only
    rw [e1, e2, List.length_drop]
    have : rest.length - 8 + 9 = rest.length + 1 := by omega
    rw [this]
  · intro b0
    unfold needed
    repeat' split
    all_goals omega

/-- Cases on both sides: 13 bytes with a 2-byte time are accepted, the same 13 bytes with a full time panic. -/
example : needed (exCfg true true) 0xC0 = 11 ∧ needed (exCfg true true) 0x80 = 17 ∧
    (∃ n o, decode (exCfg true true) CM.new (0xC0 :: List.replicate 12 1) = .ok (n, o)) ∧
    decode (exCfg true true) CM.new (0x80 :: List.replicate 12 1) = .panic :=
  ⟨by decide +kernel, by decide +kernel, ⟨11, ⟨Guid.empty, 0x01010101, 638000000000000000 + 257 * 10000, 0, true, true⟩,
    by decide +kernel⟩, by decide +kernel⟩

/-- A related defect: when the base time is not set, `Decode` accepts an offset time without checking that its bytes are
there, and reports more bytes consumed than the buffer holds, with the timestamp left as it was. -/
theorem C20_consumed_beyond_end : ∃ (cfg : Config) (b : List Byte) (o : CM),
    decode cfg CM.new b = .ok (b.length + 4, o) ∧ o.timestamp = 0 :=
  ⟨⟨Sic.build Sic.exRecs, 0, 0, true, false⟩, 0x40 :: List.replicate 8 0, ⟨Guid.empty, 0, 0, 0, false, true⟩,
    by decide +kernel, by decide +kernel⟩

end Verif.Compact
