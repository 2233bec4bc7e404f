import Verif.Ticks.Model
import Mathlib.Tactic.Ring
import Mathlib.Tactic.NormNum

/-!
# Properties of the Ticks API (C01, C02, C03)

Specification used by the statements: the low 62 bits of a value are `t.toNat % 2 ^ 62`,
the flags are bits 63 and 62, and the calendar instant of a timestamp `v` (in 100 ns steps since year 1)
is `(v - 621355968000000000) * 100` nanoseconds after the Unix epoch.
-/

namespace Verif.Ticks

/-- Abstract leap-second flags: (is leap, is negative direction). -/
structure Flags where
  leap : Bool
  direction : Bool
  deriving DecidableEq, Repr

/-- What each flag operation is documented to do to the flags. -/
def FlagOp.spec (f : Flags) : FlagOp → Flags
  | .setLeap => { f with leap := true }
  | .setNegative => ⟨true, true⟩
  | .setDirection n => { f with direction := n }

/-- The flags stored in a 64-bit word: bit 63 and bit 62. -/
def flagsOf (t : Ticks) : Flags := ⟨t.getLsbD 63, t.getLsbD 62⟩

/-- Instant (ns since the Unix epoch) denoted by a timestamp of 100 ns steps since year 1. -/
def instantOf (v : Nat) : Int := ((v : Int) - 621355968000000000) * 100

theorem valueMask_eq : valueMask = BitVec.ofNat 64 (2 ^ 62 - 1) := by decide

theorem and_valueMask_toNat (t : Ticks) : (t &&& valueMask).toNat = t.toNat % 2 ^ 62 := by
  rw [valueMask_eq, BitVec.toNat_and, BitVec.toNat_ofNat]
  have : (2 ^ 62 - 1) % 2 ^ 64 = 2 ^ 62 - 1 := by norm_num
  rw [this, Nat.and_two_pow_sub_one_eq_mod]

theorem and_pow_gt (t : Ticks) (n : Nat) (_hn : n < 64) :
    (decide ((t &&& (1#64 <<< n)) > 0#64)) = t.getLsbD n := by
  rw [Bool.eq_iff_iff, decide_eq_true_iff]
  have h1 : (1#64 <<< n) = BitVec.twoPow 64 n := by rw [BitVec.twoPow_eq]
  rw [h1, BitVec.and_twoPow]
  split
  · rename_i h
    simp only [h, iff_true]
    rw [gt_iff_lt, BitVec.lt_def, BitVec.toNat_twoPow]
    have : 2 ^ n < 2 ^ 64 := Nat.pow_lt_pow_right (by norm_num) _hn
    rw [Nat.mod_eq_of_lt this]
    simp
  · rename_i h
    simp [h]

theorem getLsbD_leap (i : Nat) : leapSecondFlag.getLsbD i = decide (i = 63) := by
  unfold leapSecondFlag
  have h1 : (1#64 <<< 63) = BitVec.twoPow 64 63 := by rw [BitVec.twoPow_eq]
  rw [h1, BitVec.getLsbD_twoPow]
  by_cases h : i = 63 <;> simp [h]; omega

theorem getLsbD_dir (i : Nat) : leapSecondDirection.getLsbD i = decide (i = 62) := by
  unfold leapSecondDirection
  have h1 : (1#64 <<< 62) = BitVec.twoPow 64 62 := by rw [BitVec.twoPow_eq]
  rw [h1, BitVec.getLsbD_twoPow]
  by_cases h : i = 62 <;> simp [h]; omega

theorem getLsbD_mask (i : Nat) : valueMask.getLsbD i = decide (i < 62) := by
  unfold valueMask
  simp only [BitVec.getLsbD_and, BitVec.getLsbD_not, getLsbD_leap, getLsbD_dir]
  by_cases h : i < 62
  · have : i < 64 := by omega
    have h3 : i ≠ 63 := by omega
    have h4 : i ≠ 62 := by omega
    simp [*]
  · by_cases h2 : i < 64
    · have : i = 62 ∨ i = 63 := by omega
      rcases this with rfl | rfl <;> simp
    · simp [h2, h]

theorem getElem_leap (i : Nat) (h : i < 64) : leapSecondFlag[i] = decide (i = 63) := by
  rw [← BitVec.getLsbD_eq_getElem]; exact getLsbD_leap i

theorem getElem_dir (i : Nat) (h : i < 64) : leapSecondDirection[i] = decide (i = 62) := by
  rw [← BitVec.getLsbD_eq_getElem]; exact getLsbD_dir i

theorem apply_mask (t : Ticks) (op : FlagOp) : op.apply t &&& valueMask = t &&& valueMask := by
  apply BitVec.eq_of_getLsbD_eq
  intro i hi
  cases op with
  | setLeap =>
    simp only [FlagOp.apply, setLeapSecond, BitVec.getLsbD_and, BitVec.getLsbD_or, getLsbD_leap,
      getLsbD_mask]
    by_cases h : i < 62
    · have : i ≠ 63 := by omega
      simp [this]
    · simp [h]
  | setNegative =>
    simp only [FlagOp.apply, setNegativeLeapSecond, BitVec.getLsbD_and, BitVec.getLsbD_or,
      getLsbD_leap, getLsbD_dir, getLsbD_mask]
    by_cases h : i < 62
    · have : i ≠ 63 := by omega
      have : i ≠ 62 := by omega
      simp [*]
    · simp [h]
  | setDirection n =>
    simp only [FlagOp.apply, setLeapSecondDirection]
    by_cases h : i < 62
    · have h2 : i ≠ 62 := by omega
      cases n <;> simp [getElem_dir, h2, hi]
    · cases n <;> simp [getLsbD_mask, h]

theorem apply_flags (t : Ticks) (op : FlagOp) : flagsOf (op.apply t) = op.spec (flagsOf t) := by
  cases op with
  | setLeap => simp [FlagOp.apply, FlagOp.spec, flagsOf, setLeapSecond, getElem_leap]
  | setNegative =>
    simp [FlagOp.apply, FlagOp.spec, flagsOf, setNegativeLeapSecond, getElem_leap, getElem_dir]
  | setDirection n =>
    cases n <;>
      simp [FlagOp.apply, FlagOp.spec, flagsOf, setLeapSecondDirection, getElem_dir]

/-- **C01.** Over any sequence of flag operations on any 64-bit value: the timestamp portion is
unchanged and is the low 62 bits; the two flags are exactly what the sequence of operations
prescribes; and the queries read exactly those flags. -/
theorem C01_flags_preserve_timestamp (t : Ticks) (ops : List FlagOp) :
    let t' := ops.foldl FlagOp.apply t
    let f' := ops.foldl FlagOp.spec ⟨t.getLsbD 63, t.getLsbD 62⟩
    timestampValue t' = timestampValue t ∧
    timestampValue t = ((t.toNat % 2 ^ 62 : Nat) : Int) ∧
    isLeapSecond t' = f'.leap ∧
    isNegativeLeapSecond t' = (f'.leap && f'.direction) := by
  intro t' f'
  have hmask : t' &&& valueMask = t &&& valueMask := by
    have : ∀ (ops : List FlagOp) (t : Ticks),
        ops.foldl FlagOp.apply t &&& valueMask = t &&& valueMask := by
      intro ops
      induction ops with
      | nil => intro t; rfl
      | cons op ops ih => intro t; rw [List.foldl_cons, ih, apply_mask]
    exact this ops t
  have hflags : flagsOf t' = f' := by
    have : ∀ (ops : List FlagOp) (t : Ticks),
        flagsOf (ops.foldl FlagOp.apply t) = ops.foldl FlagOp.spec (flagsOf t) := by
      intro ops
      induction ops with
      | nil => intro t; rfl
      | cons op ops ih => intro t; rw [List.foldl_cons, ih, apply_flags]; rfl
    exact this ops t
  have hl : isLeapSecond t' = (flagsOf t').leap := by
    unfold isLeapSecond leapSecondFlag
    exact and_pow_gt t' 63 (by norm_num)
  have hn : isNegativeLeapSecond t' = ((flagsOf t').leap && (flagsOf t').direction) := by
    unfold isNegativeLeapSecond
    rw [hl]
    congr 1
    unfold leapSecondDirection
    exact and_pow_gt t' 62 (by norm_num)
  refine ⟨?_, ?_, ?_, ?_⟩
  · unfold timestampValue; rw [hmask]
  · unfold timestampValue
    have h := and_valueMask_toNat t
    rw [BitVec.toInt_eq_toNat_of_lt, h]
    rw [h]
    have : t.toNat % 2 ^ 62 < 2 ^ 62 := Nat.mod_lt _ (by norm_num)
    omega
  · rw [hl, hflags]
  · rw [hn, hflags]

/-- Non-trivial instance: a 2021 timestamp flagged negative, then its direction cleared. -/
example : (let t' := [FlagOp.setNegative, .setDirection false].foldl FlagOp.apply
              (637700000000000000#64)
           timestampValue t' = 637700000000000000 ∧ isLeapSecond t' = true
            ∧ isNegativeLeapSecond t' = false) := by decide

theorem off_toNat : unixBaseOffset.toNat = 621355968000000000 := by decide

theorem fromUnixNano_toNat (ns : BitVec 64) :
    (fromUnixNano ns).toNat = ns.toNat / 100 + 621355968000000000 := by
  unfold fromUnixNano
  have := ns.isLt
  have h100 : (100#64).toNat = 100 := by decide
  rw [BitVec.toNat_add, BitVec.toNat_udiv, off_toNat, h100]
  omega

/-- **C02 (Unix nanoseconds).** For every unsigned 64-bit nanosecond count the round trip loses
exactly the part below one tick. -/
theorem C02_unixNano_roundtrip (ns : BitVec 64) :
    (toUnixNano (fromUnixNano ns)).toNat = ns.toNat - ns.toNat % 100 := by
  have h := fromUnixNano_toNat ns
  have hlt := ns.isLt
  have hm := and_valueMask_toNat (fromUnixNano ns)
  have h100 : (100#64).toNat = 100 := by decide
  rw [h] at hm
  unfold toUnixNano
  rw [BitVec.toNat_mul, BitVec.toNat_sub, hm, off_toNat, h100]
  omega

example : (toUnixNano (fromUnixNano 1636838460009000123#64)) = 1636838460009000100#64 := by decide

/-- `ToTime` multiplies in 64 bits: the result is the denoted instant modulo `2 ^ 64`. -/
theorem toTime_val (t : Ticks) :
    toTime t = Int.bmod (instantOf (t.toNat % 2 ^ 62)) (2 ^ 64) := by
  have hm := and_valueMask_toNat (t - unixBaseOffset)
  have hlt := t.isLt
  have h100 : (100#64).toNat = 100 := by decide
  unfold toTime timeUnix0 instantOf
  rw [BitVec.toInt_eq_toNat_bmod, BitVec.toNat_mul, hm, BitVec.toNat_sub, off_toNat, h100]
  rw [Int.bmod_def, Int.bmod_def]
  omega

theorem toTime_eq (t : Ticks) (h1 : 621355968000000000 ≤ t.toNat % 2 ^ 62 + 92233720368547758)
    (h2 : t.toNat % 2 ^ 62 ≤ 621355968000000000 + 92233720368547758) :
    toTime t = instantOf (t.toNat % 2 ^ 62) := by
  rw [toTime_val]
  unfold instantOf
  rw [Int.bmod_def]
  omega

/-- **C02 (Go times).** For every value, with any leap flags, whose timestamp lies between the
Unix epoch and the last instant representable as signed 64-bit nanoseconds
(`92233720368547758` ticks later), `ToTime` gives the
denoted instant and `FromTime` gives the timestamp back without flags. -/
theorem C02_time_roundtrip (t : Ticks) (h1 : 621355968000000000 ≤ t.toNat % 2 ^ 62)
    (h2 : t.toNat % 2 ^ 62 ≤ 621355968000000000 + 92233720368547758) :
    toTime t = instantOf (t.toNat % 2 ^ 62) ∧ (fromTime (toTime t)).toNat = t.toNat % 2 ^ 62 := by
  have h := toTime_eq t (by omega) h2
  refine ⟨h, ?_⟩
  rw [h]
  unfold fromTime
  rw [fromUnixNano_toNat]
  unfold timeUnixNano instantOf
  rw [BitVec.toNat_ofInt]
  generalize t.toNat % 2 ^ 62 = x at *
  have e1 : ((↑x - 621355968000000000 : Int) * 100) % ((2 ^ 64 : Nat) : Int)
      = ((↑x - 621355968000000000 : Int) * 100) := Int.emod_eq_of_lt (by omega) (by omega)
  rw [e1]
  omega

/-- The hypotheses hold for a flagged 2021 timestamp. -/
example : 621355968000000000 ≤ (setNegativeLeapSecond 637724352600090000#64).toNat % 2 ^ 62 ∧
    (setNegativeLeapSecond 637724352600090000#64).toNat % 2 ^ 62
      ≤ 621355968000000000 + 92233720368547758 := by decide

/-- **C02 (from a Go time).** Every instant from the epoch up to the signed 64-bit nanosecond limit
converts to the tick containing it. -/
theorem C02_fromTime (i : Int) (h0 : 0 ≤ i) (h1 : i < 2 ^ 63) :
    ((fromTime i).toNat : Int) = i / 100 + 621355968000000000 ∧
    toTime (fromTime i) = i - i % 100 := by
  have hn : ((fromTime i).toNat : Int) = i / 100 + 621355968000000000 := by
    unfold fromTime
    rw [fromUnixNano_toNat]
    unfold timeUnixNano
    rw [BitVec.toNat_ofInt]
    have e1 : i % ((2 ^ 64 : Nat) : Int) = i := Int.emod_eq_of_lt (by omega) (by omega)
    rw [e1]
    omega
  refine ⟨hn, ?_⟩
  rw [toTime_eq (fromTime i) (by omega) (by omega)]
  unfold instantOf
  omega

example : (0 : Int) ≤ 1636838460009000123 ∧ (1636838460009000123 : Int) < 2 ^ 63 := by decide

/-- **C02.** The constants for intervals measure time: an instant that much later is that many ticks later. -/
theorem C02_intervals (i : Int) (h0 : 0 ≤ i) :
    (i + 1000 < 2 ^ 63 → (fromTime (i + 1000)).toNat = (fromTime i).toNat + perMicrosecond.toNat) ∧
    (i + 1000000 < 2 ^ 63 → (fromTime (i + 1000000)).toNat = (fromTime i).toNat + perMillisecond.toNat) ∧
    (i + 1000000000 < 2 ^ 63 → (fromTime (i + 1000000000)).toNat = (fromTime i).toNat + perSecond.toNat) ∧
    (i + 60 * 1000000000 < 2 ^ 63 → (fromTime (i + 60 * 1000000000)).toNat = (fromTime i).toNat + perMinute.toNat) ∧
    (i + 3600 * 1000000000 < 2 ^ 63 → (fromTime (i + 3600 * 1000000000)).toNat = (fromTime i).toNat + perHour.toNat) ∧
    (i + 86400 * 1000000000 < 2 ^ 63 → (fromTime (i + 86400 * 1000000000)).toNat = (fromTime i).toNat + perDay.toNat) := by
  have key : ∀ d : Int, 0 ≤ d → d % 100 = 0 → i + d < 2 ^ 63 → (fromTime (i + d)).toNat = (fromTime i).toNat + (d / 100).toNat := by
    intro d hd hm hlt
    have h1 := (C02_fromTime i h0 (by omega)).1
    have h2 := (C02_fromTime (i + d) (by omega) hlt).1
    omega
  refine ⟨fun h => ?_, fun h => ?_, fun h => ?_, fun h => ?_, fun h => ?_, fun h => ?_⟩
  all_goals
    rw [key _ (by decide) (by decide) h]
    rfl

/-- Noon of 1 January 2020 and a day later. -/
example : (fromTime 1577880000000000000).toNat = 637134768000000000 ∧
    (fromTime (1577880000000000000 + 86400 * 1000000000)).toNat = 637134768000000000 + perDay.toNat := by decide

/-- **C03, refuted.** The full claim, that every value between the documented `Min` and `Max`
converts to the instant it denotes, is false: year 1601 and year 2300 come out wrong. -/
theorem C03_full_range_false :
    ¬ (∀ t : Ticks, tMin ≤ t → t ≤ tMax → toTime t = instantOf t.toNat) := by
  intro h
  exact absurd (h 504911232000000000#64 (by decide) (by decide)) (by decide)

/-- Also refuted for `FromTime`: an instant of the year 1900 does not come back. -/
theorem C03_fromTime_false :
    ¬ (∀ v : Nat, v ≤ tMax.toNat → (fromTime (instantOf v)).toNat = v) := by
  intro h
  exact absurd (h 599266080000000000 (by decide)) (by decide)

/-- **C03, partial: the exact range on which `ToTime` is right.** For a documented value,
`ToTime` yields the denoted instant if and only if the value lies within signed 64-bit
nanoseconds of the Unix epoch (about years 1677 to 2262). Missing from the full claim: all other
years, where the code is wrong. -/
theorem C03_toTime_exact_range_partial (t : Ticks) (ht : t ≤ tMax) :
    toTime t = instantOf t.toNat ↔
      621355968000000000 - 92233720368547758 ≤ t.toNat ∧
        t.toNat ≤ 621355968000000000 + 92233720368547758 := by
  have htn : t.toNat ≤ 3155378975999999999 := by
    have := BitVec.le_def.mp ht
    have hmax : tMax.toNat = 3155378975999999999 := by decide
    omega
  have hmod : t.toNat % 2 ^ 62 = t.toNat := Nat.mod_eq_of_lt (by omega)
  constructor
  · intro h
    rw [toTime_val, hmod] at h
    have hlo : -(2 ^ 63 : Int) ≤ instantOf t.toNat := by
      rw [← h]
      have := Int.le_bmod (x := instantOf t.toNat) (m := 2 ^ 64) (by decide)
      omega
    have hhi : instantOf t.toNat < (2 ^ 63 : Int) := by
      rw [← h]
      have := Int.bmod_lt (x := instantOf t.toNat) (m := 2 ^ 64) (by decide)
      omega
    unfold instantOf at hlo hhi
    omega
  · rintro ⟨h1, h2⟩
    have := toTime_eq t (by omega) (by omega)
    rw [this, hmod]

/-- A 1900 timestamp is in the range. -/
example : (599266080000000000#64 : Ticks) ≤ tMax ∧
    621355968000000000 - 92233720368547758 ≤ (599266080000000000#64 : Ticks).toNat := by decide

/-- **C03, partial for `FromTime`.** From the Unix epoch on, up to the signed 64-bit nanosecond
limit, the conversion from the denoted instant is exact. Missing: earlier and later instants. -/
theorem C03_fromTime_partial (v : Nat) (h1 : 621355968000000000 ≤ v)
    (h2 : v ≤ 621355968000000000 + 92233720368547758) :
    (fromTime (instantOf v)).toNat = v := by
  unfold fromTime
  rw [fromUnixNano_toNat]
  unfold timeUnixNano instantOf
  rw [BitVec.toNat_ofInt]
  have e1 : ((↑v - 621355968000000000 : Int) * 100) % ((2 ^ 64 : Nat) : Int)
      = ((↑v - 621355968000000000 : Int) * 100) := Int.emod_eq_of_lt (by omega) (by omega)
  rw [e1]
  omega

example : 621355968000000000 ≤ 637724352600090000 ∧
    637724352600090000 ≤ 621355968000000000 + 92233720368547758 := by decide

/-- **C03, `FromTime` before the epoch.** For every instant of the two centuries before 1970 the
result of `FromTime` is far from the denoted timestamp (it lands after the year 2262). -/
theorem C03_fromTime_before_epoch_wrong (v : Nat) (h1 : v < 621355968000000000)
    (h2 : 621355968000000000 - 92233720368547758 ≤ v) :
    621355968000000000 + 92233720368547758 ≤ (fromTime (instantOf v)).toNat := by
  unfold fromTime
  rw [fromUnixNano_toNat]
  unfold timeUnixNano instantOf
  rw [BitVec.toNat_ofInt]
  have e1 : ((↑v - 621355968000000000 : Int) * 100) % ((2 ^ 64 : Nat) : Int)
      = ((↑v - 621355968000000000 : Int) * 100) + 18446744073709551616 := by
    rw [← Int.add_emod_right, Int.emod_eq_of_lt (by omega) (by omega)]
    rfl
  rw [e1]
  omega

example : 599266080000000000 < 621355968000000000 ∧
    621355968000000000 - 92233720368547758 ≤ 599266080000000000 := by decide

end Verif.Ticks
