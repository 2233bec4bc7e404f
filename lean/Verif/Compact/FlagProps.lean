import Verif.Compact.Model

/-!
# Compact state flags (C18)
-/

namespace Verif.Compact

/-! ## Specification: the flag classes, by bit number of the full flags (Constants.go L117-149) -/

/-- The full flags summarized by each compact quality bit. -/
def flagClass : Nat → List Nat
  | 0 => [2, 3, 4, 5, 6, 7] -- data range: OverRangeError, UnderRangeError, AlarmHigh, AlarmLow, WarningHigh, WarningLow
  | 1 => [0, 1, 8, 9, 10, 11, 13, 14, 15] -- data quality: BadData, SuspectData, FlatlineAlarm, ..., ReservedQualityFlag
  | 2 => [16, 17, 18, 19, 20, 21, 23] -- time quality: BadTime, ..., DownSampled, ReservedTimeFlag
  | 3 => [29, 30, 31] -- system issue: SystemError, SystemWarning, MeasurementError
  | 4 => [12] -- CalculatedValue
  | 5 => [22] -- DiscardedValue
  | _ => []

theorem and_pos_iff (w : Nat) (f m : BitVec w) :
    f &&& m > 0#w ↔ ∃ j < w, f.getLsbD j = true ∧ m.getLsbD j = true := by
  constructor
  · intro h
    by_contra hc
    have : f &&& m = 0#w := by
      apply BitVec.eq_of_getLsbD_eq
      intro j hj
      rw [BitVec.getLsbD_and, BitVec.getLsbD_zero]
      by_contra hb
      apply hc
      refine ⟨j, hj, ?_⟩
      simpa using hb
    rw [this] at h
    simp at h
  · rintro ⟨j, hj, h1, h2⟩
    rw [gt_iff_lt, BitVec.lt_def]
    simp only [BitVec.toNat_ofNat, Nat.zero_mod]
    by_contra hc
    have h0 : f &&& m = 0#w := BitVec.eq_of_toNat_eq (by simp at hc ⊢; omega)
    have : (f &&& m).getLsbD j = true := by rw [BitVec.getLsbD_and, h1, h2]; rfl
    rw [h0, BitVec.getLsbD_zero] at this
    cases this

/-- The mask of a class. -/
theorem mask_bits (m : BitVec 32) (l : List Nat) (h : ∀ j : Fin 32, m.getLsbD j = true ↔ (j : Nat) ∈ l)
    (hl : ∀ j ∈ l, j < 32) (f : BitVec 32) : f &&& m > 0#32 ↔ ∃ j ∈ l, f.getLsbD j = true := by
  rw [and_pos_iff]
  constructor
  · rintro ⟨j, hj, h1, h2⟩
    exact ⟨j, (h ⟨j, hj⟩).mp h2, h1⟩
  · rintro ⟨j, hj, h1⟩
    exact ⟨j, hl j hj, h1, (h ⟨j, hl j hj⟩).mpr hj⟩

theorem range_iff (f : BitVec 32) : f &&& dataRangeMask > 0#32 ↔ ∃ j ∈ flagClass 0, f.getLsbD j = true :=
  mask_bits _ _ (by decide) (by decide) f
theorem quality_iff (f : BitVec 32) : f &&& dataQualityMask > 0#32 ↔ ∃ j ∈ flagClass 1, f.getLsbD j = true :=
  mask_bits _ _ (by decide) (by decide) f
theorem time_iff (f : BitVec 32) : f &&& timeQualityMask > 0#32 ↔ ∃ j ∈ flagClass 2, f.getLsbD j = true :=
  mask_bits _ _ (by decide) (by decide) f
theorem system_iff (f : BitVec 32) : f &&& systemIssueMask > 0#32 ↔ ∃ j ∈ flagClass 3, f.getLsbD j = true :=
  mask_bits _ _ (by decide) (by decide) f
theorem calc_iff (f : BitVec 32) : f &&& calculatedValueMask > 0#32 ↔ ∃ j ∈ flagClass 4, f.getLsbD j = true :=
  mask_bits _ _ (by decide) (by decide) f
theorem discard_iff (f : BitVec 32) : f &&& discardedValueMask > 0#32 ↔ ∃ j ∈ flagClass 5, f.getLsbD j = true :=
  mask_bits _ _ (by decide) (by decide) f

/-- The compact byte made of six given bits. -/
def compactOf (b0 b1 b2 b3 b4 b5 : Bool) : BitVec 8 :=
  let c : BitVec 8 := 0#8
  let c := if b0 then c ||| fDataRange else c
  let c := if b1 then c ||| fDataQuality else c
  let c := if b2 then c ||| fTimeQuality else c
  let c := if b3 then c ||| fSystemIssue else c
  let c := if b4 then c ||| fCalculatedValue else c
  if b5 then c ||| fDiscardedValue else c

theorem compactOf_bits : ∀ b0 b1 b2 b3 b4 b5 : Bool, ∀ i : Fin 8,
    (compactOf b0 b1 b2 b3 b4 b5).getLsbD i = ([b0, b1, b2, b3, b4, b5].getD i false) := by decide

theorem mapToCompact_eq (f : BitVec 32) : mapToCompactFlags f =
    compactOf (decide (f &&& dataRangeMask > 0#32)) (decide (f &&& dataQualityMask > 0#32))
      (decide (f &&& timeQualityMask > 0#32)) (decide (f &&& systemIssueMask > 0#32))
      (decide (f &&& calculatedValueMask > 0#32)) (decide (f &&& discardedValueMask > 0#32)) := by
  simp only [mapToCompactFlags, compactOf, decide_eq_true_eq]

/-- C18, full to compact: a compact bit is set exactly when a full flag of its class is set (the time-index and
base-offset bits 6 and 7 never are), for all 2^32 flag words. -/
theorem C18_to_compact (f : BitVec 32) (i : Nat) :
    (mapToCompactFlags f).getLsbD i = true ↔ ∃ j ∈ flagClass i, f.getLsbD j = true := by
  by_cases hi : i < 8
  · rw [mapToCompact_eq, compactOf_bits _ _ _ _ _ _ ⟨i, hi⟩]
    match i, hi with
    | 0, _ => simpa using range_iff f
    | 1, _ => simpa using quality_iff f
    | 2, _ => simpa using time_iff f
    | 3, _ => simpa using system_iff f
    | 4, _ => simpa using calc_iff f
    | 5, _ => simpa using discard_iff f
    | 6, _ => simp [flagClass]
    | 7, _ => simp [flagClass]
  · have : flagClass i = [] := by
      match i, hi with
      | n + 8, _ => rfl
    rw [this, BitVec.getLsbD_of_ge _ _ (by omega)]
    simp

/-- C18, compact to full: a full flag is set exactly when the bit of its class is set, for all compact bytes. -/
theorem C18_to_full (c : BitVec 8) (j : Nat) :
    (mapToFullFlags c).getLsbD j = true ↔ ∃ i < 6, j ∈ flagClass i ∧ c.getLsbD i = true := by
  by_cases hj : j < 32
  · have h : ∀ c : BitVec 8, ∀ j : Fin 32, (mapToFullFlags c).getLsbD j = true ↔
        ∃ i : Fin 6, (j : Nat) ∈ flagClass i ∧ c.getLsbD i = true := by decide +kernel
    rw [h c ⟨j, hj⟩]
    constructor
    · rintro ⟨i, h1, h2⟩; exact ⟨i, i.isLt, h1, h2⟩
    · rintro ⟨i, hi, h1, h2⟩; exact ⟨⟨i, hi⟩, h1, h2⟩
  · rw [BitVec.getLsbD_of_ge _ _ (by omega)]
    simp only [Bool.false_eq_true, false_iff]
    rintro ⟨i, hi, h1, -⟩
    have : ∀ i : Fin 6, ∀ j ∈ flagClass i, j < 32 := by decide
    exact hj (this ⟨i, hi⟩ j h1)

/-- C18: the flag classes are pairwise disjoint. -/
theorem C18_classes_disjoint (i k j : Nat) (hi : j ∈ flagClass i) (hk : j ∈ flagClass k) : i = k := by
  have h6 : ∀ i, j ∈ flagClass i → i < 6 := by
    intro i h
    match i, h with
    | 0, _ | 1, _ | 2, _ | 3, _ | 4, _ | 5, _ => all_goals decide
    | n + 6, h => simp [flagClass] at h
  have : ∀ i k : Fin 6, ∀ j ∈ flagClass i, j ∈ flagClass k → i = k := by decide
  have := this ⟨i, h6 i hi⟩ ⟨k, h6 k hk⟩ j hi hk
  simpa using this

example : (3 : Nat) ∈ flagClass 0 := by decide

/-- C18, round trip: the six quality bits survive the conversion to full flags and back, for all compact bytes. -/
theorem C18_roundtrip (c : BitVec 8) : mapToCompactFlags (mapToFullFlags c) = c &&& 0x3F#8 := by
  apply BitVec.eq_of_getLsbD_eq
  intro i hi
  rw [Bool.eq_iff_iff, C18_to_compact, BitVec.getLsbD_and, Bool.and_eq_true]
  have hm : ∀ i : Fin 8, (0x3F#8).getLsbD i = true ↔ (i : Nat) < 6 := by decide
  rw [hm ⟨i, hi⟩]
  have hne : ∀ i : Fin 6, ∃ j, j ∈ flagClass i := by
    intro i
    match i with
    | 0 | 1 | 2 | 3 | 4 | 5 => all_goals exact ⟨_, List.mem_cons_self⟩
  constructor
  · rintro ⟨j, hj, h⟩
    rw [C18_to_full] at h
    obtain ⟨k, hk, h1, h2⟩ := h
    have := C18_classes_disjoint i k j hj h1
    subst this
    exact ⟨h2, hk⟩
  · rintro ⟨h1, h2⟩
    obtain ⟨j, hj⟩ := hne ⟨i, h2⟩
    exact ⟨j, hj, (C18_to_full c j).mpr ⟨i, h2, hj, h1⟩⟩

/-- The loss of precision of the other direction: converting full flags to compact and back sets all flags of every class
that had one set, and nothing else. -/
theorem C18_full_closure (f : BitVec 32) (j : Nat) :
    (mapToFullFlags (mapToCompactFlags f)).getLsbD j = true ↔
      ∃ i < 6, j ∈ flagClass i ∧ ∃ k ∈ flagClass i, f.getLsbD k = true := by
  rw [C18_to_full]
  constructor
  · rintro ⟨i, hi, h1, h2⟩; exact ⟨i, hi, h1, (C18_to_compact f i).mp h2⟩
  · rintro ⟨i, hi, h1, h2⟩; exact ⟨i, hi, h1, (C18_to_compact f i).mpr h2⟩

end Verif.Compact
