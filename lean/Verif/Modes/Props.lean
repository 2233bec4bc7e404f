import Verif.Modes.Model
import Verif.Session.BlockProps

/-!
# Operational modes, subscription parameters and flag names (C31, C62)
-/

namespace Verif.Modes

open Verif.Session (Env St exSt)

/-! ## C31 -/

/-- One of the three encodings of the protocol. -/
def KnownEncoding (e : BitVec 32) : Prop := e = 0 ∨ e = 0x100 ∨ e = 0x200

/-- C31, versions from 10 on: the word is the sum of its fields (so they do not overlap): the version in the low byte, the
encoding in bits 8 and 9, and one bit each for payload (not with a UDP channel), cache and metadata compression. Masking gives
each of them back. Missing from the full statement: versions below 10 (`C31_version_false`). -/
theorem C31_modes_partial (o : Options) (he : KnownEncoding o.encoding) (hv : 10 ≤ o.version.toNat) :
    let w := operationalModes o
    w.toNat = o.version.toNat + o.encoding.toNat
      + (if o.compressPayloadData ∧ ¬ o.udpDataChannel then 2 ^ 29 else 0)
      + (if o.compressSignalIndexCache then 2 ^ 30 else 0)
      + (if o.compressMetadata then 2 ^ 31 else 0) ∧
    w &&& 0xFF = o.version.setWidth 32 ∧ w &&& 0x300 = o.encoding ∧
    w.getLsbD 29 = (o.compressPayloadData && !o.udpDataChannel) ∧
    w.getLsbD 30 = o.compressSignalIndexCache ∧ w.getLsbD 31 = o.compressMetadata := by
  obtain ⟨v, e, a, b, c, d⟩ := o
  dsimp only at he hv ⊢
  revert hv
  rcases he with rfl | rfl | rfl <;> revert v a b c d <;> decide +kernel

/-- C31, versions below 10: all fields but the version are as above, the five low bits are the version, and bits 5 and 6 of
the version field are used for two obsolete compression flags. -/
theorem C31_old_modes_partial (o : Options) (he : KnownEncoding o.encoding) (hv : o.version.toNat < 10) :
    let w := operationalModes o
    w &&& 0x1F = o.version.setWidth 32 ∧ w.getLsbD 5 = true ∧ w.getLsbD 6 = (o.compressPayloadData && !o.udpDataChannel) ∧
    w.getLsbD 7 = false ∧ w &&& 0x300 = o.encoding ∧
    w &&& 0x1FFFFC00 = 0 ∧ w.getLsbD 29 = (o.compressPayloadData && !o.udpDataChannel) ∧
    w.getLsbD 30 = o.compressSignalIndexCache ∧ w.getLsbD 31 = o.compressMetadata := by
  obtain ⟨v, e, a, b, c, d⟩ := o
  dsimp only at he hv ⊢
  revert hv
  rcases he with rfl | rfl | rfl <;> revert v a b c d <;> decide +kernel

/-- C31, with the masks of the protocol: the fields of version and encoding are the low byte and the two bits above it, and for every version the mask of
the encoding gives the encoding back. -/
theorem C31_encoding (o : Options) (he : KnownEncoding o.encoding) : operationalModes o &&& encodingMask = o.encoding ∧
    versionMask &&& encodingMask = 0 ∧ versionMask + encodingMask = 0x3FF := by
  obtain ⟨v, e, a, b, c, d⟩ := o
  dsimp only at he ⊢
  refine ⟨?_, by decide, by decide⟩
  rcases he with rfl | rfl | rfl <;> revert v a b c d <;> decide +kernel

/-- C31 fails for every version below 10, the default 2 included: the version field never holds the version. -/
theorem C31_version_false (o : Options) (he : KnownEncoding o.encoding) (hv : o.version.toNat < 10) :
    operationalModes o &&& 0xFF ≠ o.version.setWidth 32 := by
  obtain ⟨v, e, a, b, c, d⟩ := o
  dsimp only at he hv ⊢
  revert hv
  rcases he with rfl | rfl | rfl <;> revert v a b c d <;> decide +kernel

/-- The announcement of the default options is that of version 98: a publisher cannot tell them apart. -/
theorem C31_ambiguous_false : operationalModes ⟨2, utf8, true, true, true, false⟩ =
    operationalModes ⟨98, utf8, true, true, true, false⟩ := by decide

/-- C31, on the wire: the word is sent with command 6, most significant byte first. -/
theorem C31_wire (o : Options) (env : Env) (s : St) (hc : s.connected = true) (hw : env.writeOk = true) :
    ∃ s' b0 b1 b2 b3, sendOperationalModes o env s = .ok s' ∧
      s'.log = s.log ++ [.sent [0, 0, 0, 5, 6, b0, b1, b2, b3]] ∧
      (operationalModes o).toNat = ((b0.toNat * 256 + b1.toNat) * 256 + b2.toNat) * 256 + b3.toNat := by
  unfold sendOperationalModes
  rw [Session.send_ok hc hw (by simp)]
  refine ⟨_, _, _, _, _, rfl, rfl, ?_⟩
  simp only [BitVec.toNat_ofNat]
  have := (operationalModes o).isLt
  generalize (operationalModes o).toNat = n at *
  omega

/-- Cases meeting the hypotheses: a version after 9 with all kinds of options, and the default options. -/
example : KnownEncoding utf8 ∧ 10 ≤ (11 : Byte).toNat ∧ (2 : Byte).toNat < 10 ∧ exSt.connected = true :=
  ⟨Or.inr (Or.inr rfl), by decide, by decide, rfl⟩

/-! ## C62 -/

/-- The names of the thirty-two bits, from the lowest to the highest. -/
def bitNames : List String :=
  ["BadData", "SuspectData", "OverRangeError", "UnderRangeError", "AlarmHigh", "AlarmLow", "WarningHigh", "WarningLow",
   "FlatlineAlarm", "ComparisonAlarm", "ROCAlarm", "ReceivedAsBad", "CalculatedValue", "CalculationError",
   "CalculationWarning", "ReservedQualityFlag", "BadTime", "SuspectTime", "LateTimeAlarm", "FutureTimeAlarm", "UpSampled",
   "DownSampled", "DiscardedValue", "ReservedTimeFlag", "UserDefinedFlag1", "UserDefinedFlag2", "UserDefinedFlag3",
   "UserDefinedFlag4", "UserDefinedFlag5", "SystemError", "SystemWarning", "MeasurementError"]

/-- The pieces of a text between commas. -/
def pieces : List Char → List (List Char)
  | [] => [[]]
  | c :: cs => if c = ',' then [] :: pieces cs else
    match pieces cs with
    | [] => [[c]]
    | p :: ps => (c :: p) :: ps

theorem pieces_plain (a : List Char) (h : ',' ∉ a) : pieces a = [a] := by
  induction a with
  | nil => rfl
  | cons c cs ih =>
    rw [pieces, if_neg (by rintro rfl; simp at h), ih (fun hx => h (List.mem_cons_of_mem _ hx))]

theorem pieces_ne (b : List Char) : pieces b ≠ [] := by
  cases b with
  | nil => simp [pieces]
  | cons c cs =>
    rw [pieces]
    split
    · simp
    · split <;> simp

/-- A comma and a further name at the end add one piece. -/
theorem pieces_snoc (a b : List Char) (h : ',' ∉ b) : pieces (a ++ ',' :: b) = pieces a ++ [b] := by
  induction a with
  | nil =>
    rw [List.nil_append]
    conv_lhs => rw [pieces, if_pos rfl, pieces_plain b h]
    rfl
  | cons c cs ih =>
    rw [List.cons_append, pieces, pieces, ih]
    split
    · rfl
    · cases hp : pieces cs with
      | nil => exact absurd hp (pieces_ne cs)
      | cons p ps => rfl

theorem addFlags_pieces (w : BitVec 32) (fs : List (BitVec 32 × List Char)) (image : List Char)
    (hfs : ∀ p ∈ fs, ',' ∉ p.2 ∧ p.2 ≠ []) :
    (addFlags w fs image = [] ∧ image = [] ∧ fs.filter (fun p => decide (p.1 &&& w > 0)) = []) ∨
    (addFlags w fs image ≠ [] ∧ pieces (addFlags w fs image) =
      (if image = [] then [] else pieces image) ++ (fs.filter (fun p => decide (p.1 &&& w > 0))).map (·.2)) := by
  induction fs generalizing image with
  | nil =>
    rw [addFlags]
    by_cases hi : image = []
    · left; exact ⟨hi, hi, rfl⟩
    · right; exact ⟨hi, by simp [hi]⟩
  | cons p fs ih =>
    obtain ⟨flag, name⟩ := p
    obtain ⟨hc, hne⟩ := hfs (flag, name) (by simp)
    have hfs' : ∀ p ∈ fs, ',' ∉ p.2 ∧ p.2 ≠ [] := fun p hp => hfs p (by simp [hp])
    rw [addFlags]
    by_cases hb : flag &&& w > 0
    · rw [if_pos hb, List.filter_cons_of_pos (by simpa using hb)]
      right
      by_cases hi : image = []
      · subst hi
        rcases ih name hfs' with ⟨h1, h2, -⟩ | ⟨h1, h2⟩
        · exact absurd h2 hne
        · refine ⟨h1, ?_⟩
          simp only [List.length_nil, Nat.lt_irrefl, gt_iff_lt, if_false, List.nil_append]
          rw [h2, if_neg hne, pieces_plain name hc]
          rfl
      · have hl : image.length > 0 := by cases image with | nil => exact absurd rfl hi | cons => simp
        rw [if_pos hl]
        have hne2 : (image ++ [',']) ++ name ≠ [] := by simp
        rcases ih ((image ++ [',']) ++ name) hfs' with ⟨h1, h2, -⟩ | ⟨h1, h2⟩
        · exact absurd h2 hne2
        · refine ⟨h1, ?_⟩
          rw [h2, if_neg hne2, if_neg hi, List.append_assoc, List.singleton_append, pieces_snoc _ _ hc]
          simp
    · rw [if_neg hb, List.filter_cons_of_neg (by simpa using hb)]
      exact ih image hfs'

/-- A bit of a word. -/
theorem bit_test (w : BitVec 32) (k : Nat) (hk : k < 32) : (BitVec.ofNat 32 (2 ^ k) &&& w > 0) ↔ w.getLsbD k = true := by
  have h1 : BitVec.ofNat 32 (2 ^ k) = BitVec.twoPow 32 k := by
    apply BitVec.eq_of_toNat_eq
    simp [BitVec.toNat_twoPow]
  rw [h1, BitVec.twoPow_and]
  cases h : w.getLsbD k
  · simp
  · simp only [if_true, iff_true]
    show (0 : BitVec 32).toNat < (BitVec.twoPow 32 k).toNat
    rw [BitVec.toNat_twoPow, Nat.mod_eq_of_lt (Nat.pow_lt_pow_right (by omega) hk)]
    exact Nat.two_pow_pos k

theorem flagNames_eq : flagNames = (List.range 32).map (fun k => (BitVec.ofNat 32 (2 ^ k), (bitNames[k]!).toList)) := by
  decide +kernel

theorem flagNames_ok : ∀ p ∈ flagNames, ',' ∉ p.2 ∧ p.2 ≠ [] := by decide +kernel

/-- The names of the set bits of a word. -/
def setNames (w : BitVec 32) : List (List Char) :=
  ((List.range 32).filter (fun k => w.getLsbD k)).map (fun k => (bitNames[k]!).toList)

theorem filter_flags (w : BitVec 32) :
    (flagNames.filter (fun p => decide (p.1 &&& w > 0))).map (·.2) = setNames w := by
  rw [flagNames_eq, List.filter_map, List.map_map, setNames]
  congr 1
  apply List.filter_congr
  intro k hk
  have := bit_test w k (List.mem_range.mp hk)
  simp only [Function.comp]
  cases hb : w.getLsbD k
  · rw [hb] at this; simpa using this
  · rw [hb] at this; simpa using this

/-- C62: for every non-zero flags word, the pieces of the text between commas are the names of exactly the set bits, each once,
in the order of the bits; for the zero word the text is "Normal". -/
theorem C62_flag_names (w : BitVec 32) : pieces (stateFlagsString w) =
    if w = 0 then ["Normal".toList] else
      ((List.range 32).filter (fun k => w.getLsbD k)).map (fun k => (bitNames[k]!).toList) := by
  unfold stateFlagsString
  by_cases hw : w = 0
  · rw [if_pos hw, if_pos hw]; decide
  · rw [if_neg hw, if_neg hw]
    rcases addFlags_pieces w flagNames [] flagNames_ok with ⟨h1, -, h3⟩ | ⟨h1, h2⟩
    · exfalso
      apply hw
      have h4 : setNames w = [] := by rw [← filter_flags, h3]; rfl
      rw [setNames, List.map_eq_nil_iff, List.filter_eq_nil_iff] at h4
      apply BitVec.eq_of_getLsbD_eq
      intro i hi
      have := h4 i (List.mem_range.mpr hi)
      simpa using this
    · rw [h2, filter_flags]
      rfl

theorem names_inj : ∀ i, i < 32 → ∀ j, j < 32 → (bitNames[i]!).toList = (bitNames[j]!).toList → i = j := by decide +kernel

theorem names_normal : ∀ i, i < 32 → (bitNames[i]!).toList ≠ "Normal".toList := by decide +kernel

/-- C62: the text determines the flags: different words have different texts. -/
theorem C62_text_determines_flags (w w' : BitVec 32) (h : stateFlagsString w = stateFlagsString w') : w = w' := by
  have key : ∀ v : BitVec 32, ∀ i, i < 32 → (v.getLsbD i = true ↔ (bitNames[i]!).toList ∈ pieces (stateFlagsString v)) := by
    intro v i hi
    rw [C62_flag_names]
    by_cases hv : v = 0
    · rw [if_pos hv, hv]
      simp only [List.mem_singleton]
      constructor
      · intro hx; simp at hx
      · intro hx; exact absurd hx (names_normal i hi)
    · rw [if_neg hv]
      simp only [List.mem_map, List.mem_filter, List.mem_range]
      constructor
      · intro hx; exact ⟨i, ⟨hi, hx⟩, rfl⟩
      · rintro ⟨j, ⟨hj, hx⟩, he⟩
        rw [← names_inj j hj i hi he]; exact hx
  apply BitVec.eq_of_getLsbD_eq
  intro i hi
  have h1 := key w i hi
  have h2 := key w' i hi
  rw [h] at h1
  exact Bool.eq_iff_iff.mpr (h1.trans h2.symm)

/-- A word with three flags. -/
example : stateFlagsString 0x80010001 = "BadData,BadTime,MeasurementError".toList := by decide +kernel

end Verif.Modes
