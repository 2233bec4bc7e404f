import Verif.Common.Text
import Verif.Format.Props
import Verif.Expr.Prim

/-!
# C58: signal kinds and signal references (transport/SignalKind.go, transport/MeasurementMetadata.go)
-/

namespace Verif.Meta

open Verif.Expr (lit)
open Text

/-- `Acronym` (SignalKind.go L109-136). -/
def acronym (k : BitVec 16) : List Byte :=
  if k = 0 then lit "PA" else if k = 1 then lit "PM" else if k = 2 then lit "FQ" else if k = 3 then lit "DF" else if k = 4 then lit "SF"
  else if k = 5 then lit "DV" else if k = 6 then lit "AV" else if k = 7 then lit "CV" else if k = 8 then lit "ST" else if k = 9 then lit "AL"
  else if k = 10 then lit "QF" else lit "??"

/-- `ParseSignalKindAcronym` (SignalKind.go L178-226). -/
def parseAcronym (L : TextLib) (s : List Byte) : BitVec 16 :=
  let a := L.trim (L.upper s)
  if a = lit "PA" then 0 else if a = lit "PM" then 1 else if a = lit "FQ" then 2 else if a = lit "DF" then 3 else if a = lit "SF" then 4
  else if a = lit "DV" then 5 else if a = lit "AV" then 6 else if a = lit "CV" then 7 else if a = lit "ST" then 8 else if a = lit "AL" then 9
  else if a = lit "QF" then 10 else 11

/-- `ParseSignalReference` (MeasurementMetadata.go L70-83): source, kind and position. -/
def parseReference (L : TextLib) (reference : List Byte) : Res (List Byte × BitVec 16 × Int) :=
  let parts := split 45#8 reference
  if parts.length > 1 then
    let typeInfo := parts.getLastD []
    if typeInfo.length < 2 then .panic
    else .ok (join 45#8 parts.dropLast, parseAcronym L (typeInfo.take 2), atoiOrZero (typeInfo.drop 2))
  else .ok ([], 0, 0)

/-! ### C58 -/

theorem upper_ascii_of {s : List Byte} {t : List Byte} (h : s.map upperByte = t) (ht : Ascii t) : Ascii s := by
  intro b hb
  have := ht (upperByte b) (by rw [← h]; exact List.mem_map_of_mem hb)
  unfold upperByte at this
  split at this <;> omega

/-- The acronyms. (SignalKind.go L108-175) -/
def acronyms : List (List Byte) := ["PA", "PM", "FQ", "DF", "SF", "DV", "AV", "CV", "ST", "AL", "QF", "??"].map lit

theorem acronym_mem (k : BitVec 16) : acronym k ∈ acronyms := by
  unfold acronym acronyms
  simp only [List.map_cons, List.map_nil]
  generalize lit "PA" = a, lit "PM" = b, lit "FQ" = c, lit "DF" = d, lit "SF" = e, lit "DV" = f, lit "AV" = g, lit "CV" = h, lit "ST" = i,
    lit "AL" = j, lit "QF" = l, lit "??" = m
  by_cases h0 : k = 0
  · rw [if_pos h0]; simp
  rw [if_neg h0]
  by_cases h1 : k = 1
  · rw [if_pos h1]; simp
  rw [if_neg h1]
  by_cases h2 : k = 2
  · rw [if_pos h2]; simp
  rw [if_neg h2]
  by_cases h3 : k = 3
  · rw [if_pos h3]; simp
  rw [if_neg h3]
  by_cases h4 : k = 4
  · rw [if_pos h4]; simp
  rw [if_neg h4]
  by_cases h5 : k = 5
  · rw [if_pos h5]; simp
  rw [if_neg h5]
  by_cases h6 : k = 6
  · rw [if_pos h6]; simp
  rw [if_neg h6]
  by_cases h7 : k = 7
  · rw [if_pos h7]; simp
  rw [if_neg h7]
  by_cases h8 : k = 8
  · rw [if_pos h8]; simp
  rw [if_neg h8]
  by_cases h9 : k = 9
  · rw [if_pos h9]; simp
  rw [if_neg h9]
  by_cases h10 : k = 10
  · rw [if_pos h10]; simp
  rw [if_neg h10]; simp

theorem acronym_facts (k : BitVec 16) : Ascii (acronym k) ∧ trimAscii (acronym k) = acronym k ∧ (acronym k).map upperByte = acronym k ∧
    (acronym k).length = 2 ∧ 45#8 ∉ acronym k := by
  have all : ∀ a ∈ acronyms, (∀ b ∈ a, b.toNat < 128) ∧ trimAscii a = a ∧ a.map upperByte = a ∧ a.length = 2 ∧ 45#8 ∉ a := by decide
  exact all _ (acronym_mem k)

/-- C58: parsing inverts `Acronym` for every kind, in any letter case. -/
theorem C58_acronym {L : TextLib} (hL : L.Laws) (k : BitVec 16) (hk : k.toNat ≤ 11) (s : List Byte)
    (hs : s.map upperByte = acronym k) : parseAcronym L s = k := by
  have ha : Ascii (acronym k) ∧ trimAscii (acronym k) = acronym k := ⟨(acronym_facts k).1, (acronym_facts k).2.1⟩
  have e1 : L.upper s = acronym k := by rw [hL.upper_ascii s (upper_ascii_of hs ha.1), hs]
  have e2 : L.trim (L.upper s) = acronym k := by rw [e1, hL.trim_ascii _ ha.1, ha.2]
  unfold parseAcronym
  rw [e2]
  have : k = 0 ∨ k = 1 ∨ k = 2 ∨ k = 3 ∨ k = 4 ∨ k = 5 ∨ k = 6 ∨ k = 7 ∨ k = 8 ∨ k = 9 ∨ k = 10 ∨ k = 11 := by
    have : k.toNat = 0 ∨ k.toNat = 1 ∨ k.toNat = 2 ∨ k.toNat = 3 ∨ k.toNat = 4 ∨ k.toNat = 5 ∨ k.toNat = 6 ∨ k.toNat = 7 ∨ k.toNat = 8 ∨
      k.toNat = 9 ∨ k.toNat = 10 ∨ k.toNat = 11 := by omega
    simp only [← BitVec.toNat_inj]
    exact this
  rcases this with rfl | rfl | rfl | rfl | rfl | rfl | rfl | rfl | rfl | rfl | rfl | rfl <;> decide +kernel

/-- Different kinds have different acronyms. -/
theorem C58_acronym_injective (a b : BitVec 16) (ha : a.toNat ≤ 11) (hb : b.toNat ≤ 11) (h : acronym a = acronym b) : a = b := by
  have self : ∀ k : BitVec 16, (acronym k).map upperByte = acronym k := fun k => (acronym_facts k).2.2.1
  rw [← C58_acronym TextLib.ascii_laws a ha _ (self a), ← C58_acronym TextLib.ascii_laws b hb _ (self b), h]

theorem parse_decimal_loop (l : List Byte) (hd : ∀ b ∈ l, 48 ≤ b.toNat ∧ b.toNat ≤ 57) (a : Nat)
    (h : l.foldl (fun a b => a * 10 + (b.toNat - 48)) a < 2 ^ 64) :
    parseUintLoop l a = .value (l.foldl (fun a b => a * 10 + (b.toNat - 48)) a) := by
  induction l generalizing a with
  | nil => rfl
  | cons b l ih =>
    rw [List.foldl_cons] at h ⊢
    have mono : ∀ (l : List Byte) (x : Nat), x ≤ l.foldl (fun a b => a * 10 + (b.toNat - 48)) x := by
      intro l
      induction l with
      | nil => intro x; exact Nat.le_refl x
      | cons c l ih => intro x; exact Nat.le_trans (by show x ≤ x * 10 + (c.toNat - 48); omega) (ih _)
    have hle := mono l (a * 10 + (b.toNat - 48))
    unfold parseUintLoop
    rw [if_pos (hd b (by simp)), if_pos (by omega)]
    exact ih (fun b hb => hd b (by simp [hb])) _ h

theorem parse_decimal (n : Nat) (h : n < 2 ^ 64) : parseUint (Format.decimal n) = .value n := by
  have hr := Format.readDecimal_decimal n
  unfold Format.readDecimal at hr
  unfold parseUint
  rw [if_neg (Format.decimal_ne_nil n), parse_decimal_loop _ (Format.decimal_digits n) 0 (by rw [hr]; exact h), hr]

theorem atoi_decimal (n : Nat) (h : n < 2 ^ 63) : atoiOrZero (Format.decimal n) = n := by
  have hs : sign (Format.decimal n) = (false, Format.decimal n) := by
    cases hd : Format.decimal n with
    | nil => rfl
    | cons b t =>
      have := Format.decimal_digits n b (by rw [hd]; simp)
      unfold sign
      have h1 : b ≠ 45#8 := by rintro rfl; revert this; decide
      have h2 : b ≠ 43#8 := by rintro rfl; revert this; decide
      simp [h1, h2]
  unfold atoiOrZero
  rw [hs]
  dsimp only
  rw [parse_decimal n (by omega)]
  dsimp only
  rw [if_neg (by simp), if_neg (by omega)]

/-- C58 (partial: positions that are not negative). A reference built from any source, any kind and a position reads back as these.
Missing: a negative position, whose minus sign is taken for the separator, see `C58_negative_false`. -/
theorem C58_reference_partial {L : TextLib} (hL : L.Laws) (source : List Byte) (k : BitVec 16) (hk : k.toNat ≤ 11) (n : Nat)
    (hn : n < 2 ^ 63) : parseReference L (source ++ 45#8 :: (acronym k ++ Format.decimal n)) = .ok (source, k, n) := by
  have ha : (acronym k).length = 2 ∧ 45#8 ∉ acronym k ∧ (acronym k).map upperByte = acronym k :=
    ⟨(acronym_facts k).2.2.2.1, (acronym_facts k).2.2.2.2, (acronym_facts k).2.2.1⟩
  have hclean : 45#8 ∉ acronym k ++ Format.decimal n := by
    intro h
    rcases List.mem_append.mp h with h | h
    · exact ha.2.1 h
    · have := Format.decimal_digits n _ h
      revert this; decide
  unfold parseReference
  rw [split_append, split_clean_eq hclean]
  have hlen : ((split 45#8 source) ++ [acronym k ++ Format.decimal n]).length > 1 := by
    have := List.length_pos_iff.mpr (split_ne_nil 45#8 source)
    simp only [List.length_append, List.length_singleton]
    omega
  dsimp only
  rw [if_pos hlen, if_neg (by simp [ha.1])]
  have e1 : (split 45#8 source ++ [acronym k ++ Format.decimal n]).getLastD [] = acronym k ++ Format.decimal n := by simp
  rw [e1, List.dropLast_concat, join_split, List.take_append_of_le_length (by omega), List.take_of_length_le (by omega),
    List.drop_append_of_le_length (by omega), List.drop_of_length_le (by omega), List.nil_append, atoi_decimal n hn,
    C58_acronym hL k hk _ ha.2.2]

/-- C58: parsing fails exactly on references whose last part, after the last of at least one dash, is shorter than two bytes. -/
theorem C58_panic_iff (L : TextLib) (reference : List Byte) :
    parseReference L reference = .panic ↔ ∃ source tail, reference = source ++ 45#8 :: tail ∧ 45#8 ∉ tail ∧ tail.length < 2 := by
  constructor
  · intro h
    unfold parseReference at h
    dsimp only at h
    split at h
    · rename_i hl
      split at h
      · rename_i ht
        obtain ⟨ps, p, hp⟩ : ∃ ps p, split 45#8 reference = ps ++ [p] := by
          have hne := split_ne_nil 45#8 reference
          exact ⟨_, _, (List.dropLast_append_getLast hne).symm⟩
        rw [hp] at hl ht
        have hps : ps ≠ [] := by rintro rfl; simp at hl
        refine ⟨join 45#8 ps, p, ?_, split_clean p (by rw [hp]; simp), by simpa using ht⟩
        rw [← join_split 45#8 reference, hp]
        clear hp hl ht h
        induction ps with
        | nil => exact absurd rfl hps
        | cons q qs ih =>
          cases qs with
          | nil => rfl
          | cons r rs =>
            rw [List.cons_append, join_cons (by simp), ih (by simp), join_cons (p := q) (by simp), List.append_assoc, List.cons_append]
      · cases h
    · cases h
  · rintro ⟨source, tail, rfl, hc, ht⟩
    unfold parseReference
    rw [split_append, split_clean_eq hc]
    have := List.length_pos_iff.mpr (split_ne_nil 45#8 source)
    dsimp only
    rw [if_pos (by simp only [List.length_append, List.length_singleton]; omega), if_pos (by simpa using ht)]

/-- C58 fails: short last parts make the parser panic, the one of "SHELBY-1" for instance. -/
theorem C58_no_panic_false (L : TextLib) : parseReference L (lit "SHELBY-1") = .panic :=
  (C58_panic_iff L _).mpr ⟨lit "SHELBY", lit "1", rfl, by decide, by decide⟩

/-- C58 fails for negative positions: the source swallows the kind, and one digit is a panic. -/
theorem C58_negative_false (L : TextLib) (source : List Byte) (k : BitVec 16) (n : Nat) (hn : n < 10) :
    parseReference L (source ++ 45#8 :: (acronym k ++ 45#8 :: Format.decimal n)) = .panic := by
  have hd : Format.decimal n = [BitVec.ofNat 8 (48 + n)] := by unfold Format.decimal; rw [if_pos hn]
  refine (C58_panic_iff L _).mpr ⟨source ++ 45#8 :: acronym k, Format.decimal n, by simp, ?_, by rw [hd]; simp⟩
  intro h
  have := Format.decimal_digits n _ h
  revert this; decide

/-- A reference without a dash is reported as the phase angle 0 of an empty source, not as of unknown kind. -/
theorem C58_no_dash (L : TextLib) (reference : List Byte) (h : 45#8 ∉ reference) : parseReference L reference = .ok ([], 0, 0) := by
  unfold parseReference
  rw [split_clean_eq h]
  rfl

/-- `C58_reference_partial` on a source with a dash of its own. -/
example : parseReference TextLib.ascii (lit "EAST-SHELBY-PM12") = .ok (lit "EAST-SHELBY", 1, 12) :=
  (congrArg (parseReference TextLib.ascii) (show lit "EAST-SHELBY-PM12" = lit "EAST-SHELBY" ++ 45#8 :: (acronym 1 ++ Format.decimal 12) by
    decide +kernel)).trans (C58_reference_partial TextLib.ascii_laws (lit "EAST-SHELBY") 1 (by decide) 12 (by decide))

/-- `C58_acronym` in mixed case. -/
example : parseAcronym TextLib.ascii (lit "qF") = 10 := C58_acronym TextLib.ascii_laws 10 (by decide) _ (by decide)

end Verif.Meta
