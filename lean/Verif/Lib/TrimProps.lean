import Verif.Common.Text
import Verif.Common.Utf8

/-!
# `strings.TrimSpace` meets what is assumed of it

The library written out in `Verif.Utf8` meets the laws of `Verif.Common.Text`, so that the theorems that assume them hold with it.
-/

namespace Verif.Lib

open Verif.Text (isSpace trimAscii Ascii)

/-- `strings.ToUpper`, a parameter, and `strings.TrimSpace` as written out. (transport/SignalKind.go L179, xml/XmlNode.go L211, data/DataSet.go L71) -/
def goText (upper : List Byte → List Byte) : TextLib := ⟨upper, Utf8.trimSpace⟩

/-- The white space of the library among the ASCII bytes. -/
theorem space_ascii (b : Byte) (h : b.toNat < 128) : Utf8.isSpace b.toNat = isSpace b := by
  unfold Utf8.isSpace isSpace
  have h1 : (b == 32#8) = (b.toNat == 0x20) := by
    rw [Bool.eq_iff_iff, beq_iff_eq, beq_iff_eq]
    constructor
    · rintro rfl; rfl
    · exact fun h => BitVec.eq_of_toNat_eq h
  rw [h1]
  by_cases h9 : 9 ≤ b.toNat ∧ b.toNat ≤ 13
  · simp [h9]
  · rw [Bool.eq_iff_iff]
    simp only [Bool.or_eq_true, Bool.and_eq_true, decide_eq_true_eq, beq_iff_eq]
    omega

theorem trimLeft_ascii : ∀ (n : Nat) (s : List Byte), s.length ≤ n → Ascii s → Utf8.trimLeftAux Utf8.isSpace n s = s.dropWhile isSpace := by
  intro n
  induction n with
  | zero =>
    intro s h _
    rw [List.length_eq_zero_iff.mp (Nat.le_zero.mp h)]
    rfl
  | succ n ih =>
    intro s h ha
    cases s with
    | nil => rfl
    | cons b s =>
      have hb : b.toNat < 128 := ha b (by simp)
      have hd : Utf8.decode (b :: s) = (b.toNat, 1) := by
        unfold Utf8.decode
        dsimp only
        rw [if_pos hb]
      rw [Utf8.trimLeftAux, hd]
      dsimp only
      rw [space_ascii b hb, List.dropWhile_cons]
      by_cases hs : isSpace b = true
      · rw [if_pos ⟨by simp, hs⟩, if_pos hs]
        exact ih s (by simpa using h) fun c hc => ha c (by simp [hc])
      · rw [if_neg (fun x => hs x.2), if_neg hs]

theorem decodeLast_ascii (s : List Byte) (b : Byte) (hb : b.toNat < 128) : Utf8.decodeLast (s ++ [b]) = (b.toNat, 1) := by
  unfold Utf8.decodeLast
  rw [List.reverse_append]
  show (if b.toNat < 0x80 then _ else _) = _
  rw [if_pos hb]

theorem trimRight_ascii : ∀ (n : Nat) (s : List Byte), s.length ≤ n → Ascii s →
    Utf8.trimRightAux Utf8.isSpace n s = (s.reverse.dropWhile isSpace).reverse := by
  intro n
  induction n with
  | zero =>
    intro s h _
    rw [List.length_eq_zero_iff.mp (Nat.le_zero.mp h)]
    rfl
  | succ n ih =>
    intro s h ha
    rcases List.eq_nil_or_concat s with rfl | ⟨t, b, rfl⟩
    · rfl
    · rw [List.concat_eq_append] at *
      have hb : b.toNat < 128 := ha b (by simp)
      rw [Utf8.trimRightAux, decodeLast_ascii t b hb]
      dsimp only
      rw [space_ascii b hb, List.reverse_append, List.reverse_singleton, List.singleton_append, List.dropWhile_cons]
      by_cases hs : isSpace b = true
      · rw [if_pos ⟨by simp, hs⟩, if_pos hs]
        have : (t ++ [b]).take ((t ++ [b]).length - 1) = t := by simp
        rw [this]
        exact ih t (by simpa using h) fun c hc => ha c (by simp [hc])
      · rw [if_neg (fun x => hs x.2), if_neg hs]
        simp

/-- The laws hold with the library. -/
theorem goText_laws (upper : List Byte → List Byte) (h : ∀ s, Ascii s → upper s = s.map Text.upperByte) : (goText upper).Laws := by
  refine ⟨h, ?_, ?_⟩
  · intro s ha
    show Utf8.trimSpace s = _
    unfold Utf8.trimSpace Utf8.trimRight Utf8.trimLeft
    rw [trimLeft_ascii _ s (Nat.le_refl _) ha]
    exact trimRight_ascii _ _ (Nat.le_refl _) fun b hb => ha b ((List.dropWhile_suffix _).subset hb)
  · intro b s c hb hbs hc hcs
    show Utf8.trimSpace _ = _
    unfold Utf8.trimSpace Utf8.trimRight Utf8.trimLeft
    have h1 : Utf8.trimLeftAux Utf8.isSpace (b :: s ++ [c]).length (b :: s ++ [c]) = b :: s ++ [c] := by
      have hd : Utf8.decode (b :: s ++ [c]) = (b.toNat, 1) := by
        rw [List.cons_append]
        unfold Utf8.decode
        dsimp only
        rw [if_pos hb]
      rw [show (b :: s ++ [c]).length = (s ++ [c]).length + 1 from rfl, Utf8.trimLeftAux, hd]
      dsimp only
      rw [space_ascii b hb, hbs, if_neg (by simp)]
    rw [h1]
    rw [show (b :: s ++ [c]).length = (s ++ [c]).length + 1 from rfl, Utf8.trimRightAux, decodeLast_ascii (b :: s) c hc]
    dsimp only
    rw [space_ascii c hc, hcs, if_neg (by simp)]

/-- A library that meets the law for upper case. -/
example : (goText fun s => s.map Text.upperByte).Laws := goText_laws _ fun _ _ => rfl

/-- Blanks of every kind, within and beyond ASCII, are cut; those inside stay. -/
example : (goText id).trim [0xE2, 0x80, 0x83, 9, 65, 32, 66, 13, 0xC2, 0xA0] = [65, 32, 66] := by decide +kernel

end Verif.Lib
