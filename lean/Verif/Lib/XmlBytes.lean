import Verif.Lib.XmlProps
import Verif.Data.Bytes

/-!
# A document of bytes with the libraries as they are (property C67)

The texts of usual values can stand between tags, so `C67_bytes` holds of them.
-/

namespace Verif.Lib

open Verif.Expr Decimal
open Verif.Data (TableDef Clean Legible cellText)
open Verif.Table (Cell DT)
open Format (decimal decimal_digits formatFloat lastDigits)

variable {R : Rest}

/-- Bytes of the texts of numbers, dates and Guids. -/
def Tame (s : Str) : Prop := ∀ b ∈ s, 43 ≤ b.toNat ∧ b.toNat ≤ 125 ∧ b ≠ 60#8 ∧ b ≠ 62#8

theorem Tame.clean {s : Str} (h : Tame s) : Clean s := by
  refine ⟨Xml.ascii_chars s fun b hb => ⟨by have := h b hb; omega, Or.inr (Or.inr (Or.inr (by have := h b hb; omega)))⟩, ?_, ?_, ?_⟩
  · intro hm
    have := (h _ hm).1
    revert this; decide
  · intro hm
    exact (h _ hm).2.2.1 rfl
  · intro hm
    exact (h _ hm).2.2.2 rfl

theorem Tame.append {a b : Str} (ha : Tame a) (hb : Tame b) : Tame (a ++ b) := by
  intro x hx
  rcases List.mem_append.mp hx with h | h
  · exact ha x h
  · exact hb x h

theorem tame_cons {b : Byte} {s : Str} (hb : 43 ≤ b.toNat ∧ b.toNat ≤ 125 ∧ b ≠ 60#8 ∧ b ≠ 62#8) (h : Tame s) : Tame (b :: s) := by
  intro x hx
  rcases List.mem_cons.mp hx with rfl | hx
  · exact hb
  · exact h x hx

theorem tame_nil : Tame [] := fun _ h => absurd h (by simp)

theorem tame_digits {s : Str} (h : ∀ b ∈ s, 48 ≤ b.toNat ∧ b.toNat ≤ 57) : Tame s := by
  intro b hb
  have := h b hb
  refine ⟨by omega, by omega, ?_, ?_⟩ <;> (rintro rfl; revert this; decide)

theorem tame_minus (p : Prop) [Decidable p] : Tame (if p then [45#8] else []) := by
  split
  · exact tame_cons (by decide) tame_nil
  · exact tame_nil

theorem tame_int (i : Int) : Tame (Data.intText i) := by
  unfold Data.intText
  split
  · exact tame_cons (by decide) (tame_digits (decimal_digits _))
  · exact tame_digits (decimal_digits _)

theorem tame_float (f : BitVec 64) (p : Nat) : Tame (formatFloat f p) := by
  unfold formatFloat
  split
  · split
    · unfold Tame; decide
    · split <;> (unfold Tame; decide)
  · refine ((tame_minus _).append (tame_digits (decimal_digits _))).append ?_
    split
    · exact tame_nil
    · exact tame_cons (by decide) (tame_digits (Format.lastDigits_digits _ _))

theorem tame_pad (w n : Nat) : Tame (TimeText.pad w n) := by
  unfold TimeText.pad
  split
  · exact tame_digits (Format.lastDigits_digits _ _)
  · exact tame_digits (decimal_digits _)

theorem zeros_subset (s : Str) : ∀ b ∈ TimeText.trimZeros s, b ∈ s := by
  induction s with
  | nil => intro b hb; exact hb
  | cons a s ih =>
    intro b hb
    unfold TimeText.trimZeros at hb
    split at hb
    · cases hb
    · rcases List.mem_cons.mp hb with rfl | hb
      · simp
      · simp [ih b hb]

theorem tame_date (t : Int) : Tame (dateText t) := by
  have hf : Tame (TimeText.fraction 9 t) := by
    have h : Tame (TimeText.trimZeros ((lastDigits 9 (t % Calendar.second).toNat).take 9)) := fun b hb =>
      tame_digits (Format.lastDigits_digits _ _) b (List.mem_of_mem_take (zeros_subset _ b hb))
    unfold TimeText.fraction
    split
    · exact tame_nil
    · exact tame_cons (by decide) h
  unfold dateText TimeText.date TimeText.clock TimeText.year
  refine Tame.append (Tame.append (Tame.append ?_ (tame_cons (by decide) ?_)) hf) (by unfold Tame; decide)
  · exact Tame.append (Tame.append (Tame.append (tame_minus _) (tame_pad _ _)) (tame_cons (by decide) (tame_pad _ _)))
      (tame_cons (by decide) (tame_pad _ _))
  · exact Tame.append (Tame.append (tame_pad _ _) (tame_cons (by decide) (tame_pad _ _))) (tame_cons (by decide) (tame_pad _ _))

theorem tame_hex (l : List Byte) : Tame (Guid.hexBytes l) := by
  have hd : ∀ n, n < 16 → 43 ≤ (Guid.hexDigit n).toNat ∧ (Guid.hexDigit n).toNat ≤ 125 ∧ Guid.hexDigit n ≠ 60#8 ∧ Guid.hexDigit n ≠ 62#8 := by
    decide
  induction l with
  | nil => exact tame_nil
  | cons b l ih =>
    have := b.isLt
    exact tame_cons (hd _ (by omega)) (tame_cons (hd _ (by omega)) ih)

theorem tame_guid (g : Guid.Guid) : Tame (Guid.toString g) := by
  unfold Guid.toString Guid.uuidString
  refine Tame.append (tame_cons (by decide) ?_) (by unfold Tame; decide)
  exact (tame_hex _).append (tame_cons (by decide) ((tame_hex _).append (tame_cons (by decide) ((tame_hex _).append (tame_cons (by decide)
    ((tame_hex _).append (tame_cons (by decide) (tame_hex _))))))))

theorem tame_decimal (d : Decimal) : Tame (decimalText d) := by
  unfold decimalText
  exact ((tame_minus _).append (tame_digits (decimal_digits _))).append (tame_cons (by decide) (tame_digits (Format.lastDigits_digits _ _)))

/-- Every value but a string can be written as it is. -/
theorem legible_value (parse : List Table.Column → Str → Option (Expr.Tree (go R))) (v : Cell (go R)) (h : ∀ s, v = .string s → Xml.Chars s) :
    Legible (xml R parse) v := by
  cases v with
  | string s => exact h s rfl
  | boolean b => exact Tame.clean (s := lit (if b then "true" else "false")) (by cases b <;> (unfold Tame; decide))
  | dateTime t => exact Tame.clean (tame_date t)
  | single f => exact Tame.clean (tame_float _ _)
  | double f => exact Tame.clean (tame_float _ _)
  | decimal d => exact Tame.clean (tame_decimal d)
  | guid g => exact Tame.clean (tame_guid g)
  | int8 v => exact Tame.clean (tame_int _)
  | int16 v => exact Tame.clean (tame_int _)
  | int32 v => exact Tame.clean (tame_int _)
  | int64 v => exact Tame.clean (tame_int _)
  | uint8 v => exact Tame.clean (tame_digits (decimal_digits _))
  | uint16 v => exact Tame.clean (tame_digits (decimal_digits _))
  | uint32 v => exact Tame.clean (tame_digits (decimal_digits _))
  | uint64 v => exact Tame.clean (tame_digits (decimal_digits _))
  | tree e => exact Tame.clean tame_nil
  | other => exact Tame.clean tame_nil

/-- A table whose name, columns, expressions and strings XML can write. -/
structure Named (N : Xml.NameLib) (T : TableDef (go R)) : Prop where
  name : Data.Plain N T.name
  cols : ∀ c ∈ T.cols, Data.Plain N c.1 ∧ Xml.Chars c.2.2
  rows : ∀ row ∈ T.rows, ∀ s, some (.string s) ∈ row → Xml.Chars s

theorem Named.spelled {N : Xml.NameLib} {T : TableDef (go R)} (h : Named N T) (parse : List Table.Column → Str → Option (Expr.Tree (go R))) :
    Data.Spelled N (xml R parse) T :=
  ⟨h.name, h.cols, fun row hr v hv => legible_value parse v fun s e => h.rows row hr s (e ▸ hv)⟩

/-- C67, from bytes and with the libraries as they are: a data set of usual values loads as it was written, but for the characters of strings that are
escaped. -/
theorem C67_libraries_bytes (N : Xml.NameLib) (parse : List Table.Column → Str → Option (Expr.Tree (go R))) (pro px ws name rest : Str)
    (D : List (TableDef (go R))) (hpx : Data.PrefixName N px) (hb : Data.Bindable px) (hpro : Xml.Prolog N pro) (hw : Xml.Blank ws) (hn : Data.Plain N name) (hne : name ≠ Data.schemaSpace)
    (hD : ∀ T ∈ D, Writable T) (hN : ∀ T ∈ D, Named N T) (hd : (D.map fun T => R.upper T.name).Nodup)
    (pre : Xml.Tree → Str) (hp : ∀ t, Data.IsPrefix t (pre t)) :
    ∃ ds, Data.parseXml N (xml R parse) pre (pro ++ (Data.document (xml R parse) px ws name D ++ rest)) [] = .ok ds ∧
      (∀ T ∈ D, ∀ x, R.upper x = R.upper T.name → ∃ n, ds.find x = some n ∧ Data.Loaded (xml R parse) T.asRead n) ∧
      (∀ x, (∀ T ∈ D, R.upper T.name ≠ R.upper x) → ds.find x = none) :=
  Data.C67_bytes N (xml R parse) pro px ws name rest D hpx hb hpro hw hn hne (fun T hT => (hN T hT).spelled parse) (fun T hT => (hD T hT).fits parse) hd pre hp

example (N : Xml.NameLib) : Named N readings := by
  have name : ∀ n : Str, Xml.isName Xml.ascii n = true → 58#8 ∉ n → (n.all fun b => decide (b.toNat < 128 ∧ 32 ≤ b.toNat)) = true → Data.Plain N n :=
    fun n h1 h2 h3 => ⟨Data.ascii_name h1, h2, Data.chars_ascii_lit n h3⟩
  refine ⟨name _ (by decide +kernel) (by decide) (by decide), ?_, ?_⟩
  · intro c hc
    rw [show readings.cols = [_, _, _, _, _] from rfl] at hc
    simp only [List.mem_cons, List.not_mem_nil, or_false] at hc
    rcases hc with rfl | rfl | rfl | rfl | rfl <;>
      exact ⟨name _ (by decide +kernel) (by decide) (by decide), Data.chars_ascii_lit _ (by decide)⟩
  · intro row hrow s hs
    rw [show readings.rows = [_] from rfl, List.mem_singleton] at hrow
    subst hrow
    simp at hs

end Verif.Lib
