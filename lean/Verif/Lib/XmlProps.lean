import Verif.Lib.Xml
import Verif.Lib.TextProps
import Verif.Lib.TimeReadProps
import Verif.Data.Props

/-!
# A document with the libraries as they are (property C67)

`C67_round_trip_partial` asks of the libraries that the texts of values read back. Here that is proved: of all finite floats, all dates of the years 0 to 9999,
all decimals with digits after the point and all Guids.
-/

namespace Verif.Lib

open Verif.Expr Decimal
open Verif.Data (XmlLib ReadsBack TableDef fieldValue escape)
open Verif.Table (Cell DT)
open Format (decimal readDecimal decimal_ne_nil decimal_digits readDecimal_decimal formatFloat lastDigits)

variable {R : Rest}

theorem negBit_bits (f : Double) : Format.negBit (Double.bits f) = f.neg := by
  unfold Format.negBit BitVec.getLsbD
  rw [bits_spec, Nat.testBit_eq_decide_div_mod_eq]
  have := f.lt
  cases f.neg
  · rw [decide_eq_false_iff_not]
    simp
    omega
  · rw [decide_eq_true_iff]
    simp
    omega

/-- The text of a finite double with places writes the number, with the sign of the double. -/
theorem format_parts (f : Double) (hf : f.Finite) (p : Nat) (hp : p ≠ 0) :
    (∃ y, Fixed p (formatFloat (Double.bits f) p) y ∧ y = Format.readFixed (formatFloat (Double.bits f) p)) ∧
    (Text.sign (formatFloat (Double.bits f) p)).1 = f.neg := by
  have hb := bits_finite hf
  have hff := Format.formatFloat_finite (f := Double.bits f) hb p
  rw [if_neg hp] at hff
  have hsg : Sign (if Format.negBit (Double.bits f) then [45#8] else []) (Format.negBit (Double.bits f)) := by
    cases Format.negBit (Double.bits f)
    · exact .none
    · exact .minus
  have hwd := Format.wholeDigits_digits (Double.bits f) p
  have hwn : Format.wholeDigits (Double.bits f) p ≠ [] := decimal_ne_nil _
  constructor
  · refine ⟨_, ?_, rfl⟩
    refine Fixed.of hsg (Format.wholeDigits (Double.bits f) p) (some (lastDigits p (Format.scaled (Double.bits f) p)))
      hwd (Format.lastDigits_digits _ _) ?_ hff (Format.lastDigits_length _ _).symm ?_
    · intro hc
      exact hwn (List.append_eq_nil_iff.mp hc).1
    · rw [Format.readFixed_format hb, Option.getD_some, readDecimal_append, Format.lastDigits_length, Format.readDecimal_lastDigits]
      unfold Format.wholeDigits
      rw [readDecimal_decimal, Nat.div_add_mod']
      unfold signed
      cases Format.negBit (Double.bits f) <;> simp [neg_div]
  · rw [hff, List.append_assoc, sign_append hsg]
    · exact negBit_bits f
    · intro b hbh
      rw [List.head?_append_of_ne_nil _ hwn] at hbh
      have := hwd b (List.mem_of_mem_head? hbh)
      constructor <;> (rintro rfl; simp at this)

theorem exact_places (f : Double) (hf : f.Finite) : Format.readFixed (formatFloat (Double.bits f) 1074) = f.val := by
  rw [← bits_val]
  refine Format.C93_exact _ (bits_finite hf) 1074 ((if f.neg then -1 else 1) * (units 52 f.mag * 5 ^ 1074)) ?_
  rw [bits_val]
  unfold Bin.val
  have hu : Bin.unit 52 11 = 5 ^ 1074 / 10 ^ 1074 := by
    show (1 : ℚ) / 2 ^ 1074 = _
    generalize (1074 : Nat) = n
    rw [show (10 : ℚ) = 5 * 2 by norm_num, mul_pow]
    field_simp
  rw [hu]
  generalize (10 : ℚ) ^ 1074 = t
  push_cast
  generalize (5 : ℚ) ^ 1074 = v
  cases f.neg
  · simp only [Bool.false_eq_true, if_false]
    ring
  · simp only [if_true]
    ring

/-- A finite `float32` is the same number as a `float64`, of the same sign. -/
theorem single_exact (f : Single) (hf : f.Finite) :
    (Bin.convert f : Double).Finite ∧ (Bin.convert f : Double).val = f.val ∧ (Bin.convert f : Double).neg = f.neg := by
  have hc : (Bin.convert f : Double) = Bin.ofRat f.neg f.val := by
    unfold Bin.convert
    rw [if_neg, if_neg]
    · intro h
      unfold Bin.IsInf at h
      unfold Bin.Finite at hf
      omega
    · intro h
      unfold Bin.IsNaN at h
      unfold Bin.Finite at hf
      omega
  rw [hc]
  obtain ⟨s, r, hk, h1, h2⟩ := split_bits 23 f.mag
  have eu : units 23 f.mag = r * 2 ^ s := by rw [hk, units_eq 23 s r h1 (by omega)]
  have hs : s < 255 := by
    have : f.mag < 255 * 2 ^ 23 := hf
    omega
  have hunit : Bin.unit 23 8 = 2 ^ 925 * Bin.unit 52 11 := by
    show (1 : ℚ) / 2 ^ 149 = 2 ^ 925 * (1 / 2 ^ 1074)
    rw [show (1074 : Nat) = 925 + 149 by norm_num, pow_add]
    generalize (925 : Nat) = a
    generalize (149 : Nat) = b
    field_simp
  have hx : |f.val| = (r : ℚ) * 2 ^ (s + 925) * Bin.unit 52 11 := by
    rw [Bin.abs_val, eu, hunit, pow_add]
    push_cast
    ring
  obtain ⟨g1, g2⟩ := Bin.ofRat_exact (m := 52) (w := 11) (by norm_num) f.neg f.val r (s + 925) (by omega) hx (k := 1500 * 2 ^ 52 + 2 ^ 52)
    (by show 1500 * 2 ^ 52 + 2 ^ 52 < (2 ^ 11 - 1) * 2 ^ 52; norm_num) (by
      rw [units_eq 52 1500 (2 ^ 52) (fun _ => le_refl _) (by norm_num)]
      exact Nat.mul_le_mul (by omega) (Nat.pow_le_pow_right (by norm_num) (by omega)))
  refine ⟨g1, g2, ?_⟩
  have := congrArg Bin.neg (Bin.ofRat_val (by norm_num) f hf)
  exact this

/-- A number is read from a text of at most 1000000000 places as the nearest `float32`. -/
theorem parseSingle_fixed {k : Nat} {s : Str} {x : ℚ} (hk : k ≤ 1000000000) (h : Fixed k s x) : parseSingle R s = Bin.ofRat (Text.sign s).1 x := by
  have hn : Numeral 99999 s false x := .fixed hk h
  obtain ⟨d, hd, hv⟩ := parse_numeral (hn.mono (by norm_num))
  unfold parseSingle
  rw [if_pos (plain_numeral hn), hd]
  dsimp only
  rw [hv]

/-- What is asked of a value: a date of the years 0 to 9999, a finite float, a decimal with as many as 2^31 digits after the point; nothing of the other
types. -/
def Usual : Cell (go R) → Prop
  | .dateTime t => Calendar.dayNumber 0 1 1 * 86400000000000 ≤ t ∧ t < Calendar.dayNumber 10000 1 1 * 86400000000000
  | .single f => Bin.Finite f
  | .double f => Bin.Finite f
  | .decimal d => -2147483648 ≤ Decimal.exp d ∧ Decimal.exp d ≤ 0
  | _ => True

theorem decimalText_parse (d : Decimal) (h1 : -2147483648 ≤ d.exp) (h2 : d.exp ≤ 0) : Decimal.parse (decimalText d) = some d := by
  have hsg : Sign (if d.value < 0 then [45#8] else []) (decide (d.value < 0)) := by
    split
    · rw [decide_eq_true (by assumption)]
      exact .minus
    · rw [decide_eq_false (by assumption)]
      exact .none
  unfold decimalText
  rw [(parse_plain hsg _ _ (decimal_digits _) (Format.lastDigits_digits _ _) (by simp [decimal_ne_nil]) (by
    rw [Format.lastDigits_length]; omega)).1]
  rw [readDecimal_append, Format.lastDigits_length, Format.readDecimal_lastDigits, readDecimal_decimal, Nat.div_add_mod']
  congr 1
  cases d with
  | mk v e =>
    dsimp only at h1 h2 ⊢
    congr 1
    · unfold signed
      split <;> rename_i h <;> simp only [decide_eq_true_eq, not_lt] at h <;> omega
    · omega

theorem escape_plain (s : Str) (h : 38#8 ∉ s ∧ 60#8 ∉ s ∧ 62#8 ∉ s) : escape s = s := by
  unfold escape
  induction s with
  | nil => rfl
  | cons b s ih =>
    simp only [List.mem_cons, not_or] at h
    rw [List.flatMap_cons, ih ⟨h.1.2, h.2.1.2, h.2.2.2⟩, if_neg (Ne.symm h.1.1), if_neg (Ne.symm h.2.1.1), if_neg (Ne.symm h.2.2.1)]
    rfl

/-- C67, the libraries: the texts of usual values read back. -/
theorem usual_reads_back (parse : List Table.Column → Str → Option (Expr.Tree (go R))) (v : Cell (go R)) (h : Usual v) : ReadsBack (xml R parse) v := by
  cases v with
  | dateTime t =>
    show (TimeRead.instant (dateText t)).getD 0 = t
    unfold dateText
    rw [TimeRead.instant_written 9 (le_refl _) t h.1 h.2]
    simp
  | single f =>
    show parseSingle R (formatFloat (Double.bits (Bin.convert f)) 1074) = f
    have h : Bin.Finite f := h
    obtain ⟨g1, g2, g3⟩ := single_exact f h
    obtain ⟨⟨y, hy, hyv⟩, hs⟩ := format_parts (Bin.convert f) g1 1074 (by norm_num)
    rw [exact_places _ g1, g2] at hyv
    rw [parseSingle_fixed (by norm_num) hy, hs, g3, hyv]
    exact Bin.ofRat_val (by norm_num) f h
  | double f =>
    show (parseFloat R (formatFloat (Double.bits f) 1074)).1 = f
    have h : Bin.Finite f := h
    obtain ⟨⟨y, hy, hyv⟩, hs⟩ := format_parts f h 1074 (by norm_num)
    rw [exact_places _ h] at hyv
    have hn : Numeral 99999 _ false y := .fixed (by norm_num) hy
    obtain ⟨d, hd, hv⟩ := parse_numeral (hn.mono (by norm_num))
    unfold parseFloat
    rw [if_pos (plain_numeral hn), hd]
    dsimp only
    rw [hv, hs, hyv]
    exact Bin.ofRat_val (by norm_num) f h
  | decimal d =>
    show (Decimal.parse (decimalText d)).getD (Decimal.ofInt 0) = d
    rw [decimalText_parse d h.1 h.2]
    rfl
  | guid g =>
    show (Guid.parse (Guid.toString g)).1 = g
    rw [Guid.C99_round_trip]
  | _ => trivial

/-- A value of a field can be written: it has the type of the column, which is not computed. -/
def FieldFits (c : Str × DT × Str) (v : Option (Cell (go R))) : Prop := ∀ x, v = some x → x.type = c.2.1 ∧ c.2.2 = [] ∧ Usual x

/-- A table that can be written: it and its columns have names, columns have different names and a type, and values fit. -/
structure Writable (T : TableDef (go R)) : Prop where
  name : T.name ≠ []
  notSchema : T.name ≠ lit "schema"
  cols : ∀ c ∈ T.cols, c.1 ≠ [] ∧ c.2.1 ≠ .undefined
  distinct : (T.cols.map fun c => R.upper c.1).Nodup
  rows : ∀ row ∈ T.rows, List.Forall₂ FieldFits T.cols row

theorem Writable.fits {T : TableDef (go R)} (h : Writable T) (parse : List Table.Column → Str → Option (Expr.Tree (go R))) : Data.Fits (xml R parse) T := by
  refine ⟨h.name, h.notSchema, h.cols, h.distinct, fun row hr => (h.rows row hr).imp fun c v hv x hx => ?_⟩
  obtain ⟨h1, h2, h3⟩ := hv x hx
  exact ⟨h1, h2, usual_reads_back parse x h3⟩

/-- C67, with the libraries as they are: a data set of usual values loads as it was written, but for the characters of strings that are escaped, whatever
stays open of the libraries. -/
theorem C67_libraries (parse : List Table.Column → Str → Option (Expr.Tree (go R))) (px name : Str) (hpx : Data.Bindable px) (D : List (TableDef (go R)))
    (hne : name ≠ Data.schemaSpace) (hD : ∀ T ∈ D, Writable T) (hd : (D.map fun T => R.upper T.name).Nodup) (pre : Str)
    (hp : Data.IsPrefix (Data.schemaElement px name D) pre) :
    ∃ ds, Data.parseDocument (xml R parse) pre (Data.render (xml R parse) px name D) [] = .ok ds ∧
      (∀ T ∈ D, ∀ x, R.upper x = R.upper T.name → ∃ n, ds.find x = some n ∧ Data.Loaded (xml R parse) T.asRead n) ∧
      (∀ x, (∀ T ∈ D, R.upper T.name ≠ R.upper x) → ds.find x = none) :=
  Data.C67_loads (xml R parse) px name hpx D hne (fun T hT => (hD T hT).fits parse) hd pre hp

/-- C67, with the libraries as they are: a data set of usual values loads as it was written. Partial: strings with escapes, dates outside the years 0 to
9999, infinite floats and decimals written with a power of ten are left out. -/
theorem C67_libraries_partial (parse : List Table.Column → Str → Option (Expr.Tree (go R))) (px name : Str) (hpx : Data.Bindable px) (D : List (TableDef (go R)))
    (hne : name ≠ Data.schemaSpace) (hD : ∀ T ∈ D, Writable T) (hs : ∀ T ∈ D, Data.Unescaped T) (hd : (D.map fun T => R.upper T.name).Nodup) (pre : Str)
    (hp : Data.IsPrefix (Data.schemaElement px name D) pre) :
    ∃ ds, Data.parseDocument (xml R parse) pre (Data.render (xml R parse) px name D) [] = .ok ds ∧
      (∀ T ∈ D, ∀ x, R.upper x = R.upper T.name → ∃ n, ds.find x = some n ∧ Data.Loaded (xml R parse) T n) ∧
      (∀ x, (∀ T ∈ D, R.upper T.name ≠ R.upper x) → ds.find x = none) :=
  Data.C67_round_trip_partial (xml R parse) px name hpx D hne (fun T hT => (hD T hT).fits parse) hs hd pre hp

/-- A table with columns of the types that need the libraries, the date a nanosecond after midnight of 29 July 2021, the floats -0.1 and the least
positive one, and 12.50. -/
def readings : TableDef (go sample) := ⟨lit "Readings",
  [(lit "ID", .guid, []), (lit "At", .dateTime, []), (lit "Low", .double, []), (lit "Factor", .single, []), (lit "Price", .decimal, [])],
  [[some (.guid (Guid.parse (lit "12345678-9abc-def0-1234-56789abcdef0")).1), some (.dateTime (Calendar.dayNumber 2021 7 29 * 86400000000000 + 1)),
    some (.double ⟨false, 1, by norm_num⟩), some (.single ⟨true, 0x3DCCCCCD, by norm_num⟩), some (.decimal ⟨1250, -2⟩)]]⟩

example : Writable readings := by
  refine ⟨by decide, by decide, by decide, by decide +kernel, ?_⟩
  intro row hrow
  rw [show readings.rows = [_] from rfl, List.mem_singleton] at hrow
  subst hrow
  refine .cons ?_ (.cons ?_ (.cons ?_ (.cons ?_ (.cons ?_ .nil)))) <;> (rintro x hx; cases hx; refine ⟨rfl, rfl, ?_⟩)
  · trivial
  · show _ ∧ _
    decide
  · show Bin.Finite _
    decide
  · show Bin.Finite _
    decide
  · show _ ∧ _
    decide

example : Data.Unescaped readings := by
  intro row hrow s hs
  rw [show readings.rows = [_] from rfl, List.mem_singleton] at hrow
  subst hrow
  simp at hs

/-- C112, loaded: a field of dates holds the instant meant by its text, and 1 January of year 1 if its text is no date. -/
theorem C112_loaded (parse : List Table.Column → Str → Option (Expr.Tree (go R))) (s : Str) :
    ∃ t : Int, fieldValue (xml R parse) .dateTime s = some (.dateTime (P := go R) t) ∧
      ((∃ d c f z n sec x off, s = d ++ 84#8 :: c ++ f ++ z ∧ TimeText.DateText d n ∧ TimeRead.ClockText1 c sec ∧ TimeRead.Places f x ∧
          TimeRead.ZoneText z off ∧ t = n * 86400000000000 + sec * 1000000000 + x - off * 1000000000) ∨
        t = 0 ∧ ∀ u, ¬ ∃ d c f z n sec x off, s = d ++ 84#8 :: c ++ f ++ z ∧ TimeText.DateText d n ∧ TimeRead.ClockText1 c sec ∧
          TimeRead.Places f x ∧ TimeRead.ZoneText z off ∧ u = n * 86400000000000 + sec * 1000000000 + x - off * 1000000000) := by
  refine ⟨(TimeRead.instant s).getD 0, rfl, ?_⟩
  cases h : TimeRead.instant s with
  | some t => exact Or.inl ((TimeRead.C112_date s t).mp h)
  | none =>
    refine Or.inr ⟨rfl, fun u hu => ?_⟩
    rw [← TimeRead.C112_date, h] at hu
    cases hu

/-- C112 fails for dates in UTC written with `Z` and for dates without a zone: such a field is loaded as 1 January of year 1, without an error. -/
theorem C112_zone_false (parse : List Table.Column → Str → Option (Expr.Tree (go R))) :
    fieldValue (xml R parse) .dateTime (lit "2021-07-29T12:34:56Z") = some (.dateTime (P := go R) (0 : Int)) ∧
    fieldValue (xml R parse) .dateTime (lit "2021-07-29T12:34:56") = some (.dateTime (P := go R) (0 : Int)) := by
  constructor
  · show some (Cell.dateTime (P := go R) ((TimeRead.instant (lit "2021-07-29T12:34:56Z")).getD 0)) = _
    rw [show TimeRead.instant (lit "2021-07-29T12:34:56Z") = none by decide +kernel]
    rfl
  · show some (Cell.dateTime (P := go R) ((TimeRead.instant (lit "2021-07-29T12:34:56")).getD 0)) = _
    rw [show TimeRead.instant (lit "2021-07-29T12:34:56") = none by decide +kernel]
    rfl

end Verif.Lib
