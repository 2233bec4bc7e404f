import Verif.Lib.Xml
import Verif.Lib.XmlProps
import Verif.Lib.SpecialProps

/-!
# Texts of infinities and of what is no number (property C142)

`strconv.ParseFloat` of a text that is not a plain decimal number (data/ValueExpression.go L551, data/ExpressionTree.go L1942, data/DataRow.go L360-363,
data/DataSet.go L301-304), written out but for hexadecimal numbers, underscores and exponents of 100000 and more.
-/

namespace Verif.Lib

open Verif.Expr

/-- The small letter of an ASCII letter (`strconv.lower`, within data/ValueExpression.go L551). -/
def small (b : Byte) : Byte := if 65 ≤ b.toNat ∧ b.toNat ≤ 90 then b + 32#8 else b

/-- `strconv.special` of a whole text (within data/ValueExpression.go L551): `inf` and `infinity` after an optional sign, and `nan`, in capital or small letters. -/
def special {m w : Nat} (s : Str) : Option (Bin m w) :=
  if (Text.sign s).2.map small = lit "inf" ∨ (Text.sign s).2.map small = lit "infinity" then some (Bin.inf (Text.sign s).1)
  else if s.map small = lit "nan" then some Bin.nan
  else none

/-- A decimal number with an exponent of any size (`strconv.readFloat`, within data/ValueExpression.go L551). -/
def decimalShape (s : Str) : Bool :=
  let t := (Text.sign s).2
  let mant := t.takeWhile fun b => !isExp b
  let rest := t.dropWhile fun b => !isExp b
  let x := (Text.sign rest.tail).2
  mant.all (fun b => isDigit b || b == 46#8) && mant.any isDigit && mant.count 46#8 ≤ 1 && (rest.isEmpty || (!x.isEmpty && x.all isDigit))

/-- What is left open: texts with a digit that are hexadecimal, have an underscore, or are decimal numbers with a large exponent
(`strconv.readFloat`, within data/ValueExpression.go L551). -/
def openFloat (s : Str) : Bool :=
  s.any isDigit && (s.contains 95#8 || ((Text.sign s).2.take 2).map small == lit "0x" || decimalShape s)

/-- `strconv.ParseFloat` of a text that is not a plain decimal number: 0 and an error for what is no number. (data/ValueExpression.go L551, data/DataRow.go L360-363,
data/ExpressionTree.go L1942, data/DataSet.go L301-304) -/
def otherFloat {m w : Nat} (openly : Bin m w × Bool) (s : Str) : Bin m w × Bool :=
  if openFloat s then openly
  else match special s with
    | some f => (f, true)
    | none => (Bin.zero false, false)

/-- The libraries with `strconv.ParseFloat` written out. (data/ValueExpression.go L551, data/DataRow.go L360-363, data/ExpressionTree.go L1942,
data/DataSet.go L301-304) -/
def Rest.withFloats (R : Rest) : Rest :=
  { R with
    fltParse := fun s => otherFloat (R.fltParse s) s
    sglParse := fun s => (otherFloat (R.sglParse s, true) s).1 }

/-! ## What such texts are -/

/-- The letters of a word of small letters, each of them capital or small. -/
def SameLetters (word : String) (s : Str) : Prop := List.Forall₂ (fun c b => b.toNat = c.toNat ∨ b.toNat + 32 = c.toNat) word.toList s

/-- The text of a number that is infinite or none: `inf` or `infinity`, perhaps with a sign, or `nan` without one. -/
inductive NumberName {m w : Nat} : Bin m w → Str → Prop
  | plus {s : Str} (h : SameLetters "inf" s ∨ SameLetters "infinity" s) : NumberName (Bin.inf false) s
  | signed {s : Str} (neg : Bool) (h : SameLetters "inf" s ∨ SameLetters "infinity" s) : NumberName (Bin.inf neg) ((if neg then 45#8 else 43#8) :: s)
  | nan {s : Str} (h : SameLetters "nan" s) : NumberName Bin.nan s

theorem small_iff (b : Byte) {n : Nat} (h : 97 ≤ n ∧ n ≤ 122) : (small b).toNat = n ↔ b.toNat = n ∨ b.toNat + 32 = n := by
  unfold small
  have := b.isLt
  split
  · rw [BitVec.toNat_add, show (32#8).toNat = 32 from rfl]
    omega
  · omega

theorem sameLetters_iff {word : String} (hw : ∀ c ∈ word.toList, 97 ≤ c.toNat ∧ c.toNat ≤ 122) (s : Str) : s.map small = lit word ↔ SameLetters word s := by
  unfold SameLetters lit
  generalize word.toList = w at hw
  induction w generalizing s with
  | nil => cases s <;> simp
  | cons c w ih =>
    have hc := hw c (by simp)
    cases s with
    | nil => simp
    | cons b s =>
      rw [List.map_cons, List.map_cons, List.cons.injEq, List.forall₂_cons, ih s (fun d hd => hw d (List.mem_cons_of_mem _ hd)), ← small_iff b hc]
      refine and_congr_left fun _ => ?_
      rw [← BitVec.toNat_inj, BitVec.toNat_ofNat, Nat.mod_eq_of_lt (by omega)]

theorem sign_letter {s : Str} {c : Char} {w : List Char} (h : List.Forall₂ (fun c b => BitVec.toNat b = c.toNat ∨ BitVec.toNat b + 32 = c.toNat) (c :: w) s)
    (hc : 97 ≤ c.toNat) : Text.sign s = (false, s) := by
  cases h with
  | cons h _ =>
    rename_i b s _
    have h1 : b ≠ 45#8 := by rintro rfl; have : (45#8).toNat = 45 := rfl; omega
    have h2 : b ≠ 43#8 := by rintro rfl; have : (43#8).toNat = 43 := rfl; omega
    simp [Text.sign, h1, h2]

theorem sameLetters_unique {v w : String} (hv : ∀ c ∈ v.toList, 97 ≤ c.toNat ∧ c.toNat ≤ 122) (hw : ∀ c ∈ w.toList, 97 ≤ c.toNat ∧ c.toNat ≤ 122) {s : Str}
    (h1 : SameLetters v s) (h2 : SameLetters w s) : lit v = lit w := by
  rw [← (sameLetters_iff hv s).2 h1, (sameLetters_iff hw s).2 h2]

theorem inf_letters : ∀ c ∈ "inf".toList, 97 ≤ c.toNat ∧ c.toNat ≤ 122 := by decide
theorem infinity_letters : ∀ c ∈ "infinity".toList, 97 ≤ c.toNat ∧ c.toNat ≤ 122 := by decide
theorem nan_letters : ∀ c ∈ "nan".toList, 97 ≤ c.toNat ∧ c.toNat ≤ 122 := by decide

theorem sign_inf {s : Str} (h : SameLetters "inf" s ∨ SameLetters "infinity" s) : Text.sign s = (false, s) := by
  rcases h with h | h
  · exact sign_letter (c := 'i') (w := ['n', 'f']) h (by decide)
  · exact sign_letter (c := 'i') (w := ['n', 'f', 'i', 'n', 'i', 't', 'y']) h (by decide)

theorem sign_nan {s : Str} (h : SameLetters "nan" s) : Text.sign s = (false, s) := sign_letter (c := 'n') (w := ['a', 'n']) h (by decide)

/-- `special` reads exactly these texts. -/
theorem special_iff {m w : Nat} (s : Str) (f : Bin m w) : special s = some f ↔ NumberName f s := by
  have e1 : ∀ t : Str, (t.map small = lit "inf" ∨ t.map small = lit "infinity") ↔ (SameLetters "inf" t ∨ SameLetters "infinity" t) := fun t =>
    or_congr (sameLetters_iff inf_letters t) (sameLetters_iff infinity_letters t)
  have e2 := sameLetters_iff nan_letters s
  unfold special
  constructor
  · intro h
    split at h
    · rename_i h1
      rw [e1] at h1
      cases h
      cases s with
      | nil => exact .plus h1
      | cons b s =>
        unfold Text.sign at h1 ⊢
        simp only at h1 ⊢
        by_cases hb : b = 45#8
        · rw [if_pos hb] at h1 ⊢
          rw [hb]
          exact .signed true h1
        · by_cases hb' : b = 43#8
          · rw [if_neg hb, if_pos hb'] at h1 ⊢
            rw [hb']
            exact .signed false h1
          · rw [if_neg hb, if_neg hb'] at h1 ⊢
            exact .plus h1
    · split at h
      · rename_i h1
        cases h
        exact .nan (e2.1 h1)
      · cases h
  · rintro (h | ⟨neg, h⟩ | h)
    · rw [sign_inf h, if_pos ((e1 s).2 h)]
    · rename_i t
      have : Text.sign ((if neg then 45#8 else 43#8) :: t) = (neg, t) := by cases neg <;> rfl
      rw [this, if_pos ((e1 t).2 h)]
    · rw [sign_nan h, if_neg, if_pos (e2.2 h)]
      rw [e1]
      rintro (h' | h')
      · have := sameLetters_unique inf_letters nan_letters h' h
        revert this
        decide
      · have := sameLetters_unique infinity_letters nan_letters h' h
        revert this
        decide

theorem letters_no_digit {word : String} (hw : ∀ c ∈ word.toList, 97 ≤ c.toNat ∧ c.toNat ≤ 122) {s : Str} (h : SameLetters word s) : s.any isDigit = false := by
  rw [List.any_eq_false]
  intro b hb
  have hm : small b ∈ lit word := by
    rw [← (sameLetters_iff hw s).2 h]
    exact List.mem_map_of_mem hb
  obtain ⟨c, hc, e⟩ := List.mem_map.1 hm
  have hc := hw c hc
  have e : (small b).toNat = c.toNat := by
    rw [← e, BitVec.toNat_ofNat, Nat.mod_eq_of_lt (by omega)]
  have := (small_iff b hc).1 e
  simp only [isDigit, Bool.and_eq_true, decide_eq_true_eq]
  omega

theorem name_no_digit {m w : Nat} {f : Bin m w} {s : Str} (h : NumberName f s) : s.any isDigit = false := by
  have hi : ∀ {s : Str}, SameLetters "inf" s ∨ SameLetters "infinity" s → s.any isDigit = false := fun h =>
    h.elim (letters_no_digit inf_letters) (letters_no_digit infinity_letters)
  cases h with
  | plus h => exact hi h
  | signed neg h =>
    rw [List.any_cons, hi h]
    cases neg <;> rfl
  | nan h => exact letters_no_digit nan_letters h

theorem sign_any {s : Str} (h : s.any isDigit = false) : (Text.sign s).2.any isDigit = false := by
  cases s with
  | nil => rfl
  | cons b s =>
    have h2 := h
    rw [List.any_cons, Bool.or_eq_false_iff] at h
    unfold Text.sign
    simp only
    split
    · exact h.2
    · split
      · exact h.2
      · exact h2

theorem not_plain {s : Str} (h : s.any isDigit = false) : plain s = false := by
  have h1 := sign_any h
  have h2 : ((Text.sign s).2.takeWhile fun b => !isExp b).any isDigit = false := by
    rw [List.any_eq_false] at h1 ⊢
    exact fun b hb => h1 b (List.takeWhile_subset _ hb)
  simp [plain, h2]

/-- A text without a digit is a number exactly if it is the name of one. -/
theorem otherFloat_letters {m w : Nat} (o : Bin m w × Bool) {s : Str} (h : s.any isDigit = false) :
    (∀ f, NumberName f s → otherFloat o s = (f, true)) ∧ ((¬ ∃ f : Bin m w, NumberName f s) → otherFloat o s = (Bin.zero false, false)) := by
  have ho : openFloat s = false := by simp [openFloat, h]
  unfold otherFloat
  rw [ho]
  refine ⟨fun f hf => ?_, fun hn => ?_⟩
  · rw [(special_iff s f).2 hf]
    rfl
  · cases hs : (special s : Option (Bin m w)) with
    | none => rfl
    | some f => exact absurd ⟨f, (special_iff s f).1 hs⟩ hn

/-! ## C142 -/

variable (R : Rest)

theorem parseFloat_letters {s : Str} (h : s.any isDigit = false) : parseFloat R.withFloats s = otherFloat (R.fltParse s) s := by
  unfold parseFloat
  rw [not_plain h]
  rfl

theorem parseSingle_letters {s : Str} (h : s.any isDigit = false) : parseSingle R.withFloats s = (otherFloat (R.sglParse s, true) s).1 := by
  unfold parseSingle
  rw [not_plain h]
  rfl

theorem name_unique {m w : Nat} {f g : Bin m w} {s : Str} (h : NumberName f s) (h' : NumberName g s) : f = g := by
  have := (special_iff s f).2 h
  rw [(special_iff s g).2 h'] at this
  exact (Option.some.inj this).symm

theorem name_convert {f : Double} {s : Str} (h : NumberName f s) : NumberName (Bin.convert f : Single) s := by
  cases h with
  | plus h =>
    rw [show (Bin.convert (Bin.inf false : Double) : Single) = Bin.inf false by decide +kernel]
    exact .plus h
  | signed neg h =>
    rw [show (Bin.convert (Bin.inf neg : Double) : Single) = Bin.inf neg by cases neg <;> decide +kernel]
    exact .signed neg h
  | nan h =>
    rw [show (Bin.convert (Bin.nan : Double) : Single) = Bin.nan by decide +kernel]
    exact .nan h

theorem name_not_finite {f : Double} {s : Str} (h : NumberName f s) : ¬ f.Finite := by
  cases h with
  | plus h => decide +kernel
  | signed neg h => cases neg <;> decide +kernel
  | nan h => decide +kernel

/-- **An infinity or NaN is read wherever a text becomes a Double or Single**, in capital or small letters: by Convert, as a number of IsNumeric, as the value
of a computed column, and from a document, whose schema writes them INF, -INF and NaN. -/
theorem C142_read_partial (parse : List Table.Column → Str → Option (Expr.Tree (go R.withFloats))) {s : Str} {f : Double} (h : NumberName f s) :
    Val.convert (P := go R.withFloats) (.string s) .double = .ok (.double f) ∧
    call (P := go R.withFloats) .isNumeric [.string s] = .ok (.boolean true) ∧
    Table.convertFromString (P := go R.withFloats) s .double = .ok (.double f) ∧
    Data.fieldValue (xml R.withFloats parse) .double s = some (.double f) ∧
    ∃ g : Single, NumberName g s ∧ Table.convertFromString (P := go R.withFloats) s .single = .ok (.single g) ∧
      Data.fieldValue (xml R.withFloats parse) .single s = some (.single g) := by
  have hd := name_no_digit h
  have hp : parseFloat R.withFloats s = (f, true) := by rw [parseFloat_letters R hd, (otherFloat_letters _ hd).1 f h]
  have hs : parseSingle R.withFloats s = Bin.convert f := by rw [parseSingle_letters R hd, (otherFloat_letters _ hd).1 _ (name_convert h)]
  refine ⟨?_, ?_, ?_, ?_, _, name_convert h, ?_, ?_⟩
  · show Res.ok (Val.double (P := go R.withFloats) (parseFloat R.withFloats s).1) = _
    rw [hp]
  · show Res.ok (Val.boolean (P := go R.withFloats) ((parseFloat R.withFloats s).2 || (Decimal.parse s).isSome)) = _
    rw [hp]
    rfl
  · show (if (parseFloat R.withFloats s).2 then Res.ok (Table.Cell.double (P := go R.withFloats) (parseFloat R.withFloats s).1) else .err) = _
    rw [hp]
    rfl
  · show some (Table.Cell.double (P := go R.withFloats) (parseFloat R.withFloats s).1) = _
    rw [hp]
  · show (if (parseFloat R.withFloats s).2 then Res.ok (Table.Cell.single (P := go R.withFloats) (Bin.convert (parseFloat R.withFloats s).1)) else .err) = _
    rw [hp]
    rfl
  · show some (Table.Cell.single (P := go R.withFloats) (parseSingle R.withFloats s)) = _
    rw [hs]

/-- The names of XML Schema, and those that Go writes. -/
example : NumberName (Bin.inf false : Double) (lit "INF") ∧ NumberName (Bin.inf true : Double) (lit "-INF") ∧ NumberName (Bin.nan : Double) (lit "NaN") ∧
    NumberName (Bin.inf false : Single) (lit "+Infinity") := by
  simp only [← special_iff]
  decide +kernel

theorem readInt_digit {s : Str} {i : Int} (h : Decimal.readInt s = some i) : s.any isDigit = true := by
  by_contra hn
  have hn := sign_any (Bool.eq_false_iff.2 hn)
  unfold Decimal.readInt at h
  simp only at h
  split at h
  · cases h
  · rename_i hc
    rw [not_or, not_not] at hc
    obtain ⟨b, t, e⟩ := List.exists_cons_of_ne_nil hc.1
    have := hc.2 b (by rw [e]; simp)
    rw [e, List.any_cons, Bool.or_eq_false_iff] at hn
    simp [isDigit, this] at hn

theorem decimal_no_digit {s : Str} (h : s.any isDigit = false) : Decimal.parse s = none := by
  have hsub : ∀ {t : Str}, t.any isDigit = true → (∀ b ∈ t, b ∈ s) → False := by
    intro t ht hs
    obtain ⟨b, hb, hd⟩ := List.any_eq_true.1 ht
    exact absurd hd (List.any_eq_false.1 h b (hs b hb))
  cases hp : Decimal.parse s with
  | none => rfl
  | some d =>
    exfalso
    unfold Decimal.parse at hp
    simp only [Option.bind_eq_bind, Option.bind_eq_some_iff] at hp
    obtain ⟨⟨t, e⟩, h1, ⟨u, n⟩, h2, v, h3, -⟩ := hp
    have ht : ∀ b ∈ t, b ∈ s := by
      unfold Decimal.cutExponent at h1
      split at h1
      · cases h1
        exact fun _ h => h
      · split at h1
        · cases h1
        · split at h1
          · cases h1
          · cases h1
            exact fun _ h => List.mem_of_mem_take h
    have hu : ∀ b ∈ u, b ∈ t := by
      unfold Decimal.cutPoint at h2
      split at h2
      · cases h2
        exact fun _ h => h
      · split at h2
        · cases h2
        · cases h2
          intro b hb
          rcases List.mem_append.1 hb with h | h
          · exact List.mem_of_mem_take h
          · exact List.mem_of_mem_drop h
    exact hsub (readInt_digit h3) fun b hb => ht b (hu b hb)

/-- **Of the texts without a digit only these names are numbers**: any other is not numeric, Convert makes 0 of it without an error, a computed column of type
Double or Single is an error, and a document gets 0. -/
theorem C142_letters (parse : List Table.Column → Str → Option (Expr.Tree (go R.withFloats))) {s : Str} (hd : ∀ b ∈ s, ¬ (48 ≤ b.toNat ∧ b.toNat ≤ 57))
    (hn : ¬ ∃ f : Double, NumberName f s) :
    Val.convert (P := go R.withFloats) (.string s) .double = .ok (.double (Bin.zero false)) ∧
    call (P := go R.withFloats) .isNumeric [.string s] = .ok (.boolean false) ∧
    Table.convertFromString (P := go R.withFloats) s .double = .err ∧
    Table.convertFromString (P := go R.withFloats) s .single = .err ∧
    Data.fieldValue (xml R.withFloats parse) .double s = some (.double (Bin.zero false)) ∧
    Data.fieldValue (xml R.withFloats parse) .single s = some (.single (Bin.zero false)) := by
  have hd : s.any isDigit = false := by
    rw [List.any_eq_false]
    intro b hb
    simpa [isDigit] using hd b hb
  have hn' : ¬ ∃ g : Single, NumberName g s := by
    rintro ⟨g, hg⟩
    refine hn ?_
    cases hg with
    | plus h => exact ⟨_, .plus h⟩
    | signed neg h => exact ⟨_, .signed neg h⟩
    | nan h => exact ⟨_, .nan h⟩
  have hp : parseFloat R.withFloats s = (Bin.zero false, false) := by rw [parseFloat_letters R hd, (otherFloat_letters _ hd).2 hn]
  have hs : parseSingle R.withFloats s = Bin.zero false := by rw [parseSingle_letters R hd, (otherFloat_letters _ hd).2 hn']
  refine ⟨?_, ?_, ?_, ?_, ?_, ?_⟩
  · show Res.ok (Val.double (P := go R.withFloats) (parseFloat R.withFloats s).1) = _
    rw [hp]
  · show Res.ok (Val.boolean (P := go R.withFloats) ((parseFloat R.withFloats s).2 || (Decimal.parse s).isSome)) = _
    rw [hp, decimal_no_digit hd]
    rfl
  · show (if (parseFloat R.withFloats s).2 then Res.ok (Table.Cell.double (P := go R.withFloats) (parseFloat R.withFloats s).1) else .err) = _
    rw [hp]
    rfl
  · show (if (parseFloat R.withFloats s).2 then Res.ok (Table.Cell.single (P := go R.withFloats) (Bin.convert (parseFloat R.withFloats s).1)) else .err) = _
    rw [hp]
    rfl
  · show some (Table.Cell.double (P := go R.withFloats) (parseFloat R.withFloats s).1) = _
    rw [hp]
  · show some (Table.Cell.single (P := go R.withFloats) (parseSingle R.withFloats s)) = _
    rw [hs]

/-- A text that begins like a name. -/
example : (∀ b ∈ lit "infinit", ¬ (48 ≤ b.toNat ∧ b.toNat ≤ 57)) ∧ ¬ ∃ f : Double, NumberName f (lit "infinit") := by
  refine ⟨by decide, ?_⟩
  rintro ⟨f, hf⟩
  rw [← special_iff] at hf
  revert hf
  rw [show (special (lit "infinit") : Option Double) = none by decide +kernel]
  simp

/-- **An infinity or NaN that is written is read as itself**: Convert to String and back. A NaN is one again. -/
theorem C142_round_trip (f : Double) (h : ¬ f.Finite) : ∃ g : Double,
    (Val.convert (P := go R.withFloats) (.double f) .string >>= fun v => v.convert .double) = .ok (.double g) ∧ (f.IsInf → g = f) ∧ (f.IsNaN → g.IsNaN) := by
  have hm : f.mag < 2 ^ 63 := f.lt
  have hi : Bin.infMag 52 11 = 2047 * 2 ^ 52 := by decide
  have hge : 2047 * 2 ^ 52 ≤ f.mag := by
    unfold Bin.Finite at h
    omega
  have hb : (Double.bits f).toNat = (if f.neg then 2 ^ 63 else 0) + f.mag := by
    unfold Double.bits
    rw [BitVec.toNat_ofNat, Nat.mod_eq_of_lt]
    split <;> omega
  have he : Format.expBits (Double.bits f) = 2047 := by
    unfold Format.expBits
    rw [hb]
    split <;> omega
  have hf : Format.fracBits (Double.bits f) = f.mag - 2047 * 2 ^ 52 := by
    unfold Format.fracBits
    rw [hb]
    split <;> omega
  have hx : ∀ {s : Str} {g : Double}, Format.formatFloat (Double.bits f) 6 = s → NumberName g s →
      (Val.convert (P := go R.withFloats) (.double f) .string >>= fun v => v.convert .double) = .ok (.double g) := by
    intro s g hs hg
    show Val.convert (P := go R.withFloats) (.string (Format.formatFloat (Double.bits f) 6)) .double = _
    rw [hs]
    exact (C142_read_partial R (fun _ _ => none) hg).1
  unfold Format.formatFloat at hx
  rw [if_pos he, hf, negBit_bits] at hx
  by_cases hn : f.mag = 2047 * 2 ^ 52
  · rw [if_neg (by omega)] at hx
    refine ⟨Bin.inf f.neg, hx rfl ?_, fun _ => ?_, fun h' => ?_⟩
    · refine .signed f.neg (.inl ((sameLetters_iff inf_letters _).1 ?_))
      decide
    · cases f
      simp only [Bin.inf, Bin.mk.injEq, true_and]
      exact hi.trans hn.symm
    · unfold Bin.IsNaN at h'
      omega
  · rw [if_pos (by omega)] at hx
    refine ⟨Bin.nan, hx rfl (.nan ((sameLetters_iff nan_letters _).1 (by decide))), fun h' => ?_, fun _ => nan_isNaN⟩
    unfold Bin.IsInf at h'
    omega

example : ¬ (Bin.inf true : Double).Finite ∧ (Bin.inf true : Double).IsInf := by decide +kernel

/-- C142, false: **a text can end the program**: the Double of one of these names has no Decimal. -/
theorem C142_decimal_panics {s : Str} {f : Double} (h : NumberName f s) :
    (Val.convert (P := go R.withFloats) (.string s) .double >>= fun v => v.convert .decimal) = .panic := by
  rw [(C142_read_partial R (fun _ _ => none) h).1, Res.bind_ok]
  simp only [Val.convert, Val.convertFromDouble, if_neg (name_not_finite h)]

example : NumberName (Bin.inf true : Double) (lit "-Infinity") :=
  .signed true (.inr ((sameLetters_iff infinity_letters _).1 (by decide)))

/-- C142, false: **a NaN is neither less nor greater than a number nor equal to it**, nor to itself; it only differs. -/
theorem C142_compare_false {s : Str} (h : SameLetters "nan" s) (x : Double) : ∃ f : Double,
    Val.convert (P := go R.withFloats) (.string s) .double = .ok (.double f) ∧
    (∀ o ∈ [Op.lessThan, .lessThanOrEqual, .greaterThan, .greaterThanOrEqual, .equal],
      applyOp (P := go R.withFloats) o (.double f) (.double x) = .ok (.boolean false) ∧ applyOp (P := go R.withFloats) o (.double x) (.double f) = .ok (.boolean false)) ∧
    applyOp (P := go R.withFloats) .notEqual (.double f) (.double x) = .ok (.boolean true) ∧
    applyOp (P := go R.withFloats) .notEqual (.double x) (.double f) = .ok (.boolean true) := by
  have n : (Bin.nan : Double).IsNaN := nan_isNaN
  have l1 : Bin.lt_ Bin.nan x = false := by simp [Bin.lt_, n]
  have l2 : Bin.lt_ x Bin.nan = false := by simp [Bin.lt_, n]
  have e1 : Bin.eq_ Bin.nan x = false := by simp [Bin.eq_, n]
  have e2 : Bin.eq_ x Bin.nan = false := by simp [Bin.eq_, n]
  refine ⟨Bin.nan, (C142_read_partial R (fun _ _ => none) (.nan h)).1, ?_, ?_, ?_⟩
  · intro o ho
    simp only [List.mem_cons, List.not_mem_nil, or_false] at ho
    rcases ho with rfl | rfl | rfl | rfl | rfl
    · exact ⟨congrArg (fun b => Res.ok (Val.boolean (P := go R.withFloats) b)) l1, congrArg (fun b => Res.ok (Val.boolean (P := go R.withFloats) b)) l2⟩
    · exact ⟨congrArg₂ (fun b c => Res.ok (Val.boolean (P := go R.withFloats) (b || c))) l1 e1, congrArg₂ (fun b c => Res.ok (Val.boolean (P := go R.withFloats) (b || c))) l2 e2⟩
    · exact ⟨congrArg (fun b => Res.ok (Val.boolean (P := go R.withFloats) b)) l2, congrArg (fun b => Res.ok (Val.boolean (P := go R.withFloats) b)) l1⟩
    · exact ⟨congrArg₂ (fun b c => Res.ok (Val.boolean (P := go R.withFloats) (b || c))) l2 e1, congrArg₂ (fun b c => Res.ok (Val.boolean (P := go R.withFloats) (b || c))) l1 e2⟩
    · exact ⟨congrArg (fun b => Res.ok (Val.boolean (P := go R.withFloats) b)) e1, congrArg (fun b => Res.ok (Val.boolean (P := go R.withFloats) b)) e2⟩
  · exact congrArg (fun b => Res.ok (Val.boolean (P := go R.withFloats) (!b))) e1
  · exact congrArg (fun b => Res.ok (Val.boolean (P := go R.withFloats) (!b))) e2

example : SameLetters "nan" (lit "NaN") := (sameLetters_iff nan_letters _).1 (by decide)

end Verif.Lib
