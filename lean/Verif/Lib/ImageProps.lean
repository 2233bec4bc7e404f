import Verif.Table.Image
import Verif.Table.RowProps
import Verif.Lib.XmlProps

/-!
# What the texts of table values say (property C110)

Specification: `Shows s v` says that the text `s` shows the value `v`, in terms of digits, dates of the calendar and rationals.
-/

namespace Verif.Lib

open Verif.Expr Decimal
open Verif.Table (Cell DT Row Column Positions shown convertFromString)
open Format (decimal readDecimal decimal_ne_nil decimal_digits readDecimal_decimal formatFloat lastDigits)

variable {R : Rest}

/-! ## Integers -/

theorem digits_large (max : Nat) (l : List Byte) (hd : ∀ b ∈ l, 48 ≤ b.toNat ∧ b.toNat ≤ 57) (a : Nat) (ha : a ≤ max)
    (h : max < l.foldl (fun a b => a * 10 + (b.toNat - 48)) a) : Data.digits 10 max l a = .large := by
  induction l generalizing a with
  | nil =>
    rw [List.foldl_nil] at h
    omega
  | cons b l ih =>
    rw [List.foldl_cons] at h
    have hb := hd b (by simp)
    have hne : b ≠ 95#8 := by rintro rfl; revert hb; decide
    unfold Data.digits
    rw [if_neg hne]
    unfold Data.digit
    rw [if_pos hb]
    dsimp only
    rw [if_neg (by omega)]
    split
    · rfl
    · rename_i hle
      exact ih (fun b hb => hd b (by simp [hb])) _ (by omega) h

theorem parse_large (w n : Nat) (h : 2 ^ w ≤ n) : Data.parseUint0 w (decimal n) = .large := by
  have hp : 0 < 2 ^ w := Nat.two_pow_pos w
  unfold Data.parseUint0
  rw [if_neg (decimal_ne_nil n), Data.base_decimal n (by omega)]
  have hr := readDecimal_decimal n
  unfold readDecimal at hr
  dsimp only
  rw [digits_large (2 ^ w - 1) (decimal n) (decimal_digits n) 0 (by omega) (by rw [hr]; omega)]

theorem sign_intStr (i : Int) : Text.sign (Val.intStr i) = (decide (i < 0), decimal i.natAbs) := by
  rw [intStr_eq]
  apply sign_append (sign_text i)
  intro b hb
  have := decimal_digits i.natAbs b (List.mem_of_mem_head? hb)
  constructor <;> (rintro rfl; revert this; decide)

/-- The text of an integer is read as it if it fits, and is an error if it does not. -/
theorem parse_intStr (w : Nat) (i : Int) : parseInt w (Val.intStr i) = if -2 ^ w ≤ 2 * i ∧ 2 * i < 2 ^ w then some i else none := by
  have hc : ((2 ^ w : Nat) : Int) = 2 ^ w := by norm_cast
  unfold parseInt
  rw [sign_intStr]
  dsimp only
  by_cases hl : i.natAbs < 2 ^ w
  · rw [Data.parse_decimal w _ hl]
    dsimp only
    by_cases hn : i < 0
    · rw [if_pos (decide_eq_true hn)]
      by_cases h : 2 * i.natAbs ≤ 2 ^ w
      · rw [if_pos h, if_pos (by omega)]
        congr 1
        omega
      · rw [if_neg h, if_neg (by omega)]
    · rw [if_neg (by simpa using hn)]
      by_cases h : 2 * i.natAbs < 2 ^ w
      · rw [if_pos h, if_pos (by omega)]
        congr 1
        omega
      · rw [if_neg h, if_neg (by omega)]
  · rw [parse_large w _ (by omega)]
    dsimp only
    rw [if_neg (by omega)]

theorem intStr_nat (n : Nat) : Val.intStr n = decimal n := by
  rw [intStr_eq, if_neg (by omega)]
  rfl

/-- C110, C104: the text of a number is read as an integer of any of the eight types if it fits, and refused if it does not. -/
theorem C110_integers (i : Int) :
    (convertFromString (P := go R) (Val.intStr i) .int8 = if -128 ≤ i ∧ i < 128 then .ok (.int8 (BitVec.ofInt 8 i)) else .err) ∧
    (convertFromString (P := go R) (Val.intStr i) .int16 = if -32768 ≤ i ∧ i < 32768 then .ok (.int16 (BitVec.ofInt 16 i)) else .err) ∧
    (convertFromString (P := go R) (Val.intStr i) .int32 = if -2147483648 ≤ i ∧ i < 2147483648 then .ok (.int32 (BitVec.ofInt 32 i)) else .err) ∧
    (convertFromString (P := go R) (Val.intStr i) .int64 =
      if -9223372036854775808 ≤ i ∧ i < 9223372036854775808 then .ok (.int64 (BitVec.ofInt 64 i)) else .err) ∧
    (convertFromString (P := go R) (Val.intStr i) .uint8 = if 0 ≤ i ∧ i < 256 then .ok (.uint8 (BitVec.ofInt 8 i)) else .err) ∧
    (convertFromString (P := go R) (Val.intStr i) .uint16 = if 0 ≤ i ∧ i < 65536 then .ok (.uint16 (BitVec.ofInt 16 i)) else .err) ∧
    (convertFromString (P := go R) (Val.intStr i) .uint32 = if 0 ≤ i ∧ i < 4294967296 then .ok (.uint32 (BitVec.ofInt 32 i)) else .err) ∧
    (convertFromString (P := go R) (Val.intStr i) .uint64 = if 0 ≤ i ∧ i < 18446744073709551616 then .ok (.uint64 (BitVec.ofInt 64 i)) else .err) := by
  have hs : ∀ (w : Nat) (f : BitVec w → Cell (go R)), Table.orErr ((parseInt w (Val.intStr i)).map (BitVec.ofInt w)) f =
      if -2 ^ w ≤ 2 * i ∧ 2 * i < 2 ^ w then .ok (f (BitVec.ofInt w i)) else .err := by
    intro w f
    rw [parse_intStr]
    split <;> rfl
  have hu : ∀ (w : Nat) (f : BitVec w → Cell (go R)), Table.orErr ((go R).uintParse w (Val.intStr i)) f =
      if 0 ≤ i ∧ i < 2 ^ w then .ok (f (BitVec.ofInt w i)) else .err := by
    intro w f
    show Table.orErr (match Data.parseUint0 w (Val.intStr i) with
      | .value n => some (BitVec.ofNat w n)
      | _ => none) f = _
    have hc : ((2 ^ w : Nat) : Int) = 2 ^ w := by norm_cast
    by_cases hn : i < 0
    · have : Data.parseUint0 w (Val.intStr i) = .bad := by
        rw [intStr_eq, if_pos hn]
        rfl
      rw [this, if_neg (by omega)]
      rfl
    · obtain ⟨n, rfl⟩ : ∃ n : Nat, i = n := ⟨i.toNat, by omega⟩
      rw [intStr_nat]
      by_cases hl : n < 2 ^ w
      · rw [Data.parse_decimal w n hl, if_pos (by omega)]
        show Res.ok (f (BitVec.ofNat w n)) = _
        rw [BitVec.ofInt_natCast]
      · rw [parse_large w n (by omega), if_neg (by omega)]
        rfl
  refine ⟨(hs 8 .int8).trans ?_, (hs 16 .int16).trans ?_, (hs 32 .int32).trans ?_, (hs 64 .int64).trans ?_, (hu 8 .uint8).trans ?_,
    (hu 16 .uint16).trans ?_, (hu 32 .uint32).trans ?_, (hu 64 .uint64).trans ?_⟩
  all_goals norm_num
  all_goals congr 1
  all_goals simp only [eq_iff_iff]
  all_goals omega

example : convertFromString (P := go R) (Val.intStr 127) .int8 = .ok (.int8 127#8) ∧ convertFromString (P := go R) (Val.intStr 128) .int8 = .err ∧
    convertFromString (P := go R) (Val.intStr (-1)) .uint64 = .err :=
  ⟨by rw [(C110_integers 127).1]; rfl, by rw [(C110_integers 128).1]; rfl, by rw [(C110_integers (-1)).2.2.2.2.2.2.2]; rfl⟩

/-! ## Values -/

/-- The text `s` is the integer `i`: a minus if it is negative, and its digits without leading zeros. -/
def IntegerText (s : Str) (i : Int) : Prop :=
  ∃ ds, s = (if i < 0 then [45#8] else []) ++ ds ∧ ds ≠ [] ∧ Digits ds ∧ (ds.head? = some 48#8 → ds = [48#8]) ∧ readDecimal ds = i.natAbs

/-- The text `s` shows the value `v`. -/
def Shows (s : Str) : Cell (go R) → Prop
  | .string x => s = x
  | .boolean b => s = lit (if b then "true" else "false")
  | .dateTime t => ∃ d c f n sec x, s = d ++ 84#8 :: c ++ f ++ lit "+00:00" ∧ TimeText.DateText d n ∧ TimeText.ClockText c sec ∧
      TimeText.FractionText 2 f x ∧ (t : Int) - t % 10000000 = n * 86400000000000 + sec * 1000000000 + x
  | .single f => ∃ y, Fixed 6 s y ∧ |y - Bin.val f| ≤ 1 / 2 / 10 ^ 6
  | .double f => ∃ y, Fixed 6 s y ∧ |y - Bin.val f| ≤ 1 / 2 / 10 ^ 6
  | .decimal d => ∃ k : Nat, (k : Int) ≤ max 0 (-Decimal.exp d) ∧ Fixed k s (Decimal.val d)
  | .guid g => ∃ t, s = 123#8 :: t ++ [125#8] ∧ Guid.Grouped t g
  | .int8 v => IntegerText s v.toInt
  | .int16 v => IntegerText s v.toInt
  | .int32 v => IntegerText s v.toInt
  | .int64 v => IntegerText s v.toInt
  | .uint8 v => IntegerText s v.toNat
  | .uint16 v => IntegerText s v.toNat
  | .uint32 v => IntegerText s v.toNat
  | .uint64 v => IntegerText s v.toNat
  | .tree _ | .other => False

/-- A value of one of the fifteen types; a float is finite, a date in the years 0 to 9999. -/
def Ordinary : Cell (go R) → Prop
  | .dateTime t => Calendar.dayNumber 0 1 1 * 86400000000000 ≤ t ∧ t < Calendar.dayNumber 10000 1 1 * 86400000000000
  | .single f => Bin.Finite f
  | .double f => Bin.Finite f
  | .tree _ | .other => False
  | _ => True

theorem intStr_text (i : Int) : IntegerText (Val.intStr i) i :=
  ⟨decimal i.natAbs, intStr_eq i, decimal_ne_nil _, decimal_digits _, Format.decimal_head _, readDecimal_decimal _⟩

theorem six_places (f : Double) (hf : f.Finite) : ∃ y, Fixed 6 (formatFloat (Double.bits f) 6) y ∧ |y - f.val| ≤ 1 / 2 / 10 ^ 6 := by
  obtain ⟨⟨y, hy, e⟩, -⟩ := format_parts f hf 6 (by norm_num)
  refine ⟨y, hy, ?_⟩
  rw [e, ← bits_val]
  exact Format.C93_value_partial _ (bits_finite hf) 6

theorem date_shows (t : Int) (h0 : Calendar.dayNumber 0 1 1 * 86400000000000 ≤ t) (h1 : t < Calendar.dayNumber 10000 1 1 * 86400000000000) :
    Shows (R := R) (TimeText.xsd t) (.dateTime t) := by
  have e0 : Calendar.dayNumber 0 1 1 = -366 := by decide
  have e1 : Calendar.dayNumber 10000 1 1 = 3652059 := by decide
  refine ⟨_, _, _, t / Calendar.day, t % Calendar.day / Calendar.second, t % Calendar.second - t % Calendar.second % 10 ^ (9 - 2), rfl,
    TimeText.date_text _ ?_ ?_, TimeText.clock_text t, TimeText.fraction_text 2 (by omega) t, ?_⟩
  · unfold Calendar.day
    rw [e0] at h0 ⊢
    omega
  · unfold Calendar.day
    rw [e1] at h1 ⊢
    omega
  · show t - t % 10000000 = _
    unfold Calendar.day Calendar.second
    omega

theorem same_cut {a b : Int} (h : a - a % 10000000 = b - b % 10000000) : a / 10000000 = b / 10000000 := by omega

/-- The text of a value shows it. -/
theorem text_shows (v : Cell (go R)) (h : Ordinary v) : Shows v.text v := by
  cases v with
  | string s => rfl
  | boolean b => rfl
  | dateTime t =>
    exact date_shows t h.1 h.2
  | single f =>
    obtain ⟨g1, g2, -⟩ := single_exact f h
    obtain ⟨y, hy, hv⟩ := six_places (Bin.convert f) g1
    rw [g2] at hv
    exact ⟨y, hy, hv⟩
  | double f => exact six_places f h
  | decimal d => exact str_fixed d
  | guid g =>
    obtain ⟨t, h1, h2, -⟩ := Guid.C99_text g
    exact ⟨t, h1, h2⟩
  | int8 v => exact intStr_text _
  | int16 v => exact intStr_text _
  | int32 v => exact intStr_text _
  | int64 v => exact intStr_text _
  | uint8 v => exact intStr_text _
  | uint16 v => exact intStr_text _
  | uint32 v => exact intStr_text _
  | uint64 v => exact intStr_text _
  | tree e => exact h
  | other => exact h

theorem IntegerText.unique {s : Str} {i j : Int} (h : IntegerText s i) (h' : IntegerText s j) : i = j := by
  obtain ⟨ds, e, hn, hd, -, hr⟩ := h
  obtain ⟨ds', e', hn', hd', -, hr'⟩ := h'
  have key : ∀ (a b : Str) , Digits b → (45#8 :: a : Str) ≠ b := by
    rintro a b hb rfl
    have := hb 45#8 (by simp)
    revert this
    decide
  rw [e] at e'
  by_cases h1 : i < 0 <;> by_cases h2 : j < 0
  · rw [if_pos h1, if_pos h2, List.append_cancel_left_eq] at e'
    subst e'
    omega
  · rw [if_pos h1, if_neg h2] at e'
    exact absurd e' (key _ _ hd')
  · rw [if_neg h1, if_pos h2] at e'
    exact absurd e'.symm (key _ _ hd)
  · rw [if_neg h1, if_neg h2] at e'
    simp only [List.nil_append] at e'
    subst e'
    omega

theorem fixed_same {k : Nat} {s : Str} {x y : ℚ} (hk : k ≤ 2147483648) (h : Fixed k s x) (h' : Fixed k s y) : x = y := by
  obtain ⟨d, h1, h2⟩ := h.parse hk
  obtain ⟨d', h3, h4⟩ := h'.parse hk
  rw [h1] at h3
  cases h3
  rw [← h2, h4]

/-- C110: values of the same type with the same text are the same; decimals are the same number, floats differ by at most a millionth, dates agree to the
hundredth of a second. -/
theorem C110_distinct (v w : Cell (go R)) (hv : Ordinary v) (hw : Ordinary w) (ht : v.type = w.type) (h : v.text = w.text) :
    match v, w with
    | .dateTime t, .dateTime u => (t : Int) / 10000000 = (u : Int) / 10000000
    | .single f, .single g => |Bin.val f - Bin.val g| ≤ 1 / 10 ^ 6
    | .double f, .double g => |Bin.val f - Bin.val g| ≤ 1 / 10 ^ 6
    | .decimal d, .decimal e => -2147483648 ≤ Decimal.exp d → -2147483648 ≤ Decimal.exp e → Decimal.val d = Decimal.val e
    | v, w => v = w := by
  have sv := text_shows v hv
  have sw := text_shows w hw
  rw [← h] at sw
  have near : ∀ (s : Str) (a b : ℚ), (∃ y, Fixed 6 s y ∧ |y - a| ≤ 1 / 2 / 10 ^ 6) → (∃ y, Fixed 6 s y ∧ |y - b| ≤ 1 / 2 / 10 ^ 6) →
      |a - b| ≤ 1 / 10 ^ 6 := by
    rintro s a b ⟨y, h1, h2⟩ ⟨z, h3, h4⟩
    have := fixed_same (by norm_num) h1 h3
    subst this
    rw [abs_le] at h2 h4 ⊢
    constructor <;> linarith [h2.1, h2.2, h4.1, h4.2]
  have ints : ∀ {n : Nat} {a b : BitVec n} {s : Str}, IntegerText s a.toInt → IntegerText s b.toInt → a = b :=
    fun h1 h2 => BitVec.eq_of_toInt_eq (h1.unique h2)
  have nats : ∀ {n : Nat} {a b : BitVec n} {s : Str}, IntegerText s a.toNat → IntegerText s b.toNat → a = b :=
    fun h1 h2 => BitVec.eq_of_toNat_eq (by exact_mod_cast h1.unique h2)
  cases v with
  | string a => cases w <;> first | (cases ht; done) | exact congrArg Cell.string h
  | boolean a =>
    cases w <;> first | (cases ht; done) | skip
    rename_i b
    refine congrArg Cell.boolean ?_
    have h : lit (if a then "true" else "false") = lit (if b then "true" else "false") := h
    cases a <;> cases b <;> first | rfl | (revert h; decide)
  | dateTime a =>
    cases w <;> first | (cases ht; done) | skip
    rename_i b
    obtain ⟨d, c, f, n, sec, x, e, hd, hc, hf, hx⟩ := sv
    obtain ⟨d', c', f', n', sec', x', e', hd', hc', hf', hx'⟩ := sw
    rw [e] at e'
    simp only [List.append_assoc, List.cons_append] at e'
    obtain ⟨rfl, e2⟩ := List.append_inj e' (hd.length.trans hd'.length.symm)
    obtain ⟨rfl, e3⟩ := List.append_inj (List.cons.inj e2).2 (hc.length.trans hc'.length.symm)
    obtain ⟨rfl, -⟩ := List.append_inj' e3 rfl
    have a1 := hd.unique hd'
    have a2 := hc.unique hc'
    have a3 := hf.unique hf'
    exact same_cut (by rw [hx, hx', a1, a2, a3])
  | single a => cases w <;> first | (cases ht; done) | exact near _ _ _ sv sw
  | double a => cases w <;> first | (cases ht; done) | exact near _ _ _ sv sw
  | decimal a => cases w <;> first | (cases ht; done) | exact fun ha hb => (str_eq_iff _ _ ha hb).mp h
  | guid a => cases w <;> first | (cases ht; done) | exact congrArg Cell.guid (Guid.C99_distinct _ _ h)
  | int8 a => cases w <;> first | (cases ht; done) | exact congrArg Cell.int8 (ints sv sw)
  | int16 a => cases w <;> first | (cases ht; done) | exact congrArg Cell.int16 (ints sv sw)
  | int32 a => cases w <;> first | (cases ht; done) | exact congrArg Cell.int32 (ints sv sw)
  | int64 a => cases w <;> first | (cases ht; done) | exact congrArg Cell.int64 (ints sv sw)
  | uint8 a => cases w <;> first | (cases ht; done) | exact congrArg Cell.uint8 (nats sv sw)
  | uint16 a => cases w <;> first | (cases ht; done) | exact congrArg Cell.uint16 (nats sv sw)
  | uint32 a => cases w <;> first | (cases ht; done) | exact congrArg Cell.uint32 (nats sv sw)
  | uint64 a => cases w <;> first | (cases ht; done) | exact congrArg Cell.uint64 (nats sv sw)
  | tree a => exact hv.elim
  | other => exact hv.elim

/-- The least positive double has the text of 0, and two dates 3 ms apart have the same text. -/
example : (Cell.double (P := go R) (⟨false, 1, by norm_num⟩ : Double)).text = (Cell.double (P := go R) (⟨false, 0, by norm_num⟩ : Double)).text ∧
    (Cell.dateTime (P := go R) (123000000 : Int)).text = (Cell.dateTime (P := go R) (126000000 : Int)).text := by
  constructor
  · have key : ∀ f : Double, (Cell.double (P := go R) f).text = formatFloat (Double.bits f) 6 := fun _ => rfl
    rw [key, key]
    decide +kernel
  · show TimeText.xsd 123000000 = TimeText.xsd 126000000
    decide +kernel

/-- C110: the texts of strings, Booleans, Guids and integers convert back to the values, and those of decimals to the same numbers. -/
theorem C110_read_back (v : Cell (go R)) (hv : Ordinary v) :
    match v with
    | .dateTime _ | .single _ | .double _ => True
    | .decimal d => -2147483648 ≤ Decimal.exp d → ∃ d' : Decimal, convertFromString (P := go R) v.text .decimal = .ok (.decimal d') ∧
        d'.val = Decimal.val d
    | v => convertFromString (P := go R) v.text v.type = .ok v := by
  have si : ∀ {n : Nat} (a : BitVec n), BitVec.ofInt n a.toInt = a := fun a => BitVec.ofInt_toInt
  have ui : ∀ {n : Nat} (a : BitVec n), BitVec.ofInt n (a.toNat : Int) = a := by
    intro n a
    rw [BitVec.ofInt_natCast, BitVec.ofNat_toNat, BitVec.setWidth_eq]
  cases v with
  | string s => rfl
  | boolean b =>
    show (if (go R).isBool (lit (if b then "true" else "false")) then Res.ok (Cell.boolean (P := go R) ((go R).boolParse (lit (if b then "true" else "false")))) else .err) = _
    cases b <;> rfl
  | dateTime t => trivial
  | single t => trivial
  | double t => trivial
  | decimal d =>
    intro hd
    obtain ⟨d', h1, h2⟩ := parse_str d hd
    refine ⟨d', ?_, h2⟩
    show Table.orErr (Decimal.parse (Decimal.str d)) _ = _
    rw [h1]
    rfl
  | guid g =>
    show (if (Guid.parse (Guid.toString g)).2 then Res.ok (Cell.guid (P := go R) (Guid.parse (Guid.toString g)).1) else .err) = _
    rw [Guid.C99_round_trip]
    rfl
  | int8 a =>
    have h1 := a.toInt_lt; have h2 := a.le_toInt
    refine ((C110_integers a.toInt).1).trans ?_
    rw [if_pos (by omega), si]
  | int16 a =>
    have h1 := a.toInt_lt; have h2 := a.le_toInt
    refine ((C110_integers a.toInt).2.1).trans ?_
    rw [if_pos (by omega), si]
  | int32 a =>
    have h1 := a.toInt_lt; have h2 := a.le_toInt
    refine ((C110_integers a.toInt).2.2.1).trans ?_
    rw [if_pos (by omega), si]
  | int64 a =>
    have h1 := a.toInt_lt; have h2 := a.le_toInt
    refine ((C110_integers a.toInt).2.2.2.1).trans ?_
    rw [if_pos (by omega), si]
  | uint8 a =>
    have h1 := a.isLt
    refine ((C110_integers a.toNat).2.2.2.2.1).trans ?_
    rw [if_pos (by omega), ui]
  | uint16 a =>
    have h1 := a.isLt
    refine ((C110_integers a.toNat).2.2.2.2.2.1).trans ?_
    rw [if_pos (by omega), ui]
  | uint32 a =>
    have h1 := a.isLt
    refine ((C110_integers a.toNat).2.2.2.2.2.2.1).trans ?_
    rw [if_pos (by omega), ui]
  | uint64 a =>
    have h1 := a.isLt
    refine ((C110_integers a.toNat).2.2.2.2.2.2.2).trans ?_
    rw [if_pos (by omega), ui]
  | tree e => exact hv.elim
  | other => exact hv.elim

/-! ## Rows -/

theorem get_type {P : Prim} {col : Nat → Res (Val P)} {t : Table.Table P} {r : Row P} {dt : DT} {i : Int} {v : Cell P}
    (h : r.get col t dt i = .ok (some v)) : v.type = dt := by
  have ha : ∀ (x : Cell P), Row.assert dt x = .ok (some v) → v.type = dt := by
    intro x hx
    unfold Row.assert at hx
    split at hx
    · cases hx
      assumption
    · cases hx
  unfold Row.get at h
  obtain ⟨c, -, h⟩ := Res.bind_eq_ok.mp h
  split at h
  · obtain ⟨x, -, h⟩ := Res.bind_eq_ok.mp h
    exact ha x h
  · obtain ⟨x, -, h⟩ := Res.bind_eq_ok.mp h
    cases x with
    | none => cases h
    | some x => exact ha x h

/-- C110: the text of a column of a row, by index or by name, shows the value there. Partial: finite floats and dates of the years 0 to 9999. -/
theorem C110_value_partial {col : Nat → Res (Val (go R))} {t : Table.Table (go R)} (hp : Positions t) (r : Row (go R)) {i : Int} {c : Column}
    (hc : t.column i = some c) {v : Cell (go R)} (hv : r.get col t c.type i = .ok (some v)) (ho : Ordinary v) :
    ∃ s, Shows s v ∧ r.text col t i = .ok s ∧ ∀ name, t.columnByName name = some c → r.textByName col t name = .ok s := by
  have ht := get_type hv
  have hu : c.type ≠ .undefined := by
    rw [← ht]
    cases v <;> first | (exact ho.elim) | (intro h; cases h)
  have key : r.columnText col t (some c) = .ok v.text := by
    unfold Row.columnText
    dsimp only
    rw [if_neg hu, (hp.column hc).1, hv]
    rfl
  refine ⟨v.text, text_shows v ho, ?_, ?_⟩
  · unfold Row.text
    rw [hc, key]
  · intro name hn
    unfold Row.textByName
    rw [hn, key]

/-- C110: a value stored in a column that is not computed is shown by its text, and null by `<NULL>`. -/
theorem C110_stored_partial {t : Table.Table (go R)} (hp : Positions t) {r : Row (go R)} (hr : Table.Reachable t r) {name : Str} {c : Column}
    (hn : t.columnByName name = some c) (hcomp : c.computed = false) (hd : c.type ≠ .undefined) (v : Option (Cell (go R)))
    (hv : ∀ x, v = some x → x.type = c.type ∧ Ordinary x) :
    ∃ r' s, r.setValueByName t name v = .ok r' ∧ (∀ col, r'.textByName col t name = .ok s ∧ r'.text col t c.index = .ok s) ∧
      (∀ x, v = some x → Shows s x) ∧ (v = none → s = lit "<NULL>") := by
  obtain ⟨r', h1, h2, -, -, h5, -⟩ := Table.C55_stored hp hr hn hcomp v
  have hc := hp.byName hn
  have hg : ∀ col, r'.get col t c.type c.index = .ok v := by
    intro col
    have h := h5 col
    unfold Row.value at h
    rw [Table.validate_read hc _ (.inl rfl)] at h
    simp only [Res.bind_ok, hcomp] at h
    have h : r'.value? c.index = .ok v := h
    rw [Table.get_stored r' hc hcomp, h]
    cases v with
    | none => rfl
    | some x =>
      show Row.assert c.type x = _
      unfold Row.assert
      rw [if_pos (hv x rfl).1]
  have key : ∀ col, r'.columnText col t (some c) = shown (.ok v) := by
    intro col
    unfold Row.columnText
    dsimp only
    rw [if_neg hd, hg]
  refine ⟨r', (match v with | none => lit "<NULL>" | some x => x.text), h2, fun col => ⟨?_, ?_⟩, ?_, ?_⟩
  · unfold Row.textByName
    rw [hn, key]
    cases v <;> rfl
  · unfold Row.text
    rw [hc, key]
    cases v <;> rfl
  · rintro x rfl
    exact text_shows x (hv x rfl).2
  · rintro rfl
    rfl

/-- Two Int32 columns. -/
def counts : Table.Table (go sample) where
  columnIndexes := fun n => if n = lit "A" then some 0 else if n = lit "B" then some 1 else none
  columns := [{ name := lit "A", type := .int32, expression := [], index := 0 }, { name := lit "B", type := .int32, expression := [], index := 1 }]
  rows := []
  parse := fun _ => none

theorem counts_positions : Positions counts := by
  intro i c h
  match i, h with
  | 0, h => injection h with h; subst h; rfl
  | 1, h => injection h with h; subst h; rfl
  | n + 2, h => simp [counts] at h

/-- -42 stored in the column named a. -/
example : ∃ r' s, (Table.newRow counts 0).setValueByName counts (lit "a") (some (.int32 (-42#32))) = .ok r' ∧ r'.textByName (fun _ => .err) counts (lit "a") = .ok s ∧
    IntegerText s (-42) := by
  obtain ⟨r', s, h1, h2, h3, -⟩ := C110_stored_partial counts_positions (.create 0) (name := lit "a")
    (c := { name := lit "A", type := .int32, expression := [], index := 0 }) rfl rfl (by decide) (some (.int32 (-42#32)))
    (by rintro x hx; cases hx; exact ⟨rfl, trivial⟩)
  exact ⟨r', s, h1, (h2 _).1, h3 _ rfl⟩

/-- C110: an index outside the columns, an unknown name, and a row that is not there have the empty text; so has a column whose reader fails. -/
theorem C110_nothing {col : Nat → Res (Val (go R))} {t : Table.Table (go R)} (r : Row (go R)) :
    (∀ i, i < 0 ∨ t.columns.length ≤ i → r.text col t i = .ok []) ∧
    (∀ name, t.columnByName name = none → r.textByName col t name = .ok []) ∧
    (∀ (cols : Row (go R) → Nat → Res (Val (go R))) (i j : Int), i < 0 ∨ t.rows.length ≤ i → t.rowText cols i j = .ok []) ∧
    (∀ i c, t.column i = some c → c.index = i → r.get col t c.type i = .err → r.text col t i = .ok []) := by
  refine ⟨?_, ?_, ?_, ?_⟩
  · intro i hi
    unfold Row.text Table.Table.column
    rw [if_pos (by omega)]
    rfl
  · intro name hn
    unfold Row.textByName
    rw [hn]
    rfl
  · intro cols i j hi
    unfold Table.Table.rowText Table.Table.row
    rw [if_pos (by omega)]
  · intro i c hc hi hg
    unfold Row.text Row.columnText
    rw [hc]
    dsimp only
    split
    · rfl
    · rw [hi, hg]
      rfl

/-- C110: reading by the number of a row is reading the row. -/
theorem C110_by_row (cols : Row (go R) → Nat → Res (Val (go R))) {t : Table.Table (go R)} {i : Nat} {r : Row (go R)} (hr : t.rows[i]? = some (some r))
    (j : Int) (name : Str) : t.rowText cols i j = r.text (cols r) t j ∧ t.rowTextByName cols i name = r.textByName (cols r) t name := by
  have h : t.row i = some r := by
    obtain ⟨hl, -⟩ := List.getElem?_eq_some_iff.mp hr
    unfold Table.Table.row
    rw [if_neg (by omega), Int.toNat_natCast, hr]
    rfl
  unfold Table.Table.rowText Table.Table.rowTextByName
  rw [h]
  exact ⟨rfl, rfl⟩

/-- C110 fails for null results of computed columns: a String shows as the empty text and an Int32 as 0, not as `<NULL>`. -/
theorem C110_computed_null_false {col : Nat → Res (Val (go R))} {t : Table.Table (go R)} (hp : Positions t) (r : Row (go R)) {i : Int} {c : Column}
    (hc : t.column i = some c) (hcomp : c.computed = true) {e : Tree (go R)} (he : Table.Computes t r c e) :
    (c.type = .string → eval col e = .ok (.null .string) → r.text col t i = .ok []) ∧
    (c.type = .int32 → eval col e = .ok (.null .int32) → r.text col t i = .ok (lit "0")) := by
  obtain ⟨h1, h2⟩ := Table.C55_null_false r hc hcomp (col := col) he
  constructor <;> intro ht hv
  · unfold Row.text Row.columnText
    rw [hc]
    dsimp only
    rw [if_neg (by rw [ht]; decide), (hp.column hc).1, ht, h1 ht hv]
    rfl
  · unfold Row.text Row.columnText
    rw [hc]
    dsimp only
    rw [if_neg (by rw [ht]; decide), (hp.column hc).1, ht, h2 ht hv]
    rfl

/-! ## The bytes of texts -/

/-- Neither a comma nor `<`. -/
def Quiet (s : Str) : Prop := ∀ b ∈ s, b ≠ 44#8 ∧ b ≠ 60#8

theorem Quiet.append {a b : Str} (ha : Quiet a) (hb : Quiet b) : Quiet (a ++ b) := by
  intro x hx
  rcases List.mem_append.mp hx with h | h
  · exact ha x h
  · exact hb x h

theorem quiet_digits {s : Str} (h : Digits s) : Quiet s := by
  intro b hb
  have := h b hb
  constructor <;> (rintro rfl; revert this; decide)

theorem quiet_cons {b : Byte} {s : Str} (hb : b ≠ 44#8 ∧ b ≠ 60#8) (h : Quiet s) : Quiet (b :: s) := by
  intro x hx
  rcases List.mem_cons.mp hx with rfl | hx
  · exact hb
  · exact h x hx

theorem quiet_nil : Quiet [] := fun _ h => absurd h (by simp)

theorem quiet_minus (p : Prop) [Decidable p] : Quiet (if p then [45#8] else []) := by
  split
  · exact quiet_cons (by decide) quiet_nil
  · exact quiet_nil

theorem quiet_sign {s : Str} {n : Bool} (h : Sign s n) : Quiet s := by
  intro b hb
  rcases h.bytes b hb with rfl | rfl <;> decide

theorem quiet_fixed {k : Nat} {s : Str} {x : ℚ} (h : Fixed k s x) : Quiet s := by
  cases h with
  | mk hs w p hw hp hne =>
    refine ((quiet_sign hs).append (quiet_digits hw)).append ?_
    cases p with
    | none => exact quiet_nil
    | some p => exact quiet_cons (by decide) (quiet_digits hp)

theorem quiet_int (i : Int) : Quiet (Val.intStr i) := by
  rw [intStr_eq]
  exact (quiet_minus _).append (quiet_digits (decimal_digits _))

theorem quiet_float (f : BitVec 64) (p : Nat) : Quiet (formatFloat f p) := by
  unfold formatFloat
  split
  · split
    · unfold Quiet; decide
    · split <;> (unfold Quiet; decide)
  · refine ((quiet_minus _).append (quiet_digits (decimal_digits _))).append ?_
    split
    · exact quiet_nil
    · exact quiet_cons (by decide) (quiet_digits (Format.lastDigits_digits _ _))

theorem quiet_pad (w n : Nat) : Quiet (TimeText.pad w n) := by
  unfold TimeText.pad
  split
  · exact quiet_digits (Format.lastDigits_digits _ _)
  · exact quiet_digits (decimal_digits _)

theorem trim_subset (s : Str) : ∀ b ∈ TimeText.trimZeros s, b ∈ s := by
  induction s with
  | nil => intro b hb; exact hb
  | cons a s ih =>
    intro b hb
    unfold TimeText.trimZeros at hb
    split at hb
    · cases hb
    · rcases List.mem_cons.mp hb with rfl | hb
      · simp
      · simp [ih b hb]

theorem quiet_date (t : Int) : Quiet (TimeText.xsd t) := by
  have hf : Quiet (TimeText.fraction 2 t) := by
    have h : Quiet (TimeText.trimZeros ((lastDigits 9 (t % Calendar.second).toNat).take 2)) := fun b hb =>
      quiet_digits (Format.lastDigits_digits _ _) b (List.mem_of_mem_take (trim_subset _ b hb))
    unfold TimeText.fraction
    split
    · exact quiet_nil
    · exact quiet_cons (by decide) h
  unfold TimeText.xsd TimeText.date TimeText.clock TimeText.year
  refine Quiet.append (Quiet.append (Quiet.append ?_ (quiet_cons (by decide) ?_)) hf) (by unfold Quiet; decide)
  · exact Quiet.append (Quiet.append (Quiet.append (quiet_minus _) (quiet_pad _ _)) (quiet_cons (by decide) (quiet_pad _ _)))
      (quiet_cons (by decide) (quiet_pad _ _))
  · exact Quiet.append (Quiet.append (quiet_pad _ _) (quiet_cons (by decide) (quiet_pad _ _))) (quiet_cons (by decide) (quiet_pad _ _))

theorem quiet_pairs {a b : Str} (h : Guid.Pairs a b) : Quiet a := by
  have hd : ∀ b n, Guid.Digit b n → b ≠ 44#8 ∧ b ≠ 60#8 := by
    intro b n h
    rw [Guid.digit_iff] at h
    constructor <;> (rintro rfl; exact h.1 (by decide))
  induction h with
  | nil => exact quiet_nil
  | cons h1 h2 _ ih => exact quiet_cons (hd _ _ h1) (quiet_cons (hd _ _ h2) ih)

theorem quiet_guid (g : Guid.Guid) : Quiet (Guid.toString g) := by
  obtain ⟨t, h1, ⟨t1, t2, t3, t4, t5, rfl, p1, p2, p3, p4, p5⟩, -⟩ := Guid.C99_text g
  have dash : Quiet (Guid.ascii "-") := by unfold Quiet; decide
  rw [h1]
  refine Quiet.append (quiet_cons (by decide) ?_) (by unfold Quiet; decide)
  exact ((((((((quiet_pairs p1).append dash).append (quiet_pairs p2)).append dash).append (quiet_pairs p3)).append dash).append
    (quiet_pairs p4)).append dash).append (quiet_pairs p5)

theorem quiet_text (v : Cell (go R)) (h : v.type ≠ .string) : Quiet v.text := by
  cases v with
  | string s => exact absurd rfl h
  | boolean b =>
    show Quiet (lit (if b then "true" else "false"))
    unfold Quiet
    cases b <;> decide
  | dateTime t => exact quiet_date t
  | single f => exact quiet_float _ _
  | double f => exact quiet_float _ _
  | decimal d =>
    obtain ⟨k, -, hf⟩ := str_fixed d
    exact quiet_fixed hf
  | guid g => exact quiet_guid g
  | tree e => exact quiet_nil
  | other => exact quiet_nil
  | _ => exact quiet_int _

/-- C110: no value but a string has the text of null. -/
theorem C110_null (v : Cell (go R)) (h : v.type ≠ .string) : v.text ≠ lit "<NULL>" := by
  intro e
  have := quiet_text v h 60#8 (by rw [e]; decide)
  exact this.2 rfl

/-- C110 fails for strings: the text of the string `<NULL>` is that of null, and the text of the empty string is that of an error. -/
theorem C110_null_false : shown (P := go R) (.ok (some (.string (lit "<NULL>")))) = shown (P := go R) (.ok none) ∧
    shown (P := go R) (.ok (some (.string []))) = shown (P := go R) .err := ⟨rfl, rfl⟩

/-! ## Rows and tables -/

/-- What stands between the brackets of the text of a row: the texts of its columns, with ", " between them. -/
def joined (first : Bool) : List Str → Str
  | [] => []
  | s :: l => (if first then [] else lit ", ") ++ s ++ joined false l

theorem images_joined {P : Prim} {col : Nat → Res (Val P)} {t : Table.Table P} {r : Row P} {cs : List Column} {i : Nat} {s : Str}
    (h : r.images col t i cs = .ok s) :
    ∃ l, List.Forall₂ (fun c x => r.columnText col t (some c) = .ok x) cs l ∧ s = joined (i == 0) ((cs.zip l).map fun p => Row.quoted p.1 p.2) := by
  induction cs generalizing i s with
  | nil =>
    cases h
    exact ⟨[], .nil, rfl⟩
  | cons c cs ih =>
    unfold Row.images at h
    obtain ⟨x, h1, h⟩ := Res.bind_eq_ok.mp h
    obtain ⟨y, h2, h⟩ := Res.bind_eq_ok.mp h
    cases h
    obtain ⟨l, h3, h4⟩ := ih h2
    refine ⟨x :: l, .cons h1 h3, ?_⟩
    rw [h4]
    show _ = (if (i == 0) = true then [] else lit ", ") ++ Row.quoted c x ++ joined false _
    congr 2
    cases i <;> rfl

/-- C110: the text of a row has the texts of its columns in order, those of String columns in quotes, separated by commas, in brackets. -/
theorem C110_row {P : Prim} {col : Nat → Res (Val P)} {t : Table.Table P} {r : Row P} {s : Str} (h : r.image col t = .ok s) :
    ∃ l, List.Forall₂ (fun c x => r.columnText col t (some c) = .ok x) t.columns l ∧
      s = lit "[" ++ joined true ((t.columns.zip l).map fun p => if p.1.type = .string then lit "\"" ++ p.2 ++ lit "\"" else p.2) ++ lit "]" := by
  unfold Row.image at h
  obtain ⟨x, h1, h⟩ := Res.bind_eq_ok.mp h
  cases h
  obtain ⟨l, h2, rfl⟩ := images_joined h1
  exact ⟨l, h2, rfl⟩

theorem quiet_column {col : Nat → Res (Val (go R))} {t : Table.Table (go R)} {r : Row (go R)} {c : Column} {x : Str} (hs : c.type ≠ .string)
    (h : r.columnText col t (some c) = .ok x) : 44#8 ∉ x := by
  unfold Row.columnText at h
  dsimp only at h
  split at h
  · cases h
    simp
  · cases hg : r.get col t c.type c.index with
    | err => rw [hg] at h; cases h; simp
    | panic => rw [hg] at h; cases h
    | ok v =>
      rw [hg] at h
      cases v with
      | none =>
        cases h
        decide
      | some v =>
        cases h
        intro hm
        exact (quiet_text v (by rw [get_type hg]; exact hs) _ hm).1 rfl

theorem joined_inj (l l' : List Str) (hl : ∀ x ∈ l, 44#8 ∉ x) (hl' : ∀ x ∈ l', 44#8 ∉ x) (hn : l.length = l'.length) (b : Bool)
    (h : joined b l = joined b l') : l = l' := by
  induction l generalizing l' b with
  | nil =>
    cases l' with
    | nil => rfl
    | cons y l' => cases hn
  | cons x l ih =>
    cases l' with
    | nil => cases hn
    | cons y l' =>
      unfold joined at h
      rw [List.append_assoc, List.append_assoc, List.append_cancel_left_eq] at h
      have cut : ∀ (a : Str) (k : List Str), 44#8 ∉ a → (a ++ joined false k).takeWhile (fun b => b != 44#8) = a := by
        intro a k ha
        rw [List.takeWhile_append_of_pos (by intro b hb; simp; rintro rfl; exact ha hb)]
        cases k with
        | nil => simp [joined]
        | cons z k => simp [joined, lit]
      have hxy : x = y := by
        rw [← cut x l (hl x (by simp)), h, cut y l' (hl' y (by simp))]
      subst hxy
      rw [List.append_cancel_left_eq] at h
      rw [ih l' (fun x hx => hl x (by simp [hx])) (fun x hx => hl' x (by simp [hx])) (by simpa using hn) false h]

/-- C110: if no column is a String, rows with the same text have the same text in every column. Partial: see `C110_row_false` for Strings. -/
theorem C110_row_determines_partial {col col' : Nat → Res (Val (go R))} {t : Table.Table (go R)} {r r' : Row (go R)} {s : Str}
    (hs : ∀ c ∈ t.columns, c.type ≠ .string) (h : r.image col t = .ok s) (h' : r'.image col' t = .ok s) :
    ∀ c ∈ t.columns, ∃ x, r.columnText col t (some c) = .ok x ∧ r'.columnText col' t (some c) = .ok x := by
  obtain ⟨l, h1, e1⟩ := C110_row h
  obtain ⟨l', h2, e2⟩ := C110_row h'
  rw [e1] at e2
  have e3 := List.append_cancel_left (List.append_cancel_right e2)
  have strip : ∀ (cs : List Column) (l : List Str), (∀ c ∈ cs, c.type ≠ .string) → cs.length = l.length →
      ((cs.zip l).map fun p => if p.1.type = DT.string then lit "\"" ++ p.2 ++ lit "\"" else p.2) = l := by
    intro cs
    induction cs with
    | nil => intro l _ hl; cases l with
      | nil => rfl
      | cons x l => cases hl
    | cons c cs ih =>
      intro l hc hl
      cases l with
      | nil => cases hl
      | cons x l =>
        rw [List.zip_cons_cons, List.map_cons, if_neg (hc c (by simp)), ih l (fun c h => hc c (by simp [h])) (by simpa using hl)]
  rw [strip _ _ hs h1.length_eq, strip _ _ hs h2.length_eq] at e3
  have quiet : ∀ {q : Row (go R)} {co : Nat → Res (Val (go R))} {cs : List Column} {l : List Str}, (∀ c ∈ cs, c.type ≠ .string) →
      List.Forall₂ (fun c x => q.columnText co t (some c) = .ok x) cs l → ∀ x ∈ l, 44#8 ∉ x := by
    intro q co cs l hc hf
    induction hf with
    | nil => intro x hx; cases hx
    | cons a _ ih =>
      intro x hx
      rcases List.mem_cons.mp hx with rfl | hx
      · exact quiet_column (hc _ (by simp)) a
      · exact ih (fun c h => hc c (by simp [h])) x hx
  have hl := joined_inj l l' (quiet hs h1) (quiet hs h2) (h1.length_eq.symm.trans h2.length_eq) true e3
  subst hl
  intro c hc
  obtain ⟨n, hn⟩ := List.mem_iff_getElem?.mp hc
  obtain ⟨hlt, rfl⟩ := List.getElem?_eq_some_iff.mp hn
  rw [List.forall₂_iff_get] at h1 h2
  have hlt' : n < l.length := by rw [← h1.1]; exact hlt
  exact ⟨l[n], h1.2 n hlt hlt', h2.2 n hlt hlt'⟩

/-- Two String columns. -/
def names : Table.Table (go sample) where
  columnIndexes := fun _ => none
  columns := [{ name := lit "A", type := .string, expression := [], index := 0 }, { name := lit "B", type := .string, expression := [], index := 1 }]
  rows := []
  parse := fun _ => none

example : Row.image (fun _ => .err) counts ⟨0, [some (.int32 7#32), none]⟩ = .ok (lit "[7, <NULL>]") := by
  have : Val.intStr (7#32).toInt = lit "7" := by decide +kernel
  show Res.ok (lit "[" ++ (Val.intStr (7#32).toInt ++ lit ", <NULL>") ++ lit "]") = _
  rw [this]
  rfl

/-- C110 fails for Strings: different rows have the same text. -/
theorem C110_row_false (col : Nat → Res (Val (go sample))) :
    Row.image col names ⟨0, [some (.string (lit "a")), some (.string (lit "b\", \"c"))]⟩ = .ok (lit "[\"a\", \"b\", \"c\"]") ∧
    Row.image col names ⟨1, [some (.string (lit "a\", \"b")), some (.string (lit "c"))]⟩ = .ok (lit "[\"a\", \"b\", \"c\"]") := ⟨rfl, rfl⟩

/-- C110: the text of a table ends with its number of rows, grouped by threes, and has its columns in order, each with its type. -/
theorem C110_table {P : Prim} (name : Str) (t : Table.Table P) (hn : t.rows.length < 9223372036854775808) :
    ∃ n, Format.IsGrouped 44#8 (decimal t.rows.length) n ∧
      t.image name = .ok (name ++ lit " [" ++ joined true (t.columns.map fun c =>
        c.name ++ lit " (" ++ (if c.expression ≠ [] then lit "Computed " else []) ++ c.type.text ++ lit ")") ++ lit "] x " ++ n ++ lit " rows") := by
  obtain ⟨n, h1, h2⟩ := Format.C08_int64 (BitVec.ofNat 64 t.rows.length) 44#8 (by decide)
  have hv : (BitVec.ofNat 64 t.rows.length).toInt = t.rows.length := by
    rw [BitVec.toInt_eq_toNat_of_lt (by rw [BitVec.toNat_ofNat]; omega), BitVec.toNat_ofNat]
    omega
  rw [hv] at h1 h2
  rw [if_neg (by omega)] at h2
  refine ⟨n, h1, ?_⟩
  unfold Table.Table.image
  rw [h2]
  have hc : ∀ l : List Str, Table.commas l = joined true l := by
    have hf : ∀ (l : List Str) (x : Str), Table.commas (x :: l) = x ++ joined false l := by
      intro l
      induction l with
      | nil => intro x; simp [Table.commas, joined]
      | cons y l ih =>
        intro x
        show x ++ lit ", " ++ Table.commas (y :: l) = x ++ ((if false = true then [] else lit ", ") ++ y ++ joined false l)
        rw [ih]
        simp
    intro l
    cases l with
    | nil => rfl
    | cons x l =>
      rw [hf]
      simp [joined]
  have ht : t.columns.map Column.text = t.columns.map fun c =>
      c.name ++ lit " (" ++ (if c.expression ≠ [] then lit "Computed " else []) ++ c.type.text ++ lit ")" := by
    apply List.map_congr_left
    intro c _
    unfold Column.text Column.computed
    cases c.expression with
    | nil => simp
    | cons b e => simp
  rw [hc, ht]
  rfl

/-- C110: types have different names. -/
theorem C110_types (a b : DT) (h : a.text = b.text) : a = b := by
  cases a <;> cases b <;> first | rfl | (revert h; decide +kernel)

/-- C110 fails for data sets: Go walks its tables in any order, and the order shows. -/
theorem C110_set_false : List.Perm [lit "A", lit "B"] [lit "B", lit "A"] ∧ Table.setImage (lit "DS") [lit "A", lit "B"] = lit "DS [A, B]" ∧
    Table.setImage (lit "DS") [lit "B", lit "A"] = lit "DS [B, A]" := ⟨List.Perm.swap _ _ _, rfl, rfl⟩

end Verif.Lib
