import Verif.Lib.CompareProps
import Verif.Parse.LiteralProps
import Verif.Format.FloatProps

/-!
# Numbers and their texts (properties C104 and C105)

Specification: `Numeral s e x` says that the text `s` writes the number `x`: a sign or none, digits, a point with digits or none, and a power of ten
or none, `e` being whether there is one.
-/

namespace Verif.Lib

open Verif.Expr Decimal
open Format (decimal readDecimal decimal_ne_nil decimal_digits readDecimal_decimal)

variable {R : Rest}

/-- The text `s` writes the number `x`; the power of ten is at most `bound` in size. -/
inductive Numeral (bound : Nat) : Str → Bool → ℚ → Prop
  | fixed {k : Nat} {s : Str} {x : ℚ} (hk : k ≤ 1000000000) : Fixed k s x → Numeral bound s false x
  | power {k : Nat} {s : Str} {x : ℚ} (hk : k ≤ 1000000000) (c : Byte) (hc : c = 69#8 ∨ c = 101#8) {t : Str} {neg : Bool} (ht : Sign t neg) (e : Str)
      (he : Digits e) (hne : e ≠ []) (hb : readDecimal e ≤ bound) :
      Fixed k s x → Numeral bound (s ++ c :: (t ++ e)) true (x * 10 ^ signed neg (readDecimal e))

/-- The decimal library reads the number a text writes. -/
theorem parse_numeral {s : Str} {e : Bool} {x : ℚ} (h : Numeral 1000000000 s e x) : ∃ d, Decimal.parse s = some d ∧ d.val = x := by
  cases h with
  | fixed hk h => exact h.parse (by omega)
  | power hlen c hc ht e he hene hb h =>
    cases h with
    | @mk s neg hs w p hw hp hne =>
      rename_i t eneg
      have hs1 : -1000000000 ≤ signed eneg (readDecimal e) ∧ signed eneg (readDecimal e) ≤ 1000000000 := by
        unfold signed
        split <;> omega
      have := parse_exponent hs ht w (p.getD []) e hw hp he hne hene c hc p.isSome (by cases p <;> simp) (by omega) (by omega) (by omega)
      refine ⟨⟨signed neg (readDecimal (w ++ p.getD [])), signed eneg (readDecimal e) - (p.getD []).length⟩, ?_, ?_⟩
      · rw [← this]
        cases p <;> rfl
      · rw [val_mk, zpow_sub₀ (by norm_num), zpow_natCast]
        ring

/-- Reading the sign of a text that goes on with none. -/
theorem sign_append {s : Str} {neg : Bool} (hs : Sign s neg) (r : Str) (hr : ∀ b, r.head? = some b → b ≠ 43#8 ∧ b ≠ 45#8) :
    Text.sign (s ++ r) = (neg, r) := by
  cases hs with
  | none =>
    cases r with
    | nil => rfl
    | cons b t =>
      have hb := hr b rfl
      show (if b = 45#8 then (true, t) else if b = 43#8 then (false, t) else (false, b :: t)) = _
      rw [if_neg hb.2, if_neg hb.1]
  | plus => rfl
  | minus => rfl

theorem digit_iff (b : Byte) : isDigit b = true ↔ 48 ≤ b.toNat ∧ b.toNat ≤ 57 := by
  unfold isDigit
  rw [Bool.and_eq_true, decide_eq_true_eq, decide_eq_true_eq]

/-- The digits and the point before a power of ten. -/
theorem mantissa_spec (w : Str) (p : Option Str) (hw : Digits w) (hp : Digits (p.getD [])) (hne : w ++ p.getD [] ≠ []) :
    (∀ b ∈ w ++ fraction p, (!isExp b) = true) ∧ (w ++ fraction p).all (fun b => isDigit b || b == 46#8) = true ∧
    (w ++ fraction p).any isDigit = true ∧ (w ++ fraction p).count 46#8 ≤ 1 ∧
    ∀ r b, (w ++ fraction p ++ r).head? = some b → b ≠ 43#8 ∧ b ≠ 45#8 := by
  have hmem : ∀ b ∈ w ++ fraction p, (48 ≤ b.toNat ∧ b.toNat ≤ 57) ∨ b = 46#8 := by
    intro b hb
    rcases List.mem_append.mp hb with h | h
    · exact Or.inl (hw b h)
    · cases p with
      | none => cases h
      | some p =>
        rcases List.mem_cons.mp h with h | h
        · exact Or.inr h
        · exact Or.inl (hp b h)
  have hnil : w ++ fraction p ≠ [] := by
    cases p with
    | none => simpa [fraction] using hne
    | some p => simp [fraction]
  refine ⟨?_, ?_, ?_, ?_, ?_⟩
  · intro b hb
    rw [Bool.not_eq_true']
    unfold isExp
    rw [Bool.or_eq_false_iff, beq_eq_false_iff_ne, beq_eq_false_iff_ne]
    rcases hmem b hb with h | h
    · constructor <;> (rintro rfl; exact absurd h (by decide))
    · rw [h]; decide
  · rw [List.all_eq_true]
    intro b hb
    rw [Bool.or_eq_true, digit_iff, beq_iff_eq]
    exact hmem b hb
  · rw [List.any_eq_true]
    obtain ⟨b, hb⟩ := List.exists_mem_of_ne_nil _ hne
    rcases List.mem_append.mp hb with h | h
    · exact ⟨b, List.mem_append_left _ h, (digit_iff b).mpr (hw b h)⟩
    · refine ⟨b, List.mem_append_right _ ?_, (digit_iff b).mpr (hp b h)⟩
      cases p with
      | none => cases h
      | some p => exact List.mem_cons_of_mem _ h
  · rw [List.count_append, List.count_eq_zero_of_not_mem (hw.not _ (by decide)), Nat.zero_add]
    cases p with
    | none => simp [fraction]
    | some p =>
      unfold fraction
      rw [List.count_cons_self, List.count_eq_zero_of_not_mem (Digits.not (l := p) hp _ (by decide))]
  · intro r b hb
    obtain ⟨c, t, hct⟩ := List.exists_cons_of_ne_nil hnil
    have hc : c = b := by
      rw [hct] at hb
      simpa using hb
    subst hc
    have := hmem c (by rw [hct]; simp)
    constructor <;> rintro rfl <;> (rcases this with h | h <;> revert h <;> decide)

theorem plain_numeral {s : Str} {e : Bool} {x : ℚ} (h : Numeral 99999 s e x) : plain s = true := by
  cases h with
  | fixed hk h =>
    cases h with
    | @mk s neg hs w p hw hp hne =>
      obtain ⟨h1, h2, h3, h4, h5⟩ := mantissa_spec w p hw hp hne
      have hsg := sign_append hs (w ++ fraction p) (by simpa using h5 [])
      have ht := Format.takeWhile_all h1
      unfold plain
      dsimp only
      rw [List.append_assoc, hsg]
      dsimp only
      rw [ht.1, ht.2, h2, h3, decide_eq_true h4]
      rfl
  | power hk c hc ht' e he hene hb h =>
    cases h with
    | @mk s neg hs w p hw hp hne =>
      rename_i t eneg
      obtain ⟨h1, h2, h3, h4, h5⟩ := mantissa_spec w p hw hp hne
      have hsg := sign_append hs (w ++ fraction p ++ c :: (t ++ e)) (h5 _)
      have ht := Format.takeWhile_stop (r := t ++ e) (c := c) h1 (by rcases hc with rfl | rfl <;> rfl)
      have hse : (Text.sign (c :: (t ++ e)).tail).2 = e := by
        show (Text.sign (t ++ e)).2 = e
        rw [sign_digits ht' e he]
      have hee : e.isEmpty = false := by
        cases e with
        | nil => exact absurd rfl hene
        | cons b t => rfl
      have hall : e.all isDigit = true := by
        rw [List.all_eq_true]
        intro b hb
        exact (digit_iff b).mpr (he b hb)
      unfold plain
      dsimp only
      rw [show s ++ w ++ fraction p ++ c :: (t ++ e) = s ++ (w ++ fraction p ++ c :: (t ++ e)) by simp, hsg]
      dsimp only
      rw [ht.1, ht.2, h2, h3, decide_eq_true h4]
      simp only [hse]
      rw [hee, hall, decide_eq_true (show readDecimal e < 100000 by omega)]
      rfl

theorem Numeral.mono {b c : Nat} (hbc : b ≤ c) {s : Str} {e : Bool} {x : ℚ} (h : Numeral b s e x) : Numeral c s e x := by
  cases h with
  | fixed hk h => exact .fixed hk h
  | power hk c hc ht e he hene hb h => exact .power hk c hc ht e he hene (le_trans hb hbc) h

/-- The float library reads the double nearest to the number a text writes. -/
theorem parseFloat_numeral {s : Str} {e : Bool} {x : ℚ} (h : Numeral 99999 s e x) (hx : |x| ≤ maxDouble) :
    ∃ z, parseFloat R s = (Bin.ofRat z x, true) ∧ Nearest (Bin.ofRat z x) x := by
  obtain ⟨d, hd, hv⟩ := parse_numeral (h.mono (by norm_num))
  have hn := nearest_ofRat (Text.sign s).1 hx
  refine ⟨(Text.sign s).1, ?_, hn⟩
  unfold parseFloat
  rw [if_pos (plain_numeral h), hd]
  dsimp only
  rw [hv, decide_eq_true hn.1]

/-! ## C104: reading numbers -/

/-- A text that writes a number is converted to Decimal as that number, to Double as the double nearest to it, and to integers as its whole part. -/
theorem C104_reads {s : Str} {e : Bool} {x : ℚ} (h : Numeral 99999 s e x) :
    (∃ d : Decimal, Val.convert (P := go R) (.string s) .decimal = .ok (.decimal d) ∧ d.val = x) ∧
    (|x| ≤ maxDouble → ∃ f : Double, Val.convert (P := go R) (.string s) .double = .ok (.double f) ∧ Nearest f x) := by
  constructor
  · obtain ⟨d, hd, hv⟩ := parse_numeral (h.mono (by norm_num))
    refine ⟨d, ?_, hv⟩
    show Res.ok (Val.decimal (P := go R) ((Decimal.parse s).getD (Decimal.ofInt 0))) = _
    rw [hd]
    rfl
  · intro hx
    obtain ⟨z, hz, hn⟩ := parseFloat_numeral (R := R) h hx
    refine ⟨_, ?_, hn⟩
    show Res.ok (Val.double (P := go R) (parseFloat R s).1) = _
    rw [hz]

/-- The text of an integer. -/
theorem intStr_eq (i : Int) : Val.intStr i = (if i < 0 then [45#8] else []) ++ decimal i.natAbs := by
  have hn : ∀ n : Nat, lit (toString n) = decimal n := by
    intro n
    unfold lit
    rw [show toString n = n.repr from rfl, Nat.toList_repr]
    induction n using Nat.strongRecOn with
    | ind n ih =>
      rw [Nat.toDigits_eq_if (by decide), decimal.eq_def]
      have hd : ∀ k : Nat, k < 10 → BitVec.ofNat 8 k.digitChar.toNat = BitVec.ofNat 8 (48 + k) := by
        intro k hk
        revert k
        decide
      split
      · rename_i h
        rw [List.map_singleton, hd n h]
      · rename_i h
        rw [List.map_append, ih (n / 10) (by omega), List.map_singleton, hd _ (Nat.mod_lt _ (by decide))]
  cases i with
  | ofNat n =>
    have : ¬ (Int.ofNat n < 0) := by simp
    rw [if_neg this]
    exact hn n
  | negSucc n =>
    rw [if_pos (Int.negSucc_lt_zero n)]
    have : lit (toString (Int.negSucc n)) = lit ("-" ++ toString (n + 1)) := rfl
    unfold Val.intStr
    rw [this, show Int.natAbs (Int.negSucc n) = n + 1 from rfl, ← hn (n + 1)]
    unfold lit
    rw [String.toList_append, List.map_append]
    rfl

theorem intStr_fixed (i : Int) : Fixed 0 (Val.intStr i) i := by
  refine Fixed.of (sign_text i) (decimal i.natAbs) none (decimal_digits _) (by intro b hb; cases hb) (by simpa using decimal_ne_nil _)
    (by rw [intStr_eq]; simp [fraction]) rfl ?_
  simp only [Option.getD_none, List.append_nil, readDecimal_decimal, signed_sign]
  simp

theorem readDecimal_append (a b : Str) : readDecimal (a ++ b) = readDecimal a * 10 ^ b.length + readDecimal b := by
  induction b using List.reverseRecOn with
  | nil => simp [readDecimal]
  | append_singleton b x ih =>
    rw [← List.append_assoc, Format.readDecimal_snoc, ih, Format.readDecimal_snoc, List.length_append, List.length_singleton, pow_succ]
    ring

set_option exponentiation.threshold 2000 in
/-- The bits of a double are those of its value. -/
theorem bits_spec (f : Double) : (Double.bits f).toNat = (if f.neg then 2 ^ 63 else 0) + f.mag := by
  unfold Double.bits
  rw [BitVec.toNat_ofNat]
  have := f.lt
  apply Nat.mod_eq_of_lt
  split <;> omega

theorem bits_finite {f : Double} (hf : f.Finite) : (Double.bits f).toNat / 2 ^ 52 % 2 ^ 11 ≠ 2047 := by
  rw [bits_spec]
  have h1 : f.mag < 2047 * 2 ^ 52 := hf
  split <;> omega

set_option exponentiation.threshold 2000 in
theorem bits_val (f : Double) : Format.doubleValue (Double.bits f) = f.val := by
  have hlt : f.mag < 2 ^ 63 := f.lt
  have h1 : ((Double.bits f).toNat / 2 ^ 63 = 1) ↔ f.neg = true := by
    rw [bits_spec]
    cases f.neg <;> simp <;> omega
  have h2 : (Double.bits f).toNat / 2 ^ 52 % 2 ^ 11 = f.mag / 2 ^ 52 := by
    rw [bits_spec]
    split <;> omega
  have h3 : (Double.bits f).toNat % 2 ^ 52 = f.mag % 2 ^ 52 := by
    rw [bits_spec]
    split <;> omega
  unfold Format.doubleValue Bin.val
  rw [h2, h3]
  congr 1
  · by_cases h : f.neg = true
    · rw [if_pos (h1.mpr h), if_pos h]
    · rw [if_neg (fun hc => h (h1.mp hc)), if_neg h]
  · rw [Bin.unit_eq]
    have hu : Bin.unitExp 52 11 = 1074 := rfl
    rw [hu]
    unfold units
    by_cases h : f.mag < 2 ^ 52
    · rw [if_pos (by omega), if_pos h, Nat.mod_eq_of_lt h, div_mul_eq_mul_div, mul_one_div, div_eq_div_iff (by positivity) (by positivity)]
      rw [mul_assoc, show (2 : ℚ) ^ (1074 : Nat) = 2 ^ (1074 : ℤ) from rfl, ← zpow_add₀ (by norm_num)]
      norm_num
    · have he : 1 ≤ f.mag / 2 ^ 52 := by omega
      rw [if_neg (by omega), if_neg h]
      generalize f.mag / 2 ^ 52 = e at he
      generalize f.mag % 2 ^ 52 = r
      obtain ⟨k, rfl⟩ : ∃ k, e = k + 1 := ⟨e - 1, by omega⟩
      have hz : (2 : ℚ) ^ (((k + 1 : Nat) : ℤ) - 1023) = 2 ^ k * (2 ^ 52 / 2 ^ 1074) := by
        rw [show ((k + 1 : Nat) : ℤ) - 1023 = (k : ℤ) + ((52 : Nat) : ℤ) - ((1074 : Nat) : ℤ) by push_cast; ring, zpow_sub₀ (by norm_num), zpow_add₀ (by norm_num),
          zpow_natCast, zpow_natCast, zpow_natCast, mul_div_assoc]
      rw [hz, Nat.add_sub_cancel]
      have hd : (2 : ℚ) ^ 1074 ≠ 0 := by positivity
      generalize (2 : ℚ) ^ 1074 = D at hd
      push_cast
      field_simp
      norm_num

/-! ## C104: writing numbers -/

/-- Integers and decimals are written exactly. -/
theorem C104_writes (a : BitVec 32) (b : BitVec 64) (d : Decimal) :
    (∃ t, Val.convert (P := go R) (.int32 a) .string = .ok (.string t) ∧ Fixed 0 t a.toInt) ∧
    (∃ t, Val.convert (P := go R) (.int64 b) .string = .ok (.string t) ∧ Fixed 0 t b.toInt) ∧
    ∃ t k, Val.convert (P := go R) (.decimal d) .string = .ok (.string t) ∧ Fixed k t d.val ∧ (k : Int) ≤ max 0 (-d.exp) := by
  refine ⟨⟨_, rfl, intStr_fixed _⟩, ⟨_, rfl, intStr_fixed _⟩, ?_⟩
  obtain ⟨k, hk, hf⟩ := str_fixed d
  exact ⟨_, k, rfl, hf, hk⟩

/-- A finite double is written with six decimal places, to the nearest such number. -/
theorem C104_writes_double (f : Double) (hf : f.Finite) :
    ∃ t y, Val.convert (P := go R) (.double f) .string = .ok (.string t) ∧ Fixed 6 t y ∧ |y - f.val| ≤ 1 / 2 / 10 ^ 6 := by
  have hb := bits_finite hf
  have hff := Format.formatFloat_finite (f := Double.bits f) hb 6
  have hv := Format.C93_value_partial (Double.bits f) hb 6
  rw [bits_val] at hv
  refine ⟨_, _, rfl, ?_, hv⟩
  have hsg : Sign (if Format.negBit (Double.bits f) then [45#8] else []) (Format.negBit (Double.bits f)) := by
    cases Format.negBit (Double.bits f)
    · exact .none
    · exact .minus
  refine Fixed.of hsg (Format.wholeDigits (Double.bits f) 6) (some (Format.lastDigits 6 (Format.scaled (Double.bits f) 6)))
    (Format.wholeDigits_digits _ _) (Format.lastDigits_digits _ _) ?_ ?_ ?_ ?_
  · have := decimal_ne_nil (Format.scaled (Double.bits f) 6 / 10 ^ 6)
    intro hc
    exact this (List.append_eq_nil_iff.mp hc).1
  · exact hff
  · exact (Format.lastDigits_length _ _).symm
  · rw [Format.readFixed_format hb, Option.getD_some, readDecimal_append, Format.lastDigits_length, Format.readDecimal_lastDigits]
    unfold Format.wholeDigits
    rw [readDecimal_decimal, Nat.div_add_mod' ]
    unfold signed
    cases Format.negBit (Double.bits f) <;> simp [neg_div]

/-- Written as text and read back, an Int64 is the same, and a decimal (of at most 1000000000 places) is the same number. -/
theorem C104_round_trip (b : BitVec 64) (d : Decimal) (hd : -1000000000 ≤ d.exp) :
    (Val.convert (P := go R) (.int64 b) .string >>= fun w => w.convert .int64) = .ok (.int64 b) ∧
    ∃ d' : Decimal, (Val.convert (P := go R) (.decimal d) .string >>= fun w => w.convert .decimal) = .ok (.decimal d') ∧ d'.val = d.val := by
  constructor
  · obtain ⟨d, h1, h2⟩ := (intStr_fixed b.toInt).parse (by decide)
    show Res.ok (Val.int64 (P := go R) (((Decimal.parse (Val.intStr b.toInt)).getD (Decimal.ofInt 0)).intPart)) = _
    rw [h1, Option.getD_some, intPart_eq, h2, Bin.truncRat, Rat.num_intCast, Rat.den_intCast]
    simp
  · obtain ⟨k, hk, hf⟩ := str_fixed d
    obtain ⟨⟨d', h1, h2⟩, _⟩ := C104_reads (R := R) (Numeral.fixed (bound := 99999) (by omega) hf)
    exact ⟨d', h1, h2⟩

theorem fixed_whole {k : Nat} {s : Str} {x : ℚ} (h : Fixed k s x) : ∃ m : Int, x = m / 10 ^ k := by
  cases h with
  | mk hs w p hw hp hne => exact ⟨_, rfl⟩

/-- Partial: a double with at most six decimal places comes back from its text. Missing: other doubles, see `C104_double_false`. -/
theorem C104_double_round_trip_partial (f : Double) (hf : f.Finite) (n : Int) (hn : f.val = n / 10 ^ 6) :
    ∃ g : Double, (Val.convert (P := go R) (.double f) .string >>= fun w => w.convert .double) = .ok (.double g) ∧ g.Finite ∧ g.val = f.val := by
  obtain ⟨t, y, ht, hy, hyf⟩ := C104_writes_double (R := R) f hf
  have hyx : y = f.val := by
    obtain ⟨m, hm⟩ := fixed_whole hy
    rw [hn] at hyf ⊢
    rw [hm] at hyf ⊢
    rw [← sub_div, abs_div, abs_of_pos (show (0 : ℚ) < 10 ^ 6 by norm_num), div_le_div_iff_of_pos_right (by norm_num), ← Int.cast_sub] at hyf
    have h1 : ((|m - n| : Int) : ℚ) < 1 := by
      rw [Int.cast_abs]
      linarith
    have h2 : |m - n| < 1 := by exact_mod_cast h1
    have h3 : m = n := by
      have := Int.abs_lt_one_iff.mp h2
      omega
    rw [h3]
  rw [hyx] at hy
  obtain ⟨g, hg, hgn⟩ := (C104_reads (R := R) (Numeral.fixed (bound := 99999) (by omega) hy)).2 (finite_le hf)
  refine ⟨g, ?_, hgn.1, ?_⟩
  · rw [ht]
    exact hg
  · exact nearest_exact hgn hf rfl

/-- The double nearest to 0.0000001 is written as 0.000000. -/
theorem C104_double_false : ∃ f : Double, f.Finite ∧ f.val ≠ 0 ∧
    Val.convert (P := go R) (.double f) .string = .ok (.string (lit "0.000000")) ∧
    (Val.convert (P := go R) (.double f) .string >>= fun w => w.convert .double) = .ok (.double (Bin.zero false)) := by
  have hs : ∀ f : Double, Val.convert (P := go R) (.double f) .string = .ok (.string (Format.formatFloat (Double.bits f) 6)) := fun _ => rfl
  have hp : ∀ s : Str, Val.convert (P := go R) (.string s) .double = .ok (.double (parseFloat R s).1) := fun _ => rfl
  have h0 : Numeral 99999 (lit "0.000000") false 0 := by
    refine .fixed (k := 6) (by norm_num) (Fixed.of .none [48#8] (some (List.replicate 6 48#8)) ?_ ?_ (by simp) (by decide) rfl ?_)
    · intro b hb
      rw [List.mem_singleton.mp hb]
      decide
    · intro b hb
      rw [(List.mem_replicate.mp hb).2]
      decide
    · rw [show readDecimal ([48#8] ++ Option.getD (some (List.replicate 6 48#8)) []) = 0 by decide]
      simp [signed]
  have hread : parseFloat R (lit "0.000000") = (Bin.zero false, true) := by
    obtain ⟨d, hd, hv⟩ := parse_numeral (h0.mono (by norm_num))
    unfold parseFloat
    rw [if_pos (plain_numeral h0), hd]
    dsimp only
    rw [hv, show (Text.sign (lit "0.000000")).1 = false by decide, Bin.ofRat_zero (by norm_num)]
    rfl
  have hw : Format.formatFloat (Double.bits (Bin.ofRat false (1 / 10000000))) 6 = lit "0.000000" := by decide +kernel
  refine ⟨Bin.ofRat false (1 / 10000000), by decide +kernel, by decide +kernel, ?_, ?_⟩
  · rw [hs, hw]
  · rw [hs, hw, Res.bind_ok, hp, hread]

/-! ## C105: literals -/

theorem readBase_ten (s : Str) : Parse.readBase 10 s = readDecimal s := rfl

/-- Digits without a leading zero denote the number they write, of whatever size: an Int32, Int64 or Decimal. -/
theorem C105_integer {s : Str} (hn : s ≠ []) (hz : s.head? ≠ some 48#8) (hd : Digits s) :
    ∃ v : Val (go R), Parse.literal (.integer s) = .ok v ∧ number v = some (readDecimal s : ℚ) ∧
      v.type = (if readDecimal s < 2 ^ 31 then .int32 else if readDecimal s < 2 ^ 63 then .int64 else .decimal) := by
  obtain ⟨h1, h2, _, h3⟩ := Parse.C71_integer_partial (P := go R) hn hz (fun b hb => ⟨(hd b hb).1, by have := (hd b hb).2; omega⟩)
  rw [readBase_ten] at h1 h2 h3
  by_cases h : readDecimal s < 2 ^ 31
  · refine ⟨_, h1 h, ?_, ?_⟩
    · show some (((BitVec.ofNat 32 (readDecimal s)).toInt : Int) : ℚ) = _
      rw [BitVec.toInt_eq_toNat_of_lt (by rw [BitVec.toNat_ofNat]; omega), BitVec.toNat_ofNat, Nat.mod_eq_of_lt (by omega)]
      simp
    · rw [if_pos h]; rfl
  · by_cases h' : readDecimal s < 2 ^ 63
    · refine ⟨_, h2 (by omega) h', ?_, ?_⟩
      · show some (((BitVec.ofNat 64 (readDecimal s)).toInt : Int) : ℚ) = _
        rw [BitVec.toInt_eq_toNat_of_lt (by rw [BitVec.toNat_ofNat]; omega), BitVec.toNat_ofNat, Nat.mod_eq_of_lt (by omega)]
        simp
      · rw [if_neg h, if_pos h']; rfl
    · have hf : Fixed 0 s (readDecimal s) :=
        Fixed.of .none s none hd (by intro b hb; cases hb) (by simpa using hn) (by simp [fraction]) rfl (by simp [signed])
      obtain ⟨d, hp, hv⟩ := hf.parse (by decide)
      refine ⟨_, h3 (by omega) d hp, ?_, ?_⟩
      · show some (Decimal.val d) = _
        rw [hv]
      · rw [if_neg h, if_neg h']; rfl

theorem fixed_no_exp {k : Nat} {s : Str} {x : ℚ} (h : Fixed k s x) : ¬ (Parse.ch 'E' ∈ s ∨ Parse.ch 'e' ∈ s) := by
  cases h with
  | @mk s neg hs w p hw hp hne =>
    have hm := (mantissa_spec w p hw hp hne).1
    have : ∀ b : Byte, isExp b = true → b ∉ s ++ w ++ fraction p := by
      intro b hb hmem
      rw [List.append_assoc] at hmem
      rcases List.mem_append.mp hmem with h | h
      · rcases hs.bytes b h with rfl | rfl <;> cases hb
      · have := hm b h
        rw [hb] at this
        cases this
    rintro (h | h)
    · exact this _ (by decide) h
    · exact this _ (by decide) h

theorem numeric_of {s : Str} {d : Decimal} (hp : Decimal.parse s = some d) : Parse.numericLiteral (P := go R) s = .decimal d := by
  unfold Parse.numericLiteral
  have : (go R).decParse s = some d := hp
  rw [this]

theorem fixed_literal {k : Nat} {s : Str} {x : ℚ} (h : Fixed k s x) (hk : k ≤ 1000000000) :
    ∃ d : Decimal, Parse.literal (P := go R) (.numeric s) = .ok (.decimal d) ∧ d.val = x := by
  obtain ⟨d, hp, hv⟩ := h.parse (by omega)
  refine ⟨d, ?_, hv⟩
  have hnum : Parse.numericLiteral (P := go R) s = .decimal d := by
    exact numeric_of hp
  unfold Parse.literal
  dsimp only
  rw [if_neg (fixed_no_exp h), hnum]

/-- A number with a point but no power of ten is the Decimal it writes. -/
theorem C105_decimal {s : Str} {x : ℚ} (h : Numeral 1000000000 s false x) :
    ∃ d : Decimal, Parse.literal (P := go R) (.numeric s) = .ok (.decimal d) ∧ d.val = x := by
  cases h with
  | fixed hk h => exact fixed_literal h hk

/-- One with a power of ten is the Double nearest to it; out of the range of Double it is the Decimal it writes. -/
theorem C105_power {s : Str} {x : ℚ} (h : Numeral 99999 s true x) :
    (∃ f : Double, Parse.literal (P := go R) (.numeric s) = .ok (.double f) ∧ Nearest f x) ∨
    (maxDouble < |x| ∧ ∃ d : Decimal, Parse.literal (P := go R) (.numeric s) = .ok (.decimal d) ∧ d.val = x) := by
  obtain ⟨d, hp, hv⟩ := parse_numeral (h.mono (by norm_num))
  have hmem : Parse.ch 'E' ∈ s ∨ Parse.ch 'e' ∈ s := by
    cases h with
    | power hk c hc ht e he hene hb h =>
      rcases hc with rfl | rfl
      · exact Or.inl (by simp [Parse.ch])
      · exact Or.inr (by simp [Parse.ch])
  have hlit : Parse.literal (P := go R) (.numeric s) =
      .ok (if (parseFloat R s).2 then .double (parseFloat R s).1 else Parse.numericLiteral s) := by
    unfold Parse.literal
    dsimp only
    rw [if_pos hmem]
  have hpf : parseFloat R s = (Bin.ofRat (Text.sign s).1 x, decide (Bin.ofRat (Text.sign s).1 x : Double).Finite) := by
    unfold parseFloat
    rw [if_pos (plain_numeral h), hp]
    dsimp only
    rw [hv]
  rw [hlit, hpf]
  by_cases hf : (Bin.ofRat (Text.sign s).1 x : Double).Finite
  · left
    refine ⟨_, by rw [decide_eq_true hf]; rfl, hf, fun g _ => ⟨Bin.ofRat_nearest (by norm_num) _ x hf g,
      fun hne he => Bin.ofRat_even (by norm_num) _ x hf g hne he⟩⟩
  · right
    refine ⟨?_, d, ?_, hv⟩
    · by_contra hc
      exact hf (nearest_ofRat _ (not_lt.mp hc)).1
    · rw [decide_eq_false hf]
      have hnum : Parse.numericLiteral (P := go R) s = .decimal d := by
        exact numeric_of hp
      dsimp only
      rw [if_neg (by simp), hnum]

/-- 12.50 -/
example : Fixed 2 (lit "12.50") (25 / 2) :=
  Fixed.of .none (lit "12") (some (lit "50")) (by unfold Digits; decide) (by unfold Digits; decide) (by decide) (by decide) rfl (by
    rw [show readDecimal (lit "12" ++ (some (lit "50")).getD []) = 1250 by decide,
      show ((some (lit "50")).getD []).length = 2 by decide]
    norm_num [signed])

/-- -2.5e-3 -/
example : Numeral 99999 (lit "-2.5e-3") true (-1 / 400) := by
  have h : Fixed 1 (lit "-2.5") (-5 / 2) :=
    Fixed.of .minus (lit "2") (some (lit "5")) (by unfold Digits; decide) (by unfold Digits; decide) (by decide) (by decide) rfl (by
      rw [show readDecimal (lit "2" ++ (some (lit "5")).getD []) = 25 by decide,
        show ((some (lit "5")).getD []).length = 1 by decide]
      norm_num [signed])
  have := Numeral.power (bound := 99999) (by norm_num) 101#8 (.inr rfl) .minus (lit "3") (by unfold Digits; decide) (by decide) (by decide) h
  rw [show readDecimal (lit "3") = 3 by decide] at this
  rw [show lit "-2.5e-3" = lit "-2.5" ++ 101#8 :: ([45#8] ++ lit "3") by decide,
    show (-1 / 400 : ℚ) = -5 / 2 * 10 ^ signed true 3 by rw [show signed true 3 = -3 by decide]; norm_num]
  exact this

end Verif.Lib
