import Verif.Format.Float
import Mathlib.Tactic.Linarith
import Mathlib.Tactic.FieldSimp
import Mathlib.Tactic.Positivity
import Mathlib.Algebra.Order.Field.Rat
import Mathlib.Data.Rat.Defs

/-!
# Formatting of floating-point numbers (C93)

Specification: `doubleValue` is the value IEEE 754 gives to 64 bits, `readFixed` reads a text of digits with a decimal point as the number
it denotes.
-/

namespace Verif.Format

/-- The value of a finite `float64` (IEEE 754 binary64). -/
def doubleValue (f : BitVec 64) : ℚ :=
  (if f.toNat / 2 ^ 63 = 1 then -1 else 1) *
    (if f.toNat / 2 ^ 52 % 2 ^ 11 = 0 then (f.toNat % 2 ^ 52 : Nat) / 2 ^ 52 * (2 : ℚ) ^ (-1022 : ℤ)
     else (1 + (f.toNat % 2 ^ 52 : Nat) / 2 ^ 52) * (2 : ℚ) ^ ((f.toNat / 2 ^ 52 % 2 ^ 11 : Nat) - 1023 : ℤ))

/-- The number denoted by an optional minus sign, digits, and digits after an optional point. -/
def readFixed (t : List Byte) : ℚ :=
  let (s, body) := match t with
    | b :: rest => if b = 45#8 then ((-1 : ℚ), rest) else (1, t)
    | [] => (1, [])
  let whole := body.takeWhile (· ≠ 46#8)
  let places := (body.dropWhile (· ≠ 46#8)).drop 1
  s * (readDecimal whole + readDecimal places / 10 ^ places.length)

/-! ## Rounding -/

theorem roundEven_near (num den : Nat) (hd : 0 < den) :
    2 * (roundEven num den * den) ≤ 2 * num + den ∧ 2 * num ≤ 2 * (roundEven num den * den) + den := by
  have h := Nat.div_add_mod num den
  have hr := Nat.mod_lt num hd
  unfold roundEven
  dsimp only
  have e1 : (num / den) * den = den * (num / den) := Nat.mul_comm _ _
  split
  · constructor <;> omega
  · split
    · have : (num / den + 1) * den = den * (num / den) + den := by ring
      constructor <;> omega
    · rcases Nat.mod_two_eq_zero_or_one (num / den) with h2 | h2
      · rw [h2]; simp only [Nat.add_zero]; constructor <;> omega
      · rw [h2]
        have : (num / den + 1) * den = den * (num / den) + den := by ring
        constructor <;> omega

theorem roundEven_tie (num den : Nat) (hd : 0 < den)
    (h : 2 * (roundEven num den * den) = 2 * num + den ∨ 2 * num = 2 * (roundEven num den * den) + den) :
    roundEven num den % 2 = 0 := by
  have h0 := Nat.div_add_mod num den
  have hr := Nat.mod_lt num hd
  have e1 : (num / den) * den = den * (num / den) := Nat.mul_comm _ _
  unfold roundEven at h ⊢
  dsimp only at h ⊢
  split at h
  · omega
  · split at h
    · have : (num / den + 1) * den = den * (num / den) + den := by ring
      omega
    · rename_i h1 h2
      rw [if_neg h1, if_neg h2]
      rcases Nat.mod_two_eq_zero_or_one (num / den) with h3 | h3 <;> omega

/-! ## Digits -/

theorem lastDigits_length (n v : Nat) : (lastDigits n v).length = n := by
  induction n generalizing v with
  | zero => rfl
  | succ n ih => simp [lastDigits, ih]

theorem readDecimal_snoc (l : List Byte) (b : Byte) : readDecimal (l ++ [b]) = readDecimal l * 10 + (b.toNat - 48) := by
  unfold readDecimal
  rw [List.foldl_append]
  rfl

theorem readDecimal_lastDigits (n v : Nat) : readDecimal (lastDigits n v) = v % 10 ^ n := by
  induction n generalizing v with
  | zero => simp [lastDigits, readDecimal, Nat.mod_one]
  | succ n ih =>
    have h : v % 10 ^ (n + 1) = v % 10 + 10 * (v / 10 % 10 ^ n) := by rw [pow_succ, Nat.mul_comm (10 ^ n) 10, Nat.mod_mul]
    rw [lastDigits, readDecimal_snoc, ih, BitVec.toNat_ofNat, h]
    omega

theorem lastDigits_digits (n v : Nat) : ∀ b ∈ lastDigits n v, 48 ≤ b.toNat ∧ b.toNat ≤ 57 := by
  induction n generalizing v with
  | zero => simp [lastDigits]
  | succ n ih =>
    intro b hb
    rw [lastDigits, List.mem_append, List.mem_singleton] at hb
    rcases hb with hb | rfl
    · exact ih _ b hb
    · rw [BitVec.toNat_ofNat]; omega

theorem digit_not {l : List Byte} (h : ∀ b ∈ l, 48 ≤ b.toNat ∧ b.toNat ≤ 57) {c : Byte} (hc : c.toNat < 48 ∨ 57 < c.toNat) : c ∉ l := by
  intro hm
  have := h c hm
  omega

/-! ## The text -/

theorem decimal_last (n : Nat) : ∃ l, decimal n = l ++ [BitVec.ofNat 8 (48 + n % 10)] := by
  rw [decimal.eq_def]
  split
  · exact ⟨[], by rw [Nat.mod_eq_of_lt (by assumption)]; rfl⟩
  · exact ⟨_, rfl⟩

theorem decimal_head (n : Nat) : (decimal n).head? = some 48#8 → decimal n = [48#8] := by
  induction n using Nat.strongRecOn with
  | ind n ih =>
    intro h
    rw [decimal.eq_def] at h ⊢
    split at h
    · rename_i hn
      rw [if_pos hn]
      simpa using h
    · rename_i hn
      exfalso
      have hne := decimal_ne_nil (n / 10)
      rw [List.head?_append_of_ne_nil _ hne] at h
      have h1 := ih _ (by omega) h
      have h2 := readDecimal_decimal (n / 10)
      rw [h1] at h2
      have : readDecimal [48#8] = 0 := by decide
      omega

/-- The digits before the point. -/
def wholeDigits (f : BitVec 64) (prec : Nat) : List Byte := decimal (scaled f prec / 10 ^ prec)

theorem wholeDigits_digits (f : BitVec 64) (prec : Nat) : ∀ b ∈ wholeDigits f prec, 48 ≤ b.toNat ∧ b.toNat ≤ 57 := decimal_digits _

theorem formatFloat_finite {f : BitVec 64} (hf : Finite f) (prec : Nat) : formatFloat f prec =
    (if negBit f then [45#8] else []) ++ wholeDigits f prec ++ (if prec = 0 then [] else 46#8 :: lastDigits prec (scaled f prec)) := by
  unfold formatFloat
  rw [if_neg hf]
  rfl

theorem takeWhile_stop {p : Byte → Bool} {a : List Byte} {c : Byte} {r : List Byte} (ha : ∀ b ∈ a, p b = true) (hc : p c = false) :
    (a ++ c :: r).takeWhile p = a ∧ (a ++ c :: r).dropWhile p = c :: r := by
  induction a with
  | nil => simp [hc]
  | cons b a ih =>
    have := ih (fun x hx => ha x (by simp [hx]))
    simp [ha b (by simp), this]

theorem takeWhile_all {p : Byte → Bool} {a : List Byte} (ha : ∀ b ∈ a, p b = true) : a.takeWhile p = a ∧ a.dropWhile p = [] := by
  induction a with
  | nil => simp
  | cons b a ih =>
    have := ih (fun x hx => ha x (by simp [hx]))
    simp [ha b (by simp), this]

theorem readFixed_form (neg : Bool) (whole : List Byte) (hne : whole ≠ []) (hw : ∀ b ∈ whole, 48 ≤ b.toNat ∧ b.toNat ≤ 57) (places : List Byte) :
    readFixed ((if neg then [45#8] else []) ++ whole ++ 46#8 :: places) =
      (if neg then -1 else 1) * (readDecimal whole + readDecimal places / 10 ^ places.length) ∧
    readFixed ((if neg then [45#8] else []) ++ whole) = (if neg then -1 else 1) * (readDecimal whole : ℚ) := by
  have hp : ∀ b ∈ whole, (decide (b ≠ 46#8)) = true := by
    intro b hb
    rw [decide_eq_true_iff]
    rintro rfl
    have := hw _ hb
    simp at this
  obtain ⟨t1, t2⟩ := takeWhile_stop (r := places) hp (c := 46#8) (by simp)
  obtain ⟨u1, u2⟩ := takeWhile_all hp
  cases neg with
  | true =>
    constructor
    · show readFixed (45#8 :: (whole ++ 46#8 :: places)) = _
      unfold readFixed
      simp only [if_true]
      rw [t1, t2]
      simp
    · show readFixed (45#8 :: whole) = _
      unfold readFixed
      simp only [if_true]
      rw [u1, u2]
      simp [readDecimal]
  | false =>
    cases whole with
    | nil => exact absurd rfl hne
    | cons b whole =>
      have hb : b ≠ 45#8 := by
        rintro rfl
        have := hw _ (List.mem_cons_self ..)
        simp at this
      constructor
      · show readFixed (b :: (whole ++ 46#8 :: places)) = _
        unfold readFixed
        simp only [if_neg hb]
        rw [List.cons_append] at t1 t2
        rw [t1, t2]
        simp
      · show readFixed (b :: whole) = _
        unfold readFixed
        simp only [if_neg hb]
        rw [u1, u2]
        simp [readDecimal]

theorem readFixed_format {f : BitVec 64} (hf : Finite f) (prec : Nat) :
    readFixed (formatFloat f prec) = (if negBit f then -1 else 1) * ((scaled f prec : ℚ) / 10 ^ prec) := by
  rw [formatFloat_finite hf]
  have hne : wholeDigits f prec ≠ [] := decimal_ne_nil _
  obtain ⟨h1, h2⟩ := readFixed_form (negBit f) _ hne (wholeDigits_digits f prec) (lastDigits prec (scaled f prec))
  by_cases hp : prec = 0
  · subst hp
    rw [if_pos rfl, List.append_nil, h2]
    simp [wholeDigits, readDecimal_decimal]
  · rw [if_neg hp, h1, readDecimal_lastDigits, lastDigits_length]
    congr 1
    rw [wholeDigits, readDecimal_decimal]
    have h := Nat.div_add_mod (scaled f prec) (10 ^ prec)
    have hq : (scaled f prec : ℚ) = 10 ^ prec * ((scaled f prec / 10 ^ prec : Nat) : ℚ) + ((scaled f prec % 10 ^ prec : Nat) : ℚ) := by
      exact_mod_cast h.symm
    rw [hq]
    have : (10 : ℚ) ^ prec ≠ 0 := by positivity
    field_simp

set_option exponentiation.threshold 2000 in
theorem doubleValue_eq (f : BitVec 64) :
    doubleValue f = (if negBit f then -1 else 1) * ((mantissa f * 2 ^ scale f : Nat) / 2 ^ 1075 : ℚ) := by
  have hs : (f.toNat / 2 ^ 63 = 1) ↔ negBit f = true := by
    unfold negBit BitVec.getLsbD
    rw [Nat.testBit_eq_decide_div_mod_eq]
    have := f.isLt
    rw [decide_eq_true_iff]
    omega
  unfold doubleValue
  congr 1
  · simp only [hs]
  · unfold mantissa scale expBits fracBits
    split
    · push_cast
      rw [show (2 : ℚ) ^ (-1022 : ℤ) = 2 ^ 53 / 2 ^ 1075 from by
        rw [zpow_neg, show (1022 : ℤ) = ((1022 : Nat) : ℤ) from rfl, zpow_natCast, eq_div_iff (by positivity), show (2 : ℚ) ^ 1075 = 2 ^ 1022 * 2 ^ 53 from (pow_add 2 1022 53), ← mul_assoc,
          inv_mul_cancel₀ (by positivity), one_mul]]
      ring
    · generalize f.toNat / 2 ^ 52 % 2 ^ 11 = e
      push_cast
      rw [show ((e : ℤ) - 1023) = ((e + 52 : Nat) : ℤ) - ((1075 : Nat) : ℤ) from by push_cast; ring, zpow_sub₀ (by norm_num), zpow_natCast, zpow_natCast, pow_add]
      have : (2 : ℚ) ^ 1075 ≠ 0 := by positivity
      have h52 : (2 : ℚ) ^ 52 ≠ 0 := by positivity
      field_simp
      norm_num

/-- C93, the number: the text of a finite number reads back as a number at most half a unit of the last decimal place away from its exact value. -/
theorem C93_value_partial (f : BitVec 64) (hf : f.toNat / 2 ^ 52 % 2 ^ 11 ≠ 2047) (prec : Nat) :
    |readFixed (formatFloat f prec) - doubleValue f| ≤ 1 / 2 / 10 ^ prec := by
  rw [readFixed_format hf, doubleValue_eq]
  obtain ⟨h1, h2⟩ := roundEven_near (mantissa f * 2 ^ scale f * 10 ^ prec) (2 ^ 1075) (by positivity)
  rw [← scaled] at h1 h2
  generalize mantissa f * 2 ^ scale f = m at *
  generalize scaled f prec = n at *
  have hd : (0 : ℚ) < 2 ^ 1075 := by positivity
  have ht : (0 : ℚ) < 10 ^ prec := by positivity
  generalize hD : (2 : ℚ) ^ 1075 = D at *
  have k1 : 2 * ((n : ℚ) * D) ≤ 2 * (m * 10 ^ prec) + D := by rw [← hD]; exact_mod_cast h1
  have k2 : 2 * ((m : ℚ) * 10 ^ prec) ≤ 2 * (n * D) + D := by rw [← hD]; exact_mod_cast h2
  have key : |(n : ℚ) / 10 ^ prec - m / D| ≤ 1 / 2 / 10 ^ prec := by
    have e : (n : ℚ) / 10 ^ prec - m / D = (n * D - m * 10 ^ prec) / (10 ^ prec * D) := by
      field_simp
    rw [e, abs_div, abs_of_pos (mul_pos ht hd), div_le_div_iff₀ (mul_pos ht hd) ht]
    have : |(n : ℚ) * D - m * 10 ^ prec| ≤ D / 2 := by
      rw [abs_le]
      constructor <;> linarith
    calc |(n : ℚ) * D - m * 10 ^ prec| * 10 ^ prec ≤ D / 2 * 10 ^ prec := mul_le_mul_of_nonneg_right this ht.le
      _ = 1 / 2 * (10 ^ prec * D) := by ring
  have : (if negBit f then (-1 : ℚ) else 1) * (n / 10 ^ prec) - (if negBit f then -1 else 1) * (m / D) =
      (if negBit f then -1 else 1) * (n / 10 ^ prec - m / D) := by ring
  rw [this, abs_mul]
  cases negBit f <;> simpa using key

set_option exponentiation.threshold 2000 in
/-- C93, halves: a value exactly between two texts gets the one whose last digit is even. -/
theorem C93_tie (f : BitVec 64) (hf : f.toNat / 2 ^ 52 % 2 ^ 11 ≠ 2047) (prec : Nat)
    (h : |readFixed (formatFloat f prec) - doubleValue f| = 1 / 2 / 10 ^ prec) :
    ∃ b, (formatFloat f prec).getLast? = some b ∧ b.toNat % 2 = 0 := by
  have heven : scaled f prec % 2 = 0 := by
    rw [readFixed_format hf, doubleValue_eq] at h
    apply roundEven_tie _ _ (by positivity)
    rw [← scaled]
    generalize mantissa f * 2 ^ scale f = m at *
    generalize scaled f prec = n at *
    have hd : (0 : ℚ) < 2 ^ 1075 := by positivity
    have ht : (0 : ℚ) < 10 ^ prec := by positivity
    generalize hD : (2 : ℚ) ^ 1075 = D at *
    have e : (if negBit f then (-1 : ℚ) else 1) * (n / 10 ^ prec) - (if negBit f then -1 else 1) * (m / D) =
        (if negBit f then -1 else 1) * ((n * D - m * 10 ^ prec) / (10 ^ prec * D)) := by
      field_simp
    have h' : |((n : ℚ) * D - m * 10 ^ prec) / (10 ^ prec * D)| = 1 / 2 / 10 ^ prec := by
      rw [e, abs_mul] at h
      cases hn : negBit f <;> simpa [hn] using h
    rw [abs_div, abs_of_pos (mul_pos ht hd), div_eq_div_iff (mul_pos ht hd).ne' ht.ne'] at h'
    have h2 : |(n : ℚ) * D - m * 10 ^ prec| = D / 2 := by
      have := mul_right_cancel₀ ht.ne' (h'.trans (show 1 / 2 * (10 ^ prec * D) = D / 2 * 10 ^ prec by ring))
      exact this
    rcases (abs_eq (by positivity)).mp h2 with h3 | h3
    · left
      have : 2 * ((n : ℚ) * 2 ^ 1075) = 2 * (m * 10 ^ prec) + 2 ^ 1075 := by rw [hD]; linarith
      exact_mod_cast this
    · right
      have : 2 * ((m : ℚ) * 10 ^ prec) = 2 * (n * 2 ^ 1075) + 2 ^ 1075 := by rw [hD]; linarith
      exact_mod_cast this
  rw [formatFloat_finite hf]
  by_cases hp : prec = 0
  · subst hp
    obtain ⟨l, hl⟩ := decimal_last (scaled f 0)
    rw [if_pos rfl, List.append_nil, wholeDigits, pow_zero, Nat.div_one, hl, ← List.append_assoc]
    refine ⟨_, List.getLast?_concat, ?_⟩
    rw [BitVec.toNat_ofNat]
    omega
  · rw [if_neg hp]
    obtain ⟨k, rfl⟩ := Nat.exists_eq_succ_of_ne_zero hp
    rw [lastDigits, ← List.cons_append, ← List.append_assoc]
    refine ⟨_, List.getLast?_concat, ?_⟩
    rw [BitVec.toNat_ofNat]
    omega

/-- C93, exactly: a value that has no more than `prec` decimal places is written exactly. -/
theorem C93_exact (f : BitVec 64) (hf : f.toNat / 2 ^ 52 % 2 ^ 11 ≠ 2047) (prec : Nat) (n : ℤ) (h : doubleValue f = n / 10 ^ prec) :
    readFixed (formatFloat f prec) = doubleValue f := by
  have hv := C93_value_partial f hf prec
  have ht : (0 : ℚ) < 10 ^ prec := by positivity
  obtain ⟨m, hm⟩ : ∃ m : ℤ, readFixed (formatFloat f prec) = m / 10 ^ prec := by
    rw [readFixed_format hf]
    cases negBit f
    · exact ⟨scaled f prec, by simp⟩
    · exact ⟨-(scaled f prec), by push_cast; simp; ring⟩
  rw [h, hm] at hv ⊢
  rw [← sub_div, abs_div, abs_of_pos ht, div_le_div_iff_of_pos_right ht] at hv
  have h1 : |m - n| < 1 := by
    have : |(m : ℚ) - n| < 1 := lt_of_le_of_lt hv (by norm_num)
    exact_mod_cast this
  have : m = n := by
    have := Int.abs_lt_one_iff.mp h1
    omega
  rw [this]

/-- C93, shape: a minus sign exactly for a set sign bit, digits without needless zeros in front, and `prec` digits after the point. -/
theorem C93_shape (f : BitVec 64) (hf : f.toNat / 2 ^ 52 % 2 ^ 11 ≠ 2047) (prec : Nat) : ∃ whole places : List Byte,
    formatFloat f prec = (if f.toNat / 2 ^ 63 = 1 then [45#8] else []) ++ whole ++ (if prec = 0 then [] else 46#8 :: places) ∧
    (∀ b ∈ whole ++ places, 48 ≤ b.toNat ∧ b.toNat ≤ 57) ∧ places.length = prec ∧ whole ≠ [] ∧
    (whole.head? = some 48#8 → whole = [48#8]) := by
  have hs : (f.toNat / 2 ^ 63 = 1) ↔ negBit f = true := by
    unfold negBit BitVec.getLsbD
    rw [Nat.testBit_eq_decide_div_mod_eq]
    have := f.isLt
    rw [decide_eq_true_iff]
    omega
  refine ⟨wholeDigits f prec, lastDigits prec (scaled f prec), ?_, ?_, lastDigits_length _ _, decimal_ne_nil _, decimal_head _⟩
  · rw [formatFloat_finite hf]
    simp only [hs]
  · intro b hb
    rcases List.mem_append.mp hb with hb | hb
    · exact decimal_digits _ b hb
    · exact lastDigits_digits _ _ b hb

/-! ## Grouping -/

theorem replaceFirst_mid (old new : Byte) (a r : List Byte) (h : old ∉ a) : replaceFirst old new (a ++ old :: r) = a ++ new :: r := by
  induction a with
  | nil => simp [replaceFirst]
  | cons b a ih =>
    rw [List.cons_append, replaceFirst, if_neg (by rintro rfl; simp at h), ih (fun hm => h (by simp [hm]))]
    rfl

theorem replaceFirst_none (old new : Byte) (a : List Byte) (h : old ∉ a) : replaceFirst old new a = a := by
  induction a with
  | nil => rfl
  | cons b a ih => rw [replaceFirst, if_neg (by rintro rfl; simp at h), ih (fun hm => h (by simp [hm]))]

set_option exponentiation.threshold 2000 in
theorem scaled_zero {f : BitVec 64} (h1 : expBits f = 0) (h2 : fracBits f = 0) (prec : Nat) : scaled f prec = 0 := by
  unfold scaled mantissa
  rw [if_pos h1, h2]
  unfold roundEven
  simp

/-- C93, grouped: for every finite number the formatter gives the text above with the decimal symbol for the point and the digits before it
grouped by three. The decimal symbol may be any byte but a digit or the minus sign, the group symbol any byte but a digit. -/
theorem C93_grouped (f : BitVec 64) (hf : f.toNat / 2 ^ 52 % 2 ^ 11 ≠ 2047) (prec : Nat) (decSymbol group : Byte)
    (hd : (decSymbol.toNat < 48 ∨ 57 < decSymbol.toNat) ∧ decSymbol ≠ 45#8) (hg : group.toNat < 48 ∨ 57 < group.toNat) :
    ∃ sign whole places text : List Byte,
      formatFloat f prec = sign ++ whole ++ (if prec = 0 then [] else 46#8 :: places) ∧
      (sign = [] ∨ sign = [45#8]) ∧ (∀ b ∈ whole ++ places, 48 ≤ b.toNat ∧ b.toNat ≤ 57) ∧ IsGrouped group whole text ∧
      floatWith f prec decSymbol group = .ok (sign ++ text ++ (if prec = 0 then [] else decSymbol :: places)) := by
  have hff := formatFloat_finite hf prec
  have hwd := wholeDigits_digits f prec
  have hwne : wholeDigits f prec ≠ [] := decimal_ne_nil _
  have hpd := lastDigits_digits prec (scaled f prec)
  refine ⟨if negBit f then [45#8] else [], wholeDigits f prec, lastDigits prec (scaled f prec),
    (ins group 0 (wholeDigits f prec).reverse).reverse, hff, by cases negBit f <;> simp, ?_,
    ins_isGrouped group _ (digit_not hwd hg) hwne, ?_⟩
  · intro b hb
    rcases List.mem_append.mp hb with hb | hb
    · exact hwd b hb
    · exact hpd b hb
  generalize hs : (if negBit f then [45#8] else [] : List Byte) = sign at *
  have hdot : (46#8 : Byte) ∉ sign ++ wholeDigits f prec := by
    intro h
    rcases List.mem_append.mp h with h | h
    · rw [← hs] at h
      cases hn : negBit f <;> simp [hn] at h
    · exact digit_not hwd (Or.inl (by decide)) h
  have hdec : decSymbol ∉ sign ++ wholeDigits f prec := by
    intro h
    rcases List.mem_append.mp h with h | h
    · rw [← hs] at h
      cases hn : negBit f <;> simp [hn] at h
      exact hd.2 h
    · exact digit_not hwd hd.1 h
  have hdec2 : decSymbol ∉ lastDigits prec (scaled f prec) := digit_not hpd hd.1
  -- the text with the decimal symbol
  have e1 : (if decSymbol ≠ 46#8 then replaceFirst 46#8 decSymbol (formatFloat f prec) else formatFloat f prec) =
      sign ++ wholeDigits f prec ++ (if prec = 0 then [] else decSymbol :: lastDigits prec (scaled f prec)) := by
    rw [hff]
    by_cases hp : prec = 0
    · simp only [hp, if_true, List.append_nil] at *
      rw [replaceFirst_none _ _ _ hdot]
      simp
    · rw [if_neg hp, if_neg hp, replaceFirst_mid _ _ _ _ hdot]
      by_cases hz : decSymbol = 46#8
      · simp [hz]
      · rw [if_pos hz]
  have e2 : cutFraction decSymbol (sign ++ wholeDigits f prec ++ (if prec = 0 then [] else decSymbol :: lastDigits prec (scaled f prec))) =
      (sign ++ wholeDigits f prec, if prec = 0 then [] else decSymbol :: lastDigits prec (scaled f prec)) := by
    unfold cutFraction
    by_cases hp : prec = 0
    · simp only [hp, if_true, List.append_nil] at *
      rw [Text.split_clean_eq hdec]
    · simp only [if_neg hp]
      rw [Text.split_append, Text.split_clean_eq hdec, Text.split_clean_eq hdec2]
      rfl
  unfold floatWith
  dsimp only
  rw [e1, e2]
  dsimp only
  generalize hw : wholeDigits f prec = w at *
  by_cases hneg : isNegative f = true
  · have hn : negBit f = true := by unfold isNegative at hneg; simp only [Bool.and_eq_true] at hneg; exact hneg.1.1
    rw [if_pos hneg, if_pos hneg]
    rw [hn, if_pos rfl] at hs
    subst hs
    simp only [List.cons_append, List.nil_append, List.length_cons, Nat.add_sub_cancel]
    have e : List.replicate (w.length + 1 + (w.length - 1) / 3) 0#8
        = [] ++ 0#8 :: List.replicate (w.length + (w.length - 1) / 3) 0#8 := by
      rw [List.nil_append, ← List.replicate_succ]
      congr 1
      omega
    rw [e, setAt_mid _ _ _ _ 1 rfl, Res.bind_ok]
    have := formatNumber_eq w [45#8] (List.replicate (w.length + (w.length - 1) / 3) 0#8) group hwne (by simp)
    rw [List.nil_append, ← List.singleton_append, this, Res.bind_ok]
    simp
  · rw [if_neg hneg, if_neg hneg]
    cases hn : negBit f with
    | false =>
      rw [hn] at hs
      simp only [Bool.false_eq_true, if_false] at hs
      subst hs
      have := formatNumber_eq w [] (List.replicate (w.length + (w.length - 1) / 3) 0#8) group hwne (by simp)
      rw [List.nil_append] at this
      rw [List.nil_append, this, Res.bind_ok]
    | true =>
      rw [hn, if_pos rfl] at hs
      subst hs
      have hz : expBits f = 0 ∧ fracBits f = 0 := by
        unfold isNegative at hneg
        have hf' : expBits f ≠ 2047 := hf
        simpa [hn, hf'] using hneg
      have hw0 : w = [48#8] := by
        rw [← hw, wholeDigits, scaled_zero hz.1 hz.2]
        simp [decimal]
      subst hw0
      simp [formatNumber, formatLoop, setAt, ins]

/-- What the library writes for plus infinity gets a separator: `+,Inf`. -/
theorem C93_infinity_false : float 0x7FF0000000000000 2 = .ok [43#8, 44#8, 73#8, 110#8, 102#8] := by decide +kernel

/-- Minus infinity and NaN are left alone. -/
theorem C93_no_number (f : BitVec 64) (prec : Nat) :
    (f = 0xFFF0000000000000 → float f prec = .ok [45#8, 73#8, 110#8, 102#8]) ∧
    (f.toNat / 2 ^ 52 % 2 ^ 11 = 2047 ∧ f.toNat % 2 ^ 52 ≠ 0 → float f prec = .ok [78#8, 97#8, 78#8]) := by
  constructor
  · rintro rfl
    have h : formatFloat 0xFFF0000000000000 prec = [45#8, 73#8, 110#8, 102#8] := by
      unfold formatFloat
      rw [if_pos (by decide), if_neg (by decide), if_pos (by decide)]
    unfold float floatWith
    rw [h]
    decide
  · rintro ⟨h1, h2⟩
    have h : formatFloat f prec = [78#8, 97#8, 78#8] := by
      unfold formatFloat expBits fracBits
      rw [if_pos h1, if_pos h2]
    have hn : isNegative f = false := by
      have h1' : expBits f = 2047 := h1
      have h2' : fracBits f ≠ 0 := h2
      simp [isNegative, h1', h2']
    unfold float floatWith
    rw [h, hn]
    decide

/-- -123456.79 to three places, and 2.5 to none: half to even. -/
example : ((0xC0FE240CA3D70A3D : BitVec 64).toNat / 2 ^ 52 % 2 ^ 11 ≠ 2047) ∧
    float 0xC0FE240CA3D70A3D 3 = .ok ("-123,456.790".toList.map fun c => BitVec.ofNat 8 c.toNat) ∧
    float 0x4004000000000000 0 = .ok [50#8] := by decide +kernel

theorem doubleValue_five_halves : doubleValue 0x4004000000000000 = 5 / 2 := by
  unfold doubleValue
  rw [show (0x4004000000000000 : BitVec 64).toNat = 0x4004000000000000 from rfl]
  norm_num

/-- 2.5 lies halfway between the texts without decimals, and is a text with one. -/
example : |readFixed (formatFloat 0x4004000000000000 0) - doubleValue 0x4004000000000000| = 1 / 2 / 10 ^ 0 ∧
    doubleValue 0x4004000000000000 = (25 : ℤ) / 10 ^ 1 := by
  rw [show formatFloat 0x4004000000000000 0 = [50#8] by decide +kernel, doubleValue_five_halves]
  constructor
  · rw [show readFixed [50#8] = 2 by simp [readFixed, readDecimal]]
    norm_num [abs_of_neg]
  · norm_num

end Verif.Format
