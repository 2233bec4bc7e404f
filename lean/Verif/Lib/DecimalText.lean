import Verif.Lib.DecimalWhole

/-!
# The text of decimals
-/

namespace Verif.Lib.Decimal

open Format (decimal readDecimal decimal_ne_nil decimal_digits readDecimal_decimal)

/-- Decimal digits only. -/
def Digits (l : List Byte) : Prop := ∀ b ∈ l, 48 ≤ b.toNat ∧ b.toNat ≤ 57

theorem findIdx_mid (p : Byte → Bool) (A : List Byte) (b : Byte) (B : List Byte) (hA : ∀ x ∈ A, p x = false) (hb : p b = true) :
    (A ++ b :: B).findIdx? p = some A.length := by
  induction A with
  | nil =>
    rw [List.nil_append, List.findIdx?_cons, hb]
    rfl
  | cons a A ih =>
    have ha := hA a (by simp)
    have := ih (fun x hx => hA x (by simp [hx]))
    rw [List.cons_append, List.findIdx?_cons, ha]
    simp [this]

theorem findIdx_none (p : Byte → Bool) (A : List Byte) (hA : ∀ x ∈ A, p x = false) : A.findIdx? p = none := by
  rw [List.findIdx?_eq_none_iff]
  exact hA

/-- A sign: nothing, plus or minus. -/
inductive Sign : List Byte → Bool → Prop
  | none : Sign [] false
  | plus : Sign [43#8] false
  | minus : Sign [45#8] true

/-- A number with its sign. -/
def signed (neg : Bool) (n : Nat) : Int := if neg then -(n : Int) else n

theorem Digits.not {l : List Byte} (h : Digits l) (b : Byte) (hb : b.toNat < 48 ∨ 57 < b.toNat) : b ∉ l := by
  intro hm
  have := h b hm
  omega

theorem Digits.append {a b : List Byte} (ha : Digits a) (hb : Digits b) : Digits (a ++ b) := by
  intro x hx
  rcases List.mem_append.mp hx with h | h
  · exact ha x h
  · exact hb x h

theorem sign_digits {s : List Byte} {neg : Bool} (hs : Sign s neg) (l : List Byte) (hl : Digits l) : Text.sign (s ++ l) = (neg, l) := by
  cases hs with
  | none =>
    cases l with
    | nil => rfl
    | cons b t =>
      have hb := hl b (by simp)
      show (if b = 45#8 then (true, t) else if b = 43#8 then (false, t) else (false, b :: t)) = _
      rw [if_neg (by intro h; subst h; exact absurd hb (by decide)), if_neg (by intro h; subst h; exact absurd hb (by decide))]
  | plus => rfl
  | minus => rfl

theorem readInt_digits {s : List Byte} {neg : Bool} (hs : Sign s neg) (l : List Byte) (hl : Digits l) (hne : l ≠ []) :
    readInt (s ++ l) = some (signed neg (readDecimal l)) := by
  unfold readInt
  rw [sign_digits hs l hl]
  dsimp only
  rw [if_neg (by
    rintro (h | h)
    · exact hne h
    · exact h hl)]
  unfold signed
  cases neg <;> rfl

theorem Sign.bytes {s : List Byte} {neg : Bool} (hs : Sign s neg) : ∀ b ∈ s, b = 43#8 ∨ b = 45#8 := by
  cases hs <;> simp

/-- What the text of a number is read as: an optional sign, digits, and digits after an optional point. -/
theorem parse_plain {s : List Byte} {neg : Bool} (hs : Sign s neg) (w p : List Byte) (hw : Digits w) (hp : Digits p) (hne : w ++ p ≠ [])
    (hlen : p.length ≤ 2147483648) :
    parse (s ++ w ++ 46#8 :: p) = some ⟨signed neg (readDecimal (w ++ p)), -(p.length : Int)⟩ ∧
      (p = [] → parse (s ++ w) = some ⟨signed neg (readDecimal w), 0⟩) := by
  have he : ∀ x, (x ∈ s ∨ x ∈ w ∨ x = 46#8 ∨ x ∈ p) → decide (x = 69#8 ∨ x = 101#8) = false := by
    intro x hx
    rw [decide_eq_false_iff_not]
    rintro (rfl | rfl)
    · rcases hx with h | h | h | h
      · rcases hs.bytes _ h with h | h <;> cases h
      · exact absurd (hw _ h) (by decide)
      · cases h
      · exact absurd (hp _ h) (by decide)
    · rcases hx with h | h | h | h
      · rcases hs.bytes _ h with h | h <;> cases h
      · exact absurd (hw _ h) (by decide)
      · cases h
      · exact absurd (hp _ h) (by decide)
  have hpt : ∀ x ∈ s ++ w, decide (x = 46#8) = false := by
    intro x hx
    rw [decide_eq_false_iff_not]
    rintro rfl
    rcases List.mem_append.mp hx with h | h
    · rcases hs.bytes _ h with h | h <;> cases h
    · exact absurd (hw _ h) (by decide)
  constructor
  · have h1 : cutExponent (s ++ w ++ 46#8 :: p) = some (s ++ w ++ 46#8 :: p, 0) := by
      unfold cutExponent
      rw [findIdx_none _ _ (fun x hx => he x (by simpa [or_assoc] using hx))]
    have h2 : cutPoint (s ++ w ++ 46#8 :: p) = some (s ++ w ++ p, p.length) := by
      unfold cutPoint
      rw [findIdx_mid _ (s ++ w) 46#8 p hpt (by decide)]
      have e1 : (s ++ w ++ 46#8 :: p).drop ((s ++ w).length + 1) = p := by
        rw [← List.drop_drop, List.drop_left]
        rfl
      dsimp only
      rw [e1, List.take_left, if_neg (hp.not _ (by decide))]
    unfold parse
    rw [h1]
    dsimp only [bind, Option.bind]
    rw [h2]
    dsimp only [bind, Option.bind]
    rw [List.append_assoc, readInt_digits hs (w ++ p) (hw.append hp) hne]
    dsimp only [bind, Option.bind]
    rw [if_neg (by omega), Int.zero_sub]
  · rintro rfl
    have h1 : cutExponent (s ++ w) = some (s ++ w, 0) := by
      unfold cutExponent
      rw [findIdx_none _ _ (fun x hx => he x (by
        rcases List.mem_append.mp hx with h | h
        · exact Or.inl h
        · exact Or.inr (Or.inl h)))]
    have h2 : cutPoint (s ++ w) = some (s ++ w, 0) := by
      unfold cutPoint
      rw [findIdx_none _ _ hpt]
    unfold parse
    rw [h1]
    dsimp only [bind, Option.bind]
    rw [h2]
    dsimp only [bind, Option.bind]
    rw [readInt_digits hs w hw (by simpa using hne)]
    rfl

/-- The same with an exponent behind. -/
theorem parse_exponent {s t : List Byte} {neg eneg : Bool} (hs : Sign s neg) (ht : Sign t eneg) (w p x : List Byte) (hw : Digits w)
    (hp : Digits p) (hx : Digits x) (hne : w ++ p ≠ []) (hxne : x ≠ []) (c : Byte) (hc : c = 69#8 ∨ c = 101#8) (point : Bool)
    (hpt : point = false → p = []) (h1 : -2147483648 ≤ signed eneg (readDecimal x)) (h2 : signed eneg (readDecimal x) ≤ 2147483647)
    (h3 : -2147483648 ≤ signed eneg (readDecimal x) - p.length) :
    parse (s ++ w ++ (if point then 46#8 :: p else []) ++ c :: (t ++ x)) =
      some ⟨signed neg (readDecimal (w ++ p)), signed eneg (readDecimal x) - p.length⟩ := by
  obtain ⟨body, hbody⟩ : ∃ b, b = s ++ w ++ (if point then 46#8 :: p else []) := ⟨_, rfl⟩
  have he : ∀ x ∈ body, decide (x = 69#8 ∨ x = 101#8) = false := by
    intro x hx
    rw [hbody] at hx
    rw [decide_eq_false_iff_not]
    have hx' : x ∈ s ∨ x ∈ w ∨ x = 46#8 ∨ x ∈ p := by
      rcases List.mem_append.mp hx with h | h
      · rcases List.mem_append.mp h with h | h
        · exact Or.inl h
        · exact Or.inr (Or.inl h)
      · split at h
        · rcases List.mem_cons.mp h with h | h
          · exact Or.inr (Or.inr (Or.inl h))
          · exact Or.inr (Or.inr (Or.inr h))
        · cases h
    rintro (rfl | rfl)
    · rcases hx' with h | h | h | h
      · rcases hs.bytes _ h with h | h <;> cases h
      · exact absurd (hw _ h) (by decide)
      · cases h
      · exact absurd (hp _ h) (by decide)
    · rcases hx' with h | h | h | h
      · rcases hs.bytes _ h with h | h <;> cases h
      · exact absurd (hw _ h) (by decide)
      · cases h
      · exact absurd (hp _ h) (by decide)
  have hcut : cutExponent (body ++ c :: (t ++ x)) = some (body, signed eneg (readDecimal x)) := by
    unfold cutExponent
    rw [findIdx_mid _ body c (t ++ x) he (by simpa using hc)]
    have e1 : (body ++ c :: (t ++ x)).drop (body.length + 1) = t ++ x := by
      rw [← List.drop_drop, List.drop_left]
      rfl
    dsimp only
    rw [e1, readInt_digits ht x hx hxne]
    dsimp only
    rw [if_neg (by omega), List.take_left]
  have hpoint : cutPoint body = some (s ++ w ++ p, p.length) := by
    have hno : ∀ x ∈ s ++ w, decide (x = 46#8) = false := by
      intro x hx
      rw [decide_eq_false_iff_not]
      rintro rfl
      rcases List.mem_append.mp hx with h | h
      · rcases hs.bytes _ h with h | h <;> cases h
      · exact absurd (hw _ h) (by decide)
    rw [hbody]
    unfold cutPoint
    cases point with
    | true =>
      simp only [if_true]
      rw [findIdx_mid _ (s ++ w) 46#8 p hno (by decide)]
      have e1 : (s ++ w ++ 46#8 :: p).drop ((s ++ w).length + 1) = p := by
        rw [← List.drop_drop, List.drop_left]
        rfl
      dsimp only
      rw [e1, List.take_left, if_neg (hp.not _ (by decide))]
    | false =>
      rw [hpt rfl]
      simp only [Bool.false_eq_true, if_false, List.append_nil]
      rw [findIdx_none _ _ hno]
      rfl
  rw [← hbody]
  unfold parse
  rw [hcut]
  dsimp only [bind, Option.bind]
  rw [hpoint]
  dsimp only [bind, Option.bind]
  rw [List.append_assoc, readInt_digits hs (w ++ p) (hw.append hp) hne]
  dsimp only [bind, Option.bind]
  rw [if_neg (by omega)]

/-! ## Written texts -/

theorem readDecimal_zeros (l : List Byte) (k : Nat) : readDecimal (l ++ List.replicate k 48#8) = readDecimal l * 10 ^ k := by
  induction k with
  | zero => simp
  | succ k ih =>
    rw [List.replicate_succ', ← List.append_assoc, Format.readDecimal_snoc, ih, Nat.pow_succ]
    simp
    ring

theorem readDecimal_zero_append (k : Nat) (l : List Byte) : readDecimal (List.replicate k 48#8 ++ l) = readDecimal l := by
  induction k with
  | zero => simp
  | succ k ih =>
    rw [List.replicate_succ, List.cons_append, ← ih]
    simp [readDecimal]

theorem dropZeros_append (l : List Byte) : ∃ k, l = dropZeros l ++ List.replicate k 48#8 := by
  unfold dropZeros
  refine ⟨(l.reverse.takeWhile (· = 48#8)).length, ?_⟩
  have h1 := List.takeWhile_append_dropWhile (p := fun b : Byte => decide (b = 48#8)) (l := l.reverse)
  have h2 : l.reverse.takeWhile (fun b => decide (b = 48#8)) = List.replicate (l.reverse.takeWhile (fun b => decide (b = 48#8))).length 48#8 := by
    rw [List.eq_replicate_iff]
    refine ⟨rfl, fun b hb => ?_⟩
    have := (List.all_eq_true.mp (List.all_takeWhile (p := fun b : Byte => decide (b = 48#8)) (l := l.reverse))) b hb
    exact of_decide_eq_true this
  conv_lhs => rw [← List.reverse_reverse l, ← h1, List.reverse_append, h2, List.reverse_replicate]

theorem dropZeros_digits {l : List Byte} (h : Digits l) : Digits (dropZeros l) := by
  intro b hb
  unfold dropZeros at hb
  rw [List.mem_reverse] at hb
  exact h b (List.mem_reverse.mp ((List.dropWhile_sublist _).mem hb))

theorem signed_sign (v : Int) : signed (decide (v < 0)) v.natAbs = v := by
  unfold signed
  by_cases h : v < 0
  · rw [if_pos (decide_eq_true h)]; omega
  · rw [if_neg (by simpa using h)]; omega

theorem sign_text (v : Int) : Sign (if v < 0 then [45#8] else []) (decide (v < 0)) := by
  by_cases h : v < 0
  · simp [h]; exact .minus
  · simp [h]; exact .none

/-- The point and what follows it. -/
def fraction : Option (List Byte) → List Byte
  | none => []
  | some p => 46#8 :: p

/-- The text writes the number `x` with a sign or none, digits, and a point with `k` digits or none. -/
inductive Fixed : Nat → List Byte → ℚ → Prop
  | mk {s : List Byte} {neg : Bool} (hs : Sign s neg) (w : List Byte) (p : Option (List Byte)) (hw : Digits w) (hp : Digits (p.getD []))
      (hne : w ++ p.getD [] ≠ []) :
      Fixed (p.getD []).length (s ++ w ++ fraction p) (signed neg (readDecimal (w ++ p.getD [])) / 10 ^ (p.getD []).length)

theorem Fixed.of {k : Nat} {t s : List Byte} {neg : Bool} {x : ℚ} (hs : Sign s neg) (w : List Byte) (p : Option (List Byte)) (hw : Digits w)
    (hp : Digits (p.getD [])) (hne : w ++ p.getD [] ≠ []) (ht : t = s ++ w ++ fraction p) (hk : k = (p.getD []).length)
    (hx : x = signed neg (readDecimal (w ++ p.getD [])) / 10 ^ (p.getD []).length) : Fixed k t x := by
  subst ht hk hx
  exact .mk hs w p hw hp hne

theorem val_shift (v : Int) (n : Nat) : (⟨v, -(n : Int)⟩ : Decimal).val = v / 10 ^ n := by
  rw [val_mk, zpow_neg, zpow_natCast]
  rfl

/-- Such a text is read as the number it writes. -/
theorem Fixed.parse {k : Nat} {s : List Byte} {x : ℚ} (h : Fixed k s x) (hk : k ≤ 2147483648) : ∃ d, parse s = some d ∧ d.val = x := by
  cases h with
  | @mk s neg hs w p hw hp hne =>
    cases p with
    | none =>
      have := (parse_plain hs w [] hw (by intro b hb; cases hb) (by simpa using hne) (by simp)).2 rfl
      refine ⟨_, by simpa [fraction] using this, ?_⟩
      have e := val_shift (signed neg (readDecimal w)) 0
      simpa using e
    | some p => exact ⟨_, (parse_plain hs w p hw hp hne (by simpa using hk)).1, val_shift _ _⟩

/-- The text of a decimal writes it, with no more places than it has. -/
theorem str_fixed (d : Decimal) : ∃ k : Nat, (k : Int) ≤ max 0 (-d.exp) ∧ Fixed k (str d) d.val := by
  unfold str
  split
  · rename_i h0
    refine ⟨0, by omega, Fixed.of (sign_text (d.rescale 0).value) (decimal (d.rescale 0).value.natAbs) none (decimal_digits _) (by intro b hb; cases hb)
      (by simpa using decimal_ne_nil _) (by simp [fraction]) rfl ?_⟩
    have := rescale_le d 0 h0
    rw [← this.2.2]
    unfold val
    rw [this.1]
    simp only [Option.getD_none, List.append_nil, readDecimal_decimal, signed_sign]
    simp
  · rename_i h0
    obtain ⟨n, hn⟩ : ∃ n : Nat, n = (-d.exp).toNat := ⟨_, rfl⟩
    have hne : d.exp = -(n : Int) := by omega
    obtain ⟨s, hs⟩ : ∃ s, s = decimal d.value.natAbs := ⟨_, rfl⟩
    obtain ⟨whole, hwhole⟩ : ∃ x, x = if n < s.length then s.take (s.length - n) else [48#8] := ⟨_, rfl⟩
    obtain ⟨full, hfull⟩ : ∃ x, x = if n < s.length then s.drop (s.length - n) else List.replicate (n - s.length) 48#8 ++ s := ⟨_, rfl⟩
    dsimp only
    rw [← hn, ← hs, ← hwhole, ← hfull]
    have hsd : Digits s := by rw [hs]; exact decimal_digits _
    have hw : Digits whole := by
      rw [hwhole]
      split
      · intro b hb; exact hsd b (List.mem_of_mem_take hb)
      · intro b hb; rw [List.mem_singleton] at hb; subst hb; decide
    have hf : Digits full := by
      rw [hfull]
      split
      · intro b hb; exact hsd b (List.mem_of_mem_drop hb)
      · apply Digits.append _ hsd
        intro b hb
        rw [(List.mem_replicate.mp hb).2]
        decide
    have hflen : full.length = n := by
      rw [hfull]
      split
      · rw [List.length_drop]; omega
      · rw [List.length_append, List.length_replicate]; omega
    have hval : readDecimal (whole ++ full) = d.value.natAbs := by
      rw [hwhole, hfull]
      split
      · rw [List.take_append_drop, hs, readDecimal_decimal]
      · rw [← List.append_assoc]
        have : [48#8] ++ List.replicate (n - s.length) 48#8 = List.replicate (n - s.length + 1) 48#8 := rfl
        rw [this, readDecimal_zero_append, hs, readDecimal_decimal]
    obtain ⟨k, hk⟩ := dropZeros_append full
    have hpd := dropZeros_digits hf
    have hwne : whole ≠ [] := by
      rw [hwhole]
      split
      · intro hc
        rw [List.take_eq_nil_iff] at hc
        rcases hc with hc | hc
        · omega
        · rw [hs] at hc; exact decimal_ne_nil _ hc
      · simp
    generalize dropZeros full = p at *
    have hplen : p.length + k = n := by
      rw [← hflen, hk, List.length_append, List.length_replicate]
    have hmul : readDecimal (whole ++ p) * 10 ^ k = d.value.natAbs := by
      rw [← readDecimal_zeros, List.append_assoc, ← hk, hval]
    have hv : ∀ e : Int, e = -(p.length : Int) → (⟨signed (decide (d.value < 0)) (readDecimal (whole ++ p)), e⟩ : Decimal).val = d.val := by
      rintro _ rfl
      have h1 : (signed (decide (d.value < 0)) (readDecimal (whole ++ p)) : ℚ) * (10 : ℚ) ^ (k : Int) = d.value := by
        have : signed (decide (d.value < 0)) (readDecimal (whole ++ p)) * (10 : Int) ^ k = d.value := by
          conv_rhs => rw [← signed_sign d.value, ← hmul]
          unfold signed
          split <;> push_cast <;> ring
        rw [zpow_natCast]
        exact_mod_cast this
      rw [val_mk]
      unfold val
      rw [← h1, hne, mul_assoc, ← ten_add]
      congr 2
      omega
    refine ⟨p.length, by omega, ?_⟩
    have hx := (hv _ rfl).symm
    rw [val_shift] at hx
    by_cases hp0 : p = []
    · subst hp0
      rw [if_pos rfl]
      exact Fixed.of (sign_text d.value) whole none hw (by intro b hb; cases hb) (by simpa using hwne) (by simp [fraction]) rfl hx
    · rw [if_neg hp0]
      exact Fixed.of (sign_text d.value) whole (some p) hw hpd (by simp [hwne]) rfl rfl hx

/-- The text of a decimal reads back as the same number. -/
theorem parse_str (d : Decimal) (h : -2147483648 ≤ d.exp) : ∃ d', parse (str d) = some d' ∧ d'.val = d.val := by
  obtain ⟨k, hk, hf⟩ := str_fixed d
  exact hf.parse (by omega)

/-! ## Equal numbers have equal texts -/

theorem decimal_ten (n : Nat) (h : n ≠ 0) : decimal (10 * n) = decimal n ++ [48#8] := by
  rw [decimal.eq_def, if_neg (by omega), show 10 * n / 10 = n by omega, show 10 * n % 10 = 0 by omega]

theorem dropZeros_snoc (l : List Byte) : dropZeros (l ++ [48#8]) = dropZeros l := by
  unfold dropZeros
  simp

theorem dropZeros_replicate (k : Nat) : dropZeros (List.replicate k 48#8) = [] := by
  unfold dropZeros
  simp

theorem str_step (v e : Int) : str ⟨10 * v, e - 1⟩ = str ⟨v, e⟩ := by
  rcases lt_or_ge 0 e with h | h
  · -- both whole
    unfold str
    dsimp only
    rw [if_pos (show (0 : Int) ≤ e - 1 by omega), if_pos (show (0 : Int) ≤ e by omega)]
    have e1 : ((⟨10 * v, e - 1⟩ : Decimal).rescale 0).value = ((⟨v, e⟩ : Decimal).rescale 0).value := by
      rw [(rescale_le _ 0 (show (0 : Int) ≤ e - 1 by omega)).2.1, (rescale_le _ 0 (show (0 : Int) ≤ e by omega)).2.1]
      dsimp only
      unfold pow10
      obtain ⟨k, rfl⟩ : ∃ k : Nat, e = k + 1 := ⟨(e - 1).toNat, by omega⟩
      rw [show (k + 1 - 1 - 0 : Int).toNat = k by omega, show (k + 1 - 0 : Int).toNat = k + 1 by omega, Int.pow_succ]
      ring
    rw [e1]
  · obtain ⟨n, hn⟩ : ∃ n : Nat, e = -(n : Int) := ⟨(-e).toNat, by omega⟩
    subst hn
    have hL : str ⟨10 * v, -(n : Int) - 1⟩ =
        (if v < 0 then [45#8] else []) ++
          (if n + 1 < (decimal (10 * v.natAbs)).length then (decimal (10 * v.natAbs)).take ((decimal (10 * v.natAbs)).length - (n + 1)) else [48#8]) ++
          (if dropZeros (if n + 1 < (decimal (10 * v.natAbs)).length then (decimal (10 * v.natAbs)).drop ((decimal (10 * v.natAbs)).length - (n + 1))
            else List.replicate (n + 1 - (decimal (10 * v.natAbs)).length) 48#8 ++ decimal (10 * v.natAbs)) = [] then []
           else 46#8 :: dropZeros (if n + 1 < (decimal (10 * v.natAbs)).length then (decimal (10 * v.natAbs)).drop ((decimal (10 * v.natAbs)).length - (n + 1))
            else List.replicate (n + 1 - (decimal (10 * v.natAbs)).length) 48#8 ++ decimal (10 * v.natAbs))) := by
      unfold str
      dsimp only
      rw [if_neg (by omega), show (-(-(n : Int) - 1)).toNat = n + 1 by omega, show (10 * v).natAbs = 10 * v.natAbs by omega]
      by_cases hv : v < 0
      · rw [if_pos hv, if_pos (by omega)]
      · rw [if_neg hv, if_neg (by omega)]
    rw [hL]
    by_cases hv0 : v = 0
    · subst hv0
      have hd0 : decimal (10 * (0 : Int).natAbs) = [48#8] := by
        rw [decimal.eq_def]; rfl
      rw [hd0]
      have hz : decimal 0 = [48#8] := by rw [decimal.eq_def]; rfl
      have hrep : ∀ k, List.replicate k 48#8 ++ [48#8] = List.replicate (k + 1) (48#8 : Byte) := fun k => List.replicate_succ'.symm
      rw [if_neg (show ¬ (0 : Int) < 0 by omega), if_neg (show ¬ n + 1 < [48#8].length by simp), if_neg (show ¬ n + 1 < [48#8].length by simp), hrep,
        dropZeros_replicate]
      unfold str
      dsimp only
      by_cases hn0 : n = 0
      · subst hn0
        simp [rescale, pow10, hz]
      · rw [if_neg (show ¬ (0 : Int) ≤ -(n : Int) by omega), if_pos rfl, if_neg (show ¬ (0 : Int) < 0 by omega), show (0 : Int).natAbs = 0 from rfl, hz, if_neg (show ¬ (-(-(n : Int))).toNat < [48#8].length by simp; omega), if_neg (show ¬ (-(-(n : Int))).toNat < [48#8].length by simp; omega), hrep, dropZeros_replicate,
          if_pos rfl]
    · have hd : decimal (10 * v.natAbs) = decimal v.natAbs ++ [48#8] := decimal_ten _ (by omega)
      rw [hd]
      have hlen : (decimal v.natAbs ++ [48#8]).length = (decimal v.natAbs).length + 1 := by simp
      rw [hlen]
      have hpos : 0 < (decimal v.natAbs).length := List.length_pos_of_ne_nil (decimal_ne_nil _)
      have e1 : (decimal v.natAbs).length + 1 - (n + 1) = (decimal v.natAbs).length - n := by omega
      have e2 : n + 1 - ((decimal v.natAbs).length + 1) = n - (decimal v.natAbs).length := by omega
      rw [e1, e2]
      have c : (n + 1 < (decimal v.natAbs).length + 1) = (n < (decimal v.natAbs).length) := by simp
      rw [if_congr (iff_of_eq c) rfl rfl]
      have hfull : dropZeros (if n + 1 < (decimal v.natAbs).length + 1 then (decimal v.natAbs ++ [48#8]).drop ((decimal v.natAbs).length - n)
            else List.replicate (n - (decimal v.natAbs).length) 48#8 ++ (decimal v.natAbs ++ [48#8])) =
          dropZeros (if n < (decimal v.natAbs).length then (decimal v.natAbs).drop ((decimal v.natAbs).length - n)
            else List.replicate (n - (decimal v.natAbs).length) 48#8 ++ decimal v.natAbs) := by
        by_cases hc : n < (decimal v.natAbs).length
        · rw [if_pos (by omega), if_pos hc, List.drop_append_of_le_length (by omega), dropZeros_snoc]
        · rw [if_neg (by omega), if_neg hc, ← List.append_assoc, dropZeros_snoc]
      rw [hfull]
      have htake : (if n < (decimal v.natAbs).length then (decimal v.natAbs ++ [48#8]).take ((decimal v.natAbs).length - n) else [48#8]) =
          if n < (decimal v.natAbs).length then (decimal v.natAbs).take ((decimal v.natAbs).length - n) else [48#8] := by
        by_cases hc : n < (decimal v.natAbs).length
        · rw [if_pos hc, if_pos hc, List.take_append_of_le_length (by omega)]
        · rw [if_neg hc, if_neg hc]
      rw [htake]
      unfold str
      dsimp only
      by_cases hn0 : n = 0
      · subst hn0
        rw [if_pos hpos, if_pos hpos]
        simp [rescale, pow10, dropZeros]
      · rw [if_neg (show ¬ (0 : Int) ≤ -(n : Int) by omega), show (-(-(n : Int))).toNat = n by omega]

theorem str_steps (v e : Int) (k : Nat) : str ⟨v * 10 ^ k, e - k⟩ = str ⟨v, e⟩ := by
  induction k with
  | zero => simp
  | succ k ih =>
    rw [← ih, ← str_step (v * 10 ^ k) (e - k)]
    congr 2
    · rw [Int.pow_succ]; ring
    · push_cast; ring

theorem str_rescale (d : Decimal) (e : Int) (h : e ≤ d.exp) : str (d.rescale e) = str d := by
  have h1 := rescale_le d e h
  have : d.rescale e = ⟨d.value * 10 ^ (d.exp - e).toNat, d.exp - ((d.exp - e).toNat : Int)⟩ :=
    ext' (by rw [h1.2.1]; rfl) (by rw [h1.1]; dsimp only; omega)
  rw [this, str_steps]

/-- Decimals that are the same number have the same text, and only those. -/
theorem str_eq_iff (a b : Decimal) (ha : -2147483648 ≤ a.exp) (hb : -2147483648 ≤ b.exp) : str a = str b ↔ a.val = b.val := by
  constructor
  · intro h
    obtain ⟨a', h1, h2⟩ := parse_str a ha
    obtain ⟨b', h3, h4⟩ := parse_str b hb
    rw [h, h3] at h1
    injection h1 with h1
    rw [← h2, ← h4, h1]
  · intro h
    rw [← str_rescale a (min a.exp b.exp) (Int.min_le_left _ _), ← str_rescale b (min a.exp b.exp) (Int.min_le_right _ _)]
    congr 1
    have r1 := rescale_le a (min a.exp b.exp) (Int.min_le_left _ _)
    have r2 := rescale_le b (min a.exp b.exp) (Int.min_le_right _ _)
    apply ext'
    · have v1 := rescale_val a (min a.exp b.exp) (Int.min_le_left _ _)
      have v2 := rescale_val b (min a.exp b.exp) (Int.min_le_right _ _)
      rw [h, ← v2] at v1
      exact_mod_cast v1
    · rw [r1.1, r2.1]

end Verif.Lib.Decimal
