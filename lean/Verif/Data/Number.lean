import Verif.Common.Text
import Verif.Format.Props
import Verif.Expr.Prim

/-!
# Reading integers (Go's `strconv.ParseInt` and `ParseUint` with base 0)

Called by data/DataSet.go L312-335 with base 0 and the error dropped. The base is taken from the prefix of the text: "0x", "0o", "0b",
or "0" alone for octal; underscores may separate digits.
-/

namespace Verif.Data

open Text

/-- `lower(c)` of strconv. (data/DataSet.go L313-334, data/FilterExpressionParser.go L1050-1059) -/
def lowerByte (b : Byte) : Byte := b ||| 32#8

/-- The value of a digit or letter. (data/DataSet.go L313-334, data/FilterExpressionParser.go L1050-1059) -/
def digit (b : Byte) : Option Nat :=
  if 48 ≤ b.toNat ∧ b.toNat ≤ 57 then some (b.toNat - 48)
  else if 97 ≤ (lowerByte b).toNat ∧ (lowerByte b).toNat ≤ 122 then some ((lowerByte b).toNat - 97 + 10)
  else none

/-- The loop of `ParseUint`, which stops at the first byte that is no digit of the base or that makes the number exceed `max`.
(data/DataSet.go L313-334, data/FilterExpressionParser.go L1050-1059) -/
def digits (base max : Nat) : List Byte → Nat → Parsed
  | [], n => .value n
  | b :: s, n =>
    if b = 95#8 then digits base max s n
    else match digit b with
      | none => .bad
      | some d => if d ≥ base then .bad else if n * base + d > max then .large else digits base max s (n * base + d)

/-- The base and the rest of the text. (data/DataSet.go L313-334, data/FilterExpressionParser.go L1050-1059) -/
def baseOf : List Byte → Nat × List Byte
  | 48#8 :: b :: c :: t =>
    if lowerByte b = 98#8 then (2, c :: t)
    else if lowerByte b = 111#8 then (8, c :: t)
    else if lowerByte b = 120#8 then (16, c :: t)
    else (8, b :: c :: t)
  | 48#8 :: t => (8, t)
  | s => (10, s)

/-- What `underscoreOK` saw last. (data/DataSet.go L313-334, data/FilterExpressionParser.go L1050-1059) -/
inductive Saw where
  | start | digit | underscore | other
  deriving DecidableEq

/-- The loop of `underscoreOK`. (data/DataSet.go L313-334, data/FilterExpressionParser.go L1050-1059) -/
def underscoreLoop (hex : Bool) : List Byte → Saw → Bool
  | [], saw => saw ≠ .underscore
  | b :: s, saw =>
    if (48 ≤ b.toNat ∧ b.toNat ≤ 57) ∨ (hex ∧ 97 ≤ (lowerByte b).toNat ∧ (lowerByte b).toNat ≤ 102) then underscoreLoop hex s .digit
    else if b = 95#8 then if saw = .digit then underscoreLoop hex s .underscore else false
    else if saw = .underscore then false
    else underscoreLoop hex s .other

/-- `underscoreOK`: underscores only between digits, or between the prefix and a digit.
(data/DataSet.go L313-334, data/FilterExpressionParser.go L1050-1059) -/
def underscoreOK (s : List Byte) : Bool :=
  match (sign s).2 with
  | 48#8 :: b :: t =>
    if lowerByte b = 98#8 ∨ lowerByte b = 111#8 ∨ lowerByte b = 120#8 then underscoreLoop (lowerByte b = 120#8) t .digit
    else underscoreLoop false (48#8 :: b :: t) .start
  | t => underscoreLoop false t .start

/-- `strconv.ParseUint(s, 0, w)` (data/DataSet.go L313-334, data/FilterExpressionParser.go L1050-1059) -/
def parseUint0 (w : Nat) (s : List Byte) : Parsed :=
  if s = [] then .bad
  else match digits (baseOf s).1 (2 ^ w - 1) (baseOf s).2 0 with
    | .value n => if 95#8 ∈ (baseOf s).2 ∧ underscoreOK s = false then .bad else .value n
    | x => x

/-- `n, _ := strconv.ParseUint(s, 0, w)`: 0 for no number, the largest for one too large.
(data/DataSet.go L313-334, data/FilterExpressionParser.go L1050-1059) -/
def uintValue (w : Nat) (s : List Byte) : Nat :=
  match parseUint0 w s with
  | .bad => 0
  | .large => 2 ^ w - 1
  | .value n => n

/-- `n, _ := strconv.ParseInt(s, 0, w)`: 0 for no number, the nearest for one out of range.
(data/DataSet.go L313-334, data/FilterExpressionParser.go L1050-1059) -/
def intValue (w : Nat) (s : List Byte) : Int :=
  match parseUint0 w (sign s).2 with
  | .bad => 0
  | .large => if (sign s).1 then -2 ^ (w - 1) else 2 ^ (w - 1) - 1
  | .value n =>
    if (sign s).1 then (if n > 2 ^ (w - 1) then -2 ^ (w - 1) else -(n : Int)) else if n ≥ 2 ^ (w - 1) then 2 ^ (w - 1) - 1 else n

/-- The plain text of an integer. (data/DataRow.go L660-737) -/
def intText (i : Int) : List Byte := if i < 0 then 45#8 :: Format.decimal i.natAbs else Format.decimal i.natAbs

/-! ### Plain decimal text reads back -/

theorem decimal_head (n : Nat) (h : n ≠ 0) : (Format.decimal n).head? ≠ some 48#8 := by
  induction n using Nat.strongRecOn with
  | _ n ih =>
    unfold Format.decimal
    split
    · rename_i hlt
      simp only [List.head?_cons, ne_eq, Option.some.injEq]
      intro e
      have := congrArg BitVec.toNat e
      simp only [BitVec.toNat_ofNat] at this
      omega
    · rename_i hge
      have hne : n / 10 ≠ 0 := by omega
      have := ih (n / 10) (by omega) hne
      cases hd : Format.decimal (n / 10) with
      | nil => exact absurd hd (Format.decimal_ne_nil _)
      | cons b t => rw [hd] at this; simpa using this

theorem digits_decimal (max : Nat) (l : List Byte) (hd : ∀ b ∈ l, 48 ≤ b.toNat ∧ b.toNat ≤ 57) (a : Nat)
    (h : l.foldl (fun a b => a * 10 + (b.toNat - 48)) a ≤ max) :
    digits 10 max l a = .value (l.foldl (fun a b => a * 10 + (b.toNat - 48)) a) := by
  induction l generalizing a with
  | nil => rfl
  | cons b l ih =>
    rw [List.foldl_cons] at h ⊢
    have mono : ∀ (l : List Byte) (x : Nat), x ≤ l.foldl (fun a b => a * 10 + (b.toNat - 48)) x := by
      intro l
      induction l with
      | nil => intro x; exact Nat.le_refl x
      | cons c l ih => intro x; exact Nat.le_trans (by show x ≤ x * 10 + (c.toNat - 48); omega) (ih _)
    have hle := mono l (a * 10 + (b.toNat - 48))
    have hb := hd b (by simp)
    have hne : b ≠ 95#8 := by rintro rfl; revert hb; decide
    unfold digits
    rw [if_neg hne]
    unfold digit
    rw [if_pos hb]
    dsimp only
    rw [if_neg (by omega), if_neg (by omega)]
    exact ih (fun b hb => hd b (by simp [hb])) _ h

theorem base_decimal (n : Nat) (h : n ≠ 0) : baseOf (Format.decimal n) = (10, Format.decimal n) := by
  have hh := decimal_head n h
  unfold baseOf
  split
  · rename_i e; rw [e] at hh; exact absurd rfl hh
  · rename_i e; rw [e] at hh; exact absurd rfl hh
  · rfl

theorem not_underscore (n : Nat) : 95#8 ∉ Format.decimal n := by
  intro h
  have := Format.decimal_digits n _ h
  revert this; decide

theorem parse_decimal (w n : Nat) (h : n < 2 ^ w) : parseUint0 w (Format.decimal n) = .value n := by
  unfold parseUint0
  rw [if_neg (Format.decimal_ne_nil n)]
  by_cases hz : n = 0
  · subst hz
    have e : Format.decimal 0 = [48#8] := by unfold Format.decimal; rfl
    rw [e]
    rfl
  · rw [base_decimal n hz]
    have hr := Format.readDecimal_decimal n
    unfold Format.readDecimal at hr
    have hd := digits_decimal (2 ^ w - 1) (Format.decimal n) (Format.decimal_digits n) 0 (by rw [hr]; omega)
    dsimp only
    rw [hd, hr]
    dsimp only
    rw [if_neg (fun x => not_underscore n x.1)]

theorem sign_decimal (n : Nat) : sign (Format.decimal n) = (false, Format.decimal n) := by
  cases hd : Format.decimal n with
  | nil => rfl
  | cons b t =>
    have := Format.decimal_digits n b (by rw [hd]; simp)
    unfold sign
    have h1 : b ≠ 45#8 := by rintro rfl; revert this; decide
    have h2 : b ≠ 43#8 := by rintro rfl; revert this; decide
    simp [h1, h2]

theorem uint_text (w n : Nat) (h : n < 2 ^ w) : uintValue w (Format.decimal n) = n := by
  unfold uintValue
  rw [parse_decimal w n h]

theorem int_text (w : Nat) (hw : 0 < w) (i : Int) (h1 : -2 ^ (w - 1) ≤ i) (h2 : i < 2 ^ (w - 1)) : intValue w (intText i) = i := by
  have hp : (2 : Nat) ^ w = 2 * 2 ^ (w - 1) := by
    conv => lhs; rw [show w = (w - 1) + 1 by omega, Nat.pow_succ]
    omega
  have hcast : ((2 ^ (w - 1) : Nat) : Int) = 2 ^ (w - 1) := by norm_cast
  have hpos : 0 < (2 : Nat) ^ (w - 1) := Nat.pow_pos (by decide)
  unfold intText
  by_cases hneg : i < 0
  · rw [if_pos hneg]
    unfold intValue
    have hs : sign (45#8 :: Format.decimal i.natAbs) = (true, Format.decimal i.natAbs) := rfl
    rw [hs]
    dsimp only
    rw [parse_decimal w _ (by omega)]
    dsimp only
    rw [if_pos rfl, if_neg (by omega)]
    omega
  · rw [if_neg hneg]
    unfold intValue
    rw [sign_decimal]
    dsimp only
    rw [parse_decimal w _ (by omega)]
    dsimp only
    rw [if_neg (by simp), if_neg (by omega)]
    omega

/-- Any text gives a number within the range of the type. -/
theorem intValue_range (w : Nat) (s : List Byte) : -2 ^ (w - 1) ≤ intValue w s ∧ intValue w s < 2 ^ (w - 1) := by
  have hcast : ((2 ^ (w - 1) : Nat) : Int) = 2 ^ (w - 1) := by norm_cast
  have hpos : 0 < (2 : Nat) ^ (w - 1) := Nat.pow_pos (by decide)
  unfold intValue
  cases parseUint0 w (sign s).2 with
  | bad => dsimp only; omega
  | large => dsimp only; split <;> omega
  | value n =>
    dsimp only
    split
    · split <;> omega
    · split <;> omega

theorem digits_le (base max : Nat) (s : List Byte) (a n : Nat) (ha : a ≤ max) (h : digits base max s a = .value n) : n ≤ max := by
  induction s generalizing a with
  | nil => injection h with h; omega
  | cons b s ih =>
    unfold digits at h
    split at h
    · exact ih a ha h
    · cases hd : digit b with
      | none => rw [hd] at h; cases h
      | some d =>
        rw [hd] at h
        dsimp only at h
        split at h
        · cases h
        · split at h
          · cases h
          · exact ih _ (by omega) h

theorem uintValue_range (w : Nat) (s : List Byte) : uintValue w s < 2 ^ w := by
  have hpos : 0 < (2 : Nat) ^ w := Nat.pow_pos (by decide)
  unfold uintValue
  cases hp : parseUint0 w s with
  | bad => exact hpos
  | large => dsimp only; omega
  | value n =>
    dsimp only
    unfold parseUint0 at hp
    split at hp
    · cases hp
    · cases hd : digits (baseOf s).1 (2 ^ w - 1) (baseOf s).2 0 with
      | bad => rw [hd] at hp; cases hp
      | large => rw [hd] at hp; cases hp
      | value m =>
        have := digits_le _ _ _ _ _ (by omega) hd
        rw [hd] at hp
        dsimp only at hp
        split at hp
        · cases hp
        · injection hp with hp; omega

open Verif.Expr (lit) in
/-- Some texts. -/
example : intValue 32 (lit "-120") = -120 ∧ intValue 32 (lit "0x1F") = 31 ∧ intValue 8 (lit "300") = 127 ∧ intValue 8 (lit "-129") = -128 ∧
    intValue 32 (lit "1_000") = 1000 ∧ intValue 32 (lit "1__0") = 0 ∧ intValue 32 (lit "12a") = 0 ∧ uintValue 16 (lit "65536") = 65535 := by
  decide

end Verif.Data
