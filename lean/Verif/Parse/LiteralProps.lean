import Verif.Parse.Precedence
import Verif.Table.Row

/-!
# What literals and names denote
-/

namespace Verif.Parse

open Verif.Expr

variable {P : Prim}

/-! ### Integers -/

/-- The number that digits write in a base. -/
def readBase (base : Nat) (s : Str) : Nat := s.foldl (fun a b => a * base + (b.toNat - 48)) 0

/-- A byte that is a digit of a base up to ten. -/
def IsDigit (base : Nat) (b : Byte) : Prop := 48 ≤ b.toNat ∧ b.toNat < 48 + base

theorem le_foldl {base : Nat} (hb : 1 ≤ base) (s : Str) (a : Nat) : a ≤ s.foldl (fun a b => a * base + (b.toNat - 48)) a := by
  induction s generalizing a with
  | nil => exact Nat.le_refl a
  | cons c s ih =>
    refine Nat.le_trans ?_ (ih _)
    have : a * 1 ≤ a * base := Nat.mul_le_mul_left a hb
    show a ≤ a * base + (c.toNat - 48)
    omega

/-- Reading digits of the base stops only where the number exceeds the limit. -/
theorem digits_eq {base : Nat} (hb : 1 ≤ base) (h10 : base ≤ 10) (max : Nat) (s : Str) (hd : ∀ b ∈ s, IsDigit base b) (a : Nat) :
    Data.digits base max s a =
      if s ≠ [] ∧ s.foldl (fun a b => a * base + (b.toNat - 48)) a > max then .large
      else .value (s.foldl (fun a b => a * base + (b.toNat - 48)) a) := by
  induction s generalizing a with
  | nil => simp [Data.digits]
  | cons c s ih =>
    have hc := hd c (by simp)
    unfold IsDigit at hc
    have hne : c ≠ 95#8 := by
      rintro rfl
      have : (95#8 : Byte).toNat = 95 := by decide
      omega
    have hdig : Data.digit c = some (c.toNat - 48) := by
      unfold Data.digit
      rw [if_pos (by omega)]
    have hle := le_foldl hb s (a * base + (c.toNat - 48))
    unfold Data.digits
    rw [if_neg hne, hdig]
    dsimp only
    rw [if_neg (by omega), List.foldl_cons]
    by_cases h : a * base + (c.toNat - 48) > max
    · rw [if_pos h, if_pos ⟨by simp, by omega⟩]
    · rw [if_neg h, ih (fun b hb => hd b (by simp [hb]))]
      by_cases hs : s = []
      · subst hs
        have e1 : ¬ (([] : Str) ≠ [] ∧ ([] : Str).foldl (fun a b => a * base + (b.toNat - 48)) (a * base + (c.toNat - 48)) > max) := fun x => x.1 rfl
        have e2 : ¬ ([c] ≠ [] ∧ ([] : Str).foldl (fun a b => a * base + (b.toNat - 48)) (a * base + (c.toNat - 48)) > max) := fun x => h x.2
        rw [if_neg e1, if_neg e2]
      · simp only [ne_eq, hs, not_false_eq_true, true_and, List.cons_ne_nil]

theorem no_underscore {base : Nat} (h10 : base ≤ 10) {s : Str} (hd : ∀ b ∈ s, IsDigit base b) : 95#8 ∉ s := by
  intro h
  have := hd _ h
  unfold IsDigit at this
  have : (95#8 : Byte).toNat = 95 := by decide
  omega

/-- `ParseUint` with base 0 reads decimal digits that do not begin with 0 as a decimal number. -/
theorem parseUint0_decimal {s : Str} (hn : s ≠ []) (hz : s.head? ≠ some 48#8) (hd : ∀ b ∈ s, IsDigit 10 b) :
    Data.parseUint0 64 s = if readBase 10 s < 2 ^ 64 then .value (readBase 10 s) else .large := by
  have hb : Data.baseOf s = (10, s) := by
    unfold Data.baseOf
    split
    · exact absurd rfl hz
    · exact absurd rfl hz
    · rfl
  unfold Data.parseUint0
  rw [if_neg hn, hb]
  dsimp only
  rw [digits_eq (by decide) (by decide) _ s hd 0]
  unfold readBase
  generalize s.foldl (fun a b => a * 10 + (b.toNat - 48)) 0 = n
  by_cases h : n < 2 ^ 64
  · rw [if_neg (by omega), if_pos h]
    dsimp only
    rw [if_neg (fun x => no_underscore (by decide) hd x.1)]
  · rw [if_pos ⟨hn, by omega⟩, if_neg h]

/-- `ParseUint` with base 0 reads what begins with 0 as an octal number. -/
theorem parseUint0_octal {s : Str} (hn : s ≠ []) (hd : ∀ b ∈ s, IsDigit 8 b) :
    Data.parseUint0 64 (48#8 :: s) = if readBase 8 s < 2 ^ 64 then .value (readBase 8 s) else .large := by
  have hb : Data.baseOf (48#8 :: s) = (8, s) := by
    cases s with
    | nil => exact absurd rfl hn
    | cons b t =>
      cases t with
      | nil => rfl
      | cons c t =>
        have hbd : IsDigit 8 b := hd b (by simp)
        have hlow : ∀ x : Byte, IsDigit 8 x → Data.lowerByte x ≠ 98#8 ∧ Data.lowerByte x ≠ 111#8 ∧ Data.lowerByte x ≠ 120#8 := by
          unfold IsDigit
          decide +kernel
        obtain ⟨h1, h2, h3⟩ := hlow b hbd
        simp only [Data.baseOf, if_neg h1, if_neg h2, if_neg h3]
  unfold Data.parseUint0
  rw [if_neg (by simp), hb]
  dsimp only
  rw [digits_eq (by decide) (by decide) _ s hd 0]
  unfold readBase
  generalize s.foldl (fun a b => a * 8 + (b.toNat - 48)) 0 = n
  by_cases h : n < 2 ^ 64
  · rw [if_neg (by omega), if_pos h]
    dsimp only
    rw [if_neg (fun x => no_underscore (by decide) hd x.1)]
  · rw [if_pos ⟨hn, by omega⟩, if_neg h]

/-- The whole number a value holds. -/
def wholeOf : Val P → Option Int
  | .int32 v => some v.toInt
  | .int64 v => some v.toInt
  | _ => none

/-- **An integer literal of decimal digits denotes the number the digits write** — as an Int32, if it is below 2^31, else as an Int64, if below 2^63, else as
a Decimal (of what the decimal reader makes of the digits). What is missing: digits that begin with 0. -/
theorem C71_integer_partial {s : Str} (hn : s ≠ []) (hz : s.head? ≠ some 48#8) (hd : ∀ b ∈ s, IsDigit 10 b) :
    (readBase 10 s < 2 ^ 31 → literal (P := P) (.integer s) = .ok (.int32 (BitVec.ofNat 32 (readBase 10 s)))) ∧
    (2 ^ 31 ≤ readBase 10 s → readBase 10 s < 2 ^ 63 → literal (P := P) (.integer s) = .ok (.int64 (BitVec.ofNat 64 (readBase 10 s)))) ∧
    (readBase 10 s < 2 ^ 63 → ∃ v : Val P, literal (.integer s) = .ok v ∧ wholeOf v = some (readBase 10 s : Int)) ∧
    (2 ^ 63 ≤ readBase 10 s → ∀ d, P.decParse s = some d → literal (.integer s) = .ok (.decimal d)) := by
  have hp := parseUint0_decimal hn hz hd
  have h1 : readBase 10 s < 2 ^ 31 → literal (P := P) (.integer s) = .ok (.int32 (BitVec.ofNat 32 (readBase 10 s))) := by
    intro h
    simp only [literal, integerLiteral, hp]
    rw [if_pos (by omega)]
    dsimp only
    rw [if_pos (by omega), if_neg (by omega)]
  have h2 : 2 ^ 31 ≤ readBase 10 s → readBase 10 s < 2 ^ 63 →
      literal (P := P) (.integer s) = .ok (.int64 (BitVec.ofNat 64 (readBase 10 s))) := by
    intro h h'
    simp only [literal, integerLiteral, hp]
    rw [if_pos (by omega)]
    dsimp only
    rw [if_pos (by omega), if_pos (by omega)]
  refine ⟨h1, h2, fun h => ?_, fun h d hdec => ?_⟩
  · rcases Nat.lt_or_ge (readBase 10 s) (2 ^ 31) with h' | h'
    · refine ⟨_, h1 h', ?_⟩
      simp only [wholeOf, BitVec.toInt_eq_toNat_cond, BitVec.toNat_ofNat]
      rw [Nat.mod_eq_of_lt (by omega), if_pos (by omega)]
    · refine ⟨_, h2 h' h, ?_⟩
      simp only [wholeOf, BitVec.toInt_eq_toNat_cond, BitVec.toNat_ofNat]
      rw [Nat.mod_eq_of_lt (by omega), if_pos (by omega)]
  · simp only [literal, integerLiteral, hp]
    by_cases h' : readBase 10 s < 2 ^ 64
    · rw [if_pos h']
      dsimp only
      rw [if_neg (by omega)]
      simp only [numericLiteral, hdec]
    · rw [if_neg h']
      dsimp only
      rw [hdec]

/-- `42`, `4294967296` and a number of twenty digits. -/
example : literal (P := Toy.prim) (.integer (lit "42")) = .ok (.int32 42#32) ∧
    literal (P := Toy.prim) (.integer (lit "4294967296")) = .ok (.int64 4294967296#64) ∧
    literal (P := Toy.prim) (.integer (lit "99999999999999999999")) = .ok (.decimal (99999999999999999999 : Int)) := ⟨rfl, rfl, rfl⟩

/-- Digits that begin with 0 are read as octal. -/
theorem C71_octal {s : Str} (hn : s ≠ []) (hd : ∀ b ∈ s, IsDigit 8 b) (h : readBase 8 s < 2 ^ 31) :
    literal (P := P) (.integer (48#8 :: s)) = .ok (.int32 (BitVec.ofNat 32 (readBase 8 s))) := by
  simp only [literal, integerLiteral, parseUint0_octal hn hd]
  rw [if_pos (by omega)]
  dsimp only
  rw [if_pos (by omega), if_neg (by omega)]

/-- **Not every integer literal denotes the number its digits write**: `010` is 8. -/
theorem C71_integer_false : ¬ ∀ s : Str, s ≠ [] → (∀ b ∈ s, IsDigit 10 b) → readBase 10 s < 2 ^ 31 →
    literal (P := P) (.integer s) = .ok (.int32 (BitVec.ofNat 32 (readBase 10 s))) := by
  intro h
  have h1 := h (lit "010") (by decide) (by unfold IsDigit; decide) (by decide)
  have h2 := C71_octal (P := P) (s := lit "10") (by decide) (by unfold IsDigit; decide) (by decide)
  have e : lit "010" = 48#8 :: lit "10" := by decide
  rw [e] at h1
  rw [h1] at h2
  simp only [Res.ok.injEq, Val.int32.injEq] at h2
  revert h2
  decide

/-- `08` is a Decimal, `07` and `8` are Int32. -/
example : literal (P := Toy.prim) (.integer (lit "08")) = .ok (.decimal (8 : Int)) ∧
    literal (P := Toy.prim) (.integer (lit "07")) = .ok (.int32 7#32) ∧ literal (P := Toy.prim) (.integer (lit "8")) = .ok (.int32 8#32) :=
  ⟨rfl, rfl, rfl⟩

/-! ### Delimiters -/

/-- The text between delimiters. -/
def between (l r : Char) (s : Str) : Str := ch l :: (s ++ [ch r])

/-- The text as it is written between delimiters that must be doubled inside. -/
def doubled (q : Char) (s : Str) : Str := s.flatMap fun b => if b = ch q then [b, b] else [b]

theorem inner_between (l r : Char) (s : Str) : inner (between l r s) = .ok s := by
  cases s with
  | nil => rfl
  | cons b t =>
    have e : b :: (t ++ [ch r]) = (b :: t) ++ [ch r] := rfl
    simp only [between, inner, List.cons_append]
    rw [e, List.dropLast_concat]

theorem unquote_between (q r : Char) (s : Str) : unquote (ch q) (between q r s) = .ok s := by
  have h : unquote (ch q) (between q r s) = inner (between q r s) := by simp [unquote, between]
  rw [h, inner_between]

/-- A string literal is the text between its quotes as it stands. -/
theorem C72_string (s : Str) : literal (P := P) (.string (between '\'' '\'' s)) = .ok (.string s) := by
  simp only [literal, unquote_between, Res.bind_ok]

/-- **A string literal denotes its text**, if no quote is in it. What is missing: quotes, which the grammar has doubled (g4 L310-312). -/
theorem C72_string_partial (s : Str) (h : ch '\'' ∉ s) : literal (P := P) (.string (between '\'' '\'' (doubled '\'' s))) = .ok (.string s) := by
  have e : doubled '\'' s = s := by
    unfold doubled
    induction s with
    | nil => rfl
    | cons b t ih =>
      rw [List.flatMap_cons, ih (fun x => h (by simp [x])), if_neg (by rintro rfl; exact h (by simp))]
      rfl
  rw [e, C72_string]

example : literal (P := P) (.string (lit "'abc'")) = .ok (.string (lit "abc")) := rfl

/-- **A doubled quote in a string literal is not undone**: `'it''s'` keeps both quotes. -/
theorem C72_string_false : ¬ ∀ s : Str, literal (P := P) (.string (between '\'' '\'' (doubled '\'' s))) = .ok (.string s) := by
  intro h
  have := h (lit "it's")
  rw [C72_string] at this
  simp only [Res.ok.injEq, Val.string.injEq] at this
  revert this
  decide

/-- **A date literal denotes the date written between its signs**; one that is no date makes the expression an error. -/
theorem C72_datetime (s : Str) : literal (P := P) (.datetime (between '#' '#' s)) =
    if (P.timeParse s).2 then .ok (.dateTime (P.timeParse s).1) else .panic := by
  simp only [literal, unquote_between, Res.bind_ok]

example : literal (P := Toy.prim) (.datetime (lit "#12#")) = .ok (.dateTime (12 : Int)) := rfl

/-- **A GUID literal in quotes denotes the GUID between them**, one in braces or bare that of its whole text. -/
theorem C72_guid (s : Str) : literal (P := P) (.guid (between '\'' '\'' s)) =
    if (P.guidParse s).2 then .ok (.guid (P.guidParse s).1) else .panic := by
  simp only [literal, unquote_between, Res.bind_ok]

theorem C72_guid_bare {b : Byte} {s : Str} (h : b ≠ ch '\'') : literal (P := P) (.guid (b :: s)) =
    if (P.guidParse (b :: s)).2 then .ok (.guid (P.guidParse (b :: s)).1) else .panic := by
  simp only [literal, unquote, if_neg h, Res.bind_ok]

/-- The column `ExitColumnName` (FilterExpressionParser.go L1125-1150) finds in the table of the expression. -/
def columnOf (t : Table.Table P) (name : Str) : Res Nat :=
  match t.columnByName name with
  | some c => .ok c.index.toNat
  | none => .panic

/-- A name that is no column of the table makes the expression an error. -/
theorem C72_unknown (t : Table.Table P) (name : Str) (h : t.columnIndexes (P.upper name) = none) :
    build (P := P) (columnOf t) (up (.column name)) = .err := by
  rw [C70_build, up_den]
  simp only [V.den, columnOf, Table.Table.columnByName, h, Res.bind_panic]

/-- A name denotes the column it is the name of, in whatever case it is written. -/
theorem C72_plain_name (t : Table.Table P) (name : Str) (i : Nat) (c : Table.Column) (h : t.columnIndexes (P.upper name) = some i)
    (hc : t.columns[i]? = some c) : build (P := P) (columnOf t) (up (.column name)) = .ok (.column c.index.toNat) := by
  have hlen : i < t.columns.length := (List.getElem?_eq_some_iff.1 hc).1
  rw [C70_build, up_den]
  simp only [V.den, columnOf, Table.Table.columnByName, h, Table.Table.column]
  rw [if_neg (by omega)]
  simp only [Int.toNat_natCast, hc, Res.bind_ok]

/-- A table with a column A. -/
def oneColumn : Table.Table Toy.prim where
  columnIndexes := fun s => if s = lit "A" then some 0 else none
  columns := [{ name := lit "A", type := .int32, expression := [], index := 0 }]
  rows := []
  parse := fun _ => none

/-- **Brackets and backquotes are taken as part of the name they delimit**: `[A]` is not the column A. -/
theorem C72_name_false : ¬ ∀ (t : Table.Table Toy.prim) (name : Str), (∀ b ∈ name, b ≠ ch ']' ∧ b ≠ ch '`') →
    build (P := Toy.prim) (columnOf t) (up (.column (between '[' ']' name))) = build (P := Toy.prim) (columnOf t) (up (.column name)) := by
  intro h
  have := h oneColumn (lit "A") (by decide)
  rw [C72_unknown oneColumn _ (by decide), C72_plain_name oneColumn (lit "A") 0 _ rfl rfl] at this
  cases this

/-- A delimited name denotes the column whose name has the delimiters, if there is one, and no other. -/
theorem C72_name_unknown (t : Table.Table P) (name : Str) (h : t.columnIndexes (P.upper (between '[' ']' name)) = none) :
    build (P := P) (columnOf t) (up (.column (between '[' ']' name))) = .err := C72_unknown t _ h

example : build (P := Toy.prim) (columnOf oneColumn) (up (.column (lit "a"))) = .ok (.column 0) ∧
    build (P := Toy.prim) (columnOf oneColumn) (up (.column (lit "[A]"))) = .err := ⟨rfl, rfl⟩

end Verif.Parse
