import Verif.Parse.Grammar
import Verif.Data.Number

/-!
# Values of literals (data/FilterExpressionParser.go L1037-1116, L1480-1520)
-/

namespace Verif.Parse

open Verif.Expr

variable {P : Prim}

/-- A byte of text. (data/FilterExpressionParser.go L1480-1535) -/
def ch (c : Char) : Byte := BitVec.ofNat 8 c.toNat

/-- The text without its first and last byte, as `s[1 : len(s)-1]` gives it; for a text of one byte the slice bounds are out of range.
(data/FilterExpressionParser.go L1480-1535) -/
def inner (s : Str) : Res Str :=
  match s with
  | _ :: b :: t => .ok (b :: t).dropLast
  | _ => .panic

/-- The text without the delimiters, if it begins with the delimiter; `s[0]` panics if the text is empty.
(data/FilterExpressionParser.go L1480-1535) -/
def unquote (delimiter : Byte) (s : Str) : Res Str :=
  match s with
  | [] => .panic
  | b :: _ => if b = delimiter then inner s else .ok s

/-- `parseNumericLiteral` (L1106-1116). -/
def numericLiteral (s : Str) : Val P :=
  match P.decParse s with
  | some d => .decimal d
  | none => if (P.fltParse s).2 then .double (P.fltParse s).1 else .string s

/-- The `INTEGER_LITERAL` case of `ExitLiteralValue` (L1051-1070). An integer literal has no sign (g4 L286-289), so `ParseInt` with base 0 and 64
bits succeeds for what `ParseUint` reads as less than 2^63, and `ParseUint` for the rest below 2^64. -/
def integerLiteral (s : Str) : Val P :=
  match Data.parseUint0 64 s with
  | .value n =>
    if n < 2 ^ 63 then if n > 2 ^ 31 - 1 then .int64 (BitVec.ofNat 64 n) else .int32 (BitVec.ofNat 32 n)
    else numericLiteral s
  | _ =>
    match P.decParse s with
    | some d => .decimal d
    | none => .string s

/-- `ExitLiteralValue` (L1046-1104), with `parseStringLiteral` (L1480-1488), `parseDateTimeLiteral` (L1506-1520) and `parseGuidLiteral`
(L1490-1504). -/
def literal : Lit → Res (Val P)
  | .integer s => .ok (integerLiteral s)
  | .numeric s =>
    .ok (if ch 'E' ∈ s ∨ ch 'e' ∈ s then if (P.fltParse s).2 then .double (P.fltParse s).1 else numericLiteral s else numericLiteral s)
  | .string s => do .ok (.string (← unquote (ch '\'') s))
  | .datetime s => do
    let s ← unquote (ch '#') s
    if (P.timeParse s).2 then .ok (.dateTime (P.timeParse s).1) else .panic
  | .guid s => do
    let s ← unquote (ch '\'') s
    if (P.guidParse s).2 then .ok (.guid (P.guidParse s).1) else .panic
  | .boolean s => .ok (.boolean (P.upper s = "TRUE".toList.map ch))
  | .null => .ok (.null .undefined)

end Verif.Parse
