import Verif.Lex.Regex
import Verif.Parse.Grammar
import Verif.Common.Utf8

/-!
# The lexer of filter expressions (data/FilterExpressionSyntax.g4 L215-371, data/parser/filterexpressionsyntax_lexer.go)

The generated lexer is an automaton in a table of numbers; the rules are taken from the grammar it was generated from, the order of
rules and the sets of characters were compared with the table. ANTLR's runtime takes, at each place, the rule that matches the most
text, the first one if several match as much; the text is read as runes (`antlr.NewInputStream`, FilterExpressionParser.go L88).
Tokens of the hidden channel are not seen by the parser (L90).
-/

namespace Verif.Lex

open Verif.Expr Verif.Parse

/-- The runes of a text of the grammar. (FilterExpressionSyntax.g4 L217-371) -/
def codes (s : String) : List Nat := s.toList.map Char.toNat

/-- `DIGIT` (g4 L334). -/
def isDigit (c : Nat) : Bool := 48 ≤ c && c ≤ 57

/-- `[a-zA-Z]`. (FilterExpressionSyntax.g4 L217-371) -/
def isLetter (c : Nat) : Bool := (65 ≤ c && c ≤ 90) || (97 ≤ c && c ≤ 122)

/-- `HEX_DIGIT` (g4 L335). -/
def isHex (c : Nat) : Bool := isDigit c || (65 ≤ c && c ≤ 70) || (97 ≤ c && c ≤ 102)

/-- `ACRONYM_DIGIT` (g4 L336): letters, digits and `-!_.@#$`. -/
def isAcronym (c : Nat) : Bool :=
  isLetter c || isDigit c || c == 45 || c == 33 || c == 95 || c == 46 || c == 64 || c == 35 || c == 36

/-- `[a-zA-Z_]` (g4 L283). -/
def isWordStart (c : Nat) : Bool := isLetter c || c == 95

/-- `[a-zA-Z_0-9]` (g4 L283). -/
def isWordRune (c : Nat) : Bool := isWordStart c || isDigit c

/-- `SPACES` (g4 L326-328): space, tab, line feed, vertical tab and carriage return. -/
def isBlank (c : Nat) : Bool := c == 32 || c == 11 || c == 9 || c == 13 || c == 10

/-- `[\r\n]` (g4 L319). -/
def isBreak (c : Nat) : Bool := c == 13 || c == 10

/-- A fixed rune. (FilterExpressionSyntax.g4 L217-371) -/
def Re.one (c : Nat) : Re := .set (· == c)

/-- `A`, `B`, ... (g4 L346-371): a letter of either case, given as a capital. -/
def Re.letter (c : Nat) : Re := .set fun x => x == c || x == c + 32

/-- A fixed text. (FilterExpressionSyntax.g4 L217-371) -/
def Re.fixed : List Nat → Re
  | [] => .eps
  | c :: s => .seq (.one c) (Re.fixed s)

/-- A word in either case, given in capitals. (FilterExpressionSyntax.g4 L217-371) -/
def Re.word : List Nat → Re
  | [] => .eps
  | c :: s => .seq (.letter c) (Re.word s)

/-- `a+` (FilterExpressionSyntax.g4 L217-371) -/
def Re.plus (a : Re) : Re := .seq a (.star a)

/-- `a?` (FilterExpressionSyntax.g4 L217-371) -/
def Re.opt (a : Re) : Re := .alt a .eps

/-- So many times. (FilterExpressionSyntax.g4 L217-371) -/
def Re.times (a : Re) : Nat → Re
  | 0 => .eps
  | n + 1 => .seq a (Re.times a n)

/-- `GUID_VALUE` (g4 L338-344). -/
def Re.guid : Re :=
  .seq (.times (.set isHex) 8) <| .seq (.opt (.one 45)) <| .seq (.times (.set isHex) 4) <| .seq (.opt (.one 45)) <|
    .seq (.times (.set isHex) 4) <| .seq (.opt (.one 45)) <| .seq (.times (.set isHex) 4) <| .seq (.opt (.one 45)) <|
      .times (.set isHex) 12

/-- `E [-+]? DIGIT+` (g4 L292-293). -/
def Re.exponent : Re := .seq (.letter 69) <| .seq (.opt (.set fun c => c == 45 || c == 43)) (.plus (.set isDigit))

/-- The rules of the lexer. Those with a fixed text and the keywords carry their text and token. (FilterExpressionSyntax.g4 L217-332) -/
inductive Kind where
  | op (text : List Nat) (t : Tok)
  | key (text : List Nat) (t : Tok)
  | boolean | ident | integer | numeric | guid | measurementKey | pointTag | string | datetime
  | lineComment | blockComment | space | unexpected
  deriving DecidableEq

/-- The fixed texts of the grammar in the order of `T__0` to `T__27` (filterexpressionsyntax_lexer.go L478-482, L558-588). -/
def ops : List (List Nat × Tok) :=
  [(codes ";", .semi), (codes ",", .comma), (codes "-", .math .minus), (codes "+", .math .plus), (codes "(", .lparen), (codes ")", .rparen),
    (codes "!", .not true), (codes "~", .tilde), (codes "===", .cmp .eqEqEq), (codes "<", .cmp .lt), (codes "<=", .cmp .le),
    (codes ">", .cmp .gt), (codes ">=", .cmp .ge), (codes "=", .cmp .eq), (codes "==", .cmp .eqEq), (codes "!=", .cmp .bangEq),
    (codes "!==", .cmp .bangEqEq), (codes "<>", .cmp .ltGt), (codes "&&", .log .ampAmp), (codes "||", .log .barBar), (codes "<<", .bit .shl),
    (codes ">>", .bit .shr), (codes "&", .bit .amp), (codes "|", .bit .bar), (codes "^", .bit .caret), (codes "*", .math .star),
    (codes "/", .math .slash), (codes "%", .math .percent)]

/-- The keywords (g4 L217-273). -/
def keys : List (List Nat × Tok) :=
  [(codes "ABS", .fn .abs), (codes "AND", .log .kAnd), (codes "ASC", .kAsc), (codes "BINARY", .kBinary), (codes "BY", .kBy),
    (codes "CEILING", .fn .ceiling), (codes "COALESCE", .fn .coalesce), (codes "CONVERT", .fn .convert), (codes "CONTAINS", .fn .contains),
    (codes "DATEADD", .fn .dateAdd), (codes "DATEDIFF", .fn .dateDiff), (codes "DATEPART", .fn .datePart), (codes "DESC", .kDesc),
    (codes "ENDSWITH", .fn .endsWith), (codes "FILTER", .kFilter), (codes "FLOOR", .fn .floor), (codes "IIF", .fn .iif), (codes "IN", .kIn),
    (codes "INDEXOF", .fn .indexOf), (codes "IS", .kIs), (codes "ISDATE", .fn .isDate), (codes "ISINTEGER", .fn .isInteger),
    (codes "ISGUID", .fn .isGuid), (codes "ISNULL", .fn .isNull), (codes "ISNUMERIC", .fn .isNumeric), (codes "LASTINDEXOF", .fn .lastIndexOf),
    (codes "LEN", .fn .len), (codes "LIKE", .kLike), (codes "LOWER", .fn .lower), (codes "MAXOF", .fn .maxOf), (codes "MINOF", .fn .minOf),
    (codes "NOT", .not false), (codes "NOW", .fn .now), (codes "NTHINDEXOF", .fn .nthIndexOf), (codes "NULL", .kNull), (codes "OR", .log .kOr),
    (codes "ORDER", .kOrder), (codes "POWER", .fn .power), (codes "REGEXMATCH", .fn .regExMatch), (codes "REGEXVAL", .fn .regExVal),
    (codes "REPLACE", .fn .replace), (codes "REVERSE", .fn .reverse), (codes "ROUND", .fn .round), (codes "SQRT", .fn .sqrt),
    (codes "SPLIT", .fn .split), (codes "STARTSWITH", .fn .startsWith), (codes "STRCOUNT", .fn .strCount), (codes "STRCMP", .fn .strCmp),
    (codes "SUBSTR", .fn .subStr), (codes "TOP", .kTop), (codes "TRIM", .fn .trim), (codes "TRIMLEFT", .fn .trimLeft),
    (codes "TRIMRIGHT", .fn .trimRight), (codes "UPPER", .fn .upper), (codes "UTCNOW", .fn .utcNow), (codes "WHERE", .kWhere),
    (codes "XOR", .bit .kXor)]

/-- The rules in their order (filterexpressionsyntax_lexer.go L484-499). -/
def order : List Kind :=
  ops.map (fun x => .op x.1 x.2) ++ keys.map (fun x => .key x.1 x.2) ++
    [.boolean, .ident, .integer, .numeric, .guid, .measurementKey, .pointTag, .string, .datetime, .lineComment, .blockComment, .space, .unexpected]

/-- The bodies of the rules (g4 L217-332), apart from `MULTILINE_COMMENT`. -/
def Kind.re : Kind → Re
  | .op s _ => .fixed s
  | .key s _ => .word s
  | .boolean => .alt (.word (codes "TRUE")) (.word (codes "FALSE"))
  | .ident => .alt (.seq (.one 96) (.seq (.plus (.set fun c => c != 96)) (.one 96))) <|
      .alt (.seq (.one 91) (.seq (.plus (.set fun c => c != 93)) (.one 93))) <| .seq (.set isWordStart) (.star (.set isWordRune))
  | .integer => .alt (.plus (.set isDigit)) (.seq (.one 48) (.seq (.letter 88) (.plus (.set isHex))))
  | .numeric => .alt (.seq (.plus (.set isDigit)) (.seq (.opt (.seq (.one 46) (.star (.set isDigit)))) (.opt .exponent)))
      (.seq (.one 46) (.seq (.plus (.set isDigit)) (.opt .exponent)))
  | .guid => .alt (.seq (.one 39) (.seq .guid (.one 39))) <| .alt (.seq (.one 123) (.seq .guid (.one 125))) .guid
  | .measurementKey => .seq (.plus (.set isAcronym)) (.seq (.one 58) (.plus (.set isDigit)))
  | .pointTag => .seq (.one 34) (.seq (.plus (.set isAcronym)) (.one 34))
  | .string => .seq (.one 39) (.seq (.star (.alt (.set fun c => c != 39) (.seq (.one 39) (.one 39)))) (.one 39))
  | .datetime => .seq (.one 35) (.seq (.plus (.set fun c => c != 35)) (.one 35))
  | .lineComment => .seq (.one 45) (.seq (.one 45) (.star (.set fun c => !isBreak c)))
  | .blockComment => .empty
  | .space => .set isBlank
  | .unexpected => .set fun _ => true

/-- The length of the text up to and with the first `*/`. (FilterExpressionSyntax.g4 L322-324) -/
def closing : List Nat → Option Nat
  | [] => none
  | c :: s => if c = 42 ∧ s.head? = some 47 then some 2 else (closing s).map (· + 1)

/-- `MULTILINE_COMMENT` (g4 L322-324): the loop is not greedy, so it ends at the first `*/`, or at the end of the text. -/
def comment : List Nat → Option Nat
  | 47 :: 42 :: s => some ((closing s).getD s.length + 2)
  | _ => none

/-- How much of the text a rule can take. (FilterExpressionSyntax.g4 L217-332) -/
def Kind.scan (k : Kind) (s : List Nat) : Option Nat := if k = .blockComment then comment s else k.re.longest s

/-- The rule that takes the most, the first if several do. (data/FilterExpressionParser.go L85-107) -/
def best : List Kind → List Nat → Option (Kind × Nat)
  | [], _ => none
  | k :: ks, s =>
    match k.scan s, best ks s with
    | none, b => b
    | some n, none => some (k, n)
    | some n, some (l, m) => if m ≤ n then some (k, n) else some (l, m)

/-- `NextToken` again and again, to the end of the text; `n` tokens at most. (data/FilterExpressionParser.go L85-107) -/
def lexAux : Nat → List Nat → List (Kind × List Nat)
  | 0, _ => []
  | n + 1, s =>
    if s = [] then []
    else match best order s with
      | none => []
      | some (k, m) => (k, s.take m) :: lexAux n (s.drop m)

/-- The tokens of a text, those of the hidden channel among them. (data/FilterExpressionParser.go L85-107) -/
def lex (s : List Nat) : List (Kind × List Nat) := lexAux s.length s

/-- The token of the parser, none for the hidden channel (`-> channel(HIDDEN)`, g4 L319, L323, L327). -/
def Kind.tok (k : Kind) (text : Str) : Option Tok :=
  match k with
  | .op _ t | .key _ t => some t
  | .boolean => some (.boolean text)
  | .ident => some (.ident text)
  | .integer => some (.integer text)
  | .numeric => some (.numeric text)
  | .guid => some (.guid text)
  | .measurementKey => some (.measurementKey text)
  | .pointTag => some (.pointTag text)
  | .string => some (.string text)
  | .datetime => some (.datetime text)
  | .unexpected => some (.unexpected text)
  | .lineComment | .blockComment | .space => none

/-- The tokens the parser sees (FilterExpressionParser.go L88-91): the text is read as runes, the text of a token is written from runes. -/
def tokens (s : Str) : List Tok := (lex (Utf8.runes s)).filterMap fun x => x.1.tok (Utf8.text x.2)

end Verif.Lex
