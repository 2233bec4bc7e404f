import Verif.Expr.Eval

/-!
# Expressions of the filter syntax (data/FilterExpressionSyntax.g4)

The tokens are those the lexer makes of the text; the syntax trees are those of the rules `expression`, `predicateExpression`,
`valueExpression` and `expressionList`, each constructor being one alternative of its rule.
-/

namespace Verif.Parse

open Verif.Expr

/-- The tokens of `comparisonOperator` (g4 L122-126). -/
inductive Cmp where
  | lt | le | gt | ge | eq | eqEq | eqEqEq | bangEq | bangEqEq | ltGt
  deriving DecidableEq, Repr

/-- The tokens of `logicalOperator` (g4 L128-131). -/
inductive Log where
  | kAnd | ampAmp | kOr | barBar
  deriving DecidableEq, Repr

/-- The tokens of `bitwiseOperator` (g4 L133-137). -/
inductive Bit where
  | shl | shr | amp | bar | kXor | caret
  deriving DecidableEq, Repr

/-- The tokens of `mathOperator` (g4 L139-142). -/
inductive Math where
  | star | slash | percent | plus | minus
  deriving DecidableEq, Repr

/-- A token. `+` and `-` are `math`, also where they are unary; `===` is `cmp`, also where it is a modifier; `bang` tells `!` from
`NOT`. Those from `semi` on are no part of an expression. (FilterExpressionSyntax.g4 L26-212) -/
inductive Tok where
  | lparen | rparen | comma
  | not (bang : Bool)
  | tilde
  | math (o : Math)
  | bit (o : Bit)
  | cmp (o : Cmp)
  | log (o : Log)
  | kIn | kLike | kIs | kNull | kBinary
  | fn (f : Fn)
  | ident (text : Str)
  | integer (text : Str)
  | numeric (text : Str)
  | string (text : Str)
  | datetime (text : Str)
  | guid (text : Str)
  | boolean (text : Str)
  | semi | kFilter | kTop | kWhere | kOrder | kBy | kAsc | kDesc
  | measurementKey (text : Str)
  | pointTag (text : Str)
  | unexpected (text : Str)
  deriving DecidableEq, Repr

/-- `literalValue` (g4 L192-200). -/
inductive Lit where
  | integer (text : Str)
  | numeric (text : Str)
  | string (text : Str)
  | datetime (text : Str)
  | guid (text : Str)
  | boolean (text : Str)
  | null
  deriving DecidableEq, Repr

/-- `unaryOperator` (g4 L111-114). -/
inductive Un where
  | minus | plus | tilde
  | not (bang : Bool)
  deriving DecidableEq, Repr

/-- `exactMatchModifier` (g4 L116-119). -/
inductive Exact where
  | binary | eqEqEq
  deriving DecidableEq, Repr

mutual

/-- `expression` (g4 L82-86). -/
inductive E where
  | not (bang : Bool) (e : E)
  | log (o : Log) (l r : E)
  | pred (q : Q)

/-- `predicateExpression` (g4 L88-94). `neg` is the `notOperator`, if there is one. -/
inductive Q where
  | isIn (q : Q) (neg : Option Bool) (exact : Option Exact) (list : L)
  | isNull (q : Q) (neg : Option Bool)
  | cmp (o : Cmp) (l r : Q)
  | like (neg : Option Bool) (exact : Option Exact) (l r : Q)
  | value (v : V)

/-- `valueExpression` (g4 L96-104), with `functionExpression` (g4 L188-190). -/
inductive V where
  | lit (l : Lit)
  | column (name : Str)
  | call0 (f : Fn)
  | call (f : Fn) (args : L)
  | unary (u : Un) (v : V)
  | paren (e : E)
  | math (o : Math) (l r : V)
  | bit (o : Bit) (l r : V)

/-- `expressionList` (g4 L65-67). -/
inductive L where
  | one (e : E)
  | cons (e : E) (l : L)

end

/-- The token of a literal. (FilterExpressionSyntax.g4 L192-200) -/
def Lit.tok : Lit → Tok
  | .integer t => .integer t
  | .numeric t => .numeric t
  | .string t => .string t
  | .datetime t => .datetime t
  | .guid t => .guid t
  | .boolean t => .boolean t
  | .null => .kNull

/-- The token of a unary operator. (FilterExpressionSyntax.g4 L111-114) -/
def Un.tok : Un → Tok
  | .minus => .math .minus
  | .plus => .math .plus
  | .tilde => .tilde
  | .not b => .not b

/-- The token of an exact-match modifier. (FilterExpressionSyntax.g4 L116-120) -/
def Exact.tok : Exact → Tok
  | .binary => .kBinary
  | .eqEqEq => .cmp .eqEqEq

/-- The tokens of an optional `notOperator`. (FilterExpressionSyntax.g4 L106-109) -/
def negToks : Option Bool → List Tok
  | none => []
  | some b => [.not b]

/-- The tokens of an optional `exactMatchModifier`. (FilterExpressionSyntax.g4 L116-120) -/
def exactToks : Option Exact → List Tok
  | none => []
  | some x => [x.tok]

mutual

/-- The tokens of an expression, from left to right (g4 L82-86). -/
def E.toks : E → List Tok
  | .not b e => .not b :: e.toks
  | .log o l r => l.toks ++ .log o :: r.toks
  | .pred q => q.toks

/-- The tokens of a predicate (g4 L88-94). -/
def Q.toks : Q → List Tok
  | .isIn q neg exact list => q.toks ++ (negToks neg ++ .kIn :: (exactToks exact ++ .lparen :: (list.toks ++ [.rparen])))
  | .isNull q neg => q.toks ++ .kIs :: (negToks neg ++ [.kNull])
  | .cmp o l r => l.toks ++ .cmp o :: r.toks
  | .like neg exact l r => l.toks ++ (negToks neg ++ .kLike :: (exactToks exact ++ r.toks))
  | .value v => v.toks

/-- The tokens of a value (g4 L96-104). -/
def V.toks : V → List Tok
  | .lit l => [l.tok]
  | .column name => [.ident name]
  | .call0 f => [.fn f, .lparen, .rparen]
  | .call f args => .fn f :: .lparen :: (args.toks ++ [.rparen])
  | .unary u v => u.tok :: v.toks
  | .paren e => .lparen :: (e.toks ++ [.rparen])
  | .math o l r => l.toks ++ .math o :: r.toks
  | .bit o l r => l.toks ++ .bit o :: r.toks

/-- The tokens of a list (g4 L65-67). -/
def L.toks : L → List Tok
  | .one e => e.toks
  | .cons e l => e.toks ++ .comma :: l.toks

end

end Verif.Parse
