import Verif.Parse.Grammar

/-!
# The generated parser of expressions (data/parser/filterexpressionsyntax_parser.go L1541-2420, L3446-3560)

`_p` is the lowest precedence an operator may have to be taken by the loop of the rule. `AdaptivePredict` is ANTLR's; what it answers is
settled by the next token, or the next two after `NOT`:

* at the start of an expression (decision 13) `NOT` and `!` also start a value, but ANTLR takes the first alternative when several
  match, and whatever the second matches the first matches too;
* a loop goes on when the next token is an operator whose precedence is at least `_p` (decisions 14, 21, 24).

`none` stands for a syntax error; what ANTLR does to recover from one is not modelled. The first number of each function bounds
the depth of calls; `parse` gives enough of it.
-/

namespace Verif.Parse

open Verif.Expr

/-- `NotOperator` where it is optional (L2017-2022, L2056-2061, L2107-2112). -/
def optNot : List Tok → Option Bool × List Tok
  | .not b :: ts => (some b, ts)
  | ts => (none, ts)

/-- `ExactMatchModifier` where it is optional (L2032-2037, L2071-2076). -/
def optExact : List Tok → Option Exact × List Tok
  | .kBinary :: ts => (some .binary, ts)
  | .cmp .eqEqEq :: ts => (some .eqEqEq, ts)
  | ts => (none, ts)

/-- `Match` of one token. (parser/filterexpressionsyntax_parser.go, from FilterExpressionSyntax.g4 L26-212) -/
def expect (t : Tok) : List Tok → Option (List Tok)
  | u :: ts => if u = t then some ts else none
  | [] => none

/-- What the loop of `predicateExpression` sees next (decisions 20 and 21): the alternative taken.
(parser/filterexpressionsyntax_parser.go, from FilterExpressionSyntax.g4 L26-212) -/
inductive Next where
  | cmp (o : Cmp) | like | isIn | isNull | stop
  deriving DecidableEq, Repr

/-- Decision 20: after `NOT` or `!` the second token decides between `LIKE` and `IN`.
(parser/filterexpressionsyntax_parser.go, from FilterExpressionSyntax.g4 L26-212) -/
def next : List Tok → Next
  | .cmp o :: _ => .cmp o
  | .kLike :: _ => .like
  | .kIn :: _ => .isIn
  | .kIs :: _ => .isNull
  | .not _ :: .kLike :: _ => .like
  | .not _ :: .kIn :: _ => .isIn
  | _ => .stop

mutual

/-- `expression` (L1704-1752, the part before the loop). -/
def expression : Nat → Nat → List Tok → Option (E × List Tok)
  | 0, _, _ => none
  | n + 1, p, ts =>
    match ts with
    | .not b :: ts =>
      match expression n 3 ts with
      | some (e, ts) => expressionLoop n p (.not b e) ts
      | none => none
    | ts =>
      match predicateExpression n 0 ts with
      | some (q, ts) => expressionLoop n p (.pred q) ts
      | none => none
termination_by structural n => n

/-- The loop of `expression` (L1757-1783). -/
def expressionLoop : Nat → Nat → E → List Tok → Option (E × List Tok)
  | 0, _, _, _ => none
  | n + 1, p, e, ts =>
    match ts with
    | .log o :: ts =>
      if 2 ≥ p then
        match expression n 3 ts with
        | some (r, ts) => expressionLoop n p (.log o e r) ts
        | none => none
      else some (e, .log o :: ts)
    | ts => some (e, ts)
termination_by structural n => n

/-- `predicateExpression` (L1940-1974, the part before the loop). -/
def predicateExpression : Nat → Nat → List Tok → Option (Q × List Tok)
  | 0, _, _ => none
  | n + 1, p, ts =>
    match valueExpression n 0 ts with
    | some (v, ts) => predicateLoop n p (.value v) ts
    | none => none
termination_by structural n => n

/-- The loop of `predicateExpression` (L1979-2125). -/
def predicateLoop : Nat → Nat → Q → List Tok → Option (Q × List Tok)
  | 0, _, _, _ => none
  | n + 1, p, q, ts =>
    match next ts with
    | .cmp o =>
      if 3 ≥ p then
        match predicateExpression n 4 ts.tail with
        | some (r, ts) => predicateLoop n p (.cmp o q r) ts
        | none => none
      else some (q, ts)
    | .like =>
      if 2 ≥ p then
        match expect .kLike (optNot ts).2 with
        | some us =>
          match predicateExpression n 3 (optExact us).2 with
          | some (r, vs) => predicateLoop n p (.like (optNot ts).1 (optExact us).1 q r) vs
          | none => none
        | none => none
      else some (q, ts)
    | .isIn =>
      if 5 ≥ p then
        match expect .kIn (optNot ts).2 with
        | some us =>
          match expect .lparen (optExact us).2 with
          | some vs =>
            match expressionList n vs with
            | some (list, ws) =>
              match expect .rparen ws with
              | some xs => predicateLoop n p (.isIn q (optNot ts).1 (optExact us).1 list) xs
              | none => none
            | none => none
          | none => none
        | none => none
      else some (q, ts)
    | .isNull =>
      if 4 ≥ p then
        match expect .kNull (optNot ts.tail).2 with
        | some us => predicateLoop n p (.isNull q (optNot ts.tail).1) us
        | none => none
      else some (q, ts)
    | .stop => some (q, ts)
termination_by structural n => n

/-- `valueExpression` (L2286-2363, the part before the loop), with `FunctionExpression` (L3446-3500) and `LiteralValue`
(L3581-3620). -/
def valueExpression : Nat → Nat → List Tok → Option (V × List Tok)
  | 0, _, _ => none
  | n + 1, p, ts =>
    match ts with
    | .kNull :: ts => valueLoop n p (.lit .null) ts
    | .boolean t :: ts => valueLoop n p (.lit (.boolean t)) ts
    | .integer t :: ts => valueLoop n p (.lit (.integer t)) ts
    | .numeric t :: ts => valueLoop n p (.lit (.numeric t)) ts
    | .guid t :: ts => valueLoop n p (.lit (.guid t)) ts
    | .string t :: ts => valueLoop n p (.lit (.string t)) ts
    | .datetime t :: ts => valueLoop n p (.lit (.datetime t)) ts
    | .ident t :: ts => valueLoop n p (.column t) ts
    | .fn f :: .lparen :: .rparen :: ts => valueLoop n p (.call0 f) ts
    | .fn f :: .lparen :: ts =>
      match expressionList n ts with
      | some (list, us) =>
        match expect .rparen us with
        | some vs => valueLoop n p (.call f list) vs
        | none => none
      | none => none
    | .math .minus :: ts =>
      match valueExpression n 4 ts with
      | some (v, us) => valueLoop n p (.unary .minus v) us
      | none => none
    | .math .plus :: ts =>
      match valueExpression n 4 ts with
      | some (v, us) => valueLoop n p (.unary .plus v) us
      | none => none
    | .tilde :: ts =>
      match valueExpression n 4 ts with
      | some (v, us) => valueLoop n p (.unary .tilde v) us
      | none => none
    | .not b :: ts =>
      match valueExpression n 4 ts with
      | some (v, us) => valueLoop n p (.unary (.not b) v) us
      | none => none
    | .lparen :: ts =>
      match expression n 0 ts with
      | some (e, us) =>
        match expect .rparen us with
        | some vs => valueLoop n p (.paren e) vs
        | none => none
      | none => none
    | _ => none
termination_by structural n => n

/-- The loop of `valueExpression` (L2368-2417). -/
def valueLoop : Nat → Nat → V → List Tok → Option (V × List Tok)
  | 0, _, _, _ => none
  | n + 1, p, v, ts =>
    match ts with
    | .math o :: ts =>
      if 2 ≥ p then
        match valueExpression n 3 ts with
        | some (r, ts) => valueLoop n p (.math o v r) ts
        | none => none
      else some (v, .math o :: ts)
    | .bit o :: ts =>
      if 1 ≥ p then
        match valueExpression n 2 ts with
        | some (r, ts) => valueLoop n p (.bit o v r) ts
        | none => none
      else some (v, .bit o :: ts)
    | ts => some (v, ts)
termination_by structural n => n

/-- `ExpressionList` (L1541-1584). -/
def expressionList : Nat → List Tok → Option (L × List Tok)
  | 0, _ => none
  | n + 1, ts =>
    match expression n 0 ts with
    | some (e, .comma :: us) =>
      match expressionList n us with
      | some (list, vs) => some (.cons e list, vs)
      | none => none
    | some (e, us) => some (.one e, us)
    | none => none
termination_by structural n => n

end

/-- A call uses up a token before it calls itself, except that `expression` calls `predicateExpression`, this `valueExpression`, and each of
them its loop: six calls for one token are enough. (parser/filterexpressionsyntax_parser.go, from FilterExpressionSyntax.g4 L26-212) -/
def depth (ts : List Tok) : Nat := 6 * ts.length + 6

/-- `Expression` (L1700-1702), at the end of the input. -/
def parse (ts : List Tok) : Option E :=
  match expression (depth ts) 0 ts with
  | some (e, []) => some e
  | _ => none

end Verif.Parse
