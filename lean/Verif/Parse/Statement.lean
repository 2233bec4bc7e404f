import Verif.Parse.Fuel

/-!
# Statements of the filter syntax (data/FilterExpressionSyntax.g4 L26-63, data/parser/filterexpressionsyntax_parser.go L404-1458)

As in `Parser`, `none` stands for a syntax error, and what `AdaptivePredict` answers is settled by the tokens that follow:

* a statement that begins with a GUID (decision 5) is an `identifierStatement` if the GUID is all of it, since ANTLR takes the first
  alternative when several match, and an `expression` otherwise;
* the loop over the statements (decision 3) goes on when a statement follows the semicolons.
-/

namespace Verif.Parse

open Verif.Expr

/-- `topLimit` (g4 L57-59); the sign is `true` for `-`. -/
structure Top where
  sign : Option Bool
  digits : Str
  deriving DecidableEq, Repr

/-- `orderingTerm` (g4 L61-63); `desc` is `some false` for `ASC`. -/
structure Term where
  exact : Option Exact
  column : Str
  desc : Option Bool
  deriving DecidableEq, Repr

/-- `filterExpressionStatement` (g4 L41-45), with `identifierStatement` (g4 L47-51) and `filterStatement` (g4 L53-55). -/
inductive S where
  | guid (text : Str)
  | measurementKey (text : Str)
  | pointTag (text : Str)
  | filter (top : Option Top) (table : Str) (e : E) (terms : List Term)
  | expr (e : E)

/-- The tokens of a sign. (FilterExpressionSyntax.g4 L57-59) -/
def signToks : Option Bool → List Tok
  | none => []
  | some true => [.math .minus]
  | some false => [.math .plus]

/-- The tokens of an optional `TOP` (g4 L54, L57-59). -/
def topToks : Option Top → List Tok
  | none => []
  | some t => .kTop :: (signToks t.sign ++ [.integer t.digits])

/-- The tokens of an ordering term (g4 L61-63). -/
def Term.toks (t : Term) : List Tok :=
  exactToks t.exact ++ .ident t.column :: match t.desc with
    | none => []
    | some false => [.kAsc]
    | some true => [.kDesc]

/-- The tokens of ordering terms (g4 L54). -/
def termsToks : List Term → List Tok
  | [] => []
  | [t] => t.toks
  | t :: u :: ts => t.toks ++ .comma :: termsToks (u :: ts)

/-- The tokens of a statement (g4 L41-55). -/
def S.toks : S → List Tok
  | .guid t => [.guid t]
  | .measurementKey t => [.measurementKey t]
  | .pointTag t => [.pointTag t]
  | .filter top table e terms =>
    .kFilter :: (topToks top ++ .ident table :: .kWhere :: (e.toks ++ if terms = [] then [] else .kOrder :: .kBy :: termsToks terms))
  | .expr e => e.toks

/-- `TopLimit` (L1267-1313). -/
def topLimit : List Tok → Option (Top × List Tok)
  | .math .minus :: .integer t :: ts => some (⟨some true, t⟩, ts)
  | .math .plus :: .integer t :: ts => some (⟨some false, t⟩, ts)
  | .integer t :: ts => some (⟨none, t⟩, ts)
  | _ => none

/-- `TOP` where it is optional (L1141-1151). -/
def optTop : List Tok → Option (Option Top × List Tok)
  | .kTop :: ts =>
    match topLimit ts with
    | some (t, ts) => some (some t, ts)
    | none => none
  | ts => some (none, ts)

/-- `OrderingTerm` (L1401-1458). -/
def orderingTerm (ts : List Tok) : Option (Term × List Tok) :=
  match (optExact ts).2 with
  | .ident c :: .kAsc :: us => some (⟨(optExact ts).1, c, some false⟩, us)
  | .ident c :: .kDesc :: us => some (⟨(optExact ts).1, c, some true⟩, us)
  | .ident c :: us => some (⟨(optExact ts).1, c, none⟩, us)
  | _ => none

/-- The ordering terms and the commas between them (L1177-1199). -/
def orderingTerms : Nat → List Tok → Option (List Term × List Tok)
  | 0, _ => none
  | n + 1, ts =>
    match orderingTerm ts with
    | some (t, .comma :: us) =>
      match orderingTerms n us with
      | some (l, vs) => some (t :: l, vs)
      | none => none
    | some (t, us) => some ([t], us)
    | none => none

/-- `FilterStatement` (L1111-1203) after `FILTER`. -/
def filterStatement (n : Nat) (ts : List Tok) : Option (S × List Tok) :=
  match optTop ts with
  | some (top, .ident table :: .kWhere :: us) =>
    match expression n 0 us with
    | some (e, .kOrder :: vs) =>
      match expect .kBy vs with
      | some ws =>
        match orderingTerms n ws with
        | some (terms, xs) => some (.filter top table e terms, xs)
        | none => none
      | none => none
    | some (e, vs) => some (.filter top table e [], vs)
    | none => none
  | _ => none

/-- `FilterExpressionStatement` (L824-871), with `IdentifierStatement` (L943-978). -/
def statement (n : Nat) : List Tok → Option (S × List Tok)
  | [.guid t] => some (.guid t, [])
  | .guid t :: .semi :: ts => some (.guid t, .semi :: ts)
  | .measurementKey t :: ts => some (.measurementKey t, ts)
  | .pointTag t :: ts => some (.pointTag t, ts)
  | .kFilter :: ts => filterStatement n ts
  | ts =>
    match expression n 0 ts with
    | some (e, us) => some (.expr e, us)
    | none => none

/-- The loops over semicolons (L674-683, L698-707, L722-731). -/
def skip : List Tok → List Tok
  | .semi :: ts => skip ts
  | ts => ts

/-- `FilterExpressionStatementList` (L646-734) from the first statement on, and the end of the input; `m` statements at most. -/
def statements (n : Nat) : Nat → List Tok → Option (List S)
  | 0, _ => none
  | m + 1, ts =>
    match statement n ts with
    | some (s, us) =>
      match us with
      | [] => some [s]
      | .semi :: vs =>
        match skip vs with
        | [] => some [s]
        | w :: ws =>
          match statements n m (w :: ws) with
          | some ss => some (s :: ss)
          | none => none
      | _ => none
    | none => none

/-- `Parse` (L404-450), apart from `err`. -/
def parseStatements (ts : List Tok) : Option (List S) := statements (depth ts) ts.length (skip ts)

end Verif.Parse
