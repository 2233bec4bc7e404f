import Verif.Table.Parser
import Verif.Parse.Listener
import Verif.Parse.Stray
import Verif.Lex.Lexer
import Verif.Format.Model

/-!
# Filter expressions from their text (data/FilterExpressionParser.go, data/DataTable.go L253-275)

The lexer is `Lex.tokens`, the parser `Parse.parseRecovering`, the listener for expressions `Parse.build` and the one for statements
`Parser.visit`. A syntax error is reported to the error listener (which calls back the user at most); the parser recovers and goes on. This is modelled for what
stands behind the statements; any other text with a syntax error is `none`. `SuppressConsoleErrorOutput` has no effect on results.
-/

set_option linter.dupNamespace false

namespace Verif.Table

open Verif.Expr Verif.Parse

variable {P : Prim}

/-- `strconv.Atoi` with ints of 64 bits; `none` is an error. -/
def atoi (s : Str) : Option Int :=
  match Text.parseUint (Text.sign s).2 with
  | .value n =>
    if (Text.sign s).1 then if n ≤ 2 ^ 63 then some (-(n : Int)) else none
    else if n < 2 ^ 63 then some n else none
  | _ => none

/-- `context.TopLimit().GetText()` (FilterExpressionParser.go L452): the texts of the tokens, one after the other. -/
def topText (t : Top) : Str :=
  match t.sign with
  | none => t.digits
  | some true => 45#8 :: t.digits
  | some false => 43#8 :: t.digits

/-- `fep.parser.Parse()` (FilterExpressionParser.go L300) with `Parse` and `Err` (parser L404-450, L525-561): a text with no token has no statement; one that
begins with an unexpected character panics, which `visitParseTreeNodes` makes an error. -/
def read (text : Str) : Option (Res (List S)) :=
  match Lex.tokens text with
  | [] => some (.ok [])
  | .unexpected _ :: _ => some .err
  | ts => (parseRecovering ts).map .ok

namespace Parser

/-- `ExitColumnName` (FilterExpressionParser.go L1125-1150); `table` is the table's name in the active expression tree. -/
def columnNamed (p : Parser P) (table name : Str) : Res Nat :=
  if table.length = 0 ∧ p.primary.length = 0 then .panic
  else match p.tables (if table.length = 0 then p.primary else table) with
    | none => .panic
    | some (_, t) =>
      match t.columnByName name with
      | some c => .ok c.index.toNat
      | none => .panic

/-- `parseGuidLiteral` (FilterExpressionParser.go L1490-1504). -/
def guidLiteral (text : Str) : Res Guid.Guid := do
  let s ← unquote (ch '\'') text
  if (P.guidParse s).2 then return (P.guidParse s).1
  .panic

/-- What the listener reads of an ordering term (FilterExpressionParser.go L462-476). -/
def orderingTerm (t : Term) : OrderingTerm := { column := t.column, desc := t.desc = some true, exactMatchModifier := t.exact.isSome }

/-- What the listener makes of a statement: `EnterFilterStatement` (FilterExpressionParser.go L437-479), `ExitIdentifierStatement` (L491-581, with
`parsePointTagLiteral`, L1522-1530) and the methods for expressions. The table is looked up first (L440-444). -/
def statementOf (p : Parser P) : S → Res (Statement P)
  | .guid text => do return .guid (← guidLiteral (P := P) text)
  | .measurementKey text => .ok (.measurementKey text)
  | .pointTag text => do return .pointTag (← unquote (ch '"') text)
  | .filter top table e terms =>
    match p.tables table with
    | none => .panic
    | some _ => do return .filter table (top.map fun t => atoi (topText t)) (terms.map orderingTerm) (← build (p.columnNamed table) e)
  | .expr e => do return .expression (← build (p.columnNamed []) e)

/-- The walk over one statement: with neither rows nor signal IDs tracked a GUID is an expression (FilterExpressionParser.go L497-506). -/
def listen (p : Parser P) (depth : Nat) (st : Found P) (s : S) : Res (Found P) := do
  match ← p.statementOf s with
  | .guid g => if !p.trackRows ∧ !p.trackIDs then p.visit depth st (.expression (.value (.guid g))) else p.visit depth st (.guid g)
  | s => p.visit depth st s

/-- `visitParseTreeNodes` (FilterExpressionParser.go L284-304): panics become errors. -/
def listenAll (p : Parser P) (depth : Nat) (st : Found P) : List S → Res (Found P)
  | [] => .ok st
  | s :: ss =>
    match p.listen depth st s with
    | .ok st => p.listenAll depth st ss
    | _ => .err

/-- `Evaluate` (FilterExpressionParser.go L202-282) of a text, a data set being defined. -/
def evaluateText (p : Parser P) (sort : Sorter P) (depth : Nat) (applyLimit applySort : Bool) (text : Str) : Option (Res (Found P)) :=
  if !p.trackRows ∧ !p.trackIDs then some .err
  else (read text).map fun ss => do
    let st ← p.listenAll depth {} (← ss)
    p.evaluateTrees sort depth applyLimit applySort st st.trees

/-- `ExpressionTrees` (FilterExpressionParser.go L140-148) of a new parser. -/
def expressionTrees (p : Parser P) (depth : Nat) (text : Str) : Option (Res (List (Str × Filter P))) :=
  (read text).map fun ss => do return (← p.listenAll depth {} (← ss)).trees

end Parser

/-- `DefaultTableIDFields` (TableIDFields.go L42-46). -/
def defaultIDFields : IDFields := ⟨"SignalID".toList.map ch, "ID".toList.map ch, "PointTag".toList.map ch⟩

/-- The parser of `NewFilterExpressionParserForDataSet` (FilterExpressionParser.go L109-130) for a data set that is not nil. -/
def forDataSet (tables : Str → Option (Str × Table P)) (primary : Str) (fields : Option IDFields) : Parser P :=
  { tables := tables
    primary := primary
    idFields := fun name => if primary.length > 0 ∧ name = primary then some (fields.getD defaultIDFields) else none }

/-- `SelectDataRows` (FilterExpressionParser.go L1375-1387). -/
def selectDataRows (tables : Str → Option (Str × Table P)) (sort : Sorter P) (depth : Nat) (text primary : Str) (fields : Option IDFields) :
    Option (Res (List (Row P))) :=
  if text.length = 0 then some .err
  else ((forDataSet tables primary fields).evaluateText sort depth true true text).map fun r => do return (← r).rows

/-- `SelectDataRowSet` (FilterExpressionParser.go L1412-1424), with `FilteredRowSet` (L157-160); a set is the list of the addresses in it. -/
def selectDataRowSet (tables : Str → Option (Str × Table P)) (sort : Sorter P) (depth : Nat) (text primary : Str) (fields : Option IDFields) :
    Option (Res (Option (List Nat))) :=
  if text.length = 0 then some .err
  else
    let p := forDataSet tables primary fields
    (p.evaluateText sort depth true false text).map fun r => do return (p.initializeSetOperations (← r)).rowSet

/-- `SelectSignalIDSet` (FilterExpressionParser.go L1448-1463), with `FilteredSignalIDSet` (L169-172). -/
def selectSignalIDSet (tables : Str → Option (Str × Table P)) (sort : Sorter P) (depth : Nat) (text primary : Str) (fields : Option IDFields) :
    Option (Res (Option (List Guid.Guid))) :=
  if text.length = 0 then some .err
  else
    let p := { forDataSet tables primary fields with trackRows := false, trackIDs := true }
    (p.evaluateText sort depth true false text).map fun r => do return (p.initializeSetOperations (← r)).idSet

/-- `GenerateExpressionTrees` (FilterExpressionParser.go L1280-1290). -/
def generateTrees (tables : Str → Option (Str × Table P)) (depth : Nat) (primary text : Str) : Option (Res (List (Str × Filter P))) :=
  if text.length = 0 then some .err
  else { forDataSet tables primary none with trackRows := false }.expressionTrees depth text

/-- `GenerateExpressionTree` (FilterExpressionParser.go L1306-1318), with `GenerateExpressionTreesFromTable` (L1295-1301), for a table of this
name in the data set. -/
def generateTree (tables : Str → Option (Str × Table P)) (depth : Nat) (name text : Str) : Option (Res (Filter P)) :=
  (generateTrees tables depth name text).map fun r => do
    match ← r with
    | tree :: _ => return tree.2
    | [] => .err

/-- `EvaluateExpression` (FilterExpressionParser.go L1325-1344): no data set, and no row to read columns from. -/
def evaluateExpression (text : Str) : Option (Res (Val P)) :=
  if text.length = 0 then some .err
  else (Parser.expressionTrees { tables := fun _ => none, primary := [], idFields := fun _ => none, trackRows := false } 0 text).map fun r => do
    match ← r with
    | tree :: _ => eval (fun _ => .err) tree.2.root
    | [] => .err

/-- `EvaluateDataRowExpression` (FilterExpressionParser.go L1350-1366) for a row of the table of this name, which the data set finds under it. -/
def evaluateDataRowExpression (tables : Str → Option (Str × Table P)) (depth : Nat) (name : Str) (t : Table P) (r : Row P) (text : Str) :
    Option (Res (Val P)) :=
  (generateTree tables depth name text).map fun f => do (← f).evaluate t depth r

/-- The text of ASCII characters. -/
def ascii (s : String) : Str := s.toList.map ch

/-- The text `DataTable.Select` makes of its arguments (DataTable.go L254-266). -/
def selectText (name filter sortOrder : Str) (limit : Int) : Str :=
  let filter := if filter.length = 0 then ascii "True" else filter
  let text := if limit > 0 then ascii "FILTER TOP " ++ Format.formatInt limit ++ ascii " " ++ name ++ ascii " WHERE " ++ filter
    else ascii "FILTER " ++ name ++ ascii " WHERE " ++ filter
  if sortOrder.length > 0 then text ++ ascii " ORDER BY " ++ sortOrder else text

/-- `DataTable.Select` (DataTable.go L253-275) for a table of this name, which the data set finds under it. -/
def Table.selectFrom (tables : Str → Option (Str × Table P)) (sort : Sorter P) (t : Table P) (depth : Nat) (name filter sortOrder : Str)
    (limit : Int) : Option (Res (List (Row P))) :=
  (generateTree tables depth name (selectText name filter sortOrder limit)).map fun f => do (← f).select sort t depth

end Verif.Table
