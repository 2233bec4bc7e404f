import Verif.Table.Select

/-!
# Evaluating filter expressions of several statements (data/FilterExpressionParser.go L202-420, L437-581)

What ANTLR and the other listener methods make of the text is given: a list of statements, literals and expression trees being parsed.
A panic during the walk over the parse tree is recovered and returned as an error (L284-304); so is, in the model, running out of `depth`, where
the stack of the program overflows, which Go cannot recover. Errors end `Evaluate`; the results
gathered up to then are not modelled.
-/

set_option linter.dupNamespace false

namespace Verif.Table

open Verif.Expr

variable {P : Prim}

/-- `TableIDFields` (TableIDFields.go L29-39). -/
structure IDFields where
  signalID : Str
  measurementKey : Str
  pointTag : Str

/-- The fields of `FilterExpressionParser` set before `Evaluate` (L63-82). `tables` is `DataSet.Table`, with the name of the table
found, which is that of the last table added under this name in any letter case. -/
structure Parser (P : Prim) where
  tables : Str → Option (Str × Table P)
  primary : Str
  idFields : Str → Option IDFields
  trackRows : Bool := true
  trackIDs : Bool := false

/-- An `orderingTerm` of the grammar: the column, whether `DESC` is given and whether a modifier for exact match is given.
(FilterExpressionSyntax.g4 L61-63) -/
structure OrderingTerm where
  column : Str
  desc : Bool
  exactMatchModifier : Bool

/-- A `filterExpressionStatement` of the grammar. `top` is absent, or a number, or something `strconv.Atoi` refuses.
(FilterExpressionSyntax.g4 L41-55, data/FilterExpressionParser.go L437-489) -/
inductive Statement (P : Prim) where
  | guid (id : Guid.Guid)
  | measurementKey (text : Str)
  | pointTag (text : Str)
  | filter (table : Str) (top : Option (Option Int)) (terms : List OrderingTerm) (root : Tree P)
  | expression (root : Tree P)

/-- The fields of `FilterExpressionParser` that hold results (L51-60). A set is the list of its members; `none` is nil. Rows are told
apart by their address. -/
structure Found (P : Prim) where
  count : Nat := 0
  rows : List (Row P) := []
  rowSet : Option (List Nat) := none
  ids : List Guid.Guid := []
  idSet : Option (List Guid.Guid) := none
  trees : List (Str × Filter P) := []

/-- `HashSet.Add` (hashset/HashSet.go L46-53); a nil map cannot be written to. -/
def hashAdd {α : Type} [DecidableEq α] (set : Option (List α)) (x : α) : Res (Option (List α) × Bool) :=
  match set with
  | none => .panic
  | some s => if x ∈ s then .ok (some s, false) else .ok (some (x :: s), true)

namespace Parser

/-- `initializeSetOperations` (L306-327). -/
def initializeSetOperations (p : Parser P) (st : Found P) : Found P :=
  { st with
    rowSet := if p.trackRows ∧ st.rowSet = none then some (st.rows.map Row.id) else st.rowSet
    idSet := if p.trackIDs ∧ st.idSet = none then some st.ids else st.idSet }

/-- Adding a row, as in `addMatchedRow` (L332-334, L345-347) and `ExitIdentifierStatement` (L558-564). -/
def addRow (p : Parser P) (st : Found P) (r : Row P) : Res (Found P) :=
  if p.trackRows then
    if st.count > 1 then do
      let (set, added) ← hashAdd st.rowSet r.id
      return { st with rowSet := set, rows := if added then st.rows ++ [r] else st.rows }
    else return { st with rows := st.rows ++ [r] }
  else return st

/-- Adding a signal ID, as in `addMatchedRow` (L339-341, L352-354) and `ExitIdentifierStatement` (L507-515). -/
def addID (p : Parser P) (st : Found P) (g : Guid.Guid) : Res (Found P) :=
  if p.trackIDs ∧ ¬ Guid.isZero g then
    if st.count > 1 then do
      let (set, added) ← hashAdd st.idSet g
      return { st with idSet := set, ids := if added then st.ids ++ [g] else st.ids }
    else return { st with ids := st.ids ++ [g] }
  else return st

/-- `row.GuidValue(column)`, an error counting as no value. (data/FilterExpressionParser.go L329-383) -/
def guidValue (t : Table P) (depth : Nat) (r : Row P) (column : Int) : Res (Option Guid.Guid) := do
  match ← hasValue (r.get (r.column t depth) t .guid column) with
  | some (.guid g) => return some g
  | _ => return none

/-- `row.StringValue(column)`, an error counting as no value. (data/FilterExpressionParser.go L329-383) -/
def stringValue (t : Table P) (depth : Nat) (r : Row P) (column : Int) : Res (Option Str) := do
  match ← hasValue (r.get (r.column t depth) t .string column) with
  | some (.string s) => return some s
  | _ => return none

/-- `addMatchedRow` (L329-357). -/
def addMatchedRow (p : Parser P) (t : Table P) (depth : Nat) (st : Found P) (r : Row P) (signalIDColumn : Int) : Res (Found P) := do
  let st ← p.addRow st r
  if p.trackIDs then
    match ← guidValue t depth r signalIDColumn with
    | some g => p.addID st g
    | none => return st
  else return st

/-- The loops that look for a row (L369-382, L548-568): the first that meets the condition. -/
def findRow (cond : Row P → Res Bool) : List (Option (Row P)) → Res (Option (Row P))
  | [] => .ok none
  | none :: rows => findRow cond rows
  | some r :: rows => do
    if ← cond r then return some r
    findRow cond rows

/-- `mapMatchedFieldRow` (L359-383). -/
def mapMatchedFieldRow (p : Parser P) (t : Table P) (depth : Nat) (st : Found P) (columnName matchValue : Str) (signalIDColumn : Int) :
    Res (Found P) :=
  match t.columnByName columnName with
  | none => .ok st
  | some c => do
    let matchValue := P.upper matchValue
    match ← findRow (fun r => do return (← stringValue t depth r c.index).map P.upper == some matchValue) t.rows with
    | some r => p.addMatchedRow t depth st r signalIDColumn
    | none => return st

/-- `EnterFilterExpressionStatement` (L408-420). -/
def enterStatement (p : Parser P) (st : Found P) : Found P :=
  let st := { st with count := st.count + 1 }
  if st.count = 2 then p.initializeSetOperations st else st

/-- `OrderByTerm`s of the terms (L460-478): the column must exist. -/
def orderBy (t : Table P) : List OrderingTerm → Res (List OrderBy)
  | [] => .ok []
  | o :: os =>
    match t.columnByName o.column with
    | none => .err
    | some c => do return { column := c.index, ascending := !o.desc, exactMatch := !o.exactMatchModifier } :: (← orderBy t os)

/-- `EnterFilterStatement` (L437-479), the root being put in later by `addExpr` (L391-397). -/
def enterFilterStatement (p : Parser P) (st : Found P) (table : Str) (top : Option (Option Int)) (terms : List OrderingTerm)
    (root : Tree P) : Res (Found P) :=
  match p.tables table with
  | none => .err
  | some (_, t) => do
    let topLimit := match top with
      | some (some n) => n
      | _ => -1
    return { st with trees := st.trees ++ [(table, { root := root, topLimit := topLimit, orderBy := ← orderBy t terms })] }

/-- `ExitIdentifierStatement` (L491-581) during `Evaluate`, so that rows or signal IDs are tracked. -/
def exitIdentifier (p : Parser P) (depth : Nat) (st : Found P) (s : Statement P) : Res (Found P) := do
  let signalID := match s with
    | .guid g => g
    | _ => Guid.empty
  let st ← match s with
    | .guid g => p.addID st g
    | _ => pure st
  match s, p.trackRows with
  | .guid _, false => return st
  | _, _ =>
    match p.tables p.primary, p.idFields p.primary with
    | some (_, t), some fields =>
      match t.columnByName fields.signalID with
      | none => return st
      | some signalIDColumn =>
        if p.trackRows ∧ ¬ Guid.isZero signalID then
          match ← findRow (fun r => do return (← guidValue t depth r signalIDColumn.index) == some signalID) t.rows with
          | some r => p.addRow st r
          | none => return st
        else
          match s with
          | .measurementKey text => p.mapMatchedFieldRow t depth st fields.measurementKey text signalIDColumn.index
          | .pointTag text => p.mapMatchedFieldRow t depth st fields.pointTag text signalIDColumn.index
          | _ => return st
    | _, _ => return st

/-- The walk over one statement. (data/FilterExpressionParser.go L284-304) -/
def visit (p : Parser P) (depth : Nat) (st : Found P) (s : Statement P) : Res (Found P) :=
  let st := p.enterStatement st
  match s with
  | .filter table top terms root => p.enterFilterStatement st table top terms root
  | .expression root => .ok { st with trees := st.trees ++ [([], { root := root })] }
  | s => p.exitIdentifier depth st s

/-- `visitParseTreeNodes` (L284-304): panics become errors. -/
def visitAll (p : Parser P) (depth : Nat) (st : Found P) : List (Statement P) → Res (Found P)
  | [] => .ok st
  | s :: ss =>
    match p.visit depth st s with
    | .ok st => p.visitAll depth st ss
    | _ => .err

/-- The predicate of `Evaluate` (L243-252). -/
def predicate (v : Val P) : Res Bool := if v.type = .boolean then v.booleanValue else .ok false

/-- Adding the matched rows of a statement (L276-278). -/
def addAll (p : Parser P) (t : Table P) (depth : Nat) (signalIDColumn : Int) (st : Found P) : List (Row P) → Res (Found P)
  | [] => .ok st
  | r :: rs => do
    let st ← p.addMatchedRow t depth st r signalIDColumn
    p.addAll t depth signalIDColumn st rs

/-- The column of signal IDs (L258-274), -1 when they are not tracked. -/
def signalIDColumn (p : Parser P) (name : Str) (t : Table P) : Res Int :=
  if p.trackIDs then
    match p.idFields name with
    | none => .err
    | some fields =>
      match t.columnByName fields.signalID with
      | none => .err
      | some c => .ok c.index
  else .ok (-1)

/-- The evaluation of one expression tree (L225-279). -/
def evaluateTree (p : Parser P) (sort : Sorter P) (depth : Nat) (applyLimit applySort : Bool) (st : Found P) (tree : Str × Filter P) :
    Res (Found P) :=
  if tree.1.length = 0 ∧ p.primary.length = 0 then .err
  else match p.tables (if tree.1.length = 0 then p.primary else tree.1) with
    | none => .err
    | some (name, t) => do
      let matched ← tree.2.selectWhere sort t depth predicate applyLimit applySort
      let signalIDColumn ← p.signalIDColumn name t
      p.addAll t depth signalIDColumn st matched

/-- The loop of `Evaluate` (L225-279). -/
def evaluateTrees (p : Parser P) (sort : Sorter P) (depth : Nat) (applyLimit applySort : Bool) (st : Found P) :
    List (Str × Filter P) → Res (Found P)
  | [] => .ok st
  | tree :: trees => do
    let st ← p.evaluateTree sort depth applyLimit applySort st tree
    p.evaluateTrees sort depth applyLimit applySort st trees

/-- `Evaluate` (L202-282), a data set being defined. -/
def evaluate (p : Parser P) (sort : Sorter P) (depth : Nat) (applyLimit applySort : Bool) (statements : List (Statement P)) :
    Res (Found P) :=
  if !p.trackRows ∧ !p.trackIDs then .err
  else do
    let st ← p.visitAll depth {} statements
    p.evaluateTrees sort depth applyLimit applySort st st.trees

end Parser

end Verif.Table
