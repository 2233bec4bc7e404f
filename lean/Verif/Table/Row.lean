import Verif.Table.Cell

/-!
# Rows and their readers (data/DataRow.go, data/DataTable.go, data/DataColumn.go; `evaluateColumn` of data/ExpressionTree.go)

A row belongs to the table it is read with (`dr.parent`); rows added to another table than the one that created them are not modelled.
`GenerateExpressionTree` (FilterExpressionParser.go L1306-1318), which rests on ANTLR, is the parameter `parse`; its panics are
recovered (L285-296), so it yields a tree or an error.

A computed column may name other computed columns, so reading it can call itself. The readers take what evaluating a column yields as
an argument `col`, and `column` closes the circle with a bound on the depth of calls; reaching it is a panic (in Go the stack
overflows, which ends the process).

The first reading of a computed column stores the parsed tree in its place in `values` (L96-112). Here a reader does not change the
row: `Row.cache` does so apart, and `C55_cache` shows that no typed reader sees a difference.
-/

set_option linter.dupNamespace false

namespace Verif.Table

open Verif.Expr

variable {P : Prim}

/-- `DataColumn` (DataColumn.go L30-37). `index` is -1 before the column is added to a table. -/
structure Column where
  name : Str
  type : DT
  expression : Str
  index : Int := -1

/-- `computed` (DataColumn.go L45). -/
def Column.computed (c : Column) : Bool := c.expression.length > 0

/-- `DataRow` (DataRow.go L40-43). `id` stands for the row's address. -/
structure Row (P : Prim) where
  id : Nat
  values : List (Option (Cell P))

/-- `DataTable` (DataTable.go L39-45); `none` is a nil row. `parse` is `GenerateExpressionTree(table, ·, true)`. -/
structure Table (P : Prim) where
  columnIndexes : Str → Option Nat
  columns : List Column
  rows : List (Option (Row P))
  parse : Str → Option (Tree P)

/-- `Column` (DataTable.go L81-87). -/
def Table.column (t : Table P) (i : Int) : Option Column :=
  if i < 0 ∨ i ≥ t.columns.length then none else t.columns[i.toNat]?

/-- `ColumnByName` (DataTable.go L91-97). -/
def Table.columnByName (t : Table P) (name : Str) : Option Column :=
  match t.columnIndexes (P.upper name) with
  | some i => t.column i
  | none => none

namespace Row

/-- `getColumnIndex` (DataRow.go L57-65). -/
def getColumnIndex (t : Table P) (name : Str) : Res Int :=
  match t.columnByName name with
  | some c => .ok c.index
  | none => .err

/-- `validateColumnType` (L67-94); a negative target type is `none`. -/
def validateColumnType (t : Table P) (i : Int) (target : Option DT) (read : Bool) : Res Column :=
  match t.column i with
  | none => .err
  | some c =>
    if target.isSome ∧ target ≠ some c.type then .err
    else if !read ∧ c.computed then .err
    else .ok c

/-- Go's `dr.values[i]`. (data/DataRow.go L479-497) -/
def value? (r : Row P) (i : Int) : Res (Option (Cell P)) :=
  if i < 0 then .panic
  else match r.values[i.toNat]? with
    | some v => .ok v
    | none => .panic

/-- `expressionTree` (L96-112): what is in the column's place, or the parsed expression when that is nil. Anything else than an
expression tree there fails the type assertion. -/
def expressionTree (t : Table P) (r : Row P) (c : Column) : Res (Tree P) := do
  match ← r.value? c.index with
  | none =>
    match t.parse c.expression with
    | some e => return e
    | none => .err
  | some (.tree e) => return e
  | some _ => .panic

/-- `getComputedValue` (L114-149). -/
def getComputedValue (col : Nat → Res (Val P)) (t : Table P) (r : Row P) (c : Column) : Res (Cell P) := do
  let e ← r.expressionTree t c
  let v ← eval col e
  convertResult v c.type

/-- `Value` (L484-496). -/
def value (col : Nat → Res (Val P)) (t : Table P) (r : Row P) (i : Int) : Res (Option (Cell P)) := do
  let c ← validateColumnType t i none true
  if c.computed then return some (← r.getComputedValue col t c)
  r.value? i

/-- `ValueByName` (L499-507). -/
def valueByName (t : Table P) (r : Row P) (name : Str) : Res (Option (Cell P)) := do
  let i ← getColumnIndex t name
  r.value? i

/-- `SetValue` (L510-519). -/
def setValue (t : Table P) (r : Row P) (i : Int) (v : Option (Cell P)) : Res (Row P) := do
  let _ ← validateColumnType t i none false
  if i < 0 ∨ i ≥ r.values.length then .panic
  else return { r with values := r.values.set i.toNat v }

/-- `SetValueByName` (L522-530). -/
def setValueByName (t : Table P) (r : Row P) (name : Str) (v : Option (Cell P)) : Res (Row P) := do
  let i ← getColumnIndex t name
  r.setValue t i v

/-- Go's type assertion to the type of a column. (data/DataRow.go L755-1440) -/
def assert (dt : DT) (c : Cell P) : Res (Option (Cell P)) := if c.type = dt then .ok (some c) else .panic

/-- `StringValue`, `BooleanValue`, ..., `UInt64Value` (L755-1440): fifteen functions of the same text but for the type `dt`. `none`
is the null flag. -/
def get (col : Nat → Res (Val P)) (t : Table P) (r : Row P) (dt : DT) (i : Int) : Res (Option (Cell P)) := do
  let c ← validateColumnType t i (some dt) true
  if c.computed then
    let v ← r.getComputedValue col t c
    assert dt v
  else
    match ← r.value? i with
    | none => return none
    | some v => assert dt v

/-- `StringValueByName`, ... (L788-1440): the same text but for the type. -/
def getByName (col : Nat → Res (Val P)) (t : Table P) (r : Row P) (dt : DT) (name : Str) : Res (Option (Cell P)) := do
  let i ← getColumnIndex t name
  r.get col t dt i

/-- `evaluateColumn` (ExpressionTree.go L247-344), a column given by its position in the table. -/
def evaluateColumn (col : Nat → Res (Val P)) (t : Table P) (r : Row P) (n : Nat) : Res (Val P) :=
  match t.columns[n]? with
  | none => .err
  | some c =>
    if c.type = .undefined then .err
    else do
      match ← r.get col t c.type c.index with
      | none => return .null c.type.exprType
      | some v => v.toVal

/-- What evaluating a column yields, calls being at most `depth` deep. (data/ExpressionTree.go L247-345) -/
def column (t : Table P) (r : Row P) : (depth : Nat) → Nat → Res (Val P)
  | 0, _ => .panic
  | depth + 1, n => r.evaluateColumn (r.column t depth) t n

/-- The effect of reading a computed column on the row (L100-108): a nil is replaced by the parsed expression. -/
def cache (t : Table P) (r : Row P) (c : Column) : Row P :=
  match r.value? c.index, t.parse c.expression with
  | .ok none, some e => { r with values := r.values.set c.index.toNat (some (.tree e)) }
  | _, _ => r

end Row

end Verif.Table
