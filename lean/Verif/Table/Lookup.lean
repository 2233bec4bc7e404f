import Verif.Table.Row

/-!
# Names of columns and tables (data/DataTable.go L65-109, data/DataSet.go L61-130)

Columns and tables are objects that can be shared, so this model keeps them in a store and refers to them by number. Go maps are
functions.
-/

namespace Verif.Table.Lookup

open Verif.Expr Verif.Table

variable {P : Prim}

/-- `DataTable` (DataTable.go L39-45) without its rows; `columns` holds references to the store. -/
structure TableObj where
  name : Str
  columnIndexes : Str → Option Nat
  columns : List Nat

/-- The objects, and `DataSet.tables` (DataSet.go L53-58). -/
structure World where
  columns : List Column
  tables : List TableObj
  set : Str → Option Nat

/-- `NewDataSet` (DataSet.go L62-67). -/
def World.empty : World := { columns := [], tables := [], set := fun _ => none }

/-- The calls of the API that change names. (data/DataTable.go L73-99, data/DataSet.go L70-130) -/
inductive Call where
  /-- `DataSet.CreateTable(name)`: the new table's number is the count of tables before. -/
  | createTable (name : Str)
  /-- `DataTable.CreateColumn(name, type, expression)`: the new column's number is the count of columns before. -/
  | createColumn (name : Str) (type : DT) (expression : Str)
  | addColumn (t c : Nat)
  | initColumns (t : Nat)
  | addTable (t : Nat)
  | removeTable (name : Str)

/-- Go's `m[k] = v`. (data/DataTable.go L73-99, data/DataSet.go L70-130) -/
def insert (m : Str → Option Nat) (k : Str) (v : Nat) : Str → Option Nat := fun x => if x = k then some v else m x

/-- Go's `delete(m, k)`. (data/DataTable.go L73-99, data/DataSet.go L70-130) -/
def delete (m : Str → Option Nat) (k : Str) : Str → Option Nat := fun x => if x = k then none else m x

/-- One call. A number that names no object changes nothing: there is no such reference in Go. (data/DataTable.go L73-99, data/DataSet.go L70-130) -/
def step (P : Prim) (w : World) : Call → World
  /- DataSet.go L108-110, DataTable.go L47-53 -/
  | .createTable name => { w with tables := w.tables ++ [{ name := name, columnIndexes := fun _ => none, columns := [] }] }
  /- DataTable.go L113-115, DataColumn.go L39-48 -/
  | .createColumn name type expression => { w with columns := w.columns ++ [{ name := name, type := type, expression := expression }] }
  /- DataTable.go L73-77 -/
  | .addColumn t c =>
    match w.tables[t]?, w.columns[c]? with
    | some tbl, some col =>
      { w with
        columns := w.columns.set c { col with index := tbl.columns.length }
        tables := w.tables.set t { tbl with
          columnIndexes := insert tbl.columnIndexes (P.upper col.name) tbl.columns.length
          columns := tbl.columns ++ [c] } }
    | _, _ => w
  /- DataTable.go L67-70 -/
  | .initColumns t =>
    match w.tables[t]? with
    | some tbl => { w with tables := w.tables.set t { tbl with columns := [], columnIndexes := fun _ => none } }
    | none => w
  /- DataSet.go L70-72 -/
  | .addTable t =>
    match w.tables[t]? with
    | some tbl => { w with set := insert w.set (P.upper tbl.name) t }
    | none => w
  /- DataSet.go L120-129 -/
  | .removeTable name => { w with set := delete w.set (P.upper name) }

/-- A sequence of calls on a new data set. (data/DataTable.go L73-99, data/DataSet.go L70-130) -/
def run (P : Prim) (calls : List Call) : World := calls.foldl (step P) World.empty

/-- `Column` (DataTable.go L81-87). -/
def World.column (w : World) (t : Nat) (i : Int) : Option Nat :=
  match w.tables[t]? with
  | some tbl => if i < 0 ∨ i ≥ tbl.columns.length then none else tbl.columns[i.toNat]?
  | none => none

/-- `ColumnByName` (DataTable.go L91-97). -/
def World.columnByName (P : Prim) (w : World) (t : Nat) (name : Str) : Option Nat :=
  match w.tables[t]? with
  | some tbl =>
    match tbl.columnIndexes (P.upper name) with
    | some i => w.column t i
    | none => none
  | none => none

/-- `DataColumn.Index` (DataColumn.go L72-74). -/
def World.indexOf (w : World) (c : Nat) : Int :=
  match w.columns[c]? with
  | some col => col.index
  | none => -1

/-- `ColumnIndex` (DataTable.go L101-109). -/
def World.columnIndex (P : Prim) (w : World) (t : Nat) (name : Str) : Int :=
  match w.columnByName P t name with
  | some c => w.indexOf c
  | none => -1

/-- `Table` (DataSet.go L76-82). -/
def World.table (P : Prim) (w : World) (name : Str) : Option Nat := w.set (P.upper name)

/-- The result of `RemoveTable` (DataSet.go L120-129). -/
def World.removes (P : Prim) (w : World) (name : Str) : Bool := (w.set (P.upper name)).isSome

end Verif.Table.Lookup
