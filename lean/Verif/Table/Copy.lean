import Verif.Table.RowProps

/-!
# Copying a row, and adding a column to a table with rows (data/DataTable.go L73-77, L118-120, L185-194)

The source row may belong to another table `s` than the copy.
-/

namespace Verif.Table

open Verif.Expr

variable {P : Prim}

/-- `value, _ := source.Value(i)` (DataTable.go L189): beside an error comes nil, or what a parser of the standard library gave
for a text that it could not read, which is `beside`. -/
def orBeside (beside : Option (Cell P)) : Res (Option (Cell P)) → Res (Option (Cell P))
  | .err => .ok beside
  | x => x

/-- `row.SetValue(i, value)` (DataTable.go L190): the error is dropped. -/
def Row.store (t : Table P) (r : Row P) (i : Int) (v : Option (Cell P)) : Res (Row P) :=
  match r.setValue t i v with
  | .err => .ok r
  | x => x

/-- The loop of `CloneRow` (DataTable.go L188-191) over the columns that are left. -/
def copyColumns (col : Nat → Res (Val P)) (beside : Nat → Option (Cell P)) (s : Table P) (source : Row P) (t : Table P) : List Nat → Row P → Res (Row P)
  | [], r => .ok r
  | i :: is, r => do
    let v ← orBeside (beside i) (source.value col s i)
    let r ← r.store t i v
    copyColumns col beside s source t is r

/-- `CloneRow` (DataTable.go L185-194); `col` is what evaluating a column of the source gives. -/
def Table.cloneRow (col : Nat → Res (Val P)) (beside : Nat → Option (Cell P)) (s : Table P) (source : Row P) (t : Table P) (id : Nat) : Res (Row P) :=
  copyColumns col beside s source t (List.range t.columns.length) (newRow t id)

/-- `CloneColumn` (DataTable.go L118-120): a new column, not yet added to a table. -/
def cloneColumn (c : Column) : Column := { name := c.name, type := c.type, expression := c.expression }

/-- `AddColumn` (DataTable.go L73-77) for a column that is in no table. -/
def Table.addColumn (t : Table P) (c : Column) : Table P :=
  { t with
    columnIndexes := fun n => if n = P.upper c.name then some t.columns.length else t.columnIndexes n
    columns := t.columns ++ [{ c with index := t.columns.length }] }

end Verif.Table
