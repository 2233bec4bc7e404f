import Verif.Table.Row
import Verif.Format.Model

/-!
# Texts of values, rows, columns and tables (data/DataRow.go L532-750, L1443-1469, data/DataTable.go L144-151, L203-245, data/DataColumn.go L77-85,
data/DataType.go L85-120, data/DataSet.go L132-151)
-/

set_option linter.dupNamespace false

namespace Verif.Table

open Verif.Expr

variable {P : Prim}

/-- The texts of `stringValueFromString`, ..., `stringValueFromUInt64` (DataRow.go L586-737) for a value that is there. The last case does not arise: the
typed readers return values of the column's type. -/
def Cell.text : Cell P → Str
  | .string s => s
  | .boolean b => lit (if b then "true" else "false")
  | .dateTime t => P.timeStr t
  | .single f => P.sglStr f
  | .double f => P.fltStr f
  | .decimal d => P.decStr d
  | .guid g => P.guidStr g
  | .int8 v => Val.intStr v.toInt
  | .int16 v => Val.intStr v.toInt
  | .int32 v => Val.intStr v.toInt
  | .int64 v => Val.intStr v.toInt
  | .uint8 v => Val.intStr v.toNat
  | .uint16 v => Val.intStr v.toNat
  | .uint32 v => Val.intStr v.toNat
  | .uint64 v => Val.intStr v.toNat
  | .tree _ | .other => []

/-- `checkState` and what follows it (DataRow.go L574-584, L586-737). -/
def shown : Res (Option (Cell P)) → Res Str
  | .ok (some v) => .ok v.text
  | .ok none => .ok (lit "<NULL>")
  | .err => .ok []
  | .panic => .panic

namespace Row

/-- `ColumnValueAsString` (DataRow.go L532-572); `none` is nil. -/
def columnText (col : Nat → Res (Val P)) (t : Table P) (r : Row P) : Option Column → Res Str
  | none => .ok []
  | some c => if c.type = .undefined then .ok [] else shown (r.get col t c.type c.index)

/-- `ValueAsString` (DataRow.go L740-744) -/
def text (col : Nat → Res (Val P)) (t : Table P) (r : Row P) (i : Int) : Res Str := r.columnText col t (t.column i)

/-- `ValueAsStringByName` (DataRow.go L746-750) -/
def textByName (col : Nat → Res (Val P)) (t : Table P) (r : Row P) (name : Str) : Res Str := r.columnText col t (t.columnByName name)

/-- The quotes around the values of String columns (DataRow.go L1454-1463). -/
def quoted (c : Column) (s : Str) : Str := if c.type = .string then lit "\"" ++ s ++ lit "\"" else s

/-- The loop of `DataRow.String` from column `i` on (DataRow.go L1448-1464). -/
def images (col : Nat → Res (Val P)) (t : Table P) (r : Row P) : Nat → List Column → Res Str
  | _, [] => .ok []
  | i, c :: cs => do
    let s ← r.columnText col t (some c)
    let rest ← r.images col t (i + 1) cs
    return (if i > 0 then lit ", " else []) ++ quoted c s ++ rest

/-- `DataRow.String` (DataRow.go L1443-1469) -/
def image (col : Nat → Res (Val P)) (t : Table P) (r : Row P) : Res Str := do
  let s ← r.images col t 0 t.columns
  return lit "[" ++ s ++ lit "]"

end Row

/-- `Row` (DataTable.go L144-150) -/
def Table.row (t : Table P) (i : Int) : Option (Row P) :=
  if i < 0 ∨ i ≥ t.rows.length then none else (t.rows[i.toNat]?).join

/-- `RowValueAsString` (DataTable.go L203-211) -/
def Table.rowText (col : Row P → Nat → Res (Val P)) (t : Table P) (i j : Int) : Res Str :=
  match t.row i with
  | none => .ok []
  | some r => r.text (col r) t j

/-- `RowValueAsStringByName` (DataTable.go L215-223) -/
def Table.rowTextByName (col : Row P → Nat → Res (Val P)) (t : Table P) (i : Int) (name : Str) : Res Str :=
  match t.row i with
  | none => .ok []
  | some r => r.textByName (col r) t name

/-- `DataTypeEnum.String` (DataType.go L85-120) -/
def DT.text : DT → Str
  | .string => lit "String"
  | .boolean => lit "Boolean"
  | .dateTime => lit "DateTime"
  | .single => lit "Single"
  | .double => lit "Double"
  | .decimal => lit "Decimal"
  | .guid => lit "Guid"
  | .int8 => lit "Int8"
  | .int16 => lit "Int16"
  | .int32 => lit "Int32"
  | .int64 => lit "Int64"
  | .uint8 => lit "UInt8"
  | .uint16 => lit "UInt16"
  | .uint32 => lit "UInt32"
  | .uint64 => lit "UInt64"
  | .undefined => lit "Undefined"

/-- `DataColumn.String` (DataColumn.go L77-85) -/
def Column.text (c : Column) : Str :=
  c.name ++ lit " (" ++ (if c.computed then lit "Computed " ++ c.type.text else c.type.text) ++ lit ")"

/-- Texts with ", " between them (DataTable.go L232-238, DataSet.go L139-146). -/
def commas : List Str → Str
  | [] => []
  | [s] => s
  | s :: l => s ++ lit ", " ++ commas l

/-- `DataTable.String` (DataTable.go L226-245); the name is kept beside the table, see `Data.Named`. -/
def Table.image (name : Str) (t : Table P) : Res Str := do
  let n ← Format.int64With (BitVec.ofNat 64 t.rows.length) 44#8
  return name ++ lit " [" ++ commas (t.columns.map Column.text) ++ lit "] x " ++ n ++ lit " rows"

/-- `DataSet.String` (DataSet.go L132-151); `tables` are the names of the tables in the order in which Go walks the map. -/
def setImage (name : Str) (tables : List Str) : Str := name ++ lit " [" ++ commas tables ++ lit "]"

end Verif.Table
