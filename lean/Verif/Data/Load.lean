import Verif.Common.GoMap
import Verif.Data.Number
import Verif.Table.SelectProps
import Verif.Xml.Select

/-!
# C67: loading a data set from XML (data/DataSet.go L164-342, data/DataType.go L127-162, data/DataTable.go L65-200)

The document is the element tree of `Verif.Xml`. Go's readers of dates, floats and decimals are parameters.
-/

namespace Verif.Data

open Verif.Expr (Prim Str lit)
open Verif.Table (Table Column Row DT Cell)

variable {P : Prim}

/-- Library functions, the error dropped: what they give for any text; beside them the usual text of a value. (data/DataSet.go L271-345) -/
structure XmlLib (P : Prim) where
  /-- `time.Parse(DateTimeFormat, s)` -/
  time : Str → P.Time
  /-- `float32` of `strconv.ParseFloat(s, 32)` -/
  single : Str → P.Sgl
  /-- `decimal.NewFromString(s)` -/
  decimal : Str → P.Dec
  timeText : P.Time → Str
  singleText : P.Sgl → Str
  doubleText : P.Flt → Str
  decimalText : P.Dec → Str
  /-- `GenerateExpressionTree` for a table with these columns -/
  parse : List Column → Str → Option (Expr.Tree P)

/-- A table and its name (DataTable.go L39-45). -/
structure Named (P : Prim) where
  name : Str
  table : Table P

/-- `DataSet.tables` (DataSet.go L55). -/
abbrev DataSet (P : Prim) := GoMap Str (Named P)

/-- `Table` (DataSet.go L76-82) -/
def DataSet.find (ds : DataSet P) (name : Str) : Option (Named P) := GoMap.get ds (P.upper name)

/-- `XmlSchemaNamespace` (L40) -/
def schemaSpace : Str := lit "http://www.w3.org/2001/XMLSchema"

/-- `ExtXmlSchemaDataNamespace` (L43) -/
def extSpace : Str := lit "urn:schemas-microsoft-com:xml-msdata"

/-- `AttributeNamespaces[name]`, empty when there is no such attribute (XmlDocument.go L81-87). -/
def spaceOf (t : Xml.Tree) (name : Str) : Str := ((t.attrs.reverse.find? fun a => a.1 == name).map fun a => a.2.1).getD []

/-- `Prefix` (XmlNode.go L90-100): the name of some attribute whose value is the namespace. Go walks the map in any order, so all such
names are possible. -/
def IsPrefix (t : Xml.Tree) (p : Str) : Prop :=
  Xml.attrOf t p = some t.space ∨ (p = [] ∧ ∀ q, Xml.attrOf t q ≠ some t.space)

/-- The prefix with its colon (DataSet.go L197-201). -/
def withColon (p : Str) : Str := if p.length > 0 then p ++ [58#8] else p

/-- `strings.TrimPrefix` (data/DataSet.go L233) -/
def trimPrefix (s p : Str) : Str := if p <+: s then s.drop p.length else s

/-- `ParseXsdDataType` (DataType.go L127-162); `none` when there is no such type. -/
def parseXsd (name ext : Str) : Option DT :=
  if name = lit "string" then if lit "System.Guid" <+: ext then some .guid else some .string
  else if name = lit "boolean" then some .boolean
  else if name = lit "dateTime" then some .dateTime
  else if name = lit "float" then some .single
  else if name = lit "double" then some .double
  else if name = lit "decimal" then some .decimal
  else if name = lit "byte" then some .int8
  else if name = lit "short" then some .int16
  else if name = lit "int" then some .int32
  else if name = lit "long" then some .int64
  else if name = lit "unsignedByte" then some .uint8
  else if name = lit "unsignedShort" then some .uint16
  else if name = lit "unsignedInt" then some .uint32
  else if name = lit "unsignedLong" then some .uint64
  else none

/-- The attribute if it is there and belongs to the namespace of extensions, else empty (DataSet.go L236-243, L253-260). -/
def extended (t : Xml.Tree) (name : Str) : Str :=
  match Xml.attrOf t name with
  | some v => if v.length > 0 then (if spaceOf t name ≠ extSpace then [] else v) else v
  | none => []

/-- The column a field element defines (L221-262); `none` when it is skipped. -/
def fieldColumn (pre : Str) (t : Xml.Tree) : Option (Str × DT × Str) :=
  match Xml.attrOf t (lit "name") with
  | none => none
  | some name =>
    if name.length = 0 then none
    else match Xml.attrOf t (lit "type") with
      | none => none
      | some type =>
        if type.length = 0 then none
        else match parseXsd (trimPrefix type (withColon pre)) (extended t (lit "DataType")) with
          | none => none
          | some dt => some (name, dt, extended t (lit "Expression"))

/-- `AddColumn` of a new column (DataTable.go L73-77, DataColumn.go L39-48). -/
def addColumn (t : Table P) (c : Str × DT × Str) : Table P :=
  { t with
    columnIndexes := fun x => if x = P.upper c.1 then some t.columns.length else t.columnIndexes x
    columns := t.columns ++ [{ name := c.1, type := c.2.1, expression := c.2.2, index := t.columns.length }] }

/-- A table after `CreateTable` and `InitColumns` (DataSet.go L213-218). -/
def emptyTable (P : Prim) : Table P := { columnIndexes := fun _ => none, columns := [], rows := [], parse := fun _ => none }

/-- The fields of a table (L220-264). -/
def addFields (pre : Str) (t : Table P) (fields : List Xml.Node) : Table P :=
  fields.foldl (fun t f => match fieldColumn pre f.tree with | some c => addColumn t c | none => t) t

/-- The library of `Verif.Xml`. (data/DataSet.go L154-345) -/
def textLib (P : Prim) : TextLib := ⟨P.upper, Utf8.trimSpace⟩

/-- One pass of the loop over the tables (L207-266). -/
def addTable (X : XmlLib P) (pre : Str) (ds : DataSet P) (n : Xml.Node) : Res (DataSet P) :=
  match Xml.attrOf n.tree (lit "name") with
  | none => .ok ds
  | some name =>
    if name.length = 0 then .ok ds
    else do
      let fields ← n.select (textLib P) (lit "complexType/sequence/element")
      let t := addFields pre (emptyTable P) fields
      return GoMap.set ds (P.upper name) ⟨name, { t with parse := X.parse t.columns }⟩

/-- The loop over the tables (L206-267). -/
def addTables (X : XmlLib P) (pre : Str) : List Xml.Node → DataSet P → Res (DataSet P)
  | [], ds => .ok ds
  | n :: ns, ds => do
    let ds ← addTable X pre ds n
    addTables X pre ns ds

/-- `loadSchema` (L196-268) -/
def loadSchema (X : XmlLib P) (pre : Str) (schema : Xml.Node) (ds : DataSet P) : Res (DataSet P) := do
  let tables ← schema.select (textLib P) (lit "element/complexType/choice/element")
  addTables X pre tables ds

/-- The value stored for a text (L292-336); `none` for a type without a case. -/
def fieldValue (X : XmlLib P) (dt : DT) (s : Str) : Option (Cell P) :=
  match dt with
  | .string => some (.string s)
  | .boolean => some (.boolean (s == lit "true"))
  | .dateTime => some (.dateTime (X.time s))
  | .single => some (.single (X.single s))
  | .double => some (.double (P.fltParse s).1)
  | .decimal => some (.decimal (X.decimal s))
  | .guid => some (.guid (P.guidParse s).1)
  | .int8 => some (.int8 (BitVec.ofInt 8 (intValue 8 s)))
  | .int16 => some (.int16 (BitVec.ofInt 16 (intValue 16 s)))
  | .int32 => some (.int32 (BitVec.ofInt 32 (intValue 32 s)))
  | .int64 => some (.int64 (BitVec.ofInt 64 (intValue 64 s)))
  | .uint8 => some (.uint8 (BitVec.ofNat 8 (uintValue 8 s)))
  | .uint16 => some (.uint16 (BitVec.ofNat 16 (uintValue 16 s)))
  | .uint32 => some (.uint32 (BitVec.ofNat 32 (uintValue 32 s)))
  | .uint64 => some (.uint64 (BitVec.ofNat 64 (uintValue 64 s)))
  | .undefined => none

/-- One field of a record (L283-336); the error of `SetValue` is dropped. -/
def setField (X : XmlLib P) (t : Table P) (r : Row P) (f : Xml.Tree) : Res (Row P) :=
  match t.columnByName f.name with
  | none => .ok r
  | some c =>
    match fieldValue X c.type f.inner with
    | none => .ok r
    | some v =>
      match r.setValue t c.index (some v) with
      | .ok r => .ok r
      | .err => .ok r
      | .panic => .panic

/-- The fields of a record (L282-337). -/
def setFields (X : XmlLib P) (t : Table P) : List Xml.Tree → Row P → Res (Row P)
  | [], r => .ok r
  | f :: fs, r => do
    let r ← setField X t r f
    setFields X t fs r

/-- The records of a table (L278-340), `id` telling the rows apart. -/
def addRecords (X : XmlLib P) : List Xml.Tree → Table P → Res (Table P)
  | [], t => .ok t
  | rec :: recs, t => do
    let r ← setFields X t rec.children { id := t.rows.length, values := List.replicate t.columns.length none }
    addRecords X recs { t with rows := t.rows ++ [some r] }

/-- `loadRecords` (L271-342). Go walks the tables in any order; a pass changes its own table only. `root.Items[name]` are the children
with the name (`Xml.C59_items`). -/
def loadRecords (X : XmlLib P) (root : Xml.Tree) : DataSet P → Res (DataSet P)
  | [] => .ok []
  | (k, n) :: ds => do
    let t ← addRecords X (root.children.filter fun c => c.name = n.name) { n.table with rows := [] }
    let rest ← loadRecords X root ds
    return (k, ⟨n.name, t⟩) :: rest

/-- `ParseXmlDocument` (L165-193); `pre` is what `Prefix` gave for the schema node. `root.Item["schema"]` is the first child with the
name (`Xml.C59_items`). -/
def parseDocument (X : XmlLib P) (pre : Str) (root : Xml.Tree) (ds : DataSet P) : Res (DataSet P) :=
  match root.children.find? fun c => c.name = lit "schema" with
  | none => .err
  | some schema =>
    match Xml.attrOf schema (lit "id") with
    | none => .err
    | some id =>
      if id ≠ root.name then .err
      else if schema.space ≠ schemaSpace then .err
      else do
        let ds ← loadSchema X pre ⟨[], schema⟩ ds
        loadRecords X root ds

end Verif.Data
