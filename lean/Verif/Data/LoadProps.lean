import Mathlib.Data.List.Forall2
import Verif.Data.Load

/-!
# C67: loading gives back what was written, and never panics
-/

namespace Verif.Data

open Verif.Expr (Prim Str lit)
open Verif.Table (Table Column Row DT Cell)
open Text

variable {P : Prim}

/-! ### Selecting by names -/

/-- The elements that meet a step. -/
def pick (e : Str) (ts : List Xml.Tree) : List Xml.Tree := ts.filter fun t => Xml.isMatch t.name e

/-- The elements that meet a list of steps. -/
def descend : List Str → List Xml.Tree → List Xml.Tree
  | [], _ => []
  | [e], ts => pick e ts
  | e :: e' :: es, ts => descend (e' :: es) ((pick e ts).flatMap Xml.Tree.children)

theorem step_pick (L : TextLib) {e : Str} (h : 91#8 ∉ e) (ns : List Xml.Node) :
    ∃ rs, Xml.step L e ns = .ok rs ∧ rs.map Xml.Node.tree = pick e (ns.map Xml.Node.tree) := by
  induction ns with
  | nil => exact ⟨[], rfl, rfl⟩
  | cons n ns ih =>
    obtain ⟨rs, h1, h2⟩ := ih
    have hm : Xml.matchStep L e n.tree = .ok (Xml.isMatch n.tree.name e) := by
      unfold Xml.matchStep
      rw [Xml.predicate_none h]
    refine ⟨if Xml.isMatch n.tree.name e then n :: rs else rs, by simp only [Xml.step, hm, h1], ?_⟩
    simp only [pick, List.map_cons, List.filter_cons] at h2 ⊢
    split <;> simp [h2]

theorem children_trees (n : Xml.Node) : n.children.map Xml.Node.tree = n.tree.children := by
  unfold Xml.Node.children
  apply List.ext_getElem?
  intro i
  rw [List.getElem?_map, List.getElem?_mapIdx]
  cases n.tree.children[i]? <;> rfl

theorem flatMap_trees (ns : List Xml.Node) : (ns.flatMap Xml.Node.children).map Xml.Node.tree = (ns.map Xml.Node.tree).flatMap Xml.Tree.children := by
  induction ns with
  | nil => rfl
  | cons n ns ih => simp [List.flatMap_cons, ih, children_trees]

theorem steps_descend (L : TextLib) (es : List Str) (h : ∀ e ∈ es, 91#8 ∉ e) (ns : List Xml.Node) :
    ∃ rs, Xml.steps L es ns = .ok rs ∧ rs.map Xml.Node.tree = descend es (ns.map Xml.Node.tree) := by
  induction es generalizing ns with
  | nil => exact ⟨[], rfl, rfl⟩
  | cons e es ih =>
    obtain ⟨r1, h1, h2⟩ := step_pick L (h e (by simp)) ns
    cases es with
    | nil => exact ⟨r1, h1, h2⟩
    | cons e' es =>
      simp only [Xml.steps, h1, descend]
      rw [← h2, ← flatMap_trees]
      cases r1 with
      | nil =>
        refine ⟨[], rfl, ?_⟩
        have : ∀ es, descend es [] = [] := by
          intro es
          induction es with
          | nil => rfl
          | cons a es ih =>
            cases es with
            | nil => rfl
            | cons b es => exact ih
        simp [this]
      | cons a r1 => exact ih (fun x hx => h x (by simp [hx])) _

theorem select_descend (L : TextLib) (n : Xml.Node) (xpath : Str) (h : ∀ e ∈ split 47#8 xpath, 91#8 ∉ e) :
    ∃ rs, n.select L xpath = .ok rs ∧ rs.map Xml.Node.tree = descend (split 47#8 xpath) n.tree.children := by
  have := steps_descend L (split 47#8 xpath) h n.children
  rw [children_trees] at this
  exact this

/-! ### Writing a data set -/

/-- A table to be written: its name, its columns (name, type, expression) and its rows. -/
structure TableDef (P : Prim) where
  name : Str
  cols : List (Str × DT × Str)
  rows : List (List (Option (Cell P)))

/-- The XSD name of a type. -/
def xsdName : DT → Str
  | .string => lit "string"
  | .boolean => lit "boolean"
  | .dateTime => lit "dateTime"
  | .single => lit "float"
  | .double => lit "double"
  | .decimal => lit "decimal"
  | .guid => lit "string"
  | .int8 => lit "byte"
  | .int16 => lit "short"
  | .int32 => lit "int"
  | .int64 => lit "long"
  | .uint8 => lit "unsignedByte"
  | .uint16 => lit "unsignedShort"
  | .uint32 => lit "unsignedInt"
  | .uint64 => lit "unsignedLong"
  | .undefined => lit "anyType"

/-- The element of a column: `<px:element name="N" type="px:T" ext:DataType="System.Guid" ext:Expression="E"/>`, where `px` is the prefix of the
schema namespace. -/
def colElement (px : Str) (c : Str × DT × Str) : Xml.Tree :=
  .node (lit "element") schemaSpace
    ([(lit "name", [], c.1), (lit "type", [], px ++ 58#8 :: xsdName c.2.1)] ++
      (if c.2.1 = .guid then [(lit "DataType", extSpace, lit "System.Guid")] else []) ++
      (if c.2.2 = [] then [] else [(lit "Expression", extSpace, c.2.2)])) [] []

/-- The element of a table. The text between the tags of schema elements is not read, so it is left out. -/
def tableElement (px : Str) (T : TableDef P) : Xml.Tree :=
  .node (lit "element") schemaSpace [(lit "name", [], T.name)] []
    [.node (lit "complexType") schemaSpace [] [] [.node (lit "sequence") schemaSpace [] [] (T.cols.map (colElement px))]]

/-- The schema: `<px:schema xmlns:px="http://www.w3.org/2001/XMLSchema" xmlns:ext="urn:schemas-microsoft-com:xml-msdata" id="N">`. -/
def schemaElement (px name : Str) (D : List (TableDef P)) : Xml.Tree :=
  .node (lit "schema") schemaSpace [(px, lit "xmlns", schemaSpace), (lit "ext", lit "xmlns", extSpace), (lit "id", [], name)] []
    [.node (lit "element") schemaSpace [] [] [.node (lit "complexType") schemaSpace [] []
      [.node (lit "choice") schemaSpace [] [] (D.map (tableElement px))]]]

/-- XML escapes of text. -/
def escape (s : Str) : Str :=
  s.flatMap fun b => if b = 38#8 then lit "&amp;" else if b = 60#8 then lit "&lt;" else if b = 62#8 then lit "&gt;" else [b]

/-- The text of a value. -/
def cellText (X : XmlLib P) : Cell P → Str
  | .string s => escape s
  | .boolean b => lit (if b then "true" else "false")
  | .dateTime t => X.timeText t
  | .single f => X.singleText f
  | .double f => X.doubleText f
  | .decimal d => X.decimalText d
  | .guid g => P.guidStr g
  | .int8 v => intText v.toInt
  | .int16 v => intText v.toInt
  | .int32 v => intText v.toInt
  | .int64 v => intText v.toInt
  | .uint8 v => Format.decimal v.toNat
  | .uint16 v => Format.decimal v.toNat
  | .uint32 v => Format.decimal v.toNat
  | .uint64 v => Format.decimal v.toNat
  | .tree _ => []
  | .other => []

/-- The elements of the fields that are not null. -/
def fieldElements (X : XmlLib P) : List (Str × DT × Str) → List (Option (Cell P)) → List Xml.Tree
  | c :: cs, some v :: vs => .node c.1 [] [] (cellText X v) [] :: fieldElements X cs vs
  | _ :: cs, none :: vs => fieldElements X cs vs
  | _, _ => []

/-- The element of a row. -/
def rowElement (X : XmlLib P) (T : TableDef P) (row : List (Option (Cell P))) : Xml.Tree := .node T.name [] [] [] (fieldElements X T.cols row)

/-- The document. -/
def render (X : XmlLib P) (px name : Str) (D : List (TableDef P)) : Xml.Tree :=
  .node name [] [] [] (schemaElement px name D :: D.flatMap fun T => T.rows.map (rowElement X T))

/-- The text of a value reads back: for dates, floats, decimals and GUIDs that is up to Go's library; nothing is asked of the other types. -/
def ReadsBack (X : XmlLib P) : Cell P → Prop
  | .dateTime t => X.time (X.timeText t) = t
  | .single f => X.single (X.singleText f) = f
  | .double f => (P.fltParse (X.doubleText f)).1 = f
  | .decimal d => X.decimal (X.decimalText d) = d
  | .guid g => (P.guidParse (P.guidStr g)).1 = g
  | _ => True

/-- A value fits its column: its type is the column's, the column is not computed, and its text reads back. -/
def CellFits (X : XmlLib P) (c : Str × DT × Str) (v : Option (Cell P)) : Prop := ∀ x, v = some x → x.type = c.2.1 ∧ c.2.2 = [] ∧ ReadsBack X x

/-- A table that can be written. -/
structure Fits (X : XmlLib P) (T : TableDef P) : Prop where
  name : T.name ≠ []
  notSchema : T.name ≠ lit "schema"
  cols : ∀ c ∈ T.cols, c.1 ≠ [] ∧ c.2.1 ≠ .undefined
  distinct : (T.cols.map fun c => P.upper c.1).Nodup
  rows : ∀ row ∈ T.rows, List.Forall₂ (CellFits X) T.cols row

/-- What is loaded for a value: a string with its characters as escaped, every other value as it is. -/
def asRead : Cell P → Cell P
  | .string s => .string (escape s)
  | v => v

/-- A table with its values as they are loaded. -/
def TableDef.asRead (T : TableDef P) : TableDef P := { T with rows := T.rows.map (List.map (Option.map Data.asRead)) }

/-- A table in whose strings nothing is to be escaped. -/
def Unescaped (T : TableDef P) : Prop := ∀ row ∈ T.rows, ∀ s, some (.string s) ∈ row → escape s = s

theorem asRead_eq (T : TableDef P) (h : Unescaped T) : T.asRead = T := by
  have hr : T.rows.map (List.map (Option.map Data.asRead)) = T.rows := by
    have : T.rows.map (List.map (Option.map Data.asRead)) = T.rows.map id := by
      refine List.map_congr_left fun row hrow => ?_
      have : row.map (Option.map Data.asRead) = row.map id := by
        refine List.map_congr_left fun v hv => ?_
        cases v with
        | none => rfl
        | some x => cases x with
          | string s =>
            show some (Cell.string (escape s)) = some (Cell.string s)
            rw [h row hrow s hv]
          | _ => rfl
      rw [this, List.map_id]
      rfl
    rw [this, List.map_id]
  unfold TableDef.asRead
  rw [hr]

theorem value_back (X : XmlLib P) (v : Cell P) (ht : v.type ≠ .undefined) (h : ReadsBack X v) :
    fieldValue X v.type (cellText X v) = some (asRead v) := by
  cases v with
  | string s => rfl
  | boolean b => cases b <;> rfl
  | dateTime t => exact congrArg (some ∘ Cell.dateTime) h
  | single t => exact congrArg (some ∘ Cell.single) h
  | double t => exact congrArg (some ∘ Cell.double) h
  | decimal t => exact congrArg (some ∘ Cell.decimal) h
  | guid t => exact congrArg (some ∘ Cell.guid) h
  | int8 v =>
    show some (Cell.int8 (BitVec.ofInt 8 (intValue 8 (intText v.toInt)))) = _
    rw [int_text 8 (by decide) _ (BitVec.le_toInt v) (BitVec.toInt_lt), BitVec.ofInt_toInt]
    rfl
  | int16 v =>
    show some (Cell.int16 (BitVec.ofInt 16 (intValue 16 (intText v.toInt)))) = _
    rw [int_text 16 (by decide) _ (BitVec.le_toInt v) (BitVec.toInt_lt), BitVec.ofInt_toInt]
    rfl
  | int32 v =>
    show some (Cell.int32 (BitVec.ofInt 32 (intValue 32 (intText v.toInt)))) = _
    rw [int_text 32 (by decide) _ (BitVec.le_toInt v) (BitVec.toInt_lt), BitVec.ofInt_toInt]
    rfl
  | int64 v =>
    show some (Cell.int64 (BitVec.ofInt 64 (intValue 64 (intText v.toInt)))) = _
    rw [int_text 64 (by decide) _ (BitVec.le_toInt v) (BitVec.toInt_lt), BitVec.ofInt_toInt]
    rfl
  | uint8 v =>
    show some (Cell.uint8 (BitVec.ofNat 8 (uintValue 8 (Format.decimal v.toNat)))) = _
    rw [uint_text 8 _ v.isLt, BitVec.ofNat_toNat, BitVec.setWidth_eq]
    rfl
  | uint16 v =>
    show some (Cell.uint16 (BitVec.ofNat 16 (uintValue 16 (Format.decimal v.toNat)))) = _
    rw [uint_text 16 _ v.isLt, BitVec.ofNat_toNat, BitVec.setWidth_eq]
    rfl
  | uint32 v =>
    show some (Cell.uint32 (BitVec.ofNat 32 (uintValue 32 (Format.decimal v.toNat)))) = _
    rw [uint_text 32 _ v.isLt, BitVec.ofNat_toNat, BitVec.setWidth_eq]
    rfl
  | uint64 v =>
    show some (Cell.uint64 (BitVec.ofNat 64 (uintValue 64 (Format.decimal v.toNat)))) = _
    rw [uint_text 64 _ v.isLt, BitVec.ofNat_toNat, BitVec.setWidth_eq]
    rfl
  | tree e => exact absurd rfl ht
  | other => exact absurd rfl ht

/-! ### The schema -/

theorem trimPrefix_append (p s : Str) : trimPrefix (p ++ s) p = s := by
  unfold trimPrefix
  rw [if_pos (List.prefix_append p s), List.drop_left]

theorem xsd_back (dt : DT) (h : dt ≠ .undefined) : parseXsd (xsdName dt) (if dt = .guid then lit "System.Guid" else []) = some dt := by
  cases dt <;> first | rfl | exact absurd rfl h

/-- The column an element was written for. -/
theorem column_back (px : Str) (hpx : px ≠ []) (c : Str × DT × Str) (h : c.1 ≠ [] ∧ c.2.1 ≠ .undefined) : fieldColumn px (colElement px c) = some c := by
  have hw : withColon px = px ++ [58#8] := by
    unfold withColon
    rw [if_pos (List.length_pos_iff.mpr hpx)]
  obtain ⟨n, dt, ex⟩ := c
  have h1 : n ≠ [] := h.1
  have h2 : dt ≠ .undefined := h.2
  have a1 : Xml.attrOf (colElement px (n, dt, ex)) (lit "name") = some n := by
    unfold colElement
    by_cases hg : dt = .guid <;> cases ex <;> simp only [hg] <;> rfl
  have a2 : Xml.attrOf (colElement px (n, dt, ex)) (lit "type") = some (px ++ 58#8 :: xsdName dt) := by
    unfold colElement
    by_cases hg : dt = .guid <;> cases ex <;> simp only [hg] <;> rfl
  have a3 : extended (colElement px (n, dt, ex)) (lit "DataType") = if dt = .guid then lit "System.Guid" else [] := by
    unfold colElement
    by_cases hg : dt = .guid <;> cases ex <;> simp only [hg] <;> rfl
  have a4 : extended (colElement px (n, dt, ex)) (lit "Expression") = ex := by
    unfold colElement
    by_cases hg : dt = .guid <;> cases ex <;> simp only [hg] <;> rfl
  unfold fieldColumn
  rw [a1]
  dsimp only
  rw [if_neg (fun e => h1 (List.length_eq_zero_iff.mp e)), a2]
  dsimp only
  rw [if_neg (by simp), hw, show px ++ 58#8 :: xsdName dt = (px ++ [58#8]) ++ xsdName dt by simp, trimPrefix_append, a3, a4, xsd_back dt h2]

/-- The column at a position. -/
def colAt (i : Nat) (c : Str × DT × Str) : Column := { name := c.1, type := c.2.1, expression := c.2.2, index := i }

theorem fold_columns (cols : List (Str × DT × Str)) (t : Table P) :
    (cols.foldl addColumn t).columns = t.columns ++ cols.mapIdx (fun i c => colAt (t.columns.length + i) c) ∧
    (cols.foldl addColumn t).rows = t.rows := by
  induction cols generalizing t with
  | nil => simp
  | cons c cols ih =>
    rw [List.foldl_cons]
    obtain ⟨h1, h2⟩ := ih (addColumn t c)
    refine ⟨?_, h2⟩
    rw [h1, List.mapIdx_cons]
    simp only [addColumn, List.length_append, List.length_singleton, List.append_assoc, List.singleton_append]
    congr 2
    apply List.ext_getElem?
    intro i
    simp only [List.getElem?_mapIdx, Nat.add_assoc, Nat.add_comm 1 i]

theorem fold_other (cols : List (Str × DT × Str)) (t : Table P) (x : Str) (h : x ∉ cols.map fun c => P.upper c.1) :
    (cols.foldl addColumn t).columnIndexes x = t.columnIndexes x := by
  induction cols generalizing t with
  | nil => rfl
  | cons c cols ih =>
    rw [List.map_cons, List.mem_cons, not_or] at h
    rw [List.foldl_cons, ih _ h.2]
    simp only [addColumn]
    rw [if_neg h.1]

theorem fold_index (cols : List (Str × DT × Str)) (t : Table P) (hd : (cols.map fun c => P.upper c.1).Nodup) (i : Nat) (c : Str × DT × Str)
    (hc : cols[i]? = some c) : (cols.foldl addColumn t).columnIndexes (P.upper c.1) = some (t.columns.length + i) := by
  induction cols generalizing t i with
  | nil => cases hc
  | cons d cols ih =>
    rw [List.map_cons, List.nodup_cons] at hd
    rw [List.foldl_cons]
    cases i with
    | zero =>
      injection hc with hc
      subst hc
      rw [fold_other cols _ _ hd.1]
      simp [addColumn]
    | succ i =>
      rw [ih (addColumn t d) hd.2 i hc]
      simp only [addColumn, List.length_append, List.length_singleton]
      congr 1; omega

theorem fields_back (px : Str) (hpx : px ≠ []) (fields : List Xml.Node) (cols : List (Str × DT × Str)) (h : fields.map Xml.Node.tree = cols.map (colElement px))
    (hc : ∀ c ∈ cols, c.1 ≠ [] ∧ c.2.1 ≠ .undefined) (t : Table P) : addFields px t fields = cols.foldl addColumn t := by
  induction cols generalizing fields t with
  | nil =>
    rw [List.map_nil, List.map_eq_nil_iff] at h
    subst h
    rfl
  | cons c cols ih =>
    cases fields with
    | nil => cases h
    | cons f fields =>
      rw [List.map_cons, List.map_cons] at h
      injection h with h1 h2
      have hf : fieldColumn px f.tree = some c := by rw [h1]; exact column_back px hpx c (hc c (by simp))
      rw [List.foldl_cons, ← ih fields h2 (fun x hx => hc x (by simp [hx]))]
      unfold addFields
      rw [List.foldl_cons, hf]

/-- A table read back from its schema element. -/
def schemaTable (X : XmlLib P) (T : TableDef P) : Table P :=
  { T.cols.foldl addColumn (emptyTable P) with parse := X.parse (T.cols.foldl addColumn (emptyTable P)).columns }

/-- Its place in the data set. -/
def entry (X : XmlLib P) (T : TableDef P) : Str × Named P := (P.upper T.name, ⟨T.name, schemaTable X T⟩)

theorem table_back (X : XmlLib P) (px : Str) (hpx : px ≠ []) (T : TableDef P) (hT : Fits X T) (n : Xml.Node) (hn : n.tree = tableElement px T) (ds : DataSet P) :
    addTable X px ds n = .ok (GoMap.set ds (entry X T).1 (entry X T).2) := by
  unfold addTable
  have ha : Xml.attrOf n.tree (lit "name") = some T.name := by rw [hn]; rfl
  rw [ha]
  dsimp only
  rw [if_neg (fun e => hT.name (List.length_eq_zero_iff.mp e))]
  obtain ⟨rs, h1, h2⟩ := select_descend (textLib P) n (lit "complexType/sequence/element") (by decide)
  have hs : split 47#8 (lit "complexType/sequence/element") = [lit "complexType", lit "sequence", lit "element"] := by decide
  have hd : rs.map Xml.Node.tree = T.cols.map (colElement px) := by
    rw [h2, hs, hn]
    show pick (lit "element") ((pick (lit "sequence") ((pick (lit "complexType") [Xml.Tree.node (lit "complexType") schemaSpace [] []
      [.node (lit "sequence") schemaSpace [] [] (T.cols.map (colElement px))]]).flatMap Xml.Tree.children)).flatMap Xml.Tree.children) = _
    have e1 : pick (lit "complexType") [Xml.Tree.node (lit "complexType") schemaSpace [] []
      [.node (lit "sequence") schemaSpace [] [] (T.cols.map (colElement px))]] = [Xml.Tree.node (lit "complexType") schemaSpace [] []
      [.node (lit "sequence") schemaSpace [] [] (T.cols.map (colElement px))]] := rfl
    rw [e1]
    have e2 : pick (lit "sequence") ([Xml.Tree.node (lit "complexType") schemaSpace [] []
      [.node (lit "sequence") schemaSpace [] [] (T.cols.map (colElement px))]].flatMap Xml.Tree.children) =
      [.node (lit "sequence") schemaSpace [] [] (T.cols.map (colElement px))] := rfl
    rw [e2]
    have e3 : [Xml.Tree.node (lit "sequence") schemaSpace [] [] (T.cols.map (colElement px))].flatMap Xml.Tree.children = T.cols.map (colElement px) := by
      simp [Xml.Tree.children]
    rw [e3]
    unfold pick
    rw [List.filter_eq_self]
    intro t ht
    obtain ⟨c, -, rfl⟩ := List.mem_map.mp ht
    simp [Xml.isMatch, colElement, Xml.Tree.name]
  rw [h1]
  simp only [Res.bind_ok, Res.pure_eq]
  rw [fields_back px hpx rs T.cols hd hT.cols]
  rfl

theorem set_new {K V : Type} [DecidableEq K] (m : GoMap K V) (k : K) (v : V) (h : k ∉ m.map Prod.fst) : GoMap.set m k v = m ++ [(k, v)] := by
  unfold GoMap.set
  rw [if_neg]
  intro ha
  rw [List.any_eq_true] at ha
  obtain ⟨p, hp, he⟩ := ha
  exact h (List.mem_map.mpr ⟨p, hp, by simpa using he⟩)

theorem tables_back (X : XmlLib P) (px : Str) (hpx : px ≠ []) (D : List (TableDef P)) (hD : ∀ T ∈ D, Fits X T) (hd : (D.map fun T => P.upper T.name).Nodup)
    (ns : List Xml.Node) (hn : ns.map Xml.Node.tree = D.map (tableElement px)) (ds : DataSet P)
    (hds : ∀ T ∈ D, P.upper T.name ∉ ds.map Prod.fst) : addTables X px ns ds = .ok (ds ++ D.map (entry X)) := by
  induction D generalizing ns ds with
  | nil =>
    rw [List.map_nil, List.map_eq_nil_iff] at hn
    subst hn
    simp [addTables]
  | cons T D ih =>
    cases ns with
    | nil => cases hn
    | cons n ns =>
      rw [List.map_cons, List.map_cons] at hn
      injection hn with h1 h2
      rw [List.map_cons, List.nodup_cons] at hd
      simp only [addTables, table_back X px hpx T (hD T (by simp)) n h1, Res.bind_ok]
      rw [set_new _ _ _ (show (entry X T).1 ∉ ds.map Prod.fst from hds T (by simp)), ih (fun x hx => hD x (by simp [hx])) hd.2 ns h2]
      · simp
      · intro U hU hm
        rw [List.map_append, List.mem_append] at hm
        rcases hm with hm | hm
        · exact hds U (by simp [hU]) hm
        · have he : P.upper U.name = P.upper T.name := by simpa [entry] using hm
          exact hd.1 (List.mem_map.mpr ⟨U, hU, he⟩)

theorem schema_back (X : XmlLib P) (px name : Str) (hpx : px ≠ []) (D : List (TableDef P)) (hD : ∀ T ∈ D, Fits X T) (hd : (D.map fun T => P.upper T.name).Nodup) :
    loadSchema X px ⟨[], schemaElement px name D⟩ [] = .ok (D.map (entry X)) := by
  unfold loadSchema
  obtain ⟨rs, h1, h2⟩ := select_descend (textLib P) ⟨[], schemaElement px name D⟩ (lit "element/complexType/choice/element") (by decide)
  have hs : split 47#8 (lit "element/complexType/choice/element") = [lit "element", lit "complexType", lit "choice", lit "element"] := by decide
  have ht : rs.map Xml.Node.tree = D.map (tableElement px) := by
    rw [h2, hs]
    show pick (lit "element") ((pick (lit "choice") ((pick (lit "complexType") ((pick (lit "element")
      [.node (lit "element") schemaSpace [] [] [.node (lit "complexType") schemaSpace [] [] [.node (lit "choice") schemaSpace [] []
        (D.map (tableElement px))]]]).flatMap Xml.Tree.children)).flatMap Xml.Tree.children)).flatMap Xml.Tree.children) = _
    have e : ∀ (a : Str) (ts : List Xml.Tree), pick a [Xml.Tree.node a schemaSpace [] [] ts] = [Xml.Tree.node a schemaSpace [] [] ts] := by
      intro a ts
      simp [pick, Xml.isMatch, Xml.Tree.name]
    have k : ∀ (a : Str) (ts : List Xml.Tree), [Xml.Tree.node a schemaSpace [] [] ts].flatMap Xml.Tree.children = ts := by
      intro a ts
      simp [Xml.Tree.children]
    rw [e, k, e, k, e, k]
    unfold pick
    rw [List.filter_eq_self]
    intro t ht
    obtain ⟨T, -, rfl⟩ := List.mem_map.mp ht
    simp [Xml.isMatch, tableElement, Xml.Tree.name]
  rw [h1]
  simp only [Res.bind_ok]
  rw [tables_back X px hpx D hD hd rs ht [] (by simp)]
  rfl

end Verif.Data
