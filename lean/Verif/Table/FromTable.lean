import Verif.Table.TextCases
import Verif.Table.TextIds

/-!
# C133: selecting from a table (data/FilterExpressionParser.go L1397-1478, data/DataTable.go L253-275)

The functions take a `*DataTable` and look it up again, by its name, in the data set it was made for. Tables and data sets are not nil.
-/

set_option linter.dupNamespace false

namespace Verif.Table

open Verif.Expr Verif.Parse

variable {P : Prim}

/-- `AddTable` and `RemoveTable` of one data set. (data/DataSet.go L70-72, L120-129) -/
inductive SetCall (P : Prim) where
  | add (name : Str) (t : Table P)
  | remove (name : Str)

/-- The map of a data set after a call (data/DataSet.go L71, L121-125): from the upper case of a name to the table and its own name. -/
def setStep (m : Str → Option (Str × Table P)) : SetCall P → Str → Option (Str × Table P)
  | .add name t => fun k => if k = P.upper name then some (name, t) else m k
  | .remove name => fun k => if k = P.upper name then none else m k

/-- `Table` (data/DataSet.go L76-82) after these calls, in this order, on a new data set (L62-67). -/
def tableAfter (calls : List (SetCall P)) (n : Str) : Option (Str × Table P) := calls.foldl setStep (fun _ => none) (P.upper n)

/-- `SelectDataRowsFromTable` (FilterExpressionParser.go L1397-1403) of the table with this name; `primaryTable` is not used. -/
def selectDataRowsFromTable (tables : Str → Option (Str × Table P)) (sort : Sorter P) (depth : Nat) (name text _primaryTable : Str)
    (fields : Option IDFields) : Option (Res (List (Row P))) :=
  selectDataRows tables sort depth text name fields

/-- `SelectDataRowSetFromTable` (FilterExpressionParser.go L1433-1439). -/
def selectDataRowSetFromTable (tables : Str → Option (Str × Table P)) (sort : Sorter P) (depth : Nat) (name text : Str)
    (fields : Option IDFields) : Option (Res (Option (List Nat))) :=
  selectDataRowSet tables sort depth text name fields

/-- `SelectSignalIDSetFromTable` (FilterExpressionParser.go L1472-1478); `primaryTable` is not used. -/
def selectSignalIDSetFromTable (tables : Str → Option (Str × Table P)) (sort : Sorter P) (depth : Nat) (name text _primaryTable : Str)
    (fields : Option IDFields) : Option (Res (Option (List Guid.Guid))) :=
  selectSignalIDSet tables sort depth text name fields

/-- The name a call is about. -/
def SetCall.name : SetCall P → Str
  | .add name _ => name
  | .remove name => name

theorem setStep_other {m : Str → Option (Str × Table P)} {c : SetCall P} {k : Str} (h : P.upper c.name ≠ k) : setStep m c k = m k := by
  cases c <;> exact if_neg (fun e => h e.symm)

theorem steps_other (calls : List (SetCall P)) (m : Str → Option (Str × Table P)) {k : Str} (h : ∀ c ∈ calls, P.upper c.name ≠ k) :
    calls.foldl setStep m k = m k := by
  induction calls generalizing m with
  | nil => rfl
  | cons c calls ih =>
    rw [List.foldl_cons, ih _ (fun c hc => h c (by simp [hc])), setStep_other (h c (by simp))]

/-- **A data set has a table under its name, letter case aside, from when it is added until one of that name is added or removed.** -/
theorem C133_held (before after : List (SetCall P)) (name n : Str) (t : Table P) (hn : P.upper n = P.upper name)
    (h : ∀ c ∈ after, P.upper c.name ≠ P.upper name) : tableAfter (before ++ .add name t :: after) n = some (name, t) := by
  unfold tableAfter
  rw [List.foldl_append, List.foldl_cons, hn, steps_other after _ h]
  exact if_pos rfl

/-- C133 (partial: tables the data set has under their names). Full statement: selecting from a table by an expression gives the rows of that table for which
the expression is true. Missing: tables not added, or since removed (`C133_removed_false`), or replaced (`C133_replaced_false`); texts with `FILTER` and the name
of another table (`C133_other_false`). Proved: whatever was done to the data set before, and with other names after, the rows given, and the set of them, are
those of the table, whatever primary table is named. -/
theorem C133_rows_partial (before after : List (SetCall P)) (sort : Sorter P) (depth : Nat) {name text : Str} (primaryTable : Str) (fields : Option IDFields)
    {t : Table P} (h : ∀ c ∈ after, P.upper c.name ≠ P.upper name) {e : E} (hw : e.WF 0) (hg : ∀ g, e.toks ≠ [.guid g]) (ht : Lex.tokens text = e.toks)
    (hne : name ≠ []) {root : Tree P} (hroot : build (columnOf t) e = .ok root)
    (hv : ∀ r ∈ present? t.rows, ∃ v, eval (r.column t depth) root = .ok v) :
    selectDataRowsFromTable (tableAfter (before ++ .add name t :: after)) sort depth name text primaryTable fields = some (.ok (matching t depth root)) :=
  C88_expression _ sort depth hw hg ht hne (C133_held before after name name t rfl h) hroot hv

/-- C133 (partial: as above), the set of the rows. -/
theorem C133_set_partial (before after : List (SetCall P)) (sort : Sorter P) (depth : Nat) {name text : Str} (fields : Option IDFields)
    {t : Table P} (h : ∀ c ∈ after, P.upper c.name ≠ P.upper name) {e : E} (hw : e.WF 0) (hg : ∀ g, e.toks ≠ [.guid g]) (ht : Lex.tokens text = e.toks)
    (hne : name ≠ []) {root : Tree P} (hroot : build (columnOf t) e = .ok root)
    (hv : ∀ r ∈ present? t.rows, ∃ v, eval (r.column t depth) root = .ok v) :
    ∃ set, selectDataRowSetFromTable (tableAfter (before ++ .add name t :: after)) sort depth name text fields = some (.ok (some set)) ∧
      ∀ k, k ∈ set ↔ ∃ r ∈ matching t depth root, r.id = k := by
  have htab := C133_held before after name name t rfl h
  have hs := Parser.selectWhere_eq (f := { root := root }) (al := true) sort hv
  obtain ⟨st, h1, h2⟩ := Parser.expression_rows (p := forDataSet (tableAfter (before ++ .add name t :: after)) name fields) rfl rfl hne htab hs
  have hd : (forDataSet (tableAfter (before ++ .add name t :: after)) name fields).statementOf (.expr e) = .ok (.expression root) := by
    simp only [Parser.statementOf]
    rw [columnNamed_primary hne htab, hroot]
    rfl
  obtain ⟨set, h3, h4⟩ := rowSet_one (s := .expr e) ⟨hw, hg⟩ ht hd h1
  refine ⟨set, h3, fun k => ?_⟩
  rw [h4, h2, List.mem_map]
  rfl

/-- C133 (partial: as above), signal IDs: those in the column named by the fields, in the rows for which the expression is true, the zero ID left out. -/
theorem C133_ids_partial (before after : List (SetCall P)) (sort : Sorter P) (depth : Nat) {name text : Str} (primaryTable : Str) (fields : Option IDFields)
    {t : Table P} (h : ∀ c ∈ after, P.upper c.name ≠ P.upper name) {e : E} (hw : e.WF 0) (hg : ∀ g, e.toks ≠ [.guid g]) (ht : Lex.tokens text = e.toks)
    (hne : name ≠ []) {root : Tree P} (hroot : build (columnOf t) e = .ok root)
    (hv : ∀ r ∈ present? t.rows, ∃ v, eval (r.column t depth) root = .ok v) {c : Column}
    (hc : t.columnByName (fields.getD defaultIDFields).signalID = some c) (hgv : ∀ r ∈ present? t.rows, Parser.guidValue t depth r c.index ≠ .panic) :
    ∃ set, selectSignalIDSetFromTable (tableAfter (before ++ .add name t :: after)) sort depth name text primaryTable fields = some (.ok (some set)) ∧
      ∀ g, g ∈ set ↔ Guid.isZero g = false ∧ ∃ r ∈ matching t depth root, Parser.guidValue t depth r c.index = .ok (some g) :=
  C88_expression_ids_partial _ sort depth hw hg ht hne (C133_held before after name name t rfl h) hroot hv hc hgv

/-- `DataTable.Select` of a table whose data set has it under its name, as in `C89_select_partial`. -/
theorem C133_select_partial (before after : List (SetCall P)) (sort : Sorter P) (depth : Nat) {name filter : List Nat} {limit : Int}
    (hl : limit < 2 ^ 63) {e : E} (hn : Lex.Writes (.ident (Utf8.text name)) name) (hf : ∀ c ∈ filter, Utf8.Valid c) (hw : e.WF 0)
    (he : Lex.tokens (Utf8.text filter) = e.toks) {t : Table P} (h : ∀ c ∈ after, P.upper c.name ≠ P.upper (Utf8.text name)) {root : Tree P}
    (hroot : build (columnOf t) e = .ok root)
    (hb : ∀ r ∈ present? t.rows, eval (r.column t depth) root = .ok (.null .boolean) ∨ ∃ b, eval (r.column t depth) root = .ok (.boolean b)) :
    t.selectFrom (tableAfter (before ++ .add (Utf8.text name) t :: after)) sort depth (Utf8.text name) (Utf8.text filter) [] limit =
      some (.ok (if limit > 0 then (matching t depth root).take limit.toNat else matching t depth root)) :=
  C89_rows_partial _ sort depth hl hn hf hw he (C133_held before after _ _ t rfl h) hroot hb

/-! ### What other tables do -/

/-- Two columns `A` and `B` of type Int32 and a row for each pair of numbers, the columns in this order or the other. (data/DataTable.go L39-45) -/
def pairs (swapped : Bool) (vs : List (Int × Int)) : Table Toy.prim where
  columnIndexes := fun n => if n = lit "A" then some (if swapped then 1 else 0) else if n = lit "B" then some (if swapped then 0 else 1) else none
  columns := if swapped then [{ name := lit "B", type := .int32, expression := [], index := 0 }, { name := lit "A", type := .int32, expression := [], index := 1 }]
    else [{ name := lit "A", type := .int32, expression := [], index := 0 }, { name := lit "B", type := .int32, expression := [], index := 1 }]
  rows := vs.mapIdx fun i v =>
    let a := some (Cell.int32 (BitVec.ofInt 32 v.1))
    let b := some (Cell.int32 (BitVec.ofInt 32 v.2))
    some { id := i, values := if swapped then [b, a] else [a, b] }
  parse := fun _ => none

/-- The condition `A > 1` written in a text. (FilterExpressionSyntax.g4) -/
def overOne : Str := ascii "A > 1"

/-- `C133_rows_partial`, `C133_set_partial`, `C133_select_partial`: the table is added after another and before another; the primary table named is that other one. -/
example : let t := pairs false [(3, 0), (0, 3), (2, 0)]
    let tables := tableAfter [.add (lit "T") (pairs true []), .add (lit "T") t, .add (lit "U") (pairs false [(0, 5), (5, 0)])]
    rowsFound (selectDataRowsFromTable tables insertionSort 1 (lit "T") overOne (lit "U") none) = some (some [0, 2]) ∧
    setFound (selectDataRowSetFromTable tables insertionSort 1 (lit "T") overOne none) = some (some [0, 2]) ∧
    rowsFound (t.selectFrom tables insertionSort 1 (lit "T") overOne [] 1) = some (some [0]) := by decide +kernel

/-- `C133_ids_partial`: the signal ID of two rows of the example table, found twice; sets are lists of what is in them. -/
example : setFound (selectSignalIDSetFromTable (tableAfter [.add (lit "T") Parser.demoTable, .remove (lit "U")]) insertionSort 1 (lit "T") (ascii "A > 2")
    (lit "U") none) = some (some [Parser.guidNo 1, Parser.guidNo 1]) := by decide +kernel

/-- The text and the names meet the conditions of the theorems. -/
example : Lex.tokens overOne = (E.pred (.cmp .gt (.value (.column (ascii "A"))) (.value (.lit (.integer (ascii "1")))))).toks ∧
    (∀ c ∈ [SetCall.add (lit "U") (pairs false [])], Toy.prim.upper c.name ≠ Toy.prim.upper (lit "T")) := by
  refine ⟨by decide +kernel, ?_⟩
  intro c hc
  rw [List.mem_singleton.1 hc]
  decide

/-- **A table that is not in its data set cannot be selected from**: one that was only created, or was removed. -/
theorem C133_removed_false : ¬ ∀ (calls : List (SetCall Toy.prim)) (t : Table Toy.prim) (name text : Str),
    rowsFound (selectDataRowsFromTable (tableAfter [.add name t]) insertionSort 1 name text name none) = some (some [0]) →
    rowsFound (selectDataRowsFromTable (tableAfter calls) insertionSort 1 name text name none) = some (some [0]) := by
  intro h
  have := h [.add (lit "T") (pairs false [(3, 0)]), .remove (lit "t")] (pairs false [(3, 0)]) (lit "T") overOne (by decide +kernel)
  revert this
  decide +kernel

/-- **A table replaced by another of its name, in any letter case, is not selected from: the rows of the other one are given.** -/
theorem C133_replaced_false : ¬ ∀ (t t' : Table Toy.prim) (name name' text : Str) (rows : List Nat),
    rowsFound (selectDataRowsFromTable (tableAfter [.add name t]) insertionSort 1 name text name none) = some (some rows) →
    rowsFound (selectDataRowsFromTable (tableAfter [.add name t, .add name' t']) insertionSort 1 name text name none) = some (some rows) := by
  intro h
  have := h (pairs false [(3, 0)]) (pairs false [(0, 0), (3, 0)]) (lit "T") (lit "t") overOne [0] (by decide +kernel)
  revert this
  decide +kernel

/-- **`Select` of a table replaced reads the wrong columns**: the filter is put together from the columns of the new table and evaluated on the rows of the old
one. The columns are of one type, so that no error tells. -/
theorem C133_select_replaced_wrong : ¬ ∀ (t t' : Table Toy.prim) (name filter : Str) (rows : List Nat),
    rowsFound (t.selectFrom (tableAfter [.add name t]) insertionSort 1 name filter [] 0) = some (some rows) →
    rowsFound (t.selectFrom (tableAfter [.add name t, .add name t']) insertionSort 1 name filter [] 0) = some none ∨
      rowsFound (t.selectFrom (tableAfter [.add name t, .add name t']) insertionSort 1 name filter [] 0) = some (some rows) := by
  intro h
  have := h (pairs false [(3, 0), (0, 3)]) (pairs true []) (lit "T") overOne [0] (by decide +kernel)
  revert this
  decide +kernel

/-- **A text that names another table selects from that one**, though the table was given. -/
theorem C133_other_false : ¬ ∀ (t u : Table Toy.prim) (name name' text : Str), name ≠ name' → ∀ rows,
    rowsFound (selectDataRowsFromTable (tableAfter [.add name t, .add name' u]) insertionSort 1 name text name none) = some (some rows) →
    ∀ i ∈ rows, some i ∈ t.rows.map (Option.map Row.id) := by
  intro h
  have := h (pairs false []) (pairs false [(3, 0)]) (lit "T") (lit "U") (ascii "FILTER U WHERE A > 1") (by decide) [0] (by decide +kernel) 0 (by decide)
  revert this
  decide +kernel

end Verif.Table
