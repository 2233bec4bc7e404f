import Verif.Table.Row

/-!
# Row selection and ordering (data/ExpressionTree.go L70-164, data/DataRow.go L1470-1787, data/DataTable.go L154-176, L253-275)

`sort.Slice` is a parameter: any function that sorts when the comparison is a strict weak order (`SortSlice`). The depth of the stack
(see `Row.column`) is a parameter of everything that reads rows.
-/

set_option linter.dupNamespace false

namespace Verif.Table

open Verif.Expr

variable {P : Prim}

/-- -1, 1 or 0, as `if l < r { return -1 }; if l > r { return 1 }; return 0`. (data/DataRow.go L1475-1790) -/
def threeWay (lt gt : Bool) : Int := if lt then -1 else if gt then 1 else 0

/-- The comparisons of `CompareDataRowColumns` (DataRow.go L1490-1775) for two values of the column's type. The last case does not
arise. -/
def cellCompare (exactMatch : Bool) : Cell P → Cell P → Int
  | .string a, .string b => if exactMatch then strCompare a b else strCompare (P.upper a) (P.upper b)
  | .boolean a, .boolean b => threeWay (a && !b) (!a && b)
  | .dateTime a, .dateTime b => threeWay (P.timeBefore a b) (P.timeBefore b a)
  | .single a, .single b => threeWay (P.sglLt a b) (P.sglLt b a)
  | .double a, .double b => threeWay (P.fltLt a b) (P.fltLt b a)
  | .decimal a, .decimal b => threeWay (P.decCmp a b < 0) (P.decCmp a b > 0)
  | .guid a, .guid b => threeWay (Guid.compare a b < 0) (Guid.compare a b > 0)
  | .int8 a, .int8 b => threeWay (a.slt b) (b.slt a)
  | .int16 a, .int16 b => threeWay (a.slt b) (b.slt a)
  | .int32 a, .int32 b => threeWay (a.slt b) (b.slt a)
  | .int64 a, .int64 b => threeWay (a.slt b) (b.slt a)
  | .uint8 a, .uint8 b => threeWay (a.ult b) (b.ult a)
  | .uint16 a, .uint16 b => threeWay (a.ult b) (b.ult a)
  | .uint32 a, .uint32 b => threeWay (a.ult b) (b.ult a)
  | .uint64 a, .uint64 b => threeWay (a.ult b) (b.ult a)
  | _, _ => 0

/-- `nullCompare` (DataRow.go L1777-1787). -/
def nullCompare (leftHasValue rightHasValue : Bool) : Int :=
  if !leftHasValue ∧ !rightHasValue then 0 else if leftHasValue then 1 else -1

/-- `!null && err == nil`: an error counts as no value. (data/DataRow.go L1475-1790) -/
def hasValue (x : Res (Option (Cell P))) : Res (Option (Cell P)) :=
  match x with
  | .ok v => .ok v
  | .err => .ok none
  | .panic => .panic

/-- `CompareDataRowColumns` (DataRow.go L1475-1775), both rows being of the same table. -/
def compareColumns (t : Table P) (depth : Nat) (l r : Row P) (i : Int) (exactMatch : Bool) : Res Int :=
  match t.column i with
  | none => .err
  | some c =>
    if c.type = .undefined then .err
    else do
      let a ← hasValue (l.get (l.column t depth) t c.type i)
      let b ← hasValue (r.get (r.column t depth) t c.type i)
      match a, b with
      | some a, some b => return cellCompare exactMatch a b
      | a, b => return nullCompare a.isSome b.isSome

/-- `OrderByTerm` (OrderByTerm.go L27-36); the column by its `Index()`. -/
structure OrderBy where
  column : Int
  ascending : Bool
  exactMatch : Bool

/-- `result, _ := CompareDataRowColumns(...)`: 0 on an error. (data/ExpressionTree.go L130-163) -/
def orZero (x : Res Int) : Res Int :=
  match x with
  | .ok v => .ok v
  | .err => .ok 0
  | .panic => .panic

/-- The comparison given to `sort.Slice` (ExpressionTree.go L130-159). -/
def less (t : Table P) (depth : Nat) (l r : Row P) : List OrderBy → Res Bool
  | [] => .ok false
  | o :: os => do
    let result ← orZero (if o.ascending then compareColumns t depth l r o.column o.exactMatch
      else compareColumns t depth r l o.column o.exactMatch)
    if result < 0 then return true
    if result > 0 then return false
    less t depth l r os

/-- `ExpressionTree` (ExpressionTree.go L44-60) without the table's name. -/
structure Filter (P : Prim) where
  root : Tree P
  topLimit : Int := -1
  orderBy : List OrderBy := []

/-- `Evaluate` (ExpressionTree.go L166-169) for a row. -/
def Filter.evaluate (f : Filter P) (t : Table P) (depth : Nat) (r : Row P) : Res (Val P) := eval (r.column t depth) f.root

/-- The loop of `SelectWhere` (ExpressionTree.go L103-126). -/
def selectLoop (evaluate : Row P → Res (Val P)) (predicate : Val P → Res Bool) (applyLimit : Bool) (topLimit : Int) :
    List (Option (Row P)) → List (Row P) → Res (List (Row P))
  | [], matched => .ok matched
  | row :: rows, matched =>
    if applyLimit ∧ topLimit > -1 ∧ (matched.length : Int) ≥ topLimit then .ok matched
    else match row with
      | none => selectLoop evaluate predicate applyLimit topLimit rows matched
      | some r => do
        let v ← evaluate r
        let result ← predicate v
        selectLoop evaluate predicate applyLimit topLimit rows (if result then matched ++ [r] else matched)

/-- `sort.Slice(matchedRows, less)`. (data/ExpressionTree.go L130-163) -/
abbrev Sorter (P : Prim) := (Row P → Row P → Res Bool) → List (Row P) → Res (List (Row P))

/-- `SelectWhere` (ExpressionTree.go L91-164), for a table that is not nil. -/
def Filter.selectWhere (sort : Sorter P) (f : Filter P) (t : Table P) (depth : Nat) (predicate : Val P → Res Bool)
    (applyLimit applySort : Bool) : Res (List (Row P)) := do
  let matched ← selectLoop (f.evaluate t depth) predicate applyLimit f.topLimit t.rows []
  if applySort ∧ matched.length > 0 ∧ f.orderBy.length > 0 then
    sort (fun l r => less t depth l r f.orderBy) matched
  else return matched

/-- The predicate of `Select` (ExpressionTree.go L76-84). -/
def selectPredicate (v : Val P) : Res Bool := if v.type ≠ .boolean then .err else v.booleanValue

/-- `Select` (ExpressionTree.go L75-85). -/
def Filter.select (sort : Sorter P) (f : Filter P) (t : Table P) (depth : Nat) : Res (List (Row P)) :=
  f.selectWhere sort t depth selectPredicate true true

/-- The loop of `RowsWhere` (DataTable.go L157-173); `matched.length` is the variable `count`. -/
def rowsWhereLoop (predicate : Row P → Bool) (limit : Int) : List (Option (Row P)) → List (Row P) → List (Row P)
  | [], matched => matched
  | none :: rows, matched => rowsWhereLoop predicate limit rows matched
  | some r :: rows, matched =>
    if predicate r then
      let matched := matched ++ [r]
      if limit > -1 ∧ (matched.length : Int) ≥ limit then matched else rowsWhereLoop predicate limit rows matched
    else rowsWhereLoop predicate limit rows matched

/-- `RowsWhere` (DataTable.go L154-176). -/
def Table.rowsWhere (t : Table P) (predicate : Row P → Bool) (limit : Int) : List (Row P) := rowsWhereLoop predicate limit t.rows []

/-- `DataTable.Select` (DataTable.go L253-275): a limit above 0 becomes the `TOP` of the expression, whose root and ordering terms the
parser yields. -/
def Table.select (sort : Sorter P) (t : Table P) (depth : Nat) (parsed : Option (Tree P × List OrderBy)) (limit : Int) :
    Res (List (Row P)) :=
  match parsed with
  | none => .err
  | some (root, orderBy) => Filter.select sort { root := root, orderBy := orderBy, topLimit := if limit > 0 then limit else -1 } t depth

end Verif.Table
