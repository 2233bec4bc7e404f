import Verif.Table.TextValue

/-!
# C88 to C90: concrete filter expressions
-/

set_option linter.dupNamespace false

namespace Verif.Table

open Verif.Expr Verif.Parse

variable {P : Prim}

/-- The data set of the examples: the name `T`, in any letter case, finds the example table, whose own name is `T`. -/
def demoSet (n : Str) : Option (Str × Table Toy.prim) := if Toy.upper n = lit "T" then some (lit "T", Parser.demoTable) else none

/-- The rows selected, by their addresses. -/
def rowsFound (x : Option (Res (List (Row Toy.prim)))) : Option (Option (List Nat)) :=
  x.map fun r => match r with
    | .ok rows => some (rows.map Row.id)
    | _ => none

/-- The set selected. -/
def setFound {α : Type} (x : Option (Res (Option (List α)))) : Option (Option (List α)) :=
  x.map fun r => match r with
    | .ok (some s) => some s
    | _ => none

/-- `C88_filter_rows`, `C88_filter_sorted` and `C88_expression` on texts. -/
example : rowsFound (selectDataRows demoSet insertionSort 1 (ascii "FILTER t WHERE A > 0") (lit "T") none) = some (some [0, 1, 2]) ∧
    rowsFound (selectDataRows demoSet insertionSort 1 (ascii "FILTER TOP 2 t WHERE A > 0 ORDER BY A") (lit "T") none) = some (some [1, 0]) ∧
    rowsFound (selectDataRows demoSet insertionSort 1 (ascii " a > 2 -- high") (lit "T") none) = some (some [0, 2]) := by decide +kernel

/-- `C88_union` and `C88_union_ids` on a text of three statements. -/
example : setFound (selectDataRowSet demoSet insertionSort 1 (ascii "ppa:2; FILTER T WHERE A > 2; \"BETA\"") (lit "T") none) = some (some [2, 0, 1]) ∧
    setFound (selectSignalIDSet demoSet insertionSort 1 (ascii "ppa:2; FILTER T WHERE A > 2; \"BETA\"") (lit "T") none) =
      some (some [Parser.guidNo 1, Parser.guidNo 2]) := by decide +kernel

/-- The tokens of the statements of this text, as `C88_filter_ids_partial`, `C88_key` and `C88_tag` ask for them. -/
example : Lex.tokens (ascii "ppa:2") = [.measurementKey (ascii "ppa:2")] ∧ Lex.tokens (ascii "\"BETA\"") = [.pointTag (34#8 :: (ascii "BETA" ++ [34#8]))] ∧
    Lex.tokens (ascii "FILTER T WHERE A > 2") =
      (S.filter none (ascii "T") (.pred (.cmp .gt (.value (.column (ascii "A"))) (.value (.lit (.integer (ascii "2")))))) []).toks := by decide +kernel

/-- A GUID is selected though no row has it (`C88_guid`). -/
example : (setFound (selectSignalIDSet demoSet insertionSort 1 (ascii "{01000000-0000-0000-0000-000000000000}") (lit "T") none)).isSome = true := by
  decide +kernel

/-- **A name for the primary table in other letters makes `SelectSignalIDSet` an error**, though it finds the table: the field names are kept under
the name given and looked up under the table's own. -/
theorem C88_case_false : ¬ ∀ (tables : Str → Option (Str × Table Toy.prim)) (text primary : Str) (name : Str) (t : Table Toy.prim),
    tables primary = some (name, t) → tables name = some (name, t) →
    setFound (selectSignalIDSet tables insertionSort 1 text primary none) = setFound (selectSignalIDSet tables insertionSort 1 text name none) := by
  intro h
  have := h demoSet (ascii "A > 2") (lit "t") (lit "T") Parser.demoTable rfl rfl
  revert this
  decide +kernel

/-- **A limit in hexadecimal digits is ignored**: the grammar takes it, `Atoi` does not, and all rows are selected. -/
theorem C88_top_false : ¬ ∀ (text : Str) (rows : List Nat) (k : Nat) (d : Str) (e : E) (top : Top), top.sign = none → top.digits = d →
    Lex.tokens text = (S.filter (some top) (lit "T") e []).toks → Data.parseUint0 64 d = .value k →
    rowsFound (selectDataRows demoSet insertionSort 1 text (lit "T") none) = some (some rows) → rows.length ≤ k := by
  intro h
  have := h (ascii "FILTER TOP 0x1 T WHERE A > 0") [0, 1, 2] 1 (ascii "0x1")
    (.pred (.cmp .gt (.value (.column (ascii "A"))) (.value (.lit (.integer (ascii "0")))))) ⟨none, ascii "0x1"⟩ rfl rfl (by decide +kernel)
    (by decide +kernel) (by decide +kernel)
  simp at this

/-! ### `Select` -/

/-- The rows 3, 1 and 2 of a table `T`. -/
def threeSet (n : Str) : Option (Str × Table Toy.prim) := if n = lit "T" then some (lit "T", numbers [some 3, some 1, some 2]) else none

/-- `C89_rows_partial` and `C89_sorted_partial` on texts. -/
example : rowsFound ((numbers [some 3, some 1, some 2]).selectFrom threeSet insertionSort 1 (lit "T") (ascii "A > 1") [] 0) = some (some [0, 2]) ∧
    rowsFound ((numbers [some 3, some 1, some 2]).selectFrom threeSet insertionSort 1 (lit "T") [] (ascii "A DESC") 2) = some (some [0, 1]) := by decide +kernel

/-- A filter and a sort order as these theorems ask for them. -/
example : Lex.tokens (ascii "A > 2") =
      (E.pred (.cmp .gt (.value (.column (ascii "A"))) (.value (.lit (.integer (ascii "2")))))).toks ∧
    SortText (some (Lex.codes "A DESC")) [⟨none, ascii "A", some true⟩] ∧ Lex.Clean (Lex.codes "A > 2") := by
  refine ⟨by decide +kernel, ⟨by decide, by decide, by decide +kernel⟩, ?_⟩
  decide +kernel

/-- **A filter that ends in a comment loses the sort order**: the text of the order becomes part of the comment. -/
theorem C89_comment_false : ¬ ∀ (filter filter' order : Str) (e : E) (terms : List Term), e.WF 0 → Lex.tokens filter = e.toks →
    Lex.tokens filter' = e.toks → Lex.tokens order = termsToks terms →
    rowsFound ((numbers [some 3, some 1, some 2]).selectFrom threeSet insertionSort 1 (lit "T") filter order 0) =
      rowsFound ((numbers [some 3, some 1, some 2]).selectFrom threeSet insertionSort 1 (lit "T") filter' order 0) := by
  intro h
  have := h (ascii "A > 0 -- all") (ascii "A > 0") (ascii "A") (.pred (.cmp .gt (.value (.column (ascii "A"))) (.value (.lit (.integer (ascii "0"))))))
    [⟨none, ascii "A", none⟩] (by simp [E.WF, Q.WF, V.WF, Q.edge, Q.toks, V.toks]) (by decide +kernel) (by decide +kernel) (by decide +kernel)
  revert this
  decide +kernel

/-! ### `EvaluateExpression` -/

/-- The whole number a text has as its value. -/
def numberFound (x : Option (Res (Val Toy.prim))) : Option (Option Int) :=
  x.map fun r => match r with
    | .ok (.int32 v) => some v.toInt
    | _ => none

/-- `C90_value`, `C90_first` and `C90_refused` on texts; `*` binds no closer than `+` (`C69_precedence_false`). -/
example : numberFound (evaluateExpression (ascii "1 + 2 * 3")) = some (some 9) ∧ numberFound (evaluateExpression (ascii "; 5 ; 6")) = some (some 5) ∧
    numberFound (evaluateExpression (ascii "5; A")) = some none := by decide +kernel

end Verif.Table
