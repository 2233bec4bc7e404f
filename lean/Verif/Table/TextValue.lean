import Verif.Table.TextSelect
import Verif.Table.RowProps

/-!
# C90: the values of expressions; C91: computed columns
-/

set_option linter.dupNamespace false

namespace Verif.Table

open Verif.Expr Verif.Parse
open Verif.Lex (tokens codes)

variable {P : Prim}

namespace Parser

theorem listen_trees {p : Parser P} {depth : Nat} {st st' : Found P} (hg : Good p st) {s : S} (h : p.listen depth st s = .ok st') :
    Good p st' ∧ ∃ x, st'.trees = st.trees ++ x := by
  unfold listen at h
  obtain ⟨d, -, h⟩ := Res.bind_eq_ok.mp h
  have key : ∀ d, p.visit depth st d = .ok st' → Good p st' ∧ ∃ x, st'.trees = st.trees ++ x := by
    intro d h
    obtain ⟨o, ho⟩ := visit_ok h
    obtain ⟨st1, h1, h2, -, h3, -⟩ := visit_eq hg ho
    rw [h] at h1
    injection h1 with h1
    subst h1
    exact ⟨h2, _, h3⟩
  cases d with
  | guid g =>
    simp only at h
    split at h
    · exact key _ h
    · exact key _ h
  | _ => exact key _ h

theorem listenAll_trees {p : Parser P} {depth : Nat} {ss : List S} {st st' : Found P} (hg : Good p st) (h : p.listenAll depth st ss = .ok st') :
    ∃ x, st'.trees = st.trees ++ x := by
  induction ss generalizing st with
  | nil =>
    injection h with h
    subst h
    exact ⟨[], by simp⟩
  | cons s ss ih =>
    rw [listenAll] at h
    split at h
    · rename_i st1 h1
      obtain ⟨h2, x, h3⟩ := listen_trees hg h1
      obtain ⟨y, h4⟩ := ih h2 h
      exact ⟨x ++ y, by rw [h4, h3, List.append_assoc]⟩
    · cases h

theorem listenAll_not_panic {p : Parser P} {depth : Nat} (ss : List S) (st : Found P) : p.listenAll depth st ss ≠ .panic := by
  induction ss generalizing st with
  | nil => simp [listenAll]
  | cons s ss ih =>
    rw [listenAll]
    split
    · exact ih _
    · simp

/-- The trees of a text that begins with an expression: an error, or the tree of this expression comes first. -/
theorem trees_first {p : Parser P} {depth : Nat} {text : Str} {e : E} {ss : List S} (hw : ∀ s ∈ S.expr e :: ss, s.WF)
    (hl : Listed (.expr e :: ss) (tokens text)) {root : Tree P} (hroot : build (p.columnNamed []) e = .ok root) :
    p.expressionTrees depth text = some .err ∨ ∃ x, p.expressionTrees depth text = some (.ok (([], { root := root }) :: x)) := by
  unfold expressionTrees
  rw [read_listed hw hl]
  simp only [Option.map_some, Res.bind_ok]
  cases h : p.listenAll depth {} (.expr e :: ss) with
  | err => exact .inl rfl
  | panic => exact absurd h (listenAll_not_panic _ _)
  | ok st =>
    refine .inr ?_
    have h1 : p.listen depth {} (.expr e) = .ok { p.enterStatement {} with trees := [([], { root := root })] } := by
      unfold listen
      simp only [statementOf, hroot, Res.bind_ok, Res.pure_eq]
      rfl
    rw [listenAll, h1] at h
    obtain ⟨hg, -⟩ := listen_trees (good_start p) h1
    obtain ⟨x, hx⟩ := listenAll_trees hg h
    exact ⟨x, by simp only [Res.bind_ok, Res.pure_eq, hx]; rfl⟩

theorem trees_refused {p : Parser P} {depth : Nat} {text : Str} {ss : List S} (hw : ∀ s ∈ ss, s.WF) (hl : Listed ss (tokens text)) {s : S}
    (hs : s ∈ ss) (h : ∀ d, p.statementOf s ≠ .ok d) : p.expressionTrees depth text = some .err := by
  unfold expressionTrees
  rw [read_listed hw hl]
  simp only [Option.map_some, Res.bind_ok, listenAll_err hs h]
  rfl

theorem trees_one {p : Parser P} {depth : Nat} {text : Str} {e : E} (hw : e.WF 0) (hg : ∀ g, e.toks ≠ [.guid g]) (ht : tokens text = e.toks)
    {root : Tree P} (hroot : build (p.columnNamed []) e = .ok root) :
    p.expressionTrees depth text = some (.ok [([], { root := root })]) := by
  have hl : Listed [.expr e] (tokens text) := by rw [ht]; simpa [S.toks] using Listed.one 0 0 (S.expr e)
  unfold expressionTrees
  rw [read_listed (by simpa [S.WF] using ⟨hw, hg⟩) hl]
  simp only [Option.map_some, Res.bind_ok, listenAll, listen, statementOf, hroot, Res.pure_eq]
  rfl

end Parser

/-! ### `EvaluateExpression` -/

/-- The parser of `EvaluateExpression`. -/
abbrev noSet : Parser P := { tables := fun _ => none, primary := [], idFields := fun _ => none, trackRows := false }

theorem noSet_column : (noSet : Parser P).columnNamed [] = fun _ => .panic := by
  funext name
  simp [Parser.columnNamed]

/-- **The value of a text is that of the expression written in it.** -/
theorem C90_value {text : Str} {e : E} (hw : e.WF 0) (hg : ∀ g, e.toks ≠ [.guid g]) (ht : tokens text = e.toks) {root : Tree P}
    (hroot : build (fun _ => .panic) e = .ok root) : evaluateExpression text = some (eval (fun _ => .err) root) := by
  have hl : Listed [.expr e] (tokens text) := by rw [ht]; simpa [S.toks] using Listed.one 0 0 (S.expr e)
  unfold evaluateExpression
  rw [if_neg (listed_text hl), Parser.trees_one hw hg ht (by rw [noSet_column]; exact hroot)]
  rfl

/-- An expression with a column, or with a literal that is none, has no value: there is no data set to look the column up in. -/
theorem C90_refused {text : Str} {ss : List S} (hw : ∀ s ∈ ss, s.WF) (hl : Listed ss (tokens text)) {e : E} (hs : S.expr e ∈ ss)
    (h : ∀ root : Tree P, build (fun _ => .panic) e ≠ .ok root) : (evaluateExpression text : Option (Res (Val P))) = some .err := by
  unfold evaluateExpression
  have hd : ∀ d, (noSet : Parser P).statementOf (.expr e) ≠ .ok d := by
    intro d hd
    simp only [Parser.statementOf] at hd
    obtain ⟨root, hr, -⟩ := Res.bind_eq_ok.mp hd
    rw [noSet_column] at hr
    exact h root hr
  by_cases h0 : text.length = 0
  · rw [if_pos h0]
  · rw [if_neg h0, Parser.trees_refused hw hl hs hd]
    rfl

/-- **Only the first statement is evaluated**, whatever follows it: the result is its value, or an error because the text is not accepted. -/
theorem C90_first {text : Str} {e : E} {ss : List S} (hw : ∀ s ∈ S.expr e :: ss, s.WF) (hl : Listed (.expr e :: ss) (tokens text)) {root : Tree P}
    (hroot : build (fun _ => .panic) e = .ok root) {v : Val P} (h : evaluateExpression text = some (.ok v)) :
    eval (fun _ => .err) root = .ok v := by
  unfold evaluateExpression at h
  rw [if_neg (listed_text hl)] at h
  rcases Parser.trees_first (p := noSet) (depth := 0) hw hl (by rw [noSet_column]; exact hroot) with h1 | ⟨x, h1⟩
  · rw [h1] at h
    simp at h
  · rw [h1] at h
    simpa using h

/-- A lone GUID is its value. -/
theorem C90_guid {text g : Str} (ht : tokens text = [.guid g]) {v : Guid.Guid} (hv : Parser.guidLiteral (P := P) g = .ok v) :
    (evaluateExpression text : Option (Res (Val P))) = some (.ok (.guid v)) := by
  have hl : Listed [S.guid g] (tokens text) := by rw [ht]; simpa [S.toks] using Listed.one 0 0 (S.guid g)
  unfold evaluateExpression
  rw [if_neg (listed_text hl)]
  unfold Parser.expressionTrees
  rw [read_listed (by simp [S.WF]) hl]
  simp only [Option.map_some, Res.bind_ok, Parser.listenAll, Parser.listen, Parser.statementOf, hv, Res.pure_eq]
  rfl

/-- Measurement keys and point tags have no value. -/
theorem C90_identifier {text : Str} {s : Str} (ht : tokens text = [.measurementKey s] ∨ tokens text = [.pointTag s]) :
    (evaluateExpression text : Option (Res (Val P))) = some .err := by
  rcases ht with ht | ht
  · have hl : Listed [S.measurementKey s] (tokens text) := by rw [ht]; simpa [S.toks] using Listed.one 0 0 (S.measurementKey s)
    unfold evaluateExpression
    rw [if_neg (listed_text hl)]
    unfold Parser.expressionTrees
    rw [read_listed (by simp [S.WF]) hl]
    simp only [Option.map_some, Res.bind_ok, Parser.listenAll, Parser.listen, Parser.statementOf]
    rfl
  · have hl : Listed [S.pointTag s] (tokens text) := by rw [ht]; simpa [S.toks] using Listed.one 0 0 (S.pointTag s)
    unfold evaluateExpression
    rw [if_neg (listed_text hl)]
    unfold Parser.expressionTrees
    rw [read_listed (by simp [S.WF]) hl]
    simp only [Option.map_some, Res.bind_ok, Parser.listenAll, Parser.listen, Parser.statementOf]
    cases h : unquote (ch '"') s with
    | ok v => rfl
    | err => rfl
    | panic => rfl

/-! ### `EvaluateDataRowExpression` -/

/-- **The value of a text for a row** is that of the expression, with the columns of the row. -/
theorem C90_row (tables : Str → Option (Str × Table P)) (depth : Nat) {name own text : Str} {e : E} (hw : e.WF 0)
    (hg : ∀ g, e.toks ≠ [.guid g]) (ht : tokens text = e.toks) (hne : name ≠ []) {t : Table P} (htab : tables name = some (own, t)) {root : Tree P}
    (hroot : build (columnOf t) e = .ok root) (r : Row P) :
    evaluateDataRowExpression tables depth name t r text = some (eval (r.column t depth) root) := by
  unfold evaluateDataRowExpression
  rw [generateTree_expr tables depth hw hg ht hne htab hroot]
  rfl

/-! ### Computed columns -/

/-- What `GenerateExpressionTree` gives `expressionTree` (DataRow.go L101-105). -/
def treeOf (x : Option (Res (Filter P))) : Option (Tree P) :=
  match x with
  | some (.ok f) => some f.root
  | _ => none

/-- **A computed column has the value of the expression written for it**, read by its index or by its name, when this is not null. Missing: what
`C55_readers_partial` leaves out. -/
theorem C91_computed_partial (tables : Str → Option (Str × Table P)) {name own : Str} (hne : name ≠ []) {t : Table P}
    (htab : tables name = some (own, t)) (hp : Positions t) {r : Row P} (hr : Reachable t r) {column : Str} {c : Column}
    (hc : t.columnByName column = some c) (hcomp : c.computed = true)
    (hparse : t.parse c.expression = treeOf (generateTree tables 0 name c.expression)) {e : E} (hw : e.WF 0) (hg : ∀ g, e.toks ≠ [.guid g])
    (he : tokens c.expression = e.toks) {root : Tree P} (hroot : build (columnOf t) e = .ok root) (depth : Nat) {v : Val P}
    (hv : eval (r.column t depth) root = .ok v) (hnull : v.isNull = false) :
    r.value (r.column t depth) t c.index = present (convertResult v c.type) ∧
    r.get (r.column t depth) t c.type c.index = present (convertResult v c.type) ∧
    r.getByName (r.column t depth) t c.type column = present (convertResult v c.type) := by
  have h1 : t.parse c.expression = some root := by
    rw [hparse, generateTree_expr tables 0 hw hg he hne htab hroot]
    rfl
  exact C55_readers_partial hp r hc hcomp (reachable_computes hp hr (hp.byName hc) hcomp h1) hv hnull

/-- Column `B` of the example table of RowProps is computed as `A + 1`; `A` is 41 in the row. -/
example : demoRow.getByName (demoRow.column demo 3) demo .int32 (lit "B") = present (convertResult (.int32 42) .int32) := by
  have ht : tokens (lit "A + 1") =
      (E.pred (.value (.math .plus (.column (lit "A")) (.lit (.integer (lit "1")))))).toks := by decide +kernel
  have hc : build (columnOf demo) (.pred (.value (.math .plus (.column (lit "A")) (.lit (.integer (lit "1")))))) =
      .ok (Tree.op (P := Toy.prim) .add (.column 0) (.value (.int32 1))) := rfl
  have hw : (E.pred (.value (.math .plus (.column (lit "A")) (.lit (.integer (lit "1")))))).WF 0 := by
    simp [E.WF, Q.WF, V.WF, V.edge, Q.toks, V.toks]
  have hg : ∀ g, (E.pred (.value (.math .plus (.column (lit "A")) (.lit (.integer (lit "1")))))).toks ≠ [.guid g] := by
    intro g
    simp [E.toks, Q.toks, V.toks]
  refine (C91_computed_partial (fun n => if n = lit "T" then some (lit "T", demo) else none) (name := lit "T") (own := lit "T") (by decide) rfl
    demo_positions (Reachable.set 0 (some (.int32 41)) (Reachable.create 0) rfl) (column := lit "B") rfl rfl ?_ hw hg ht hc 3
    (v := .int32 42) rfl rfl).2.2
  rw [generateTree_expr (fun n => if n = lit "T" then some (lit "T", demo) else none) 0 (name := lit "T") (own := lit "T") (t := demo)
    hw hg ht (by decide) rfl hc]
  rfl

end Verif.Table
