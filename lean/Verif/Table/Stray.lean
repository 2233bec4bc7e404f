import Verif.Table.TextCases

/-!
# C131: a text that is no filter expression

It should be refused. It is not if it begins with statements: what stands behind them is ignored, with no error from any function; only the callback for
parsing exceptions, which none of the functions below registers, would tell (data/FilterExpressionParser.go L134-137, data/CallbackErrorListener.go L44-51).
-/

set_option linter.dupNamespace false

namespace Verif.Table

open Verif.Expr Verif.Parse Verif.Lex

variable {P : Prim}

/-- Two texts that give the same results in every function that takes a filter expression. -/
structure Alike (P : Prim) (text text' : Str) : Prop where
  evaluate : ∀ (p : Parser P) sort depth al as, p.evaluateText sort depth al as text = p.evaluateText sort depth al as text'
  trees : ∀ (p : Parser P) depth, p.expressionTrees depth text = p.expressionTrees depth text'
  rows : ∀ (tables : Str → Option (Str × Table P)) sort depth primary fields,
    selectDataRows tables sort depth text primary fields = selectDataRows tables sort depth text' primary fields
  rowSet : ∀ (tables : Str → Option (Str × Table P)) sort depth primary fields,
    selectDataRowSet tables sort depth text primary fields = selectDataRowSet tables sort depth text' primary fields
  idSet : ∀ (tables : Str → Option (Str × Table P)) sort depth primary fields,
    selectSignalIDSet tables sort depth text primary fields = selectSignalIDSet tables sort depth text' primary fields
  tree : ∀ (tables : Str → Option (Str × Table P)) depth name, generateTree tables depth name text = generateTree tables depth name text'
  value : evaluateExpression (P := P) text = evaluateExpression text'

theorem Alike.of_read {text text' : Str} (h : text.length ≠ 0) (h' : text'.length ≠ 0) (hr : read text = read text') : Alike P text text' where
  evaluate p sort depth al as := by simp only [Parser.evaluateText, hr]
  trees p depth := by simp only [Parser.expressionTrees, hr]
  rows tables sort depth primary fields := by simp only [selectDataRows, Parser.evaluateText, if_neg h, if_neg h', hr]
  rowSet tables sort depth primary fields := by simp only [selectDataRowSet, Parser.evaluateText, if_neg h, if_neg h', hr]
  idSet tables sort depth primary fields := by simp only [selectSignalIDSet, Parser.evaluateText, if_neg h, if_neg h', hr]
  tree tables depth name := by simp only [generateTree, generateTrees, Parser.expressionTrees, if_neg h, if_neg h', hr]
  value := by simp only [evaluateExpression, Parser.expressionTrees, if_neg h, if_neg h', hr]

theorem written_text {text : Str} {ss : List S} (h : Written ss (tokens text)) : text.length ≠ 0 := by
  intro h0
  have : text = [] := List.length_eq_zero_iff.1 h0
  rw [this] at h
  obtain ⟨_, _, hc, _⟩ := h.skip_ne
  cases hc

/-- **Two texts of the same statements give the same results**, whatever stands behind the statements of each of them. -/
theorem C131_alike {text text' : Str} {ss : List S} (hw : ∀ s ∈ ss, s.WF) (h : Written ss (tokens text)) (h' : Written ss (tokens text')) :
    Alike P text text' :=
  .of_read (written_text h) (written_text h') (by rw [read_written hw h, read_written hw h'])

/-- **What stands behind a filter expression is ignored**: if a filter expression does not end in a semicolon nor in an open comment, then with a blank and any text
behind it whose first token cannot go on it gives what it gives alone. -/
theorem C131_ignored {filter garbage : List Nat} {ss : List S} (hw : ∀ s ∈ ss, s.WF) (hl : Listed ss (tokens (Utf8.text filter)))
    (hs : (tokens (Utf8.text filter)).getLast? ≠ some .semi) (hc : Clean filter) (hf : ∀ c ∈ filter, Utf8.Valid c) (hg : ∀ c ∈ garbage, Utf8.Valid c)
    {g : Tok} {G : List Tok} (ht : tokens (Utf8.text garbage) = g :: G) (hx : stray g = true) :
    Alike P (Utf8.text (filter ++ 32 :: garbage)) (Utf8.text filter) := by
  refine C131_alike hw ?_ hl.written
  rw [Lex.C85_blank hc hf hg, ht]
  exact hl.stray hx hs G

/-- `A > 2` and behind it `A < 3`, the operator between them forgotten. -/
example : Alike Toy.prim (Utf8.text (codes "A > 2" ++ 32 :: codes "A < 3")) (Utf8.text (codes "A > 2")) := by
  refine C131_ignored (ss := [.expr (.pred (.cmp .gt (.value (.column (ascii "A"))) (.value (.lit (.integer (ascii "2"))))))]) ?_ ?_ ?_ ?_ ?_ ?_
    (g := .ident (ascii "A")) (G := [.cmp .lt, .integer (ascii "3")]) ?_ rfl
  · intro s hs
    simp only [List.mem_cons, List.not_mem_nil, or_false] at hs
    subst hs
    refine ⟨by simp [E.WF, Q.WF, V.WF, Q.edge, Q.toks, V.toks], fun t => ?_⟩
    simp [E.toks, Q.toks, V.toks, Lit.tok]
  · have : tokens (Utf8.text (codes "A > 2")) =
        (S.expr (.pred (.cmp .gt (.value (.column (ascii "A"))) (.value (.lit (.integer (ascii "2"))))))).toks := by decide +kernel
    rw [this]
    simpa using Listed.one 0 0 (.expr (.pred (.cmp .gt (.value (.column (ascii "A"))) (.value (.lit (.integer (ascii "2")))))))
  · decide +kernel
  · decide +kernel
  · decide +kernel
  · decide +kernel
  · decide +kernel

/-- **A text that is no filter expression is not refused**: an operator forgotten between two conditions leaves the first one. -/
theorem C131_refused_false : ¬ ∀ (text : Str), tokens text ≠ [] → parseStatements (tokens text) = none →
    rowsFound (selectDataRows demoSet insertionSort 1 text (lit "T") none) = some none := by
  intro h
  have := h (ascii "FILTER T WHERE A > 0 A > 2") (by decide +kernel) (by decide +kernel)
  revert this
  decide +kernel

/-- What is selected then: the rows for which the first condition is true; of two statements, the one before the error. -/
example : rowsFound (selectDataRows demoSet insertionSort 1 (ascii "FILTER T WHERE A > 0 A > 2") (lit "T") none) = some (some [0, 1, 2]) ∧
    rowsFound (selectDataRows demoSet insertionSort 1 (ascii "A > 2 ) ; FILTER T WHERE A > 0") (lit "T") none) = some (some [0, 2]) := by decide +kernel

/-- **`Select` loses the sort order** when the filter given to it ends in such a text. -/
theorem C131_select_loses : ¬ ∀ (filter garbage order : Str), parseStatements (tokens filter) ≠ none →
    rowsFound ((numbers [some 3, some 1, some 2]).selectFrom threeSet insertionSort 1 (lit "T") (filter ++ garbage) order 0) ≠ some none →
    rowsFound ((numbers [some 3, some 1, some 2]).selectFrom threeSet insertionSort 1 (lit "T") (filter ++ garbage) order 0) =
      rowsFound ((numbers [some 3, some 1, some 2]).selectFrom threeSet insertionSort 1 (lit "T") filter order 0) := by
  intro h
  have := h (ascii "A > 0") (ascii " )") (ascii "A") (by decide +kernel) (by decide +kernel)
  revert this
  decide +kernel

end Verif.Table
