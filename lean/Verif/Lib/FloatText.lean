import Verif.Lib.Float
import Verif.Lib.Case
import Verif.Table.TextSelect
import Verif.Table.SelectExact

/-!
# A filter expression that ends the program (property C142)

`Convert(Convert(Name, 'Double'), 'Decimal') > 0` over the rows of a table, with lexer, parser, listener, evaluation, letter case and reading of numbers written out.
-/

namespace Verif.Lib

open Verif.Expr Verif.Parse Verif.Table Verif.Lex

/-- The text of a filter expression that compares the numbers in a text column as Decimals. -/
def decimalsText : Str := lit "Convert(Convert(Name, 'Double'), 'Decimal') > 0"

/-- The expression as the grammar has it. -/
def decimalsExpr : E :=
  let name := E.pred (.value (.column (lit "Name")))
  let text := fun s : String => E.pred (.value (.lit (.string (lit s))))
  let conv := fun (e : E) (s : String) => V.call .convert (.cons e (.one (text s)))
  .pred (.cmp .gt (.value (conv (.pred (.value (conv name "'Double'"))) "'Decimal'")) (.value (.lit (.integer (lit "0")))))

theorem decimals_tokens : tokens decimalsText = decimalsExpr.toks := by decide +kernel

variable {P : Prim}

theorem decimals_build {t : Table P} {c : Column} (hc : t.columnByName (lit "Name") = some c) :
    build (P := P) (columnOf t) decimalsExpr = .ok (.op .greaterThan (.func .convert [.func .convert [.column c.index.toNat, .value (.string (lit "Double"))],
      .value (.string (lit "Decimal"))]) (.value (.int32 0))) := by
  rw [C70_build]
  have : columnOf t (lit "Name") = .ok c.index.toNat := by simp [columnOf, hc]
  simp only [decimalsExpr, E.den, Q.den, V.den, L.den, this, Res.bind_ok]
  rfl

theorem target_double (R : Rest) (U : Runes) : convertTarget (go (R.withCase U).withFloats) (upperText U (lit "Double")) = some .double := by
  rw [upperText_ascii U (by decide)]
  rfl

theorem target_decimal (R : Rest) (U : Runes) : convertTarget (go (R.withCase U).withFloats) (upperText U (lit "Decimal")) = some .decimal := by
  rw [upperText_ascii U (by decide)]
  rfl

theorem fnConvert_to (v : Val P) {name : Str} {t : VT} (h : convertTarget P (P.upper name) = some t) (ht : t ≠ .undefined) :
    fnConvert v (.string name) = v.convert t := by
  show (match convertTarget P (P.upper name) with
    | none => Res.err
    | some .undefined => Res.err
    | some t => v.convert t) = _
  rw [h]
  cases t <;> first | rfl | exact absurd rfl ht

theorem call_double (R : Rest) (U : Runes) (s : Str) : fnConvert (P := go (R.withCase U).withFloats) (.string s) (.string (lit "Double")) =
    .ok (.double (parseFloat (R.withCase U).withFloats s).1) := fnConvert_to _ (t := .double) (target_double R U) (by decide)

theorem call_decimal (R : Rest) (U : Runes) (f : Double) : fnConvert (P := go (R.withCase U).withFloats) (.double f) (.string (lit "Decimal")) =
    if f.Finite then .ok (.decimal ((R.withCase U).withFloats.decOfFlt f)) else .panic := by
  rw [fnConvert_to _ (t := .decimal) (target_decimal R U) (by decide)]
  simp only [Val.convert, Val.convertFromDouble]
  by_cases hf : f.Finite
  · simp only [if_pos hf]
  · simp only [if_neg hf]

/-- What the expression gives for a row with this text: a Boolean if the number the text is read as is finite, else the program ends. -/
theorem decimals_eval (R : Rest) (U : Runes) (col : Nat → Res (Val (go (R.withCase U).withFloats))) {i : Nat} {s : Str} (h : col i = .ok (.string s)) :
    ((parseFloat (R.withCase U).withFloats s).1.Finite → ∃ b, eval col (.op .greaterThan (.func .convert [.func .convert [.column i, .value (.string (lit "Double"))],
      .value (.string (lit "Decimal"))]) (.value (.int32 0))) = .ok (.boolean b)) ∧
    (¬ (parseFloat (R.withCase U).withFloats s).1.Finite → eval col (.op .greaterThan (.func .convert [.func .convert [.column i, .value (.string (lit "Double"))],
      .value (.string (lit "Decimal"))]) (.value (.int32 0))) = .panic) := by
  have h1 : ∀ t, evalAs col (.func .convert [.column i, .value (.string (lit "Double"))]) t = .ok (.double (parseFloat (R.withCase U).withFloats s).1) := by
    intro t
    simp only [evalAs, evalArgs, applyFn, arity2, h, Res.bind_ok, Val.type]
    exact call_double R U s
  have h2 : ∀ t, evalAs col (.func .convert [.func .convert [.column i, .value (.string (lit "Double"))], .value (.string (lit "Decimal"))]) t =
      if (parseFloat (R.withCase U).withFloats s).1.Finite then .ok (.decimal ((R.withCase U).withFloats.decOfFlt (parseFloat (R.withCase U).withFloats s).1)) else .panic := by
    intro t
    rw [evalAs, evalArgs, evalArgs]
    simp only [applyFn, arity2, evalArgs, h1, Res.bind_ok]
    exact call_decimal R U _
  unfold eval
  constructor
  · intro hf
    rw [evalAs, h2, if_pos hf]
    exact ⟨_, rfl⟩
  · intro hf
    rw [evalAs, h2, if_neg hf]
    rfl

/-- C142, false: **a text in a column can end the program**: selecting the rows with this filter expression panics exactly when one of them has a text that is read as an
infinity or as NaN. -/
theorem C142_filter_panics (R : Rest) (U : Runes) {tables : Str → Option (Str × Table (go (R.withCase U).withFloats))} (sort : Sorter (go (R.withCase U).withFloats))
    (depth : Nat) {primary own : Str} (hne : primary ≠ []) {t : Table (go (R.withCase U).withFloats)} (htab : tables primary = some (own, t)) {c : Column}
    (hc : t.columnByName (lit "Name") = some c) {name : Row (go (R.withCase U).withFloats) → Str}
    (ht : ∀ r ∈ present? t.rows, r.column t depth c.index.toNat = .ok (.string (name r))) (fields : Option IDFields) :
    (selectDataRows tables sort depth decimalsText primary fields = some .panic ↔
      ∃ r ∈ present? t.rows, ∃ f : Double, ¬ f.Finite ∧ Val.convert (P := go (R.withCase U).withFloats) (.string (name r)) .double = .ok (.double f)) ∧
    ((∃ r ∈ present? t.rows, ∃ f : Double, NumberName f (name r)) → selectDataRows tables sort depth decimalsText primary fields = some .panic) := by
  have hconv : ∀ s, Val.convert (P := go (R.withCase U).withFloats) (.string s) .double = .ok (.double (parseFloat (R.withCase U).withFloats s).1) := fun _ => rfl
  have main : selectDataRows tables sort depth decimalsText primary fields = some .panic ↔
      ∃ r ∈ present? t.rows, ∃ f : Double, ¬ f.Finite ∧ Val.convert (P := go (R.withCase U).withFloats) (.string (name r)) .double = .ok (.double f) := by
    obtain ⟨x, hx, hs⟩ := C88_expression_exact tables sort depth (text := decimalsText) (primary := primary) (fields := fields) (e := decimalsExpr)
      (by simp [decimalsExpr, E.WF, Q.WF, V.WF, L.WF, Q.edge, Q.toks, V.toks, Lit.tok]) (by intro g h; cases h) decimals_tokens hne htab (decimals_build hc)
    rw [hx, Option.some.injEq]
    rcases hs with ⟨a, b, hab, hall, -, hb, rfl⟩ | ⟨a, r, b, hab, hall, -, hr⟩
    · refine iff_of_false (by simp) ?_
      rintro ⟨r, hr, f, hf, e⟩
      have hb : b = [] := hb.elim id fun h => by omega
      rw [hb, List.append_nil] at hab
      obtain ⟨v, hv, -⟩ := hall r (hab ▸ hr)
      beta_reduce at hv
      rw [hconv] at e
      injection e with e
      injection e with e
      rw [(decimals_eval R U _ (ht r hr)).2 (e ▸ hf)] at hv
      cases hv
    · have hm : r ∈ present? t.rows := by
        rw [hab]
        simp
      beta_reduce at hr
      by_cases hf : (parseFloat (R.withCase U).withFloats (name r)).1.Finite
      · obtain ⟨w, hw⟩ := (decimals_eval R U _ (ht r hm)).1 hf
        rcases hr with ⟨h, -⟩ | ⟨h, -⟩ | ⟨v, -, hv, -⟩
        · rw [hw] at h; cases h
        · rw [hw] at h; cases h
        · exact absurd trivial hv
      · have hp := (decimals_eval R U _ (ht r hm)).2 hf
        refine iff_of_true ?_ ⟨r, hm, _, hf, hconv _⟩
        rcases hr with ⟨-, h⟩ | ⟨h, -⟩ | ⟨v, -, hv, -⟩
        · exact h
        · rw [hp] at h; cases h
        · exact absurd trivial hv
  refine ⟨main, ?_⟩
  rintro ⟨r, hr, f, hf⟩
  exact main.2 ⟨r, hr, f, name_not_finite hf, (C142_read_partial (R.withCase U) (fun _ _ => none) hf).1⟩

/-- A table of names. -/
def namesTable (P : Prim) (vs : List Str) : Table P where
  columnIndexes := fun n => if n = lit "NAME" then some 0 else none
  columns := [{ name := lit "Name", type := .string, expression := [], index := 0 }]
  rows := vs.mapIdx fun i v => some { id := i, values := [some (.string v)] }
  parse := fun _ => none

/-- Of two rows the second is called Infinity. -/
example (R : Rest) (U : Runes) (sort : Sorter (go (R.withCase U).withFloats)) (fields : Option IDFields) :
    selectDataRows (fun n => if n = lit "T" then some (n, namesTable (go (R.withCase U).withFloats) [lit "Smith", lit "-Infinity"]) else none) sort 1
      decimalsText (lit "T") fields = some .panic := by
  refine (C142_filter_panics R U sort 1 (primary := lit "T") (own := lit "T") (t := namesTable (go (R.withCase U).withFloats) [lit "Smith", lit "-Infinity"]) (by decide)
    (if_pos rfl) (c := { name := lit "Name", type := .string, expression := [], index := 0 }) rfl
    (name := fun r => match r.values with
      | [some (.string s)] => s
      | _ => []) ?_ fields).2 ⟨⟨1, [some (.string (lit "-Infinity"))]⟩, ?_, _, NumberName.signed true (.inr ((sameLetters_iff infinity_letters _).1 (by decide)))⟩
  · intro r hr
    rcases List.mem_cons.1 hr with rfl | hr
    · rfl
    rcases List.mem_cons.1 hr with rfl | hr
    · rfl
    cases hr
  · exact List.mem_cons_of_mem _ (List.mem_cons_self ..)

end Verif.Lib
