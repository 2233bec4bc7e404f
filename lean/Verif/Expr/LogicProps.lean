import Verif.Expr.TextProps

/-!
# C73: the connectives and the joining of texts

Full statement: AND is true exactly when both operands are, OR when at least one is and NOT is the complement, with the three-valued
logic of SQL for null operands; an operand that cannot change the result is not evaluated; `+` with a text on either side joins
the texts of the two operands from left to right.
-/

namespace Verif.Expr

variable {P : Prim}

open Val

/-- Both operands of an operator are evaluated, the left one first. -/
theorem eval_op (col : Nat → Res (Val P)) (o : Op) (x y : Tree P) :
    eval col (.op o x y) = (eval col x >>= fun l => eval col y >>= fun r => applyOp o l r) := by
  simp only [eval, evalAs]

/-- AND, OR and NOT of conditions that are not null, inside any expression. -/
theorem C73_connectives {col : Nat → Res (Val P)} {x y : Tree P} {a b : Bool} (hx : eval col x = .ok (.boolean a))
    (hy : eval col y = .ok (.boolean b)) :
    (∃ c, eval col (.op .and x y) = .ok (.boolean c) ∧ (c = true ↔ a = true ∧ b = true)) ∧
    (∃ c, eval col (.op .or x y) = .ok (.boolean c) ∧ (c = true ↔ a = true ∨ b = true)) ∧
    (∃ c, eval col (.unary .not x) = .ok (.boolean c) ∧ (c = true ↔ a = false)) := by
  have hn : eval col (.unary .not x) = (eval col x >>= fun v => unaryOp .not v) := by simp only [eval, evalAs]
  rw [eval_op, eval_op, hn, hx, hy]
  refine ⟨⟨a && b, rfl, by simp⟩, ⟨a || b, rfl, by simp⟩, ⟨!a, rfl, by simp⟩⟩

example : eval (Toy.row [.boolean true, .boolean false]) (.op .and (.column 0) (.column 1)) = .ok (.boolean false) := rfl
example : eval (Toy.row [.boolean true, .boolean false]) (.op .or (.column 0) (.column 1)) = .ok (.boolean true) := rfl

/-- De Morgan: pushing a NOT inwards does not change what an expression yields, even when an operand is null, fails or panics. -/
theorem C73_de_morgan (col : Nat → Res (Val P)) (x y : Tree P) (hx : ∀ v, eval col x = .ok v → v.type = .boolean)
    (hy : ∀ v, eval col y = .ok v → v.type = .boolean) :
    eval col (.unary .not (.op .and x y)) = eval col (.op .or (.unary .not x) (.unary .not y)) ∧
    eval col (.unary .not (.op .or x y)) = eval col (.op .and (.unary .not x) (.unary .not y)) := by
  have hn : ∀ z, eval col (.unary .not z) = (eval col z >>= fun v => unaryOp .not v) := fun z => by simp only [eval, evalAs]
  have cases_bool : ∀ v : Val P, v.type = .boolean → v = .null .boolean ∨ ∃ b, v = .boolean b := by
    intro v h
    cases v <;> simp_all [Val.type]
  rw [hn, eval_op, eval_op, hn, hn, hn, eval_op, eval_op, hn, hn]
  cases ex : eval col x with
  | err => exact ⟨rfl, rfl⟩
  | panic => exact ⟨rfl, rfl⟩
  | ok l =>
    cases ey : eval col y with
    | err => rcases cases_bool l (hx l ex) with rfl | ⟨a, rfl⟩ <;> exact ⟨rfl, rfl⟩
    | panic => rcases cases_bool l (hx l ex) with rfl | ⟨a, rfl⟩ <;> exact ⟨rfl, rfl⟩
    | ok r =>
      rcases cases_bool l (hx l ex) with rfl | ⟨a, rfl⟩ <;> rcases cases_bool r (hy r ey) with rfl | ⟨b, rfl⟩
      · exact ⟨rfl, rfl⟩
      · exact ⟨rfl, rfl⟩
      · exact ⟨rfl, rfl⟩
      · cases a <;> cases b <;> exact ⟨rfl, rfl⟩

example : ∀ v, eval (Toy.row [.null .boolean]) (.column 0) = .ok v → v.type = .boolean := by
  intro v h
  cases h
  rfl

/-- Refuted: in SQL `false AND NULL` is false and `true OR NULL` is true; here both are null. -/
theorem C73_three_valued_false : applyOp (P := P) .and (.boolean false) (.null .boolean) = .ok (.null .boolean) ∧
    applyOp (P := P) .or (.boolean true) (.null .boolean) = .ok (.null .boolean) := ⟨rfl, rfl⟩

/-- Refuted: the right operand is evaluated even when the left one already decides. A failure or a panic there is the outcome,
so `x <> 0 AND 1 / x > 0` does not guard the division. -/
theorem C73_short_circuit_false {col : Nat → Res (Val P)} (o : Op) {x y : Tree P} {l : Val P} (hx : eval col x = .ok l) :
    (eval col y = .err → eval col (.op o x y) = .err) ∧ (eval col y = .panic → eval col (.op o x y) = .panic) := by
  rw [eval_op, hx]
  exact ⟨fun h => by rw [h]; rfl, fun h => by rw [h]; rfl⟩

/-- `Column0 <> 0 AND 1 / Column0 > 0` for a row holding 0. -/
example : eval (Toy.row [.int32 0]) (.op .and (.op .notEqual (.column 0) (.value (.int32 0)))
    (.op .greaterThan (.op .divide (.value (.int32 1)) (.column 0)) (.value (.int32 0)))) = .panic :=
  (C73_short_circuit_false .and (l := .boolean false) rfl).2 rfl

/-- The bitwise operators, `+` and `-` on two booleans. -/
theorem C73_boolean_arithmetic (a b : Bool) :
    applyOp (P := P) .bitwiseAnd (.boolean a) (.boolean b) = .ok (.boolean (a && b)) ∧
    applyOp (P := P) .bitwiseOr (.boolean a) (.boolean b) = .ok (.boolean (a || b)) ∧
    applyOp (P := P) .bitwiseXor (.boolean a) (.boolean b) = .ok (.boolean (a ^^ b)) ∧
    applyOp (P := P) .add (.boolean a) (.boolean b) = .ok (.boolean (a || b)) ∧
    applyOp (P := P) .subtract (.boolean a) (.boolean b) = .ok (.boolean (a ^^ b)) := by
  cases a <;> cases b <;> exact ⟨rfl, rfl, rfl, rfl, rfl⟩

/-- Refuted: two booleans can be added and subtracted but neither multiplied nor divided, and `%` on them is an error too, although
a derived type exists for all of these. -/
theorem C73_boolean_product_false (a b : Bool) : deriveType .multiply .boolean .boolean = .ok .boolean ∧
    applyOp (P := P) .multiply (.boolean a) (.boolean b) = .err ∧ applyOp (P := P) .divide (.boolean a) (.boolean b) = .err ∧
    applyOp (P := P) .modulus (.boolean a) (.boolean b) = .err := ⟨rfl, rfl, rfl, rfl⟩

/-- The text of a value, of a `Double` with six digits after the point. -/
def textOf : Val P → Str
  | .null _ => []
  | .boolean b => lit (if b then "true" else "false")
  | .int32 v => lit (toString v.toInt)
  | .int64 v => lit (toString v.toInt)
  | .decimal d => P.decStr d
  | .double f => P.fltStr f
  | .string s => s
  | .guid g => P.guidStr g
  | .dateTime t => P.timeStr t

/-- A text plus any value is the text followed by that of the value; a number or boolean plus a text the same way round. -/
theorem C73_join_partial (s : Str) (v : Val P) (hn : v.isNull = false) :
    applyOp .add (.string s) v = .ok (.string (s ++ textOf v)) ∧
    (v.type.isNumeric = true ∨ v.type = .string → applyOp .add v (.string s) = .ok (.string (textOf v ++ s))) := by
  constructor
  · cases v <;> first | exact Bool.noConfusion hn | rfl
  · intro h
    cases v <;> first | exact Bool.noConfusion hn | rfl | exact absurd h (by simp [Val.type, VT.isNumeric])

example : applyOp (P := Toy.prim) .add (.string (lit "ab")) (.int32 7) = .ok (.string (lit "ab7")) := rfl
example : applyOp (P := Toy.prim) .add (.int32 7) (.string (lit "ab")) = .ok (.string (lit "7ab")) := rfl

/-- Joining is associative. -/
theorem C73_join_assoc (s t u : Str) :
    (applyOp (P := P) .add (.string s) (.string t) >>= fun v => applyOp .add v (.string u)) =
      (applyOp (P := P) .add (.string t) (.string u) >>= fun v => applyOp .add (.string s) v) := by
  show Res.ok (Val.string ((s ++ t) ++ u)) = Res.ok (Val.string (s ++ (t ++ u)))
  rw [List.append_assoc]

/-- Refuted: a `Guid` or `DateTime` can stand on the right of a `+` with a text but not on the left. -/
theorem C73_join_false (s : Str) (g : Guid.Guid) (t : P.Time) :
    applyOp (P := P) .add (.guid g) (.string s) = .err ∧ applyOp (P := P) .add (.dateTime t) (.string s) = .err ∧
    applyOp (P := P) .add (.string s) (.guid g) = .ok (.string (s ++ P.guidStr g)) := ⟨rfl, rfl, rfl⟩

end Verif.Expr
