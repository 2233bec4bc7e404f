import Verif.Expr.Func

/-!
# Evaluation of expression trees (data/ExpressionTree.go L160-396, L1277-1296)
-/

namespace Verif.Expr

variable {P : Prim}

/-- `Expression` (Expression.go L28-36) and the types implementing it. `nil` is a nil interface, as for the right operand of `IS
NULL`; a column is named by its number. -/
inductive Tree (P : Prim) where
  | nil
  | value (v : Val P)
  | unary (u : Unary) (e : Tree P)
  | column (c : Nat)
  | inList (e : Tree P) (args : List (Tree P)) (not exactMatch : Bool)
  | func (f : Fn) (args : List (Tree P))
  | op (o : Op) (l r : Tree P)

/-- The loop of `evaluateInList` (L368-388), the arguments given by what evaluating them yields. -/
def inListLoop (v : Val P) (not exactMatch : Bool) : List (Arg P) → Res (Val P)
  | [] => .ok (.boolean not)
  | a :: as => do
    let arg ← a .boolean
    let t ← deriveComparison v.type arg.type
    let result ← equalOp v arg t exactMatch
    if ← result.booleanValue then return .boolean (!not)
    inListLoop v not exactMatch as

/-- `evaluateInList` (L347-395), the list tested by what evaluating it yields. -/
def applyInList (v : Val P) (args : List (Arg P)) (not exactMatch : Bool) : Res (Val P) :=
  if v.isNull then .ok (.null v.type) else inListLoop v not exactMatch args

mutual

/-- `evaluateAs` (L175-203) with `evaluateUnary` (L205-244), `evaluateInList`, `evaluateFunction` and `evaluateOperator`
(L1277-1296). `col` is what `evaluateColumn` yields for the current row. -/
def evalAs (col : Nat → Res (Val P)) : Tree P → VT → Res (Val P)
  | .nil, t => .ok (.null t)
  | .value v, t => .ok (if v.type = .undefined then .null t else v)
  | .unary u e, _ => do unaryOp u (← evalAs col e .boolean)
  | .column c, _ => col c
  | .inList e args not exactMatch, _ => do applyInList (← evalAs col e .boolean) (evalArgs col args) not exactMatch
  | .func f args, _ => applyFn f (evalArgs col args)
  | .op o l r, _ => do
    let l ← evalAs col l .boolean
    let r ← evalAs col r .boolean
    applyOp o l r

/-- The arguments of a call or list, each as what evaluating it yields. (data/ExpressionTree.go L347-480) -/
def evalArgs (col : Nat → Res (Val P)) : List (Tree P) → List (Arg P)
  | [] => []
  | e :: es => (fun t => evalAs col e t) :: evalArgs col es

end

/-- `evaluate` (L171-173); `Evaluate` (L166-169) sets the current row first. -/
def eval (col : Nat → Res (Val P)) (e : Tree P) : Res (Val P) := evalAs col e .boolean

theorem evalArgs_eq (col : Nat → Res (Val P)) (es : List (Tree P)) : evalArgs col es = es.map fun e t => evalAs col e t := by
  induction es with
  | nil => simp [evalArgs]
  | cons e es ih => simp [evalArgs, ih]

end Verif.Expr
