import Verif.Parse.Literal

/-!
# From syntax trees to expression trees (data/FilterExpressionParser.go L284-304, L385-397, L584-1274)

The walker visits a node after its children. The expression of each node is kept in a map by its context; a context is told here by
the path that leads to it, the last step first. The expression last added is the root of the tree.
-/

namespace Verif.Parse

open Verif.Expr

variable {P : Prim}

/-- The place of a node in the syntax tree. (data/FilterExpressionParser.go L284-304, L592-1278) -/
abbrev Path := List Nat

/-- `expressions` and `activeExpressionTree.Root` (L58-61). -/
structure Walk (P : Prim) where
  exprs : Path → Option (Tree P)
  root : Tree P

/-- `tryGetExpr` (L385-389); the callers panic where it finds nothing. -/
def Walk.get (st : Walk P) (path : Path) : Res (Tree P) :=
  match st.exprs path with
  | some t => .ok t
  | none => .panic

/-- `addExpr` (L391-397). -/
def Walk.add (st : Walk P) (path : Path) (t : Tree P) : Walk P :=
  { exprs := fun q => if q = path then some t else st.exprs q, root := t }

/-- The operators of `ExitExpression` (L666-673). -/
def Log.op : Log → Op
  | .kAnd | .ampAmp => .and
  | .kOr | .barBar => .or

/-- The operators of `ExitPredicateExpression` (L798-818). -/
def Cmp.op : Cmp → Op
  | .lt => .lessThan
  | .le => .lessThanOrEqual
  | .gt => .greaterThan
  | .ge => .greaterThanOrEqual
  | .eq | .eqEq => .equal
  | .eqEqEq => .equalExactMatch
  | .ltGt | .bangEq => .notEqual
  | .bangEqEq => .notEqualExactMatch

/-- `LIKE` with its modifiers (L824-841). -/
def likeOp (neg : Option Bool) (exact : Option Exact) : Op :=
  match exact, neg with
  | none, none => .like
  | none, some _ => .notLike
  | some _, none => .likeExactMatch
  | some _, some _ => .notLikeExactMatch

/-- `IS NULL` and `IS NOT NULL` (L749-757). -/
def nullOp (neg : Option Bool) : Op := if neg = none then .isNull else .isNotNull

/-- The unary operators (L916-934). -/
def Un.unary : Un → Unary
  | .plus => .plus
  | .minus => .minus
  | .tilde | .not _ => .not

/-- The operators of `mathOperator` (L977-991). -/
def Math.op : Math → Op
  | .star => .multiply
  | .slash => .divide
  | .percent => .modulus
  | .plus => .add
  | .minus => .subtract

/-- The operators of `bitwiseOperator` (L1003-1024). -/
def Bit.op : Bit → Op
  | .shl => .bitShiftLeft
  | .shr => .bitShiftRight
  | .amp => .bitwiseAnd
  | .bar => .bitwiseOr
  | .caret | .kXor => .bitwiseXor

/-- The expressions of the list at a path, from the given position on: the loops of L735-743 and L1260-1268. -/
def Walk.args (st : Walk P) (path : Path) : Nat → L → Res (List (Tree P))
  | i, .one _ => do .ok [← st.get (i :: path)]
  | i, .cons _ l => do
    let t ← st.get (i :: path)
    let ts ← st.args path (i + 1) l
    .ok (t :: ts)

/-- `ExitExpression` (L610-681). -/
def exitExpression (st : Walk P) (path : Path) : E → Res (Walk P)
  | .pred _ => do .ok (st.add path (← st.get (0 :: path)))
  | .not _ _ => do .ok (st.add path (.unary .not (← st.get (0 :: path))))
  | .log o _ _ => do
    let l ← st.get (0 :: path)
    let r ← st.get (1 :: path)
    .ok (st.add path (.op o.op l r))

/-- `ExitPredicateExpression` (L694-847). -/
def exitPredicate (st : Walk P) (path : Path) : Q → Res (Walk P)
  | .value _ => do .ok (st.add path (← st.get (0 :: path)))
  | .isIn _ neg exact list => do
    let v ← st.get (0 :: path)
    let args ← st.args (1 :: path) 0 list
    .ok (st.add path (.inList v args neg.isSome exact.isSome))
  | .isNull _ neg => do .ok (st.add path (.op (nullOp neg) (← st.get (0 :: path)) .nil))
  | .cmp o _ _ => do
    let l ← st.get (0 :: path)
    let r ← st.get (1 :: path)
    .ok (st.add path (.op o.op l r))
  | .like neg exact _ _ => do
    let l ← st.get (0 :: path)
    let r ← st.get (1 :: path)
    .ok (st.add path (.op (likeOp neg exact) l r))

/-- `ExitValueExpression` (L863-1031). -/
def exitValue (st : Walk P) (path : Path) : V → Res (Walk P)
  | .lit _ | .column _ | .call0 _ | .call _ _ | .paren _ => do .ok (st.add path (← st.get (0 :: path)))
  | .unary u _ => do .ok (st.add path (.unary u.unary (← st.get (0 :: path))))
  | .math o _ _ => do
    let l ← st.get (0 :: path)
    let r ← st.get (1 :: path)
    .ok (st.add path (.op o.op l r))
  | .bit o _ _ => do
    let l ← st.get (0 :: path)
    let r ← st.get (1 :: path)
    .ok (st.add path (.op o.op l r))

mutual

/-- The walk through an expression. `col` is the column `ExitColumnName` (L1125-1150) finds for a name. -/
def walkE (col : Str → Res Nat) (path : Path) : E → Walk P → Res (Walk P)
  | .not b e, st => do
    let st ← walkE col (0 :: path) e st
    exitExpression st path (.not b e)
  | .log o l r, st => do
    let st ← walkE col (0 :: path) l st
    let st ← walkE col (1 :: path) r st
    exitExpression st path (.log o l r)
  | .pred q, st => do
    let st ← walkQ col (0 :: path) q st
    exitExpression st path (.pred q)

/-- The walk through a predicate. (data/FilterExpressionParser.go L284-304, L592-1278) -/
def walkQ (col : Str → Res Nat) (path : Path) : Q → Walk P → Res (Walk P)
  | .isIn q neg exact list, st => do
    let st ← walkQ col (0 :: path) q st
    let st ← walkL col (1 :: path) 0 list st
    exitPredicate st path (.isIn q neg exact list)
  | .isNull q neg, st => do
    let st ← walkQ col (0 :: path) q st
    exitPredicate st path (.isNull q neg)
  | .cmp o l r, st => do
    let st ← walkQ col (0 :: path) l st
    let st ← walkQ col (1 :: path) r st
    exitPredicate st path (.cmp o l r)
  | .like neg exact l r, st => do
    let st ← walkQ col (0 :: path) l st
    let st ← walkQ col (1 :: path) r st
    exitPredicate st path (.like neg exact l r)
  | .value v, st => do
    let st ← walkV col (0 :: path) v st
    exitPredicate st path (.value v)

/-- The walk through a value, with `ExitLiteralValue`, `ExitColumnName` (L1125-1150) and `ExitFunctionExpression` (L1160-1274), whose context is
below that of the value. -/
def walkV (col : Str → Res Nat) (path : Path) : V → Walk P → Res (Walk P)
  | .lit l, st => do
    let v ← literal l
    exitValue (st.add (0 :: path) (.value v)) path (.lit l)
  | .column name, st => do
    let c ← col name
    exitValue (st.add (0 :: path) (.column c)) path (.column name)
  | .call0 f, st => exitValue (st.add (0 :: path) (.func f [])) path (.call0 f)
  | .call f args, st => do
    let st ← walkL col (0 :: 0 :: path) 0 args st
    let ts ← st.args (0 :: 0 :: path) 0 args
    exitValue (st.add (0 :: path) (.func f ts)) path (.call f args)
  | .unary u v, st => do
    let st ← walkV col (0 :: path) v st
    exitValue st path (.unary u v)
  | .paren e, st => do
    let st ← walkE col (0 :: path) e st
    exitValue st path (.paren e)
  | .math o l r, st => do
    let st ← walkV col (0 :: path) l st
    let st ← walkV col (1 :: path) r st
    exitValue st path (.math o l r)
  | .bit o l r, st => do
    let st ← walkV col (0 :: path) l st
    let st ← walkV col (1 :: path) r st
    exitValue st path (.bit o l r)

/-- The walk through a list, from the given position on. (data/FilterExpressionParser.go L284-304, L592-1278) -/
def walkL (col : Str → Res Nat) (path : Path) (i : Nat) : L → Walk P → Res (Walk P)
  | .one e, st => walkE col (i :: path) e st
  | .cons e l, st => do
    let st ← walkE col (i :: path) e st
    walkL col path (i + 1) l st

end

/-- `visitParseTreeNodes` (L284-304) for one expression: the panics of the listener become an error, else the tree has its root. -/
def build (col : Str → Res Nat) (e : E) : Res (Tree P) :=
  match walkE col [] e { exprs := fun _ => none, root := .nil } with
  | .ok st => .ok st.root
  | _ => .err

end Verif.Parse
