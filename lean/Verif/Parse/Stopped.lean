import Verif.Parse.Listener

/-!
# What a walk that panics leaves (data/FilterExpressionParser.go L284-304, L385-397, L584-1274)

`visitParseTreeNodes` recovers a panic of the listener; the expressions added up to then stay, and the one added last is the root of the active expression tree.
The walk is that of `Listener`, the state being kept where it ends: `.error st` is a panic with the walk at `st`.
-/

namespace Verif.Parse

open Verif.Expr

variable {P : Prim}

/-- A panic with the state of the listener (data/FilterExpressionParser.go L284-304). -/
def orStop {σ α : Type} (st : σ) : Res α → Except σ α
  | .ok a => .ok a
  | _ => .error st

mutual

/-- `walkE` with what is left after a panic. (data/FilterExpressionParser.go L284-304, L610-681) -/
def stopE (col : Str → Res Nat) (path : Path) : E → Walk P → Except (Walk P) (Walk P)
  | .not b e, st => do
    let st ← stopE col (0 :: path) e st
    orStop st (exitExpression st path (.not b e))
  | .log o l r, st => do
    let st ← stopE col (0 :: path) l st
    let st ← stopE col (1 :: path) r st
    orStop st (exitExpression st path (.log o l r))
  | .pred q, st => do
    let st ← stopQ col (0 :: path) q st
    orStop st (exitExpression st path (.pred q))

/-- `walkQ` with what is left after a panic. (data/FilterExpressionParser.go L284-304, L694-847) -/
def stopQ (col : Str → Res Nat) (path : Path) : Q → Walk P → Except (Walk P) (Walk P)
  | .isIn q neg exact list, st => do
    let st ← stopQ col (0 :: path) q st
    let st ← stopL col (1 :: path) 0 list st
    orStop st (exitPredicate st path (.isIn q neg exact list))
  | .isNull q neg, st => do
    let st ← stopQ col (0 :: path) q st
    orStop st (exitPredicate st path (.isNull q neg))
  | .cmp o l r, st => do
    let st ← stopQ col (0 :: path) l st
    let st ← stopQ col (1 :: path) r st
    orStop st (exitPredicate st path (.cmp o l r))
  | .like neg exact l r, st => do
    let st ← stopQ col (0 :: path) l st
    let st ← stopQ col (1 :: path) r st
    orStop st (exitPredicate st path (.like neg exact l r))
  | .value v, st => do
    let st ← stopV col (0 :: path) v st
    orStop st (exitPredicate st path (.value v))

/-- `walkV` with what is left after a panic: that of a literal or a column name comes before anything is added for it.
(data/FilterExpressionParser.go L284-304, L863-1274) -/
def stopV (col : Str → Res Nat) (path : Path) : V → Walk P → Except (Walk P) (Walk P)
  | .lit l, st => do
    let v ← orStop st (literal l)
    let st := st.add (0 :: path) (.value v)
    orStop st (exitValue st path (.lit l))
  | .column name, st => do
    let c ← orStop st (col name)
    let st := st.add (0 :: path) (.column c)
    orStop st (exitValue st path (.column name))
  | .call0 f, st =>
    let st := st.add (0 :: path) (.func f [])
    orStop st (exitValue st path (.call0 f))
  | .call f args, st => do
    let st ← stopL col (0 :: 0 :: path) 0 args st
    let ts ← orStop st (st.args (0 :: 0 :: path) 0 args)
    let st := st.add (0 :: path) (.func f ts)
    orStop st (exitValue st path (.call f args))
  | .unary u v, st => do
    let st ← stopV col (0 :: path) v st
    orStop st (exitValue st path (.unary u v))
  | .paren e, st => do
    let st ← stopE col (0 :: path) e st
    orStop st (exitValue st path (.paren e))
  | .math o l r, st => do
    let st ← stopV col (0 :: path) l st
    let st ← stopV col (1 :: path) r st
    orStop st (exitValue st path (.math o l r))
  | .bit o l r, st => do
    let st ← stopV col (0 :: path) l st
    let st ← stopV col (1 :: path) r st
    orStop st (exitValue st path (.bit o l r))

/-- `walkL` with what is left after a panic. (data/FilterExpressionParser.go L284-304) -/
def stopL (col : Str → Res Nat) (path : Path) (i : Nat) : L → Walk P → Except (Walk P) (Walk P)
  | .one e, st => stopE col (i :: path) e st
  | .cons e l, st => do
    let st ← stopE col (i :: path) e st
    stopL col path (i + 1) l st

end

/-- The root of the active expression tree after the walk over its expression, or after the panic that ends it (L284-304, L391-397). -/
def buildOr (col : Str → Res Nat) (e : E) : Except (Tree P) (Tree P) :=
  match stopE col [] e { exprs := fun _ => none, root := .nil } with
  | .ok st => .ok st.root
  | .error st => .error st.root

/-- What there is without a panic. -/
def okOf {α : Type} : Res α → Option α
  | .ok a => some a
  | _ => none

theorem okOf_bind {α β : Type} (x : Res α) (f : α → Res β) : okOf (x >>= f) = (okOf x).bind fun a => okOf (f a) := by
  cases x <;> rfl

theorem toOption_bind {σ α β : Type} (x : Except σ α) (f : α → Except σ β) : (x >>= f).toOption = x.toOption.bind fun a => (f a).toOption := by
  cases x <;> rfl

theorem orStop_toOption {σ α : Type} (st : σ) (r : Res α) : (orStop st r).toOption = okOf r := by
  cases r <;> rfl

mutual

theorem stopE_same (col : Str → Res Nat) (path : Path) : ∀ (e : E) (st : Walk P), (stopE col path e st).toOption = okOf (walkE col path e st)
  | .not b e, st => by
    simp only [stopE, walkE, toOption_bind, okOf_bind, orStop_toOption, stopE_same]
  | .log o l r, st => by
    simp only [stopE, walkE, toOption_bind, okOf_bind, orStop_toOption, stopE_same]
  | .pred q, st => by
    simp only [stopE, walkE, toOption_bind, okOf_bind, orStop_toOption, stopQ_same]

theorem stopQ_same (col : Str → Res Nat) (path : Path) : ∀ (e : Q) (st : Walk P), (stopQ col path e st).toOption = okOf (walkQ col path e st)
  | .isIn q neg exact list, st => by
    simp only [stopQ, walkQ, toOption_bind, okOf_bind, orStop_toOption, stopQ_same, stopL_same]
  | .isNull q neg, st => by
    simp only [stopQ, walkQ, toOption_bind, okOf_bind, orStop_toOption, stopQ_same]
  | .cmp o l r, st => by
    simp only [stopQ, walkQ, toOption_bind, okOf_bind, orStop_toOption, stopQ_same]
  | .like neg exact l r, st => by
    simp only [stopQ, walkQ, toOption_bind, okOf_bind, orStop_toOption, stopQ_same]
  | .value v, st => by
    simp only [stopQ, walkQ, toOption_bind, okOf_bind, orStop_toOption, stopV_same]

theorem stopV_same (col : Str → Res Nat) (path : Path) : ∀ (e : V) (st : Walk P), (stopV col path e st).toOption = okOf (walkV col path e st)
  | .lit l, st => by
    simp only [stopV, walkV, toOption_bind, okOf_bind, orStop_toOption]
  | .column name, st => by
    simp only [stopV, walkV, toOption_bind, okOf_bind, orStop_toOption]
  | .call0 f, st => by
    simp only [stopV, walkV, orStop_toOption]
  | .call f args, st => by
    simp only [stopV, walkV, toOption_bind, okOf_bind, orStop_toOption, stopL_same]
  | .unary u v, st => by
    simp only [stopV, walkV, toOption_bind, okOf_bind, orStop_toOption, stopV_same]
  | .paren e, st => by
    simp only [stopV, walkV, toOption_bind, okOf_bind, orStop_toOption, stopE_same]
  | .math o l r, st => by
    simp only [stopV, walkV, toOption_bind, okOf_bind, orStop_toOption, stopV_same]
  | .bit o l r, st => by
    simp only [stopV, walkV, toOption_bind, okOf_bind, orStop_toOption, stopV_same]

theorem stopL_same (col : Str → Res Nat) (path : Path) : ∀ (i : Nat) (e : L) (st : Walk P), (stopL col path i e st).toOption = okOf (walkL col path i e st)
  | i, .one e, st => by
    simp only [stopL, walkL, stopE_same]
  | i, .cons e l, st => by
    simp only [stopL, walkL, toOption_bind, okOf_bind, stopE_same, stopL_same]

end

/-- Keeping the state of a panic changes nothing else. -/
theorem buildOr_same (col : Str → Res Nat) (e : E) : (buildOr (P := P) col e).toOption = okOf (build col e) := by
  have h := stopE_same (P := P) col [] e { exprs := fun _ => none, root := .nil }
  unfold buildOr build
  cases hs : stopE (P := P) col [] e { exprs := fun _ => none, root := .nil } <;>
    cases hw : walkE (P := P) col [] e { exprs := fun _ => none, root := .nil } <;> rw [hs, hw] at h <;> first | rfl | (injection h with h; subst h; rfl) | cases h

end Verif.Parse
