import Verif.Table.Text
import Verif.Parse.Stopped

/-!
# The results after a walk that fails (data/FilterExpressionParser.go L202-304, L329-383, L408-581)

The walk of `Text`, the results being kept where it ends: `.error st` is a panic of the listener with the results `st`, which `visitParseTreeNodes` recovers.
-/

set_option linter.dupNamespace false

namespace Verif.Table

open Verif.Expr Verif.Parse

variable {P : Prim}

/-- The ordering terms read before the first whose column does not exist, and whether there is none such (L460-478). -/
def orderByOr (t : Table P) : List OrderingTerm → List OrderBy × Bool
  | [] => ([], true)
  | o :: os =>
    match t.columnByName o.column with
    | none => ([], false)
    | some c => ({ column := c.index, ascending := !o.desc, exactMatch := !o.exactMatchModifier } :: (orderByOr t os).1, (orderByOr t os).2)

/-- `TopLimit` of a filter statement (L451-459), -1 as `NewExpressionTree` makes it (ExpressionTree.go L63-68). -/
def topLimit : Option (Option Int) → Int
  | some (some n) => n
  | _ => -1

namespace Parser

/-- `addMatchedRow` (L329-357): a row is added before its signal ID is read. -/
def addMatchedRowOr (p : Parser P) (t : Table P) (depth : Nat) (st : Found P) (r : Row P) (signalIDColumn : Int) : Except (Found P) (Found P) := do
  let st ← orStop st (p.addRow st r)
  if p.trackIDs then
    match ← orStop st (guidValue t depth r signalIDColumn) with
    | some g => orStop st (p.addID st g)
    | none => return st
  else return st

/-- `mapMatchedFieldRow` (L359-383). -/
def mapMatchedFieldRowOr (p : Parser P) (t : Table P) (depth : Nat) (st : Found P) (columnName matchValue : Str) (signalIDColumn : Int) :
    Except (Found P) (Found P) :=
  match t.columnByName columnName with
  | none => .ok st
  | some c => do
    let matchValue := P.upper matchValue
    match ← orStop st (findRow (fun r => do return (← stringValue t depth r c.index).map P.upper == some matchValue) t.rows) with
    | some r => p.addMatchedRowOr t depth st r signalIDColumn
    | none => return st

/-- `ExitIdentifierStatement` (L491-581): a signal ID is added before its row is looked for. -/
def exitIdentifierOr (p : Parser P) (depth : Nat) (st : Found P) (s : Statement P) : Except (Found P) (Found P) := do
  let signalID := match s with
    | .guid g => g
    | _ => Guid.empty
  let st ← match s with
    | .guid g => orStop st (p.addID st g)
    | _ => pure st
  match s, p.trackRows with
  | .guid _, false => return st
  | _, _ =>
    match p.tables p.primary, p.idFields p.primary with
    | some (_, t), some fields =>
      match t.columnByName fields.signalID with
      | none => return st
      | some signalIDColumn =>
        if p.trackRows ∧ ¬ Guid.isZero signalID then
          match ← orStop st (findRow (fun r => do return (← guidValue t depth r signalIDColumn.index) == some signalID) t.rows) with
          | some r => orStop st (p.addRow st r)
          | none => return st
        else
          match s with
          | .measurementKey text => p.mapMatchedFieldRowOr t depth st fields.measurementKey text signalIDColumn.index
          | .pointTag text => p.mapMatchedFieldRowOr t depth st fields.pointTag text signalIDColumn.index
          | _ => return st
    | _, _ => return st

/-- A tree put behind those there are (L446-448, L597-600), with the root it has after the walk or the panic. -/
def plant (st : Found P) (table : Str) (f : Tree P → Filter P) : Except (Tree P) (Tree P) → Except (Found P) (Found P)
  | .ok root => .ok { st with trees := st.trees ++ [(table, f root)] }
  | .error root => .error { st with trees := st.trees ++ [(table, f root)] }

/-- `EnterFilterStatement` (L437-479) and the walk over the expression: the tree is added once the table is found, then the ordering terms are read, then
the expression. -/
def filterOr (p : Parser P) (st : Found P) (top : Option Top) (table : Str) (e : E) (terms : List Term) : Except (Found P) (Found P) :=
  match p.tables table with
  | none => .error st
  | some (_, t) =>
    plant st table (fun root => { root := root, topLimit := topLimit (top.map fun t => atoi (topText t)), orderBy := (orderByOr t (terms.map orderingTerm)).1 })
      (if (orderByOr t (terms.map orderingTerm)).2 then buildOr (p.columnNamed table) e else .error .nil)

/-- The walk over one statement: `EnterFilterExpressionStatement` (L408-420) and what follows. A GUID is read first (L494-506). -/
def listenOr (p : Parser P) (depth : Nat) (st : Found P) (s : S) : Except (Found P) (Found P) :=
  let st := p.enterStatement st
  match s with
  | .guid text => do
    let g ← orStop st (guidLiteral (P := P) text)
    if !p.trackRows ∧ !p.trackIDs then plant st [] (fun root => { root := root }) (.ok (.value (.guid g)))
    else p.exitIdentifierOr depth st (.guid g)
  | .measurementKey text => p.exitIdentifierOr depth st (.measurementKey text)
  | .pointTag text => do
    let tag ← orStop st (unquote (ch '"') text)
    p.exitIdentifierOr depth st (.pointTag tag)
  | .filter top table e terms => p.filterOr st top table e terms
  | .expr e => plant st [] (fun root => { root := root }) (buildOr (p.columnNamed []) e)

/-- `visitParseTreeNodes` (L284-304): the results when the walk ends. -/
def listenAllOr (p : Parser P) (depth : Nat) (st : Found P) : List S → Except (Found P) (Found P)
  | [] => .ok st
  | s :: ss => do
    let st ← p.listenOr depth st s
    p.listenAllOr depth st ss

/-- The results after the loop of `Evaluate` (L225-279), which an error ends: an error comes before any row of its tree is added. -/
def evaluated (p : Parser P) (sort : Sorter P) (depth : Nat) (applyLimit applySort : Bool) (st : Found P) : List (Str × Filter P) → Found P
  | [] => st
  | tree :: trees =>
    match p.evaluateTree sort depth applyLimit applySort st tree with
    | .ok st => p.evaluated sort depth applyLimit applySort st trees
    | _ => st

theorem addMatchedRowOr_same (p : Parser P) (t : Table P) (depth : Nat) (st : Found P) (r : Row P) (c : Int) :
    (p.addMatchedRowOr t depth st r c).toOption = okOf (p.addMatchedRow t depth st r c) := by
  unfold addMatchedRowOr addMatchedRow
  rw [toOption_bind, okOf_bind, orStop_toOption]
  congr 1
  funext st
  split
  · rw [toOption_bind, okOf_bind, orStop_toOption]
    congr 1
    funext g
    cases g
    · rfl
    · exact orStop_toOption _ _
  · rfl

theorem mapMatchedFieldRowOr_same (p : Parser P) (t : Table P) (depth : Nat) (st : Found P) (n v : Str) (c : Int) :
    (p.mapMatchedFieldRowOr t depth st n v c).toOption = okOf (p.mapMatchedFieldRow t depth st n v c) := by
  unfold mapMatchedFieldRowOr mapMatchedFieldRow
  cases t.columnByName n with
  | none => rfl
  | some col =>
    dsimp only
    rw [toOption_bind, okOf_bind, orStop_toOption]
    congr 1
    funext r
    cases r
    · rfl
    · exact addMatchedRowOr_same ..

theorem exitIdentifierOr_same (p : Parser P) (depth : Nat) (st : Found P) (s : Statement P) :
    (p.exitIdentifierOr depth st s).toOption = okOf (p.exitIdentifier depth st s) := by
  have hz : Guid.isZero Guid.empty = true := by decide
  unfold exitIdentifierOr exitIdentifier
  dsimp only
  cases s with
  | guid g =>
    dsimp only
    rw [toOption_bind, okOf_bind, orStop_toOption]
    congr 1
    funext st
    cases htr : p.trackRows with
    | false => rfl
    | true =>
      dsimp only
      cases p.tables p.primary with
      | none => rfl
      | some v =>
        cases p.idFields p.primary with
        | none => rfl
        | some fields =>
          dsimp only
          cases v.2.columnByName fields.signalID with
          | none => rfl
          | some c =>
            dsimp only
            split
            · rw [toOption_bind, okOf_bind, orStop_toOption]
              congr 1
              funext r
              cases r
              · rfl
              · exact orStop_toOption _ _
            · rfl
  | measurementKey text =>
    dsimp only
    simp only [hz, not_true, and_false, if_false]
    cases p.tables p.primary with
    | none => rfl
    | some v =>
      cases p.idFields p.primary with
      | none => rfl
      | some fields =>
        dsimp only
        cases v.2.columnByName fields.signalID with
        | none => rfl
        | some c => exact mapMatchedFieldRowOr_same ..
  | pointTag text =>
    dsimp only
    simp only [hz, not_true, and_false, if_false]
    cases p.tables p.primary with
    | none => rfl
    | some v =>
      cases p.idFields p.primary with
      | none => rfl
      | some fields =>
        dsimp only
        cases v.2.columnByName fields.signalID with
        | none => rfl
        | some c => exact mapMatchedFieldRowOr_same ..
  | filter table top terms root =>
    dsimp only
    simp only [hz, not_true, and_false, if_false]
    cases p.tables p.primary with
    | none => rfl
    | some v =>
      cases p.idFields p.primary with
      | none => rfl
      | some fields =>
        dsimp only
        cases v.2.columnByName fields.signalID <;> rfl
  | expression root =>
    dsimp only
    simp only [hz, not_true, and_false, if_false]
    cases p.tables p.primary with
    | none => rfl
    | some v =>
      cases p.idFields p.primary with
      | none => rfl
      | some fields =>
        dsimp only
        cases v.2.columnByName fields.signalID <;> rfl

theorem orderByOr_same (t : Table P) (terms : List OrderingTerm) :
    okOf (orderBy t terms) = if (orderByOr t terms).2 then some (orderByOr t terms).1 else none := by
  induction terms with
  | nil => rfl
  | cons o os ih =>
    simp only [orderBy, orderByOr]
    rcases Option.eq_none_or_eq_some (t.columnByName o.column) with hc | ⟨c, hc⟩
    · simp only [hc]; rfl
    · simp only [hc]
      rw [okOf_bind, ih]
      cases (orderByOr t os).2 <;> rfl

theorem filterOr_same (p : Parser P) (depth : Nat) (st : Found P) (top : Option Top) (table : Str) (e : E) (terms : List Term) :
    (p.filterOr (p.enterStatement st) top table e terms).toOption = okOf (p.listen depth st (.filter top table e terms)) := by
  unfold filterOr listen statementOf
  cases ht : p.tables table with
  | none => dsimp only; rw [ht]; rfl
  | some v =>
    have ho := orderByOr_same v.2 (terms.map orderingTerm)
    have hb := buildOr_same (P := P) (p.columnNamed table) e
    dsimp only
    rw [ht]
    dsimp only
    rw [okOf_bind, okOf_bind, ← hb]
    cases hord : (orderByOr v.2 (terms.map orderingTerm)).2 with
    | false =>
      rw [hord] at ho
      cases buildOr (P := P) (p.columnNamed table) e with
      | error a => rfl
      | ok a =>
        show none = okOf (p.visit depth st (.filter table _ _ a))
        simp only [visit, enterFilterStatement, ht]
        cases hq : orderBy v.2 (terms.map orderingTerm) with
        | ok x => rw [hq] at ho; cases ho
        | err => rfl
        | panic => rfl
    | true =>
      rw [hord] at ho
      cases buildOr (P := P) (p.columnNamed table) e with
      | error a => rfl
      | ok a =>
        show _ = okOf (p.visit depth st (.filter table _ _ a))
        simp only [visit, enterFilterStatement, ht]
        cases hq : orderBy v.2 (terms.map orderingTerm) with
        | ok x =>
          rw [hq] at ho
          injection ho with ho
          subst ho
          rcases top with _ | top
          · rfl
          · simp only [Option.map_some]
            cases atoi (topText top) <;> rfl
        | err => rw [hq] at ho; cases ho
        | panic => rw [hq] at ho; cases ho

/-- Keeping the results of a panic changes nothing else. -/
theorem listenOr_same (p : Parser P) (depth : Nat) (st : Found P) (s : S) : (p.listenOr depth st s).toOption = okOf (p.listen depth st s) := by
  cases s with
  | guid text =>
    unfold listenOr listen statementOf
    dsimp only
    rw [toOption_bind, orStop_toOption]
    cases guidLiteral (P := P) text with
    | ok g =>
      show Except.toOption (if _ then _ else _) = okOf (if _ then _ else _)
      split
      · rfl
      · exact exitIdentifierOr_same ..
    | err => rfl
    | panic => rfl
  | measurementKey text => exact exitIdentifierOr_same p depth (p.enterStatement st) (.measurementKey text)
  | pointTag text =>
    unfold listenOr listen statementOf
    dsimp only
    rw [toOption_bind, orStop_toOption]
    cases unquote (ch '"') text with
    | ok g => exact exitIdentifierOr_same p depth (p.enterStatement st) (.pointTag g)
    | err => rfl
    | panic => rfl
  | filter top table e terms => exact filterOr_same ..
  | expr e =>
    unfold listenOr listen statementOf
    dsimp only
    rw [okOf_bind, okOf_bind, ← buildOr_same]
    cases buildOr (P := P) (p.columnNamed []) e <;> rfl

theorem listenAllOr_same (p : Parser P) (depth : Nat) (st : Found P) (ss : List S) :
    p.listenAll depth st ss = match p.listenAllOr depth st ss with
      | .ok st => .ok st
      | .error _ => .err := by
  induction ss generalizing st with
  | nil => rfl
  | cons s ss ih =>
    have h := listenOr_same p depth st s
    simp only [listenAll, listenAllOr]
    cases hl : p.listenOr depth st s with
    | ok st' =>
      rw [hl] at h
      cases hr : p.listen depth st s with
      | ok a => rw [hr] at h; injection h with h; subst h; exact ih st'
      | err => rw [hr] at h; cases h
      | panic => rw [hr] at h; cases h
    | error st' =>
      rw [hl] at h
      cases hr : p.listen depth st s with
      | ok a => rw [hr] at h; cases h
      | err => rfl
      | panic => rfl

/-- Where every tree is evaluated, the results are those reported. -/
theorem evaluated_ok {p : Parser P} {sort : Sorter P} {depth : Nat} {al as : Bool} {trees : List (Str × Filter P)} {st st' : Found P}
    (h : p.evaluateTrees sort depth al as st trees = .ok st') : p.evaluated sort depth al as st trees = st' := by
  induction trees generalizing st with
  | nil => injection h
  | cons t ts ih =>
    simp only [evaluateTrees] at h
    simp only [evaluated]
    cases hr : p.evaluateTree sort depth al as st t with
    | ok a => rw [hr] at h; exact ih h
    | err => rw [hr] at h; cases h
    | panic => rw [hr] at h; cases h

end Parser

end Verif.Table
