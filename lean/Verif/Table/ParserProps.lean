import Verif.Table.Parser
import Verif.Table.SelectProps

/-!
# C54: filter expressions of several statements
-/

set_option linter.dupNamespace false

namespace Verif.Table.Parser

open Verif.Expr

variable {P : Prim}

/-! ### What each statement adds -/

/-- Something found. -/
inductive Item (P : Prim) where
  | row (r : Row P)
  | id (g : Guid.Guid)

/-- Adding what was found. -/
def apply (p : Parser P) (st : Found P) : List (Item P) → Res (Found P)
  | [] => .ok st
  | .row r :: is => p.addRow st r >>= fun st => p.apply st is
  | .id g :: is => p.addID st g >>= fun st => p.apply st is

theorem apply_append (p : Parser P) (st : Found P) (a b : List (Item P)) : p.apply st (a ++ b) = p.apply st a >>= fun st => p.apply st b := by
  induction a generalizing st with
  | nil => rfl
  | cons x a ih =>
    cases x with
    | row r =>
      show (p.addRow st r >>= fun st => p.apply st (a ++ b)) = (p.addRow st r >>= fun st => p.apply st a) >>= _
      cases p.addRow st r with
      | ok st => exact ih st
      | err => rfl
      | panic => rfl
    | id g =>
      show (p.addID st g >>= fun st => p.apply st (a ++ b)) = (p.addID st g >>= fun st => p.apply st a) >>= _
      cases p.addID st g with
      | ok st => exact ih st
      | err => rfl
      | panic => rfl

/-- The items of a matched row. -/
def rowItems (p : Parser P) (t : Table P) (depth : Nat) (r : Row P) (c : Int) : Res (List (Item P)) :=
  if p.trackIDs then do
    match ← guidValue t depth r c with
    | some g => return [.row r, .id g]
    | none => return [.row r]
  else return [.row r]

theorem addMatchedRow_eq {p : Parser P} {t : Table P} {depth : Nat} {r : Row P} {c : Int} {items : List (Item P)}
    (h : p.rowItems t depth r c = .ok items) (st : Found P) : p.addMatchedRow t depth st r c = p.apply st items := by
  unfold rowItems at h
  unfold addMatchedRow
  cases ht : p.trackIDs with
  | false =>
    simp only [ht] at h
    injection h with h
    subst h
    simp only [Bool.false_eq_true, if_false, apply]
    rfl
  | true =>
    simp only [ht, if_true] at h ⊢
    obtain ⟨g, hg, h⟩ := Res.bind_eq_ok.mp h
    rw [hg]
    cases g with
    | none =>
      injection h with h; subst h
      simp only [apply, Res.bind_ok]
      rfl
    | some g =>
      injection h with h; subst h
      simp only [apply, Res.bind_ok]
      cases p.addRow st r with
      | ok st => simp only [Res.bind_ok]; cases p.addID st g <;> rfl
      | err => rfl
      | panic => rfl

theorem addMatchedRow_ok {p : Parser P} {t : Table P} {depth : Nat} {r : Row P} {c : Int} {st st' : Found P}
    (h : p.addMatchedRow t depth st r c = .ok st') : ∃ items, p.rowItems t depth r c = .ok items := by
  unfold addMatchedRow at h
  unfold rowItems
  obtain ⟨st1, -, h⟩ := Res.bind_eq_ok.mp h
  cases ht : p.trackIDs with
  | false => exact ⟨_, rfl⟩
  | true =>
    simp only [ht, if_true] at h ⊢
    obtain ⟨g, hg, h⟩ := Res.bind_eq_ok.mp h
    rw [hg]
    cases g <;> exact ⟨_, rfl⟩

/-- The items of a look-up by key or tag. -/
def fieldItems (p : Parser P) (t : Table P) (depth : Nat) (columnName matchValue : Str) (c : Int) : Res (List (Item P)) :=
  match t.columnByName columnName with
  | none => .ok []
  | some col => do
    match ← findRow (fun r => do return (← stringValue t depth r col.index).map P.upper == some (P.upper matchValue)) t.rows with
    | some r => p.rowItems t depth r c
    | none => return []

theorem fieldItems_eq {p : Parser P} {t : Table P} {depth : Nat} {n v : Str} {c : Int} {items : List (Item P)}
    (h : p.fieldItems t depth n v c = .ok items) (st : Found P) : p.mapMatchedFieldRow t depth st n v c = p.apply st items := by
  unfold fieldItems at h
  unfold mapMatchedFieldRow
  split at h
  · rename_i hc
    injection h with h; subst h
    simp only [hc]
    rfl
  · rename_i col hc
    simp only [hc]
    obtain ⟨r, hr, h⟩ := Res.bind_eq_ok.mp h
    rw [hr]
    simp only [Res.bind_ok]
    cases r with
    | none => injection h with h; subst h; rfl
    | some r => exact addMatchedRow_eq h st

theorem fieldItems_ok {p : Parser P} {t : Table P} {depth : Nat} {n v : Str} {c : Int} {st st' : Found P}
    (h : p.mapMatchedFieldRow t depth st n v c = .ok st') : ∃ items, p.fieldItems t depth n v c = .ok items := by
  unfold mapMatchedFieldRow at h
  unfold fieldItems
  split at h
  · rename_i hc
    simp only [hc]
    exact ⟨_, rfl⟩
  · rename_i col hc
    simp only [hc]
    obtain ⟨r, hr, h⟩ := Res.bind_eq_ok.mp h
    rw [hr]
    simp only [Res.bind_ok]
    cases r with
    | none => exact ⟨_, rfl⟩
    | some r => exact addMatchedRow_ok h

/-- The items of the row with a signal ID. -/
def guidItems (p : Parser P) (depth : Nat) (g : Guid.Guid) : Res (List (Item P)) :=
  if p.trackRows ∧ ¬ Guid.isZero g then
    match p.tables p.primary, p.idFields p.primary with
    | some (_, t), some fields =>
      match t.columnByName fields.signalID with
      | none => .ok []
      | some c => do
        match ← findRow (fun r => do return (← guidValue t depth r c.index) == some g) t.rows with
        | some r => return [.row r]
        | none => return []
    | _, _ => .ok []
  else .ok []

/-- The items of the first row with a key or tag. -/
def keyItems (p : Parser P) (depth : Nat) (field : IDFields → Str) (text : Str) : Res (List (Item P)) :=
  match p.tables p.primary, p.idFields p.primary with
  | some (_, t), some fields =>
    match t.columnByName fields.signalID with
    | none => .ok []
    | some c => p.fieldItems t depth (field fields) text c.index
  | _, _ => .ok []

/-- The items of an identifier statement. -/
def identItems (p : Parser P) (depth : Nat) : Statement P → Res (List (Item P))
  | .guid g => do return .id g :: (← p.guidItems depth g)
  | .measurementKey text => p.keyItems depth IDFields.measurementKey text
  | .pointTag text => p.keyItems depth IDFields.pointTag text
  | _ => .ok []

theorem empty_isZero : Guid.isZero Guid.empty = true := by simp [Guid.isZero]

/-- `exitIdentifier` for a GUID, written out. -/
theorem exitGuid (p : Parser P) (depth : Nat) (st : Found P) (g : Guid.Guid) :
    p.exitIdentifier depth st (.guid g) = p.addID st g >>= fun st => p.guidItems depth g >>= fun items => p.apply st items := by
  unfold exitIdentifier guidItems
  dsimp only
  cases p.addID st g with
  | err => rfl
  | panic => rfl
  | ok st =>
    simp only [Res.bind_ok]
    cases ht : p.trackRows with
    | false => simp [apply]
    | true =>
      dsimp only
      cases hz : Guid.isZero g with
      | true =>
        simp only [not_true, and_false, if_false, Res.bind_ok, apply]
        split
        · split <;> rfl
        · rfl
      | false =>
        simp only [Bool.false_eq_true, not_false_eq_true, and_true, if_true]
        cases p.tables p.primary with
        | none => rfl
        | some nt =>
          cases p.idFields p.primary with
          | none => rfl
          | some fields =>
            dsimp only
            cases nt.2.columnByName fields.signalID with
            | none => rfl
            | some c =>
              dsimp only
              cases findRow (fun r => do return (← guidValue nt.2 depth r c.index) == some g) nt.2.rows with
              | err => rfl
              | panic => rfl
              | ok r =>
                simp only [Res.bind_ok]
                cases r with
                | none => rfl
                | some r =>
                  simp only [Res.pure_eq, Res.bind_ok, apply]
                  cases p.addRow st r <;> rfl

/-- `exitIdentifier` for a key or tag, written out. -/
def exitKey (p : Parser P) (depth : Nat) (st : Found P) (field : IDFields → Str) (text : Str) : Res (Found P) :=
  match p.tables p.primary, p.idFields p.primary with
  | some (_, t), some fields =>
    match t.columnByName fields.signalID with
    | none => .ok st
    | some c => p.mapMatchedFieldRow t depth st (field fields) text c.index
  | _, _ => .ok st

theorem exitMeasurementKey (p : Parser P) (depth : Nat) (st : Found P) (text : Str) :
    p.exitIdentifier depth st (.measurementKey text) = p.exitKey depth st IDFields.measurementKey text := by
  unfold exitIdentifier exitKey
  dsimp only
  simp only [Res.pure_eq, Res.bind_ok, empty_isZero, not_true, and_false, if_false]
  cases p.tables p.primary with
  | none => rfl
  | some nt =>
    cases p.idFields p.primary with
    | none => rfl
    | some fields =>
      dsimp only
      cases nt.2.columnByName fields.signalID <;> rfl

theorem exitPointTag (p : Parser P) (depth : Nat) (st : Found P) (text : Str) :
    p.exitIdentifier depth st (.pointTag text) = p.exitKey depth st IDFields.pointTag text := by
  unfold exitIdentifier exitKey
  dsimp only
  simp only [Res.pure_eq, Res.bind_ok, empty_isZero, not_true, and_false, if_false]
  cases p.tables p.primary with
  | none => rfl
  | some nt =>
    cases p.idFields p.primary with
    | none => rfl
    | some fields =>
      dsimp only
      cases nt.2.columnByName fields.signalID <;> rfl

theorem exitKey_eq {p : Parser P} {depth : Nat} {field : IDFields → Str} {text : Str} {items : List (Item P)}
    (h : p.keyItems depth field text = .ok items) (st : Found P) : p.exitKey depth st field text = p.apply st items := by
  unfold keyItems at h
  unfold exitKey
  cases ht : p.tables p.primary with
  | none => simp only [ht] at h ⊢; injection h with h; subst h; rfl
  | some nt =>
    cases hf : p.idFields p.primary with
    | none => simp only [ht, hf] at h ⊢; injection h with h; subst h; rfl
    | some fields =>
      simp only [ht, hf] at h ⊢
      cases hc : nt.2.columnByName fields.signalID with
      | none => simp only [hc] at h ⊢; injection h with h; subst h; rfl
      | some c =>
        simp only [hc] at h ⊢
        exact fieldItems_eq h st

theorem exitKey_ok {p : Parser P} {depth : Nat} {field : IDFields → Str} {text : Str} {st st' : Found P}
    (h : p.exitKey depth st field text = .ok st') : ∃ items, p.keyItems depth field text = .ok items := by
  unfold exitKey at h
  unfold keyItems
  cases ht : p.tables p.primary with
  | none => exact ⟨_, rfl⟩
  | some nt =>
    cases hf : p.idFields p.primary with
    | none => exact ⟨_, rfl⟩
    | some fields =>
      simp only [ht, hf] at h ⊢
      cases hc : nt.2.columnByName fields.signalID with
      | none => exact ⟨_, rfl⟩
      | some c =>
        simp only [hc] at h ⊢
        exact fieldItems_ok h

theorem exitIdentifier_eq {p : Parser P} {depth : Nat} {s : Statement P} {items : List (Item P)}
    (hs : ∀ a b c d, s ≠ .filter a b c d) (he : ∀ r, s ≠ .expression r) (h : p.identItems depth s = .ok items) (st : Found P) :
    p.exitIdentifier depth st s = p.apply st items := by
  cases s with
  | filter a b c d => exact absurd rfl (hs a b c d)
  | expression r => exact absurd rfl (he r)
  | guid g =>
    rw [exitGuid]
    obtain ⟨l, hl, h⟩ := Res.bind_eq_ok.mp h
    injection h with h; subst h
    rw [hl]
    simp only [apply, Res.bind_ok]
  | measurementKey text => rw [exitMeasurementKey]; exact exitKey_eq h st
  | pointTag text => rw [exitPointTag]; exact exitKey_eq h st

theorem exitIdentifier_ok {p : Parser P} {depth : Nat} {s : Statement P} {st st' : Found P}
    (h : p.exitIdentifier depth st s = .ok st') : ∃ items, p.identItems depth s = .ok items := by
  cases s with
  | filter a b c d => exact ⟨[], rfl⟩
  | expression r => exact ⟨[], rfl⟩
  | guid g =>
    rw [exitGuid] at h
    obtain ⟨st1, -, h⟩ := Res.bind_eq_ok.mp h
    obtain ⟨l, hl, -⟩ := Res.bind_eq_ok.mp h
    exact ⟨.id g :: l, by simp only [identItems, hl]; rfl⟩
  | measurementKey text => rw [exitMeasurementKey] at h; exact exitKey_ok h
  | pointTag text => rw [exitPointTag] at h; exact exitKey_ok h

/-! ### How items are gathered -/

/-- The rows among the items, when rows are tracked. -/
def rowsOf (p : Parser P) (items : List (Item P)) : List (Row P) :=
  if p.trackRows then items.filterMap fun | .row r => some r | .id _ => none else []

/-- The signal IDs among the items that are not zero, when signal IDs are tracked. -/
def idsOf (p : Parser P) (items : List (Item P)) : List Guid.Guid :=
  if p.trackIDs then (items.filterMap fun | .row _ => none | .id g => some g).filter fun g => !Guid.isZero g else []

/-- Adding a row not yet there. -/
def onceRow (rows : List (Row P)) (r : Row P) : List (Row P) := if r.id ∈ rows.map Row.id then rows else rows ++ [r]

/-- Adding a signal ID not yet there. -/
def onceID (ids : List Guid.Guid) (g : Guid.Guid) : List Guid.Guid := if g ∈ ids then ids else ids ++ [g]

theorem rowsOf_append (p : Parser P) (a b : List (Item P)) : p.rowsOf (a ++ b) = p.rowsOf a ++ p.rowsOf b := by
  unfold rowsOf
  split <;> simp

theorem idsOf_append (p : Parser P) (a b : List (Item P)) : p.idsOf (a ++ b) = p.idsOf a ++ p.idsOf b := by
  unfold idsOf
  split <;> simp

theorem mem_rowsOf {p : Parser P} {items : List (Item P)} {k : Nat} :
    k ∈ (p.rowsOf items).map Row.id ↔ p.trackRows = true ∧ ∃ r, Item.row r ∈ items ∧ r.id = k := by
  unfold rowsOf
  cases p.trackRows with
  | false => simp
  | true =>
    simp only [if_true, List.mem_map, List.mem_filterMap, true_and]
    constructor
    · rintro ⟨r, ⟨x, hx, he⟩, hk⟩
      cases x with
      | row r' => injection he with he; subst he; exact ⟨_, hx, hk⟩
      | id g => cases he
    · rintro ⟨r, hx, hk⟩
      exact ⟨r, ⟨_, hx, rfl⟩, hk⟩

theorem mem_idsOf {p : Parser P} {items : List (Item P)} {g : Guid.Guid} :
    g ∈ p.idsOf items ↔ p.trackIDs = true ∧ Guid.isZero g = false ∧ Item.id g ∈ items := by
  unfold idsOf
  cases p.trackIDs with
  | false => simp
  | true =>
    simp only [if_true, List.mem_filter, List.mem_filterMap, true_and]
    constructor
    · rintro ⟨⟨x, hx, he⟩, hk⟩
      cases x with
      | row r' => cases he
      | id g' => injection he with he; subst he; exact ⟨by simpa using hk, hx⟩
    · rintro ⟨hz, hx⟩
      exact ⟨⟨_, hx, rfl⟩, by simpa using hz⟩

theorem rowsOf_row (p : Parser P) (r : Row P) (is : List (Item P)) :
    p.rowsOf (.row r :: is) = (if p.trackRows then [r] else []) ++ p.rowsOf is := by
  unfold rowsOf
  split <;> simp

theorem rowsOf_id (p : Parser P) (g : Guid.Guid) (is : List (Item P)) : p.rowsOf (.id g :: is) = p.rowsOf is := by
  unfold rowsOf
  split <;> simp

theorem idsOf_row (p : Parser P) (r : Row P) (is : List (Item P)) : p.idsOf (.row r :: is) = p.idsOf is := by
  unfold idsOf
  split <;> simp

theorem idsOf_id (p : Parser P) (g : Guid.Guid) (is : List (Item P)) :
    p.idsOf (.id g :: is) = (if p.trackIDs ∧ ¬ Guid.isZero g then [g] else []) ++ p.idsOf is := by
  unfold idsOf
  cases p.trackIDs with
  | false => simp
  | true => cases hz : Guid.isZero g <;> simp [hz]

/-- While there is one statement everything is appended. -/
theorem apply_vector {p : Parser P} {st : Found P} (h : st.count ≤ 1) (items : List (Item P)) :
    p.apply st items = .ok { st with rows := st.rows ++ p.rowsOf items, ids := st.ids ++ p.idsOf items } := by
  induction items generalizing st with
  | nil => simp [apply, rowsOf, idsOf]
  | cons x items ih =>
    cases x with
    | row r =>
      simp only [apply, addRow]
      rw [rowsOf_row, idsOf_row]
      cases p.trackRows with
      | true =>
        rw [if_pos rfl, if_neg (by omega)]
        simp only [Res.pure_eq, Res.bind_ok]
        rw [ih (by simpa using h)]
        simp
      | false =>
        simp only [Bool.false_eq_true, if_false, Res.pure_eq, Res.bind_ok]
        rw [ih h]
        simp
    | id g =>
      simp only [apply, addID]
      rw [rowsOf_id, idsOf_id]
      split
      · rw [if_neg (by omega)]
        simp only [Res.pure_eq, Res.bind_ok]
        rw [ih (by simpa using h)]
        simp
      · simp only [Res.pure_eq, Res.bind_ok]
        rw [ih h]
        simp

/-- The sets hold what the lists hold. -/
def Sets (p : Parser P) (st : Found P) : Prop :=
  (p.trackRows = true → ∃ S, st.rowSet = some S ∧ ∀ k, k ∈ S ↔ k ∈ st.rows.map Row.id) ∧
  (p.trackIDs = true → ∃ S, st.idSet = some S ∧ ∀ g, g ∈ S ↔ g ∈ st.ids)

/-- From the second statement on everything is added once. -/
theorem apply_set {p : Parser P} {st : Found P} (h : 2 ≤ st.count) (hs : Sets p st) (items : List (Item P)) :
    ∃ st', p.apply st items = .ok st' ∧ Sets p st' ∧ st'.count = st.count ∧ st'.trees = st.trees ∧
      st'.rows = (p.rowsOf items).foldl onceRow st.rows ∧ st'.ids = (p.idsOf items).foldl onceID st.ids := by
  induction items generalizing st with
  | nil => exact ⟨st, rfl, hs, rfl, rfl, by simp [rowsOf], by simp [idsOf]⟩
  | cons x items ih =>
    cases x with
    | row r =>
      simp only [apply, addRow]
      rw [rowsOf_row, idsOf_row]
      cases ht : p.trackRows with
      | true =>
        rw [if_pos rfl, if_pos (by omega)]
        obtain ⟨S, hS, hm⟩ := hs.1 ht
        simp only [hS, hashAdd, if_true, List.singleton_append, List.foldl_cons]
        by_cases hr : r.id ∈ S
        · rw [if_pos hr]
          simp only [Res.bind_ok, Res.pure_eq, Bool.false_eq_true, if_false]
          have hr' := (hm _).mp hr
          obtain ⟨st', h1, h2, h3, h4, h5, h6⟩ := ih (st := { st with rowSet := some S }) h ⟨fun _ => ⟨S, rfl, hm⟩, hs.2⟩
          refine ⟨st', h1, h2, h3, h4, ?_, h6⟩
          rw [h5]
          congr 1
          unfold onceRow
          rw [if_pos hr']
        · rw [if_neg hr]
          simp only [Res.bind_ok, Res.pure_eq, if_true]
          have hr' : ¬ r.id ∈ st.rows.map Row.id := fun h => hr ((hm _).mpr h)
          obtain ⟨st', h1, h2, h3, h4, h5, h6⟩ := ih (st := { st with rowSet := some (r.id :: S), rows := st.rows ++ [r] }) h
            ⟨fun _ => ⟨_, rfl, by
              intro k
              simp only [List.mem_cons, List.map_append, List.mem_append, List.map_cons, List.map_nil, List.not_mem_nil, or_false]
              rw [hm k]
              exact Or.comm⟩, hs.2⟩
          refine ⟨st', h1, h2, h3, h4, ?_, h6⟩
          rw [h5]
          congr 1
          unfold onceRow
          rw [if_neg hr']
      | false =>
        simp only [Bool.false_eq_true, if_false, Res.pure_eq, Res.bind_ok, List.nil_append]
        exact ih h hs
    | id g =>
      simp only [apply, addID]
      rw [rowsOf_id, idsOf_id]
      split
      · rename_i hc
        rw [if_pos (by omega)]
        obtain ⟨S, hS, hm⟩ := hs.2 hc.1
        simp only [hS, hashAdd, List.singleton_append, List.foldl_cons]
        by_cases hr : g ∈ S
        · rw [if_pos hr]
          simp only [Res.bind_ok, Res.pure_eq, Bool.false_eq_true, if_false]
          have hr' := (hm _).mp hr
          obtain ⟨st', h1, h2, h3, h4, h5, h6⟩ := ih (st := { st with idSet := some S }) h ⟨hs.1, fun _ => ⟨S, rfl, hm⟩⟩
          refine ⟨st', h1, h2, h3, h4, h5, ?_⟩
          rw [h6]
          congr 1
          unfold onceID
          rw [if_pos hr']
        · rw [if_neg hr]
          simp only [Res.bind_ok, Res.pure_eq, if_true]
          have hr' : ¬ g ∈ st.ids := fun h => hr ((hm _).mpr h)
          obtain ⟨st', h1, h2, h3, h4, h5, h6⟩ := ih (st := { st with idSet := some (g :: S), ids := st.ids ++ [g] }) h
            ⟨hs.1, fun _ => ⟨_, rfl, by
              intro k
              simp only [List.mem_cons, List.mem_append, List.not_mem_nil, or_false]
              rw [hm k]
              exact Or.comm⟩⟩
          refine ⟨st', h1, h2, h3, h4, h5, ?_⟩
          rw [h6]
          congr 1
          unfold onceID
          rw [if_neg hr']
      · simp only [Res.pure_eq, Res.bind_ok, List.nil_append]
        exact ih h hs

/-! ### The walk -/

/-- What the walk over a statement adds: items and expression trees. -/
def walkItems (p : Parser P) (depth : Nat) : Statement P → Res (List (Item P) × List (Str × Filter P))
  | .filter table top terms root =>
    match p.tables table with
    | none => .err
    | some (_, t) => do
      return ([], [(table, { root := root, topLimit := match top with | some (some n) => n | _ => -1, orderBy := ← orderBy t terms })])
  | .expression root => .ok ([], [([], { root := root })])
  | s => do return (← p.identItems depth s, [])

theorem rowItems_short {p : Parser P} {t : Table P} {depth : Nat} {r : Row P} {c : Int} {items : List (Item P)}
    (h : p.rowItems t depth r c = .ok items) : (p.rowsOf items).length ≤ 1 ∧ (p.idsOf items).length ≤ 1 := by
  unfold rowItems at h
  have key : ∀ g, (p.rowsOf [.row r, .id g]).length ≤ 1 ∧ (p.idsOf [.row r, .id g]).length ≤ 1 := by
    intro g
    rw [rowsOf_row, rowsOf_id, idsOf_row, idsOf_id]
    constructor
    · simp only [rowsOf]; split <;> simp
    · simp only [idsOf]; split <;> simp
  have key' : (p.rowsOf [.row r]).length ≤ 1 ∧ (p.idsOf [.row r]).length ≤ 1 := by
    rw [rowsOf_row, idsOf_row]
    constructor
    · simp only [rowsOf]; split <;> simp
    · simp only [idsOf]; split <;> simp
  split at h
  · obtain ⟨g, -, h⟩ := Res.bind_eq_ok.mp h
    cases g with
    | none => injection h with h; subst h; exact key'
    | some g => injection h with h; subst h; exact key g
  · injection h with h; subst h; exact key'

theorem nil_short (p : Parser P) : (p.rowsOf []).length ≤ 1 ∧ (p.idsOf []).length ≤ 1 := by
  constructor
  · simp [rowsOf]
  · simp [idsOf]

theorem fieldItems_short {p : Parser P} {t : Table P} {depth : Nat} {n v : Str} {c : Int} {items : List (Item P)}
    (h : p.fieldItems t depth n v c = .ok items) : (p.rowsOf items).length ≤ 1 ∧ (p.idsOf items).length ≤ 1 := by
  unfold fieldItems at h
  split at h
  · injection h with h; subst h; exact nil_short p
  · obtain ⟨r, -, h⟩ := Res.bind_eq_ok.mp h
    cases r with
    | none => injection h with h; subst h; exact nil_short p
    | some r => exact rowItems_short h

theorem keyItems_short {p : Parser P} {depth : Nat} {field : IDFields → Str} {text : Str} {items : List (Item P)}
    (h : p.keyItems depth field text = .ok items) : (p.rowsOf items).length ≤ 1 ∧ (p.idsOf items).length ≤ 1 := by
  unfold keyItems at h
  split at h
  · split at h
    · injection h with h; subst h; exact nil_short p
    · exact fieldItems_short h
  · injection h with h; subst h; exact nil_short p

theorem identItems_short {p : Parser P} {depth : Nat} {s : Statement P} {items : List (Item P)} (h : p.identItems depth s = .ok items) :
    (p.rowsOf items).length ≤ 1 ∧ (p.idsOf items).length ≤ 1 := by
  cases s with
  | filter a b c d => injection h with h; subst h; exact nil_short p
  | expression r => injection h with h; subst h; exact nil_short p
  | guid g =>
    unfold identItems at h
    obtain ⟨l, hl, h⟩ := Res.bind_eq_ok.mp h
    injection h with h; subst h
    have : l = [] ∨ ∃ r, l = [.row r] := by
      unfold guidItems at hl
      split at hl
      · split at hl
        · split at hl
          · injection hl with hl; exact .inl hl.symm
          · obtain ⟨r, -, hl⟩ := Res.bind_eq_ok.mp hl
            cases r with
            | none => injection hl with hl; exact .inl hl.symm
            | some r => injection hl with hl; exact .inr ⟨r, hl.symm⟩
        · injection hl with hl; exact .inl hl.symm
      · injection hl with hl; exact .inl hl.symm
    rw [rowsOf_id, idsOf_id]
    rcases this with rfl | ⟨r, rfl⟩
    · constructor
      · simp [rowsOf]
      · simp only [idsOf]; split <;> simp
    · rw [rowsOf_row, idsOf_row]
      constructor
      · simp only [rowsOf]; split <;> simp
      · simp only [idsOf]; split <;> simp
  | measurementKey text => exact keyItems_short h
  | pointTag text => exact keyItems_short h

/-- The state between statements. -/
def Good (p : Parser P) (st : Found P) : Prop :=
  (st.count = 0 → st.rows = [] ∧ st.ids = []) ∧
  (st.count ≤ 1 → st.rowSet = none ∧ st.idSet = none ∧ st.rows.length ≤ 1 ∧ st.ids.length ≤ 1) ∧
  (2 ≤ st.count → Sets p st)

theorem foldl_short {α : Type} {f : List α → α → List α} (hf : ∀ x, f [] x = [x]) {l : List α} (h : l.length ≤ 1) : l.foldl f [] = l := by
  match l, h with
  | [], _ => rfl
  | [x], _ => exact hf x
  | x :: y :: l, h => simp at h

theorem apply_walk {p : Parser P} {st : Found P} (h : Good p st) {items : List (Item P)} (hi : (p.rowsOf items).length ≤ 1 ∧
    (p.idsOf items).length ≤ 1) :
    ∃ st', p.apply (p.enterStatement st) items = .ok st' ∧ Good p st' ∧ st'.count = st.count + 1 ∧ st'.trees = st.trees ∧
      st'.rows = (p.rowsOf items).foldl onceRow st.rows ∧ st'.ids = (p.idsOf items).foldl onceID st.ids := by
  unfold enterStatement
  dsimp only
  by_cases h0 : st.count = 0
  · rw [if_neg (by omega), apply_vector (by dsimp only; omega)]
    obtain ⟨e1, e2⟩ := h.1 h0
    obtain ⟨e3, e4, -, -⟩ := h.2.1 (by omega)
    refine ⟨_, rfl, ⟨?_, ?_, ?_⟩, rfl, rfl, ?_, ?_⟩
    · intro h; dsimp only at h; omega
    · intro _; dsimp only; rw [e1, e2]; exact ⟨e3, e4, by simpa using hi.1, by simpa using hi.2⟩
    · intro h; dsimp only at h; omega
    · dsimp only; rw [e1, foldl_short (fun x => by simp [onceRow]) hi.1]; rfl
    · dsimp only; rw [e2, foldl_short (fun x => by simp [onceID]) hi.2]; rfl
  · by_cases h1 : st.count = 1
    · rw [if_pos (by omega)]
      obtain ⟨e3, e4, -, -⟩ := h.2.1 (by omega)
      have hs : Sets p (p.initializeSetOperations { st with count := st.count + 1 }) := by
        unfold initializeSetOperations
        constructor
        · intro ht
          exact ⟨st.rows.map Row.id, by simp [ht, e3], by simp⟩
        · intro ht
          exact ⟨st.ids, by simp [ht, e4], by simp⟩
      obtain ⟨st', g1, g2, g3, g4, g5, g6⟩ := apply_set (st := p.initializeSetOperations { st with count := st.count + 1 })
        (by show 2 ≤ st.count + 1; omega) hs items
      refine ⟨st', g1, ⟨?_, ?_, fun _ => g2⟩, g3, g4, g5, g6⟩
      · intro hc; have g3 : st'.count = st.count + 1 := g3; omega
      · intro hc; have g3 : st'.count = st.count + 1 := g3; omega
    · rw [if_neg (by omega)]
      obtain ⟨st', g1, g2, g3, g4, g5, g6⟩ := apply_set (st := { st with count := st.count + 1 })
        (by show 2 ≤ st.count + 1; omega) (h.2.2 (by omega)) items
      refine ⟨st', g1, ⟨?_, ?_, fun _ => g2⟩, g3, g4, g5, g6⟩
      · intro hc; have g3 : st'.count = st.count + 1 := g3; omega
      · intro hc; have g3 : st'.count = st.count + 1 := g3; omega

theorem visit_eq {p : Parser P} {depth : Nat} {st : Found P} (hg : Good p st) {s : Statement P} {o : List (Item P) × List (Str × Filter P)}
    (h : p.walkItems depth s = .ok o) :
    ∃ st', p.visit depth st s = .ok st' ∧ Good p st' ∧ st'.count = st.count + 1 ∧ st'.trees = st.trees ++ o.2 ∧
      st'.rows = (p.rowsOf o.1).foldl onceRow st.rows ∧ st'.ids = (p.idsOf o.1).foldl onceID st.ids := by
  have plain : ∀ trees, ∃ st', Res.ok { p.enterStatement st with trees := st.trees ++ trees } = .ok st' ∧ Good p st' ∧
      st'.count = st.count + 1 ∧ st'.trees = st.trees ++ trees ∧ st'.rows = (p.rowsOf []).foldl onceRow st.rows ∧
      st'.ids = (p.idsOf []).foldl onceID st.ids := by
    intro trees
    obtain ⟨st', g1, g2, g3, g4, g5, g6⟩ := apply_walk hg (nil_short p)
    simp only [apply] at g1
    injection g1 with g1
    subst g1
    exact ⟨_, rfl, g2, g3, rfl, g5, g6⟩
  have htrees : (p.enterStatement st).trees = st.trees := by
    unfold enterStatement initializeSetOperations
    dsimp only
    split <;> rfl
  have ident : (∀ a b c d, s ≠ .filter a b c d) → (∀ r, s ≠ .expression r) → (p.visit depth st s = p.exitIdentifier depth (p.enterStatement st) s) →
      (p.walkItems depth s = p.identItems depth s >>= fun i => .ok (i, [])) → 
      ∃ st', p.visit depth st s = .ok st' ∧ Good p st' ∧ st'.count = st.count + 1 ∧ st'.trees = st.trees ++ o.2 ∧
      st'.rows = (p.rowsOf o.1).foldl onceRow st.rows ∧ st'.ids = (p.idsOf o.1).foldl onceID st.ids := by
    intro n1 n2 hv hw
    rw [hw] at h
    obtain ⟨i, hi, h⟩ := Res.bind_eq_ok.mp h
    injection h with h; subst h
    rw [hv, exitIdentifier_eq n1 n2 hi]
    obtain ⟨st', g1, g2, g3, g4, g5, g6⟩ := apply_walk hg (identItems_short hi)
    exact ⟨st', g1, g2, g3, by simpa using g4, g5, g6⟩
  cases s with
  | filter table top terms root =>
    simp only [walkItems] at h
    simp only [visit, enterFilterStatement]
    cases hc : p.tables table with
    | none => simp only [hc] at h; cases h
    | some nt =>
      simp only [hc] at h ⊢
      obtain ⟨ob, hob, h⟩ := Res.bind_eq_ok.mp h
      injection h with h; subst h
      rw [hob, htrees]
      exact plain _
  | expression root =>
    injection h with h; subst h
    unfold visit
    dsimp only
    rw [htrees]
    exact plain _
  | guid g => exact ident (by intros; simp) (by intros; simp) rfl rfl
  | measurementKey g => exact ident (by intros; simp) (by intros; simp) rfl rfl
  | pointTag g => exact ident (by intros; simp) (by intros; simp) rfl rfl

theorem visit_ok {p : Parser P} {depth : Nat} {st st' : Found P} {s : Statement P} (h : p.visit depth st s = .ok st') :
    ∃ o, p.walkItems depth s = .ok o := by
  cases s with
  | filter table top terms root =>
    simp only [visit, enterFilterStatement] at h
    simp only [walkItems]
    cases hc : p.tables table with
    | none => simp only [hc] at h; cases h
    | some nt =>
      simp only [hc] at h ⊢
      obtain ⟨ob, hob, h⟩ := Res.bind_eq_ok.mp h
      rw [hob]
      exact ⟨_, rfl⟩
  | expression root => exact ⟨_, rfl⟩
  | guid g =>
    obtain ⟨i, hi⟩ := exitIdentifier_ok (s := .guid g) h
    exact ⟨(i, []), by simp only [walkItems, hi]; rfl⟩
  | measurementKey g =>
    obtain ⟨i, hi⟩ := exitIdentifier_ok (s := .measurementKey g) h
    exact ⟨(i, []), by simp only [walkItems, hi]; rfl⟩
  | pointTag g =>
    obtain ⟨i, hi⟩ := exitIdentifier_ok (s := .pointTag g) h
    exact ⟨(i, []), by simp only [walkItems, hi]; rfl⟩

/-- What the walk over all statements adds. -/
def walkAll (p : Parser P) (depth : Nat) : List (Statement P) → Res (List (Item P) × List (Str × Filter P))
  | [] => .ok ([], [])
  | s :: ss => p.walkItems depth s >>= fun a => p.walkAll depth ss >>= fun b => .ok (a.1 ++ b.1, a.2 ++ b.2)

theorem visitAll_eq {p : Parser P} {depth : Nat} {ss : List (Statement P)} {st : Found P} (hg : Good p st)
    {o : List (Item P) × List (Str × Filter P)} (h : p.walkAll depth ss = .ok o) :
    ∃ st', p.visitAll depth st ss = .ok st' ∧ Good p st' ∧ st'.count = st.count + ss.length ∧ st'.trees = st.trees ++ o.2 ∧
      st'.rows = (p.rowsOf o.1).foldl onceRow st.rows ∧ st'.ids = (p.idsOf o.1).foldl onceID st.ids := by
  induction ss generalizing st o with
  | nil =>
    injection h with h; subst h
    exact ⟨st, rfl, hg, rfl, by simp, by simp [rowsOf], by simp [idsOf]⟩
  | cons s ss ih =>
    obtain ⟨a, ha, h⟩ := Res.bind_eq_ok.mp h
    obtain ⟨b, hb, h⟩ := Res.bind_eq_ok.mp h
    injection h with h; subst h
    obtain ⟨st1, f1, f2, f3, f4, f5, f6⟩ := visit_eq hg ha
    obtain ⟨st', g1, g2, g3, g4, g5, g6⟩ := ih f2 hb
    refine ⟨st', ?_, g2, ?_, ?_, ?_, ?_⟩
    · unfold visitAll; rw [f1]; exact g1
    · rw [g3, f3]; simp only [List.length_cons]; omega
    · rw [g4, f4, List.append_assoc]
    · rw [g5, f5, rowsOf_append, List.foldl_append]
    · rw [g6, f6, idsOf_append, List.foldl_append]

theorem visitAll_ok {p : Parser P} {depth : Nat} {ss : List (Statement P)} {st st' : Found P} (h : p.visitAll depth st ss = .ok st') :
    ∃ o, p.walkAll depth ss = .ok o := by
  induction ss generalizing st with
  | nil => exact ⟨_, rfl⟩
  | cons s ss ih =>
    unfold visitAll at h
    split at h
    · rename_i st1 h1
      obtain ⟨a, ha⟩ := visit_ok h1
      obtain ⟨b, hb⟩ := ih h
      exact ⟨_, by unfold walkAll; rw [ha, Res.bind_ok, hb]; rfl⟩
    · cases h

/-! ### Evaluating the trees -/

/-- The items of matched rows. -/
def matchedItems (p : Parser P) (t : Table P) (depth : Nat) (c : Int) : List (Row P) → Res (List (Item P))
  | [] => .ok []
  | r :: rs => p.rowItems t depth r c >>= fun a => p.matchedItems t depth c rs >>= fun b => .ok (a ++ b)

theorem addAll_eq {p : Parser P} {t : Table P} {depth : Nat} {c : Int} {rs : List (Row P)} {items : List (Item P)}
    (h : p.matchedItems t depth c rs = .ok items) (st : Found P) : p.addAll t depth c st rs = p.apply st items := by
  induction rs generalizing st items with
  | nil => injection h with h; subst h; rfl
  | cons r rs ih =>
    obtain ⟨a, ha, h⟩ := Res.bind_eq_ok.mp h
    obtain ⟨b, hb, h⟩ := Res.bind_eq_ok.mp h
    injection h with h; subst h
    unfold addAll
    rw [addMatchedRow_eq ha, apply_append]
    congr 1
    funext st
    exact ih hb st

theorem addAll_ok {p : Parser P} {t : Table P} {depth : Nat} {c : Int} {rs : List (Row P)} {st st' : Found P}
    (h : p.addAll t depth c st rs = .ok st') : ∃ items, p.matchedItems t depth c rs = .ok items := by
  induction rs generalizing st with
  | nil => exact ⟨_, rfl⟩
  | cons r rs ih =>
    obtain ⟨st1, h1, h⟩ := Res.bind_eq_ok.mp h
    obtain ⟨a, ha⟩ := addMatchedRow_ok h1
    obtain ⟨b, hb⟩ := ih h
    exact ⟨_, by unfold matchedItems; rw [ha, Res.bind_ok, hb]; rfl⟩

/-- The items of an expression tree. -/
def treeItems (p : Parser P) (sort : Sorter P) (depth : Nat) (applyLimit applySort : Bool) (tree : Str × Filter P) : Res (List (Item P)) :=
  if tree.1.length = 0 ∧ p.primary.length = 0 then .err
  else match p.tables (if tree.1.length = 0 then p.primary else tree.1) with
    | none => .err
    | some (name, t) => do
      let matched ← tree.2.selectWhere sort t depth predicate applyLimit applySort
      let signalIDColumn ← p.signalIDColumn name t
      p.matchedItems t depth signalIDColumn matched

theorem evaluateTree_eq {p : Parser P} {sort : Sorter P} {depth : Nat} {al as : Bool} {tree : Str × Filter P} {items : List (Item P)}
    (h : p.treeItems sort depth al as tree = .ok items) (st : Found P) : p.evaluateTree sort depth al as st tree = p.apply st items := by
  unfold treeItems at h
  unfold evaluateTree
  split at h
  · cases h
  · rename_i h0
    rw [if_neg h0]
    split at h
    · cases h
    · rename_i hc
      simp only [hc]
      obtain ⟨m, hm, h⟩ := Res.bind_eq_ok.mp h
      obtain ⟨c, hcc, h⟩ := Res.bind_eq_ok.mp h
      rw [hm, Res.bind_ok, hcc, Res.bind_ok]
      exact addAll_eq h st

theorem evaluateTree_ok {p : Parser P} {sort : Sorter P} {depth : Nat} {al as : Bool} {tree : Str × Filter P} {st st' : Found P}
    (h : p.evaluateTree sort depth al as st tree = .ok st') : ∃ items, p.treeItems sort depth al as tree = .ok items := by
  unfold evaluateTree at h
  unfold treeItems
  split at h
  · cases h
  · rename_i h0
    rw [if_neg h0]
    split at h
    · cases h
    · rename_i hc
      simp only [hc]
      obtain ⟨m, hm, h⟩ := Res.bind_eq_ok.mp h
      obtain ⟨c, hcc, h⟩ := Res.bind_eq_ok.mp h
      rw [hm, Res.bind_ok, hcc, Res.bind_ok]
      exact addAll_ok h

/-- The items of a list of expression trees. -/
def treesItems (p : Parser P) (sort : Sorter P) (depth : Nat) (al as : Bool) : List (Str × Filter P) → Res (List (Item P))
  | [] => .ok []
  | t :: ts => p.treeItems sort depth al as t >>= fun a => p.treesItems sort depth al as ts >>= fun b => .ok (a ++ b)

theorem evaluateTrees_eq {p : Parser P} {sort : Sorter P} {depth : Nat} {al as : Bool} {ts : List (Str × Filter P)} {items : List (Item P)}
    (h : p.treesItems sort depth al as ts = .ok items) (st : Found P) : p.evaluateTrees sort depth al as st ts = p.apply st items := by
  induction ts generalizing st items with
  | nil => injection h with h; subst h; rfl
  | cons r rs ih =>
    obtain ⟨a, ha, h⟩ := Res.bind_eq_ok.mp h
    obtain ⟨b, hb, h⟩ := Res.bind_eq_ok.mp h
    injection h with h; subst h
    unfold evaluateTrees
    rw [evaluateTree_eq ha, apply_append]
    congr 1
    funext st
    exact ih hb st

theorem evaluateTrees_ok {p : Parser P} {sort : Sorter P} {depth : Nat} {al as : Bool} {ts : List (Str × Filter P)} {st st' : Found P}
    (h : p.evaluateTrees sort depth al as st ts = .ok st') : ∃ items, p.treesItems sort depth al as ts = .ok items := by
  induction ts generalizing st with
  | nil => exact ⟨_, rfl⟩
  | cons r rs ih =>
    obtain ⟨st1, h1, h⟩ := Res.bind_eq_ok.mp h
    obtain ⟨a, ha⟩ := evaluateTree_ok h1
    obtain ⟨b, hb⟩ := ih h
    exact ⟨_, by unfold treesItems; rw [ha, Res.bind_ok, hb]; rfl⟩

theorem treesItems_append {p : Parser P} {sort : Sorter P} {depth : Nat} {al as : Bool} (a b : List (Str × Filter P)) :
    p.treesItems sort depth al as (a ++ b) =
      p.treesItems sort depth al as a >>= fun x => p.treesItems sort depth al as b >>= fun y => .ok (x ++ y) := by
  induction a with
  | nil =>
    show p.treesItems sort depth al as b = p.treesItems sort depth al as b >>= fun y => Res.ok ([] ++ y)
    cases p.treesItems sort depth al as b <;> rfl
  | cons t a ih =>
    show (p.treeItems sort depth al as t >>= fun a' => p.treesItems sort depth al as (a ++ b) >>= fun b' => Res.ok (a' ++ b')) =
      (p.treeItems sort depth al as t >>= fun a' => p.treesItems sort depth al as a >>= fun b' => Res.ok (a' ++ b')) >>= _
    cases p.treeItems sort depth al as t with
    | err => rfl
    | panic => rfl
    | ok x =>
      simp only [Res.bind_ok]
      rw [ih]
      cases p.treesItems sort depth al as a with
      | err => rfl
      | panic => rfl
      | ok y =>
        simp only [Res.bind_ok]
        cases p.treesItems sort depth al as b with
        | err => rfl
        | panic => rfl
        | ok z => simp only [Res.bind_ok, List.append_assoc]

/-! ### Evaluate -/

theorem good_start (p : Parser P) : Good p ({} : Found P) :=
  ⟨fun _ => ⟨rfl, rfl⟩, fun _ => ⟨rfl, rfl, Nat.zero_le _, Nat.zero_le _⟩, fun h => by cases h⟩

theorem evaluate_eq {p : Parser P} (ht : p.trackRows = true ∨ p.trackIDs = true) {sort : Sorter P} {depth : Nat} {al as : Bool}
    {ss : List (Statement P)} {o : List (Item P) × List (Str × Filter P)} (ho : p.walkAll depth ss = .ok o) {items : List (Item P)}
    (hi : p.treesItems sort depth al as o.2 = .ok items) :
    ∃ st, p.evaluate sort depth al as ss = .ok st ∧
      (2 ≤ ss.length → st.rows = (p.rowsOf (o.1 ++ items)).foldl onceRow [] ∧ st.ids = (p.idsOf (o.1 ++ items)).foldl onceID []) ∧
      (ss.length = 1 → st.rows = p.rowsOf (o.1 ++ items) ∧ st.ids = p.idsOf (o.1 ++ items)) ∧
      (ss = [] → st.rows = [] ∧ st.ids = []) := by
  obtain ⟨st1, g1, g2, g3, g4, g5, g6⟩ := visitAll_eq (good_start p) ho
  have e : p.evaluate sort depth al as ss = p.apply st1 items := by
    unfold evaluate
    rw [if_neg (by rcases ht with h | h <;> simp [h]), g1, Res.bind_ok]
    have : st1.trees = o.2 := by simpa using g4
    rw [this]
    exact evaluateTrees_eq hi st1
  rw [e]
  have hc : st1.count = ss.length := by simpa using g3
  by_cases h2 : 2 ≤ ss.length
  · obtain ⟨st, f1, -, -, -, f5, f6⟩ := apply_set (by omega) (g2.2.2 (by omega)) items
    refine ⟨st, f1, fun _ => ⟨?_, ?_⟩, fun h => by omega, fun h => by simp [h] at h2⟩
    · rw [f5, g5, rowsOf_append, List.foldl_append]
    · rw [f6, g6, idsOf_append, List.foldl_append]
  · rw [apply_vector (by omega)]
    refine ⟨_, rfl, fun h => absurd h h2, ?_, ?_⟩
    · intro h1
      obtain ⟨-, -, k1, k2⟩ := g2.2.1 (by omega)
      match ss, h1 with
      | [s], _ =>
        obtain ⟨a, ha, ho⟩ := Res.bind_eq_ok.mp ho
        injection ho with ho
        subst ho
        have hs : (p.rowsOf a.1).length ≤ 1 ∧ (p.idsOf a.1).length ≤ 1 := by
          cases s with
          | filter t top terms root =>
            simp only [walkItems] at ha
            cases hc : p.tables t with
            | none => simp only [hc] at ha; cases ha
            | some nt =>
              simp only [hc] at ha
              obtain ⟨_, -, ha⟩ := Res.bind_eq_ok.mp ha
              injection ha with ha; subst ha; exact nil_short p
          | expression root => injection ha with ha; subst ha; exact nil_short p
          | guid g => obtain ⟨i, hii, ha⟩ := Res.bind_eq_ok.mp ha; injection ha with ha; subst ha; exact identItems_short hii
          | measurementKey g => obtain ⟨i, hii, ha⟩ := Res.bind_eq_ok.mp ha; injection ha with ha; subst ha; exact identItems_short hii
          | pointTag g => obtain ⟨i, hii, ha⟩ := Res.bind_eq_ok.mp ha; injection ha with ha; subst ha; exact identItems_short hii
        simp only [List.append_nil] at g5 g6 ⊢
        rw [g5, g6, rowsOf_append, idsOf_append]
        constructor
        · congr 1
          exact foldl_short (fun x => by simp [onceRow]) hs.1
        · congr 1
          exact foldl_short (fun x => by simp [onceID]) hs.2
    · intro h
      subst h
      injection ho with ho
      subst ho
      injection hi with hi
      subst hi
      rw [g5, g6]
      simp [rowsOf, idsOf]

theorem evaluate_ok {p : Parser P} {sort : Sorter P} {depth : Nat} {al as : Bool} {ss : List (Statement P)} {st : Found P}
    (h : p.evaluate sort depth al as ss = .ok st) : (p.trackRows = true ∨ p.trackIDs = true) ∧
    ∃ o items, p.walkAll depth ss = .ok o ∧ p.treesItems sort depth al as o.2 = .ok items := by
  unfold evaluate at h
  split at h
  · cases h
  · rename_i ht
    refine ⟨?_, ?_⟩
    · cases h1 : p.trackRows <;> cases h2 : p.trackIDs <;> simp_all
    · obtain ⟨st1, h1, h⟩ := Res.bind_eq_ok.mp h
      obtain ⟨o, ho⟩ := visitAll_ok h1
      obtain ⟨st1', g1, -, -, g4, -, -⟩ := visitAll_eq (good_start p) ho
      rw [h1] at g1
      injection g1 with g1
      subst g1
      obtain ⟨items, hi⟩ := evaluateTrees_ok h
      have : st1.trees = o.2 := by simpa using g4
      rw [this] at hi
      exact ⟨o, items, ho, hi⟩

/-- The items of one statement. -/
def Adds (p : Parser P) (sort : Sorter P) (depth : Nat) (al as : Bool) (s : Statement P) (items : List (Item P)) : Prop :=
  ∃ a b, p.walkItems depth s = .ok a ∧ p.treesItems sort depth al as a.2 = .ok b ∧ items = a.1 ++ b

theorem all_iff {p : Parser P} {sort : Sorter P} {depth : Nat} {al as : Bool} (ss : List (Statement P)) :
    (∃ o b, p.walkAll depth ss = .ok o ∧ p.treesItems sort depth al as o.2 = .ok b) ↔ ∀ s ∈ ss, ∃ items, Adds p sort depth al as s items := by
  induction ss with
  | nil => exact ⟨fun _ s h => by simp at h, fun _ => ⟨_, _, rfl, rfl⟩⟩
  | cons s ss ih =>
    constructor
    · rintro ⟨o, b, ho, hb⟩
      obtain ⟨a, ha, ho⟩ := Res.bind_eq_ok.mp ho
      obtain ⟨o', ho', ho⟩ := Res.bind_eq_ok.mp ho
      injection ho with ho; subst ho
      simp only at hb
      rw [treesItems_append] at hb
      obtain ⟨x, hx, hb⟩ := Res.bind_eq_ok.mp hb
      obtain ⟨y, hy, hb⟩ := Res.bind_eq_ok.mp hb
      intro s' hs'
      rcases List.mem_cons.mp hs' with rfl | hs'
      · exact ⟨_, a, x, ha, hx, rfl⟩
      · exact ih.mp ⟨o', y, ho', hy⟩ s' hs'
    · intro h
      obtain ⟨_, a, x, ha, hx, -⟩ := h s (by simp)
      obtain ⟨o', y, ho', hy⟩ := ih.mpr (fun s' hs' => h s' (by simp [hs']))
      refine ⟨(a.1 ++ o'.1, a.2 ++ o'.2), x ++ y, ?_, ?_⟩
      · unfold walkAll; rw [ha, Res.bind_ok, ho']; rfl
      · rw [treesItems_append, hx, Res.bind_ok, hy]; rfl

theorem adds_mem {p : Parser P} {sort : Sorter P} {depth : Nat} {al as : Bool} {ss : List (Statement P)}
    {o : List (Item P) × List (Str × Filter P)} {b : List (Item P)} (ho : p.walkAll depth ss = .ok o)
    (hb : p.treesItems sort depth al as o.2 = .ok b) (x : Item P) :
    x ∈ o.1 ++ b ↔ ∃ s ∈ ss, ∃ items, Adds p sort depth al as s items ∧ x ∈ items := by
  induction ss generalizing o b with
  | nil =>
    injection ho with ho; subst ho
    injection hb with hb; subst hb
    simp
  | cons s ss ih =>
    obtain ⟨a, ha, ho⟩ := Res.bind_eq_ok.mp ho
    obtain ⟨o', ho', ho⟩ := Res.bind_eq_ok.mp ho
    injection ho with ho; subst ho
    simp only at hb
    rw [treesItems_append] at hb
    obtain ⟨u, hu, hb⟩ := Res.bind_eq_ok.mp hb
    obtain ⟨v, hv, hb⟩ := Res.bind_eq_ok.mp hb
    injection hb with hb; subst hb
    have := ih ho' hv
    simp only [List.mem_append, List.mem_cons, exists_eq_or_imp] at this ⊢
    rw [← this]
    have : (∃ items, Adds p sort depth al as s items ∧ x ∈ items) ↔ x ∈ a.1 ∨ x ∈ u := by
      constructor
      · rintro ⟨_, ⟨a', u', ha', hu', rfl⟩, hx⟩
        rw [ha] at ha'
        injection ha' with ha'; subst ha'
        rw [hu] at hu'
        injection hu' with hu'; subst hu'
        exact List.mem_append.mp hx
      · intro hx
        exact ⟨_, ⟨a, u, ha, hu, rfl⟩, List.mem_append.mpr hx⟩
    rw [this]
    constructor
    · rintro ((h | h) | (h | h))
      · exact .inl (.inl h)
      · exact .inr (.inl h)
      · exact .inl (.inr h)
      · exact .inr (.inr h)
    · rintro ((h | h) | (h | h))
      · exact .inl (.inl h)
      · exact .inr (.inl h)
      · exact .inl (.inr h)
      · exact .inr (.inr h)

/-- One statement alone. -/
theorem evaluate_one {p : Parser P} {sort : Sorter P} {depth : Nat} {al as : Bool} {s : Statement P} {items : List (Item P)}
    (ht : p.trackRows = true ∨ p.trackIDs = true) (h : Adds p sort depth al as s items) :
    ∃ st, p.evaluate sort depth al as [s] = .ok st ∧ st.rows = p.rowsOf items ∧ st.ids = p.idsOf items := by
  obtain ⟨a, b, ha, hb, rfl⟩ := h
  have ho : p.walkAll depth [s] = .ok (a.1 ++ [], a.2 ++ []) := by unfold walkAll; rw [ha]; rfl
  obtain ⟨st, h1, -, h2, -⟩ := evaluate_eq ht ho (items := b) (by simpa using hb)
  refine ⟨st, h1, ?_⟩
  simpa using h2 rfl

theorem evaluate_one_ok {p : Parser P} {sort : Sorter P} {depth : Nat} {al as : Bool} {s : Statement P} {st : Found P}
    (h : p.evaluate sort depth al as [s] = .ok st) :
    ∃ items, Adds p sort depth al as s items ∧ st.rows = p.rowsOf items ∧ st.ids = p.idsOf items := by
  obtain ⟨ht, o, b, ho, hb⟩ := evaluate_ok h
  obtain ⟨items, hi⟩ := (all_iff (sort := sort) (al := al) (as := as) [s]).mp ⟨o, b, ho, hb⟩ s (by simp)
  obtain ⟨st', h1, h2, h3⟩ := evaluate_one ht hi
  rw [h] at h1
  injection h1 with h1
  subst h1
  exact ⟨items, hi, h2, h3⟩

theorem onceRow_mem (l rows : List (Row P)) (k : Nat) :
    k ∈ (l.foldl onceRow rows).map Row.id ↔ k ∈ rows.map Row.id ∨ k ∈ l.map Row.id := by
  induction l generalizing rows with
  | nil => simp
  | cons r l ih =>
    rw [List.foldl_cons, ih]
    unfold onceRow
    split
    · rename_i h
      simp only [List.map_cons, List.mem_cons]
      constructor
      · rintro (h' | h')
        · exact .inl h'
        · exact .inr (.inr h')
      · rintro (h' | rfl | h')
        · exact .inl h'
        · exact .inl h
        · exact .inr h'
    · simp only [List.map_append, List.mem_append, List.map_cons, List.map_nil, List.mem_cons, List.not_mem_nil, or_false, or_assoc]

theorem onceRow_nodup (l rows : List (Row P)) (h : (rows.map Row.id).Nodup) : ((l.foldl onceRow rows).map Row.id).Nodup := by
  induction l generalizing rows with
  | nil => exact h
  | cons r l ih =>
    rw [List.foldl_cons]
    apply ih
    unfold onceRow
    split
    · exact h
    · rename_i hn
      rw [List.map_append, List.nodup_append]
      refine ⟨h, by simp, ?_⟩
      intro a ha b hb
      simp only [List.map_cons, List.map_nil, List.mem_singleton] at hb
      rw [hb]
      rintro rfl
      exact hn ha

theorem onceID_mem (l ids : List Guid.Guid) (k : Guid.Guid) : k ∈ l.foldl onceID ids ↔ k ∈ ids ∨ k ∈ l := by
  induction l generalizing ids with
  | nil => simp
  | cons r l ih =>
    rw [List.foldl_cons, ih]
    unfold onceID
    split
    · rename_i h
      simp only [List.mem_cons]
      constructor
      · rintro (h' | h')
        · exact .inl h'
        · exact .inr (.inr h')
      · rintro (h' | rfl | h')
        · exact .inl h'
        · exact .inl h
        · exact .inr h'
    · simp only [List.mem_append, List.mem_cons, List.not_mem_nil, or_false, or_assoc]

theorem onceID_nodup (l ids : List Guid.Guid) (h : ids.Nodup) : (l.foldl onceID ids).Nodup := by
  induction l generalizing ids with
  | nil => exact h
  | cons r l ih =>
    rw [List.foldl_cons]
    apply ih
    unfold onceID
    split
    · exact h
    · rename_i hn
      rw [List.nodup_append]
      refine ⟨h, by simp, ?_⟩
      intro a ha b hb
      simp only [List.mem_singleton] at hb
      rw [hb]
      rintro rfl
      exact hn ha

/-- C54: evaluating a list of statements succeeds exactly when each of them alone does. -/
theorem C54_succeeds (p : Parser P) (sort : Sorter P) (depth : Nat) (al as : Bool) (ss : List (Statement P))
    (ht : p.trackRows = true ∨ p.trackIDs = true) :
    (∃ st, p.evaluate sort depth al as ss = .ok st) ↔ ∀ s ∈ ss, ∃ st, p.evaluate sort depth al as [s] = .ok st := by
  constructor
  · rintro ⟨st, h⟩ s hs
    obtain ⟨-, o, b, ho, hb⟩ := evaluate_ok h
    obtain ⟨items, hi⟩ := (all_iff ss).mp ⟨o, b, ho, hb⟩ s hs
    obtain ⟨st', h', -⟩ := evaluate_one ht hi
    exact ⟨st', h'⟩
  · intro h
    have : ∀ s ∈ ss, ∃ items, Adds p sort depth al as s items := by
      intro s hs
      obtain ⟨st, h⟩ := h s hs
      obtain ⟨items, hi, -⟩ := evaluate_one_ok h
      exact ⟨items, hi⟩
    obtain ⟨o, b, ho, hb⟩ := (all_iff ss).mpr this
    obtain ⟨st, h', -⟩ := evaluate_eq ht ho hb
    exact ⟨st, h'⟩

/-- C54: the filtered rows of a list of statements are the rows of at least one of them evaluated alone, and with two or more statements
no row appears twice; likewise for signal IDs. -/
theorem C54_union (p : Parser P) (sort : Sorter P) (depth : Nat) (al as : Bool) (ss : List (Statement P)) (st : Found P)
    (h : p.evaluate sort depth al as ss = .ok st) :
    (∀ k, k ∈ st.rows.map Row.id ↔ ∃ s ∈ ss, ∃ st', p.evaluate sort depth al as [s] = .ok st' ∧ k ∈ st'.rows.map Row.id) ∧
    (∀ g, g ∈ st.ids ↔ ∃ s ∈ ss, ∃ st', p.evaluate sort depth al as [s] = .ok st' ∧ g ∈ st'.ids) ∧
    (2 ≤ ss.length → (st.rows.map Row.id).Nodup ∧ st.ids.Nodup) := by
  obtain ⟨ht, o, b, ho, hb⟩ := evaluate_ok h
  obtain ⟨st', h', many, one, none_⟩ := evaluate_eq ht ho hb
  rw [h] at h'
  injection h' with h'
  subst h'
  have rows : ∀ k, k ∈ st.rows.map Row.id ↔ k ∈ (p.rowsOf (o.1 ++ b)).map Row.id := by
    intro k
    by_cases h2 : 2 ≤ ss.length
    · rw [(many h2).1, onceRow_mem]; simp
    · by_cases h1 : ss.length = 1
      · rw [(one h1).1]
      · have : ss = [] := List.length_eq_zero_iff.mp (by omega)
        subst this
        injection ho with ho; subst ho
        injection hb with hb; subst hb
        rw [(none_ rfl).1]
        simp [rowsOf]
  have ids : ∀ g, g ∈ st.ids ↔ g ∈ p.idsOf (o.1 ++ b) := by
    intro k
    by_cases h2 : 2 ≤ ss.length
    · rw [(many h2).2, onceID_mem]; simp
    · by_cases h1 : ss.length = 1
      · rw [(one h1).2]
      · have : ss = [] := List.length_eq_zero_iff.mp (by omega)
        subst this
        injection ho with ho; subst ho
        injection hb with hb; subst hb
        rw [(none_ rfl).2]
        simp [idsOf]
  refine ⟨?_, ?_, ?_⟩
  · intro k
    rw [rows, mem_rowsOf]
    constructor
    · rintro ⟨htr, r, hr, hk⟩
      obtain ⟨s, hs, items, hi, hx⟩ := (adds_mem ho hb _).mp hr
      obtain ⟨st', e1, e2, -⟩ := evaluate_one ht hi
      exact ⟨s, hs, st', e1, by rw [e2, mem_rowsOf]; exact ⟨htr, r, hx, hk⟩⟩
    · rintro ⟨s, hs, st', e1, hk⟩
      obtain ⟨items, hi, e2, -⟩ := evaluate_one_ok e1
      rw [e2, mem_rowsOf] at hk
      obtain ⟨htr, r, hx, hk⟩ := hk
      exact ⟨htr, r, (adds_mem ho hb _).mpr ⟨s, hs, items, hi, hx⟩, hk⟩
  · intro g
    rw [ids, mem_idsOf]
    constructor
    · rintro ⟨htr, hz, hr⟩
      obtain ⟨s, hs, items, hi, hx⟩ := (adds_mem ho hb _).mp hr
      obtain ⟨st', e1, -, e2⟩ := evaluate_one ht hi
      exact ⟨s, hs, st', e1, by rw [e2, mem_idsOf]; exact ⟨htr, hz, hx⟩⟩
    · rintro ⟨s, hs, st', e1, hk⟩
      obtain ⟨items, hi, -, e2⟩ := evaluate_one_ok e1
      rw [e2, mem_idsOf] at hk
      obtain ⟨htr, hz, hx⟩ := hk
      exact ⟨htr, hz, (adds_mem ho hb _).mpr ⟨s, hs, items, hi, hx⟩⟩
  · intro h2
    rw [(many h2).1, (many h2).2]
    exact ⟨onceRow_nodup _ _ (by simp), onceID_nodup _ _ (by simp)⟩

end Verif.Table.Parser
