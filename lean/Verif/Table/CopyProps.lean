import Verif.Table.Copy

/-!
# C122: copies of rows, and rows older than a column
-/

namespace Verif.Table

open Verif.Expr

variable {P : Prim}

theorem column_lt {t : Table P} {i : Nat} (h : i < t.columns.length) : t.column i = some t.columns[i] := by
  unfold Table.column
  rw [if_neg (by omega)]
  simp [h]

theorem store_eq {t : Table P} {r : Row P} {i : Nat} (hi : i < t.columns.length) (hl : r.values.length = t.columns.length) (v : Option (Cell P)) :
    r.store t i v = .ok (if t.columns[i].computed then r else { r with values := r.values.set i v }) := by
  unfold Row.store Row.setValue Row.validateColumnType
  rw [column_lt hi]
  dsimp only
  cases t.columns[i].computed with
  | true => simp
  | false =>
    have : ¬ ((i : Int) < 0 ∨ (i : Int) ≥ r.values.length) := by omega
    simp only [Option.isSome_none, Bool.false_eq_true, false_and, if_false, and_false, Res.bind_ok, this, Int.toNat_natCast]
    rfl

/-- What `CloneRow` puts in place of a column: nothing if the column computes its values, else what the source has there. -/
def Copied (col : Nat → Res (Val P)) (beside : Nat → Option (Cell P)) (s : Table P) (source : Row P) (t : Table P) (i : Nat) (v : Option (Cell P)) : Prop :=
  ∃ c, t.columns[i]? = some c ∧
    if c.computed then v = none else source.value col s i = .ok v ∨ (source.value col s i = .err ∧ v = beside i)

theorem copy_panics {col : Nat → Res (Val P)} {beside : Nat → Option (Cell P)} {s : Table P} {source : Row P} {t : Table P} (is : List Nat)
    (hi : ∀ i ∈ is, i < t.columns.length) (hx : ∃ i ∈ is, source.value col s i = .panic) (r : Row P) (hl : r.values.length = t.columns.length) :
    copyColumns col beside s source t is r = .panic := by
  induction is generalizing r with
  | nil => obtain ⟨i, h, -⟩ := hx; cases h
  | cons i is ih =>
    unfold copyColumns
    by_cases hp : source.value col s i = .panic
    · rw [hp]; rfl
    · have hx' : ∃ i ∈ is, source.value col s i = .panic := by
        obtain ⟨j, hj, h⟩ := hx
        rcases List.mem_cons.mp hj with rfl | hj
        · exact absurd h hp
        · exact ⟨j, hj, h⟩
      have : ∃ v, orBeside (beside i) (source.value col s i) = .ok v := by
        cases hv : source.value col s i with
        | ok v => exact ⟨v, rfl⟩
        | err => exact ⟨beside i, rfl⟩
        | panic => exact absurd hv hp
      obtain ⟨v, hv⟩ := this
      rw [hv]
      simp only [Res.bind_ok]
      rw [store_eq (hi i (by simp)) hl]
      simp only [Res.bind_ok]
      refine ih (fun j hj => hi j (by simp [hj])) hx' _ ?_
      split <;> simp [hl]

theorem copy_ok {col : Nat → Res (Val P)} {beside : Nat → Option (Cell P)} {s : Table P} {source : Row P} {t : Table P} (is : List Nat) (hn : is.Nodup)
    (hi : ∀ i ∈ is, i < t.columns.length) (hx : ∀ i ∈ is, source.value col s i ≠ .panic) (r : Row P) (hl : r.values.length = t.columns.length) :
    ∃ r', copyColumns col beside s source t is r = .ok r' ∧ r'.id = r.id ∧ r'.values.length = t.columns.length ∧
      (∀ i, i ∉ is → r'.values[i]? = r.values[i]?) ∧
      ∀ i ∈ is, r.values[i]? = some none → ∃ v, r'.values[i]? = some v ∧ Copied col beside s source t i v := by
  induction is generalizing r with
  | nil => exact ⟨r, rfl, rfl, hl, fun _ _ => rfl, fun _ h => by cases h⟩
  | cons i is ih =>
    have : ∃ v, orBeside (beside i) (source.value col s i) = .ok v ∧ (source.value col s i = .ok v ∨ (source.value col s i = .err ∧ v = beside i)) := by
      cases hv : source.value col s i with
      | ok v => exact ⟨v, rfl, .inl rfl⟩
      | err => exact ⟨beside i, rfl, .inr ⟨rfl, rfl⟩⟩
      | panic => exact absurd hv (hx i (by simp))
    obtain ⟨v, hv, hv'⟩ := this
    have hlt := hi i (by simp)
    obtain ⟨h1, h2⟩ := List.nodup_cons.mp hn
    set r1 : Row P := if t.columns[i].computed then r else { r with values := r.values.set i v } with hr1
    have hl1 : r1.values.length = t.columns.length := by rw [hr1]; split <;> simp [hl]
    have hid : r1.id = r.id := by rw [hr1]; split <;> rfl
    obtain ⟨r', e, h3, h4, h5, h6⟩ := ih h2 (fun j hj => hi j (by simp [hj])) (fun j hj => hx j (by simp [hj])) r1 hl1
    have hother : ∀ j, j ≠ i → r1.values[j]? = r.values[j]? := by
      intro j hj
      rw [hr1]
      split
      · rfl
      · exact List.getElem?_set_ne (Ne.symm hj)
    refine ⟨r', ?_, by rw [h3, hid], h4, ?_, ?_⟩
    · unfold copyColumns
      rw [hv]
      simp only [Res.bind_ok]
      rw [store_eq hlt hl]
      simp only [Res.bind_ok]
      exact e
    · intro j hj
      rw [List.mem_cons, not_or] at hj
      rw [h5 j hj.2, hother j hj.1]
    · intro j hj hnone
      rcases List.mem_cons.mp hj with rfl | hj
      · rw [h5 _ h1]
        rw [hr1]
        refine ⟨if t.columns[j].computed then none else v, ?_, t.columns[j], by simp [hlt], ?_⟩
        · split
          · exact hnone
          · exact List.getElem?_set_self (by omega)
        · split
          · rfl
          · exact hv'
      · refine h6 j hj ?_
        rw [hother j (fun h => h1 (h ▸ hj)), hnone]

/-- **C122 (copy)**: copying a row into a table panics exactly if reading one of the source's columns, by position, does; else the copy has in each
column what the source has at the same position, whatever its name and type, and nothing in computed columns. -/
theorem C122_copy (col : Nat → Res (Val P)) (beside : Nat → Option (Cell P)) (s : Table P) (source : Row P) (t : Table P) (id : Nat) :
    ((∃ i < t.columns.length, source.value col s i = .panic) ∧ Table.cloneRow col beside s source t id = .panic) ∨
    ((∀ i < t.columns.length, source.value col s i ≠ .panic) ∧ ∃ r, Table.cloneRow col beside s source t id = .ok r ∧
      r.values.length = t.columns.length ∧ ∀ i < t.columns.length, ∃ v, r.values[i]? = some v ∧ Copied col beside s source t i v) := by
  unfold Table.cloneRow
  by_cases h : ∃ i < t.columns.length, source.value col s i = .panic
  · refine .inl ⟨h, copy_panics _ (fun i hi => by simpa using hi) ?_ _ (by simp [newRow])⟩
    obtain ⟨i, h1, h2⟩ := h
    exact ⟨i, by simpa using h1, h2⟩
  · have h' : ∀ i < t.columns.length, source.value col s i ≠ .panic := fun i hi hv => h ⟨i, hi, hv⟩
    obtain ⟨r, e, -, h1, -, h2⟩ := copy_ok (col := col) (beside := beside) (s := s) (source := source) (t := t) (List.range t.columns.length) List.nodup_range
      (fun i hi => by simpa using hi) (fun i hi => h' i (by simpa using hi)) (newRow t id) (by simp [newRow])
    refine .inr ⟨h', r, e, h1, fun i hi => h2 i (by simpa using hi) ?_⟩
    simp [newRow, hi]

/-! ### Copies within a table -/

theorem copy_reachable {col : Nat → Res (Val P)} {beside : Nat → Option (Cell P)} {s : Table P} {source : Row P} {t : Table P} (is : List Nat)
    {r r' : Row P} (hr : Reachable t r) (h : copyColumns col beside s source t is r = .ok r') : Reachable t r' := by
  induction is generalizing r with
  | nil => injection h with h; exact h ▸ hr
  | cons i is ih =>
    unfold copyColumns at h
    obtain ⟨v, -, h⟩ := Res.bind_eq_ok.mp h
    obtain ⟨r1, h1, h⟩ := Res.bind_eq_ok.mp h
    refine ih ?_ h
    unfold Row.store at h1
    split at h1
    · injection h1 with h1; exact h1 ▸ hr
    · exact .set _ _ hr h1

/-- The tree of a computed column of a row that was made, stored to and read is that of its expression. -/
theorem reachable_tree {t : Table P} (hp : Positions t) {r : Row P} (hr : Reachable t r) {i : Int} {c : Column} (hc : t.column i = some c)
    (hcomp : c.computed = true) : r.expressionTree t c = (match t.parse c.expression with | some e => .ok e | none => .err) := by
  have hi := (hp.column hc).1
  unfold Row.expressionTree
  rcases (reachable_shape hp hr).2 i c hc hcomp with h | ⟨e, he, h⟩ <;> rw [hi, h]
  · simp only [Res.bind_ok]
    split <;> simp_all
  · rw [he]; rfl

theorem value_computed {col : Nat → Res (Val P)} {t : Table P} (r : Row P) {i : Int} {c : Column} (hc : t.column i = some c) (hcomp : c.computed = true) :
    r.value col t i = (r.getComputedValue col t c >>= fun v => .ok (some v)) := by
  unfold Row.value
  rw [validate_read hc _ (.inl rfl)]
  simp [hcomp]

theorem value_stored {col : Nat → Res (Val P)} {t : Table P} (r : Row P) {i : Int} {c : Column} (hc : t.column i = some c) (hcomp : c.computed = false) :
    r.value col t i = r.value? i := by
  unfold Row.value
  rw [validate_read hc _ (.inl rfl)]
  simp [hcomp]

/-- Two rows that agree where columns are stored and were both made by the table read the same. -/
theorem same_readers {t : Table P} (hp : Positions t) {r q : Row P} (hr : Reachable t r) (hq : Reachable t q)
    (h : ∀ i c, t.column i = some c → c.computed = false → r.value? i = q.value? i) (col : Nat → Res (Val P)) (dt : DT) (i : Int) :
    r.value col t i = q.value col t i ∧ r.get col t dt i = q.get col t dt i := by
  cases hc : t.column i with
  | none =>
    unfold Row.value Row.get Row.validateColumnType
    rw [hc]
    exact ⟨rfl, rfl⟩
  | some c =>
    cases hcomp : c.computed with
    | true =>
      have e : r.getComputedValue col t c = q.getComputedValue col t c := by
        unfold Row.getComputedValue
        rw [reachable_tree hp hr hc hcomp, reachable_tree hp hq hc hcomp]
      refine ⟨by rw [value_computed r hc hcomp, value_computed q hc hcomp, e], ?_⟩
      by_cases hdt : dt = c.type
      · subst hdt
        rw [get_computed _ hc hcomp, get_computed _ hc hcomp, e]
      · rw [C55_wrong_type _ hc hdt, C55_wrong_type _ hc hdt]
    | false =>
      have e := h i c hc hcomp
      refine ⟨by rw [value_stored r hc hcomp, value_stored q hc hcomp, e], ?_⟩
      by_cases hdt : dt = c.type
      · subst hdt
        rw [get_stored _ hc hcomp, get_stored _ hc hcomp, e]
      · rw [C55_wrong_type _ hc hdt, C55_wrong_type _ hc hdt]

theorem same_columns {t : Table P} {r q : Row P} (h : ∀ (col : Nat → Res (Val P)) dt i, r.get col t dt i = q.get col t dt i) (depth : Nat) :
    r.column t depth = q.column t depth := by
  induction depth with
  | zero => funext n; rfl
  | succ d ih =>
    funext n
    show Row.evaluateColumn _ t _ n = Row.evaluateColumn _ t _ n
    rw [ih]
    unfold Row.evaluateColumn
    split
    · rfl
    · rw [h]

/-- **C122 (reads the same)**: a copy of a row within its table reads the same as the row through every reader, by index and by name, in every column,
computed ones included, and in every expression. -/
theorem C122_reads_the_same {t : Table P} (hp : Positions t) {source r : Row P} (hs : Reachable t source) {depth : Nat} {beside : Nat → Option (Cell P)} {id : Nat}
    (h : Table.cloneRow (source.column t depth) beside t source t id = .ok r) :
    Reachable t r ∧ ∀ d, r.column t d = source.column t d ∧
      (∀ i, r.value (r.column t d) t i = source.value (source.column t d) t i) ∧
      (∀ dt i, r.get (r.column t d) t dt i = source.get (source.column t d) t dt i) ∧
      ∀ dt name, r.getByName (r.column t d) t dt name = source.getByName (source.column t d) t dt name := by
  have hr : Reachable t r := copy_reachable _ (.create id) h
  rcases C122_copy (source.column t depth) beside t source t id with ⟨-, e⟩ | ⟨hx, r', e, hl, hv⟩
  · rw [h] at e; cases e
  · rw [h] at e
    injection e with e
    subst e
    have hst : ∀ i c, t.column i = some c → c.computed = false → r.value? i = source.value? i := by
      intro i c hc hcomp
      obtain ⟨hi, h0⟩ := hp.column hc
      have hc' := hc
      unfold Table.column at hc'
      split at hc'
      · cases hc'
      rename_i hlt
      obtain ⟨v, h1, c', h2, h3⟩ := hv i.toNat (by omega)
      rw [hc'] at h2
      injection h2 with h2
      subst h2
      have hti : ((i.toNat : Nat) : Int) = i := by omega
      rw [if_neg (by simp [hcomp]), hti, value_stored source hc hcomp] at h3
      rw [value?_of h0 h1]
      rcases h3 with h3 | ⟨h3, -⟩
      · exact h3.symm
      · exfalso
        unfold Row.value? at h3
        split at h3
        · cases h3
        · split at h3 <;> cases h3
    have hg := fun col dt i => (same_readers hp hr hs hst col dt i).2
    have hcol := same_columns hg
    refine ⟨hr, fun d => ⟨hcol d, fun i => ?_, fun dt i => ?_, fun dt name => ?_⟩⟩
    · rw [hcol d]; exact (same_readers hp hr hs hst _ .string i).1
    · rw [hcol d]; exact hg _ dt i
    · unfold Row.getByName
      rw [hcol d]
      cases Row.getColumnIndex t name with
      | ok i => exact hg _ dt i
      | err => rfl
      | panic => rfl

/-- C122: a row with stored columns alone is copied, whatever is in it. -/
theorem C122_stored {t : Table P} (hp : Positions t) (hc : ∀ c ∈ t.columns, c.computed = false) {source : Row P} (hs : Reachable t source)
    (col : Nat → Res (Val P)) (beside : Nat → Option (Cell P)) (id : Nat) :
    Table.cloneRow col beside t source t id = .ok { source with id := id } := by
  have hl := (reachable_shape hp hs).1
  have hval : ∀ i (hi : i < t.columns.length), source.value col t i = .ok (source.values[i]'(by omega)) := by
    intro i hi
    rw [value_stored source (column_lt hi) (hc _ (by simp))]
    exact value?_of (by omega) (by simp [hl, hi])
  unfold Table.cloneRow
  obtain ⟨r, e, h1, h2, -, h4⟩ := copy_ok (col := col) (beside := beside) (s := t) (source := source) (t := t) (List.range t.columns.length) List.nodup_range
    (fun i hi => by simpa using hi) (fun i hi => by rw [hval i (by simpa using hi)]; simp) (newRow t id) (by simp [newRow])
  rw [e]
  congr 1
  have : r.values = source.values := by
    refine List.ext_getElem? fun i => ?_
    by_cases hi : i < t.columns.length
    · obtain ⟨v, h5, c, h6, h7⟩ := h4 i (by simpa using hi) (by simp [newRow, hi])
      rw [if_neg (by simp [hc c (List.mem_of_getElem? h6)]), hval i hi] at h7
      rcases h7 with h7 | ⟨h7, -⟩
      · injection h7 with h7
        rw [h5, ← h7]
        simp [hl, hi]
      · cases h7
    · rw [List.getElem?_eq_none (by omega), List.getElem?_eq_none (by omega)]
  cases r
  cases source
  simp_all [newRow]

/-! ### Columns added later -/

theorem Positions.addColumn {t : Table P} (hp : Positions t) (c : Column) : Positions (t.addColumn c) := by
  intro i d h
  unfold Table.addColumn at h
  dsimp only at h
  by_cases hi : i < t.columns.length
  · rw [List.getElem?_append_left hi] at h
    exact hp i d h
  · have : i < (t.columns ++ [{ c with index := (t.columns.length : Int) }]).length := (List.getElem?_eq_some_iff.mp h).1
    simp only [List.length_append, List.length_singleton] at this
    obtain rfl : i = t.columns.length := by omega
    rw [List.getElem?_append_right (le_refl _)] at h
    simp at h
    rw [← h]

theorem addColumn_new (t : Table P) (c : Column) : (t.addColumn c).column t.columns.length = some { c with index := t.columns.length } ∧
    (t.addColumn c).columnByName c.name = some { c with index := t.columns.length } := by
  have h : (t.addColumn c).column t.columns.length = some { c with index := t.columns.length } := by
    unfold Table.column Table.addColumn
    simp
  refine ⟨h, ?_⟩
  unfold Table.columnByName
  have : (t.addColumn c).columnIndexes (P.upper c.name) = some t.columns.length := by simp [Table.addColumn]
  rw [this]
  exact h

theorem addColumn_old {t : Table P} {i : Int} {d : Column} (h : t.column i = some d) (c : Column) : (t.addColumn c).column i = some d := by
  unfold Table.column at h ⊢
  split at h
  · cases h
  · rename_i hi
    have : (t.addColumn c).columns = t.columns ++ [{ c with index := (t.columns.length : Int) }] := rfl
    rw [this, if_neg (by simp; omega), List.getElem?_append_left (by omega)]
    exact h

/-- **C122 (later columns)**: a row made before a column was added reads in its stored columns what it read before. Partial: in the new column it cannot be
read (`C122_later_column_panics`). -/
theorem C122_later_column_partial {t : Table P} (r : Row P) {i : Int} {d : Column} (hd : t.column i = some d) (hs : d.computed = false) (c : Column)
    (col col' : Nat → Res (Val P)) (v : Option (Cell P)) :
    r.value col' (t.addColumn c) i = r.value col t i ∧ (∀ dt, r.get col' (t.addColumn c) dt i = r.get col t dt i) ∧
      r.setValue (t.addColumn c) i v = r.setValue t i v := by
  have hd' := addColumn_old hd c
  refine ⟨by rw [value_stored r hd' hs, value_stored r hd hs], fun dt => ?_, ?_⟩
  · by_cases hdt : dt = d.type
    · subst hdt
      rw [get_stored _ hd' hs, get_stored _ hd hs]
    · rw [C55_wrong_type _ hd' hdt, C55_wrong_type _ hd hdt]
  · unfold Row.setValue Row.validateColumnType
    rw [hd, hd']

/-- **C122 (later columns) is false of the new column**: every row made before a column was added ends the program when the column is read, through any
reader, or stored to. -/
theorem C122_later_column_panics {t : Table P} (hp : Positions t) {r : Row P} (hr : Reachable t r) (c : Column) (col : Nat → Res (Val P))
    (v : Option (Cell P)) :
    let t' := t.addColumn c
    let n : Int := t.columns.length
    r.value col t' n = .panic ∧ r.get col t' c.type n = .panic ∧ r.getByName col t' c.type c.name = .panic ∧ r.valueByName t' c.name = .panic ∧
      (c.computed = false → r.setValue t' n v = .panic ∧ r.setValueByName t' c.name v = .panic) := by
  intro t' n
  have hl := (reachable_shape hp hr).1
  obtain ⟨h1, h2⟩ := addColumn_new t c
  have hv : r.value? n = .panic := by
    unfold Row.value?
    rw [if_neg (by omega), show n.toNat = t.columns.length from rfl, List.getElem?_eq_none (by omega)]
  have hx : Row.getColumnIndex t' c.name = .ok n := by
    unfold Row.getColumnIndex
    rw [h2]
  have hg : r.get col t' c.type n = .panic := by
    cases hcomp : c.computed with
    | true =>
      rw [show c.type = ({ c with index := t.columns.length } : Column).type from rfl, get_computed r h1 hcomp]
      unfold Row.getComputedValue Row.expressionTree
      dsimp only
      rw [show r.value? (t.columns.length : Int) = .panic from hv]
      rfl
    | false =>
      rw [show c.type = ({ c with index := t.columns.length } : Column).type from rfl, get_stored r h1 hcomp, show r.value? (t.columns.length : Int) = .panic from hv]
      rfl
  have hset : c.computed = false → r.setValue t' n v = .panic := by
    intro hcomp
    unfold Row.setValue Row.validateColumnType
    rw [h1]
    have : ({ c with index := t.columns.length } : Column).computed = false := hcomp
    simp only [this, Option.isSome_none, Bool.false_eq_true, false_and, if_false, and_false, Res.bind_ok]
    rw [if_pos (by omega)]
  refine ⟨?_, hg, ?_, ?_, fun hcomp => ⟨hset hcomp, ?_⟩⟩
  · cases hcomp : c.computed with
    | true =>
      rw [value_computed r h1 hcomp]
      unfold Row.getComputedValue Row.expressionTree
      dsimp only
      rw [show r.value? (t.columns.length : Int) = .panic from hv]
      rfl
    | false => rw [value_stored r h1 hcomp]; exact hv
  · unfold Row.getByName
    rw [hx]
    exact hg
  · unfold Row.valueByName
    rw [hx]
    exact hv
  · unfold Row.setValueByName
    rw [hx]
    exact hset hcomp

/-- C122: a copy made after the column was added, from a row made before, ends the program as well. -/
theorem C122_late_copy_panics {t : Table P} (hp : Positions t) {r : Row P} (hr : Reachable t r) (c : Column) (col : Nat → Res (Val P))
    (beside : Nat → Option (Cell P)) (id : Nat) : Table.cloneRow col beside (t.addColumn c) r (t.addColumn c) id = .panic := by
  have hv := (C122_later_column_panics hp hr c col none).1
  rcases C122_copy col beside (t.addColumn c) r (t.addColumn c) id with ⟨-, e⟩ | ⟨hx, -⟩
  · exact e
  · exact absurd hv (hx t.columns.length (by simp [Table.addColumn]))

/-- **C122 (columns)**: a copied column, added, has the name, type and expression of the one copied and is found by its name, ignoring case. -/
theorem C122_column (t : Table P) (c : Column) (name : Str) (h : P.upper name = P.upper c.name) :
    ∃ d, (t.addColumn (cloneColumn c)).columnByName name = some d ∧ d.name = c.name ∧ d.type = c.type ∧ d.expression = c.expression ∧
      d.computed = c.computed ∧ d.index = t.columns.length := by
  refine ⟨{ cloneColumn c with index := t.columns.length }, ?_, rfl, rfl, rfl, rfl, rfl⟩
  have := (addColumn_new t (cloneColumn c)).2
  unfold Table.columnByName at this ⊢
  rw [h]
  exact this

/-- The copy of the row with `A` 41 reads 42 as a text in `C`. -/
example : ∃ r, Table.cloneRow (demoRow.column demo 3) (fun _ => none) demo demoRow demo 7 = .ok r ∧ r.id = 7 ∧
    r.getByName (r.column demo 3) demo .string (lit "C") = present (convertResult (.int32 42) .string) := ⟨_, rfl, rfl, rfl⟩

example : Reachable demo demoRow ∧ demo.column 0 = some { name := lit "A", type := .int32, expression := [], index := 0 } :=
  ⟨.set 0 (some (.int32 41)) (.create 0) rfl, rfl⟩

/-- A column computed from itself. -/
def loop : Table Toy.prim where
  columnIndexes := fun n => if n = lit "A" then some 0 else none
  columns := [{ name := lit "A", type := .int32, expression := lit "A", index := 0 }]
  rows := []
  parse := fun s => if s = lit "A" then some (.column 0) else none

/-- **C122 (copy) is false of columns computed from themselves**: copying a row ends the program, though the copy needs no value of the column. -/
theorem C122_circle_panics (depth id : Nat) (beside : Nat → Option (Cell Toy.prim)) :
    Table.cloneRow ((newRow loop 0).column loop depth) beside loop (newRow loop 0) loop id = .panic := by
  have hp : Positions loop := by
    intro i c h
    match i, h with
    | 0, h => injection h with h; subst h; rfl
    | n + 1, h => simp [loop] at h
  have hg := (C55_circle_false (r := newRow loop 0) hp (n := 0) rfl rfl (by decide) rfl depth).1
  rcases C122_copy ((newRow loop 0).column loop depth) beside loop (newRow loop 0) loop id with ⟨-, e⟩ | ⟨hx, -⟩
  · exact e
  · refine absurd ?_ (hx 0 (by decide))
    rw [value_computed _ (c := { name := lit "A", type := .int32, expression := lit "A", index := 0 }) rfl rfl]
    unfold Row.getComputedValue
    rw [show (newRow loop 0).expressionTree loop { name := lit "A", type := .int32, expression := lit "A", index := 0 } = .ok (.column 0) from rfl]
    simp only [Res.bind_ok, eval, evalAs, hg]
    rfl

end Verif.Table
