import Verif.Table.Row
import Verif.Expr.Toy

/-!
# C55: reading computed columns, and storing values
-/

namespace Verif.Table

open Verif.Expr

variable {P : Prim}

/-- Every column knows its position, as after `AddColumn` (see `C40_index_partial`). -/
def Positions (t : Table P) : Prop := ∀ (i : Nat) c, t.columns[i]? = some c → c.index = i

theorem Positions.column {t : Table P} (h : Positions t) {i : Int} {c : Column} (hc : t.column i = some c) : c.index = i ∧ 0 ≤ i := by
  unfold Table.column at hc
  split at hc
  · cases hc
  · have := h _ _ hc
    omega

theorem Positions.byName {t : Table P} (h : Positions t) {name : Str} {c : Column} (hc : t.columnByName name = some c) :
    t.column c.index = some c := by
  unfold Table.columnByName at hc
  split at hc
  · rw [(h.column hc).1]; exact hc
  · cases hc

/-- Conversions give a value of the type asked for. -/
theorem convertResult_type {v : Val P} {dt : DT} {c : Cell P} (h : convertResult v dt = .ok c) : c.type = dt := by
  have parse : ∀ {α : Type} (o : Option α) (f : α → Cell P) {c : Cell P}, (∀ a, (f a).type = dt) → orErr o f = .ok c → c.type = dt := by
    intro α o f c hf h
    cases o with
    | none => cases h
    | some a => injection h with h; rw [← h]; exact hf a
  have flag : ∀ (b : Bool) (x c : Cell P), x.type = dt → (if b = true then Res.ok x else Res.err) = .ok c → c.type = dt := by
    intro b x c hx h
    cases b
    · cases h
    · injection h with h; rw [← h]; exact hx
  have str : ∀ s, convertFromString s dt = .ok c → c.type = dt := by
    intro s h
    cases dt <;> first
      | (cases h; done)
      | (injection h with h; rw [← h]; rfl)
      | exact flag _ _ _ rfl h
      | exact parse _ _ (fun _ => rfl) h
  have dbl : ∀ f, convertFromDouble f dt = .ok c → c.type = dt := by
    intro f h
    cases dt <;> first
      | (cases h; done)
      | (injection h with h; rw [← h]; rfl)
      | (simp only [convertFromDouble] at h
         split at h
         · injection h with h; rw [← h]; rfl
         · cases h)
  cases v with
  | null t =>
    cases t with
    | string => exact str _ h
    | double => exact dbl _ h
    | undefined => cases h
    | _ => cases dt <;> first
      | (cases h; done)
      | (injection h with h; rw [← h]; rfl)
  | string s => exact str _ h
  | double s => exact dbl _ h
  | _ => cases dt <;> first
      | (cases h; done)
      | (injection h with h; rw [← h]; rfl)

/-- A value present, or the failure. -/
def present (x : Res (Cell P)) : Res (Option (Cell P)) := x >>= fun c => .ok (some c)

theorem computed_type {col : Nat → Res (Val P)} {t : Table P} {r : Row P} {c : Column} {x : Cell P}
    (h : r.getComputedValue col t c = .ok x) : x.type = c.type := by
  unfold Row.getComputedValue at h
  obtain ⟨e, -, h⟩ := Res.bind_eq_ok.mp h
  obtain ⟨v, -, h⟩ := Res.bind_eq_ok.mp h
  exact convertResult_type h

theorem validate_read {t : Table P} {i : Int} {c : Column} (hc : t.column i = some c) (dt : Option DT)
    (hdt : dt = none ∨ dt = some c.type) : Row.validateColumnType t i dt true = .ok c := by
  unfold Row.validateColumnType
  rw [hc]
  rcases hdt with rfl | rfl <;> simp

/-- The typed reader of a computed column. -/
theorem get_computed {col : Nat → Res (Val P)} {t : Table P} (r : Row P) {i : Int} {c : Column} (hc : t.column i = some c)
    (hcomp : c.computed = true) : r.get col t c.type i = present (r.getComputedValue col t c) := by
  unfold Row.get
  rw [validate_read hc _ (.inr rfl)]
  simp only [Res.bind_ok, hcomp, if_true]
  cases hx : r.getComputedValue col t c with
  | err => rfl
  | panic => rfl
  | ok x =>
    show Row.assert c.type x = .ok (some x)
    unfold Row.assert
    rw [if_pos (computed_type hx)]

theorem get_stored {col : Nat → Res (Val P)} {t : Table P} (r : Row P) {i : Int} {c : Column} (hc : t.column i = some c)
    (hcomp : c.computed = false) :
    r.get col t c.type i = (r.value? i >>= fun v => match v with | none => .ok none | some v => Row.assert c.type v) := by
  unfold Row.get
  rw [validate_read hc _ (.inr rfl)]
  simp only [Res.bind_ok, hcomp]
  rfl

/-- What a computed column's place in the row stands for: its expression `e`. -/
def Computes (t : Table P) (r : Row P) (c : Column) (e : Tree P) : Prop :=
  (r.value? c.index = .ok none ∧ t.parse c.expression = some e) ∨ r.value? c.index = .ok (some (.tree e))

theorem Computes.tree {t : Table P} {r : Row P} {c : Column} {e : Tree P} (h : Computes t r c e) : r.expressionTree t c = .ok e := by
  unfold Row.expressionTree
  rcases h with ⟨h1, h2⟩ | h
  · rw [h1]; simp only [Res.bind_ok, h2]; rfl
  · rw [h]; rfl

/-- C55 (partial: by index, by name with a type; a value that is not null). For a computed column whose expression yields `v`, the
untyped reader by index and the typed readers by index and by name all report `v` converted to the column's type. Missing: the untyped
reader by name, see `C55_by_name_false`, and null results, see `C55_null_false`. -/
theorem C55_readers_partial {col : Nat → Res (Val P)} {t : Table P} (hp : Positions t) (r : Row P) {name : Str} {c : Column}
    (hn : t.columnByName name = some c) (hcomp : c.computed = true) {e : Tree P} (he : Computes t r c e) {v : Val P}
    (hv : eval col e = .ok v) (_ : v.isNull = false) :
    r.value col t c.index = present (convertResult v c.type) ∧
    r.get col t c.type c.index = present (convertResult v c.type) ∧
    r.getByName col t c.type name = present (convertResult v c.type) := by
  have hc := hp.byName hn
  have hx : r.getComputedValue col t c = convertResult v c.type := by
    unfold Row.getComputedValue
    rw [he.tree]
    simp only [Res.bind_ok, hv]
  have hg : r.get col t c.type c.index = present (convertResult v c.type) := by rw [get_computed r hc hcomp, hx]
  refine ⟨?_, hg, ?_⟩
  · unfold Row.value
    rw [validate_read hc _ (.inl rfl)]
    simp only [Res.bind_ok, hcomp, if_true, hx]
    rfl
  · unfold Row.getByName Row.getColumnIndex
    rw [hn]
    simp only [Res.bind_ok, hg]

/-- C55: a typed reader of another type than the column's is refused, for computed and stored columns alike. -/
theorem C55_wrong_type {col : Nat → Res (Val P)} {t : Table P} (r : Row P) {i : Int} {c : Column} (hc : t.column i = some c) {dt : DT}
    (hdt : dt ≠ c.type) : r.get col t dt i = .err := by
  unfold Row.get Row.validateColumnType
  rw [hc]
  simp [hdt]

/-- C55: an index outside the columns, or an unknown name, is refused by every reader and by the writers. -/
theorem C55_no_column {col : Nat → Res (Val P)} {t : Table P} (r : Row P) (i : Int) (hc : t.column i = none) (name : Str)
    (hn : t.columnByName name = none) (dt : DT) (v : Option (Cell P)) :
    r.value col t i = .err ∧ r.get col t dt i = .err ∧ r.getByName col t dt name = .err ∧ r.valueByName t name = .err ∧
    r.setValue t i v = .err ∧ r.setValueByName t name v = .err := by
  refine ⟨?_, ?_, ?_, ?_, ?_, ?_⟩
  · unfold Row.value Row.validateColumnType; rw [hc]; rfl
  · unfold Row.get Row.validateColumnType; rw [hc]; rfl
  · unfold Row.getByName Row.getColumnIndex; rw [hn]; rfl
  · unfold Row.valueByName Row.getColumnIndex; rw [hn]; rfl
  · unfold Row.setValue Row.validateColumnType; rw [hc]; rfl
  · unfold Row.setValueByName Row.getColumnIndex; rw [hn]; rfl

/-- No reader ever reports null for a computed column. -/
theorem C55_never_null {col : Nat → Res (Val P)} {t : Table P} (r : Row P) {i : Int} {c : Column} (hc : t.column i = some c)
    (hcomp : c.computed = true) (dt : DT) : r.get col t dt i ≠ .ok none ∧ r.value col t i ≠ .ok none := by
  constructor
  · by_cases hdt : dt = c.type
    · rw [hdt, get_computed r hc hcomp]
      cases r.getComputedValue col t c <;> simp [present]
    · rw [C55_wrong_type r hc hdt]; simp
  · unfold Row.value
    rw [validate_read hc _ (.inl rfl)]
    simp only [Res.bind_ok, hcomp, if_true]
    cases r.getComputedValue col t c <;> simp

/-- The claim fails for null results: a String column whose expression is null reads as the empty text, an Int32 column as 0, both
flagged as not null. -/
theorem C55_null_false {col : Nat → Res (Val P)} {t : Table P} (r : Row P) {i : Int} {c : Column}
    (hc : t.column i = some c) (hcomp : c.computed = true) {e : Tree P} (he : Computes t r c e) :
    (c.type = .string → eval col e = .ok (.null .string) → r.get col t .string i = .ok (some (.string []))) ∧
    (c.type = .int32 → eval col e = .ok (.null .int32) → r.get col t .int32 i = .ok (some (.int32 0))) := by
  have hx : ∀ v, eval col e = .ok v → r.get col t c.type i = present (convertResult v c.type) := by
    intro v hv
    rw [get_computed r hc hcomp]
    unfold Row.getComputedValue
    rw [he.tree]
    simp only [Res.bind_ok, hv]
  constructor <;> intro ht hv <;> have := hx _ hv <;> rw [ht] at this <;> exact this

/-! ### Storing -/

/-- `CreateRow` (DataTable.go L180-182, DataRow.go L45-50). -/
def newRow (t : Table P) (id : Nat) : Row P := { id := id, values := List.replicate t.columns.length none }

/-- The rows that creating a row of the table and then storing values and reading computed columns, in any order, can lead to. -/
inductive Reachable (t : Table P) : Row P → Prop where
  | create (id : Nat) : Reachable t (newRow t id)
  | set {r r' : Row P} (i : Int) (v : Option (Cell P)) : Reachable t r → r.setValue t i v = .ok r' → Reachable t r'
  | setByName {r r' : Row P} (name : Str) (v : Option (Cell P)) : Reachable t r → r.setValueByName t name v = .ok r' → Reachable t r'
  | read {r : Row P} {i : Int} {c : Column} : Reachable t r → t.column i = some c → c.computed = true → Reachable t (r.cache t c)

theorem setValue_ok {t : Table P} {r r' : Row P} {i : Int} {v : Option (Cell P)} (h : r.setValue t i v = .ok r') :
    ∃ c, t.column i = some c ∧ c.computed = false ∧ 0 ≤ i ∧ i < r.values.length ∧ r' = { r with values := r.values.set i.toNat v } := by
  unfold Row.setValue at h
  obtain ⟨c, hc, h⟩ := Res.bind_eq_ok.mp h
  unfold Row.validateColumnType at hc
  split at hc
  · cases hc
  · rename_i c' hc'
    simp only [Option.isSome_none, Bool.false_eq_true, false_and, if_false] at hc
    split at hc
    · cases hc
    · rename_i hx
      split at h
      · cases h
      · rename_i hr
        injection h with h
        refine ⟨c', hc', ?_, by omega, by omega, h.symm⟩
        simpa using hx

theorem value?_length {r : Row P} {i : Int} {v : Option (Cell P)} (h : r.value? i = .ok v) : 0 ≤ i ∧ i < r.values.length ∧
    r.values[i.toNat]? = some v := by
  unfold Row.value? at h
  split at h
  · cases h
  · split at h
    · rename_i v' hv
      injection h with h
      subst h
      have := (List.getElem?_eq_some_iff.mp hv).1
      exact ⟨by omega, by omega, hv⟩
    · cases h

theorem value?_of {r : Row P} {i : Int} {v : Option (Cell P)} (h0 : 0 ≤ i) (h : r.values[i.toNat]? = some v) : r.value? i = .ok v := by
  unfold Row.value?
  rw [if_neg (by omega), h]

/-- A reachable row has a place for every column, and the place of a computed column holds nil or its parsed expression. -/
theorem reachable_shape {t : Table P} (hp : Positions t) {r : Row P} (h : Reachable t r) :
    r.values.length = t.columns.length ∧
    ∀ i c, t.column i = some c → c.computed = true →
      r.value? i = .ok none ∨ ∃ e, t.parse c.expression = some e ∧ r.value? i = .ok (some (.tree e)) := by
  have store : ∀ {r r' : Row P} {i : Int} {v : Option (Cell P)},
      (r.values.length = t.columns.length ∧ ∀ i c, t.column i = some c → c.computed = true →
        r.value? i = .ok none ∨ ∃ e, t.parse c.expression = some e ∧ r.value? i = .ok (some (.tree e))) →
      r.setValue t i v = .ok r' →
      (r'.values.length = t.columns.length ∧ ∀ i c, t.column i = some c → c.computed = true →
        r'.value? i = .ok none ∨ ∃ e, t.parse c.expression = some e ∧ r'.value? i = .ok (some (.tree e))) := by
    intro r r' i v ih hs
    obtain ⟨c, hc, hcomp, h0, hl, rfl⟩ := setValue_ok hs
    refine ⟨by simpa using ih.1, ?_⟩
    intro j d hd hdc
    have hne : j ≠ i := by
      rintro rfl
      rw [hc] at hd
      injection hd with hd
      subst hd
      rw [hcomp] at hdc
      cases hdc
    have hj := (hp.column hd).2
    have : ({ r with values := r.values.set i.toNat v } : Row P).value? j = r.value? j := by
      unfold Row.value?
      rw [if_neg (by omega), if_neg (by omega)]
      dsimp only
      rw [List.getElem?_set_ne (by omega)]
    rw [this]
    exact ih.2 j d hd hdc
  induction h with
  | create id =>
    refine ⟨by simp [newRow], ?_⟩
    intro i c hc _
    left
    have h0 := hc
    unfold Table.column at h0
    split at h0
    · cases h0
    · apply value?_of (by omega)
      simp only [newRow]
      rw [List.getElem?_replicate, if_pos (by omega)]
  | set i v _ hs ih => exact store ih hs
  | setByName name v _ hs ih =>
    unfold Row.setValueByName at hs
    obtain ⟨i, -, hs⟩ := Res.bind_eq_ok.mp hs
    exact store ih hs
  | @read r i c hr hc hcomp ih =>
    unfold Row.cache
    split
    · rename_i e hv he
      obtain ⟨h0, hl, hg⟩ := value?_length hv
      refine ⟨by simpa using ih.1, ?_⟩
      intro j d hd hdc
      have hj := hp.column hd
      by_cases hji : j = c.index
      · right
        have hci := (hp.column hc).1
        rw [hji, hci, hc] at hd
        injection hd with hd
        subst hd
        refine ⟨e, he, ?_⟩
        rw [hji]
        apply value?_of h0
        dsimp only
        rw [List.getElem?_set_self (by omega)]
      · have : ({ r with values := r.values.set c.index.toNat (some (.tree e)) } : Row P).value? j = r.value? j := by
          unfold Row.value?
          rw [if_neg (by omega), if_neg (by omega)]
          dsimp only
          rw [List.getElem?_set_ne (by omega)]
        rw [this]
        exact ih.2 j d hd hdc
    · exact ih

/-- C55: a computed column cannot be stored to, by index or by name. -/
theorem C55_computed_not_stored {t : Table P} (hp : Positions t) (r : Row P) {i : Int} {c : Column} (hc : t.column i = some c)
    (hcomp : c.computed = true) (v : Option (Cell P)) :
    r.setValue t i v = .err ∧ ∀ name, t.columnByName name = some c → r.setValueByName t name v = .err := by
  have key : r.setValue t i v = .err := by
    unfold Row.setValue Row.validateColumnType
    rw [hc]
    simp [hcomp]
  refine ⟨key, ?_⟩
  intro name hn
  unfold Row.setValueByName Row.getColumnIndex
  rw [hn]
  simp only [Res.bind_ok]
  rw [(hp.column hc).1]
  exact key

/-- C55: any value can be stored in a column that is not computed; it reads back by index and by name, and nothing else changes. -/
theorem C55_stored {t : Table P} (hp : Positions t) {r : Row P} (hr : Reachable t r) {name : Str} {c : Column}
    (hn : t.columnByName name = some c) (hcomp : c.computed = false) (v : Option (Cell P)) :
    ∃ r', r.setValue t c.index v = .ok r' ∧ r.setValueByName t name v = .ok r' ∧ Reachable t r' ∧ r'.valueByName t name = .ok v ∧
      (∀ col, r'.value col t c.index = .ok v) ∧ (∀ j, j ≠ c.index → r'.value? j = r.value? j) ∧ r'.id = r.id := by
  have hc := hp.byName hn
  have hlen := (reachable_shape hp hr).1
  have h0 : 0 ≤ c.index ∧ c.index < r.values.length := by
    have := hc
    unfold Table.column at this
    split at this
    · cases this
    · omega
  have hset : r.setValue t c.index v = .ok { r with values := r.values.set c.index.toNat v } := by
    unfold Row.setValue Row.validateColumnType
    rw [hc]
    simp only [Option.isSome_none, Bool.false_eq_true, false_and, if_false, hcomp, and_false, Res.bind_ok]
    rw [if_neg (by omega)]
    rfl
  have hval : ({ r with values := r.values.set c.index.toNat v } : Row P).value? c.index = .ok v :=
    value?_of h0.1 (by dsimp only; rw [List.getElem?_set_self (by omega)])
  refine ⟨_, hset, ?_, Reachable.set _ _ hr hset, ?_, ?_, ?_, rfl⟩
  · unfold Row.setValueByName Row.getColumnIndex
    rw [hn]
    exact hset
  · unfold Row.valueByName Row.getColumnIndex
    rw [hn]
    exact hval
  · intro col
    unfold Row.value
    rw [validate_read hc _ (.inl rfl)]
    simp only [Res.bind_ok, hcomp]
    exact hval
  · intro j hj
    unfold Row.value?
    split
    · rfl
    · dsimp only
      rw [List.getElem?_set_ne (by omega)]

/-- The untyped reader by name does not compute: for a computed column it reports nil or the expression itself, whatever the column's
expression yields. -/
theorem C55_by_name_false {t : Table P} (hp : Positions t) {r : Row P} (hr : Reachable t r) {name : Str} {c : Column}
    (hn : t.columnByName name = some c) (hcomp : c.computed = true) :
    r.valueByName t name = .ok none ∨ ∃ e, r.valueByName t name = .ok (some (.tree e)) := by
  have hc := hp.byName hn
  have : r.valueByName t name = r.value? c.index := by
    unfold Row.valueByName Row.getColumnIndex
    rw [hn]
    rfl
  rw [this]
  rcases (reachable_shape hp hr).2 _ c hc hcomp with h | ⟨e, -, h⟩
  · exact .inl h
  · exact .inr ⟨e, h⟩

/-- In a reachable row every computed column whose expression parses has that expression. -/
theorem reachable_computes {t : Table P} (hp : Positions t) {r : Row P} (hr : Reachable t r) {i : Int} {c : Column}
    (hc : t.column i = some c) (hcomp : c.computed = true) {e : Tree P} (he : t.parse c.expression = some e) : Computes t r c e := by
  rw [← (hp.column hc).1] at hc
  rcases (reachable_shape hp hr).2 _ c hc hcomp with h | ⟨e', h1, h⟩
  · exact .inl ⟨h, he⟩
  · rw [he] at h1
    injection h1 with h1
    subst h1
    exact .inr h

/-! ### Caching the parsed expression -/

theorem cache_tree {t : Table P} (hp : Positions t) (r : Row P) {i j : Int} {c d : Column} (hc : t.column i = some c)
    (hd : t.column j = some d) : (r.cache t c).expressionTree t d = r.expressionTree t d := by
  unfold Row.cache
  split
  · rename_i e hv he
    obtain ⟨h0, hl, hg⟩ := value?_length hv
    have hdi := hp.column hd
    have hci := hp.column hc
    by_cases hji : j = i
    · subst hji
      rw [hc] at hd
      injection hd with hd
      subst hd
      have h1 : ({ r with values := r.values.set c.index.toNat (some (.tree e)) } : Row P).value? c.index = .ok (some (.tree e)) :=
        value?_of h0 (by dsimp only; rw [List.getElem?_set_self (by omega)])
      unfold Row.expressionTree
      rw [h1, hv]
      simp only [Res.bind_ok, he]
    · have : ({ r with values := r.values.set c.index.toNat (some (.tree e)) } : Row P).value? d.index = r.value? d.index := by
        unfold Row.value?
        rw [if_neg (by omega), if_neg (by omega)]
        dsimp only
        rw [List.getElem?_set_ne (by omega)]
      unfold Row.expressionTree
      rw [this]
  · rfl

theorem cache_get {t : Table P} (hp : Positions t) (r : Row P) {i : Int} {c : Column} (hc : t.column i = some c)
    (hcomp : c.computed = true) (col : Nat → Res (Val P)) (dt : DT) (j : Int) : (r.cache t c).get col t dt j = r.get col t dt j := by
  cases hd : t.column j with
  | none => unfold Row.get Row.validateColumnType; rw [hd]; rfl
  | some d =>
    by_cases hdt : dt = d.type
    · subst hdt
      cases hdc : d.computed with
      | true =>
        rw [get_computed _ hd hdc, get_computed _ hd hdc]
        unfold Row.getComputedValue
        rw [cache_tree hp r hc hd]
      | false =>
        rw [get_stored _ hd hdc, get_stored _ hd hdc]
        have : (r.cache t c).value? j = r.value? j := by
          have hdi := hp.column hd
          have hci := hp.column hc
          have hji : j ≠ i := by
            rintro rfl
            rw [hc] at hd
            injection hd with hd
            subst hd
            rw [hcomp] at hdc
            cases hdc
          unfold Row.cache
          split
          · unfold Row.value?
            rw [if_neg (by omega), if_neg (by omega)]
            dsimp only
            rw [List.getElem?_set_ne (by omega)]
          · rfl
        rw [this]
    · rw [C55_wrong_type _ hd hdt, C55_wrong_type _ hd hdt]

theorem cache_column {t : Table P} (hp : Positions t) (r : Row P) {i : Int} {c : Column} (hc : t.column i = some c)
    (hcomp : c.computed = true) (depth : Nat) : (r.cache t c).column t depth = r.column t depth := by
  induction depth with
  | zero => funext n; rfl
  | succ d ih =>
    funext n
    show Row.evaluateColumn _ t _ n = Row.evaluateColumn _ t _ n
    rw [ih]
    unfold Row.evaluateColumn
    split
    · rfl
    · rw [cache_get hp r hc hcomp]

/-- C55: storing the parsed expression in the row, as the first reading of a computed column does, changes no later reading: neither
typed readers nor the value of any column in an expression. -/
theorem C55_cache {t : Table P} (hp : Positions t) (r : Row P) {i : Int} {c : Column} (hc : t.column i = some c)
    (hcomp : c.computed = true) (depth : Nat) (dt : DT) (j : Int) (n : Nat) :
    (r.cache t c).get ((r.cache t c).column t depth) t dt j = r.get (r.column t depth) t dt j ∧
    (r.cache t c).column t depth n = r.column t depth n := by
  rw [cache_column hp r hc hcomp, cache_get hp r hc hcomp]
  exact ⟨rfl, rfl⟩

/-! ### Computed columns that name others -/

mutual

/-- The columns named in an expression. -/
def uses : Tree P → List Nat
  | .nil => []
  | .value _ => []
  | .unary _ e => uses e
  | .column c => [c]
  | .inList e args _ _ => uses e ++ usesAll args
  | .func _ args => usesAll args
  | .op _ l r => uses l ++ uses r

/-- The columns named in a list of expressions. -/
def usesAll : List (Tree P) → List Nat
  | [] => []
  | e :: es => uses e ++ usesAll es

end

mutual

theorem evalAs_congr {f g : Nat → Res (Val P)} : (e : Tree P) → (∀ n ∈ uses e, f n = g n) → ∀ t, evalAs f e t = evalAs g e t
  | .nil, _, t => by simp [evalAs]
  | .value v, _, t => by simp [evalAs]
  | .unary u e, h, t => by
    simp only [uses] at h
    simp only [evalAs, evalAs_congr e h]
  | .column c, h, t => by
    simp only [evalAs]
    exact h c (by simp [uses])
  | .inList e args a b, h, t => by
    simp only [uses, List.mem_append] at h
    simp only [evalAs, evalAs_congr e (fun n hn => h n (.inl hn)), evalArgs_congr args (fun n hn => h n (.inr hn))]
  | .func k args, h, t => by
    simp only [uses] at h
    simp only [evalAs, evalArgs_congr args h]
  | .op o l r, h, t => by
    simp only [uses, List.mem_append] at h
    simp only [evalAs, evalAs_congr l (fun n hn => h n (.inl hn)), evalAs_congr r (fun n hn => h n (.inr hn))]

theorem evalArgs_congr {f g : Nat → Res (Val P)} : (es : List (Tree P)) → (∀ n ∈ usesAll es, f n = g n) → evalArgs f es = evalArgs g es
  | [], _ => by simp [evalArgs]
  | e :: es, h => by
    simp only [usesAll, List.mem_append] at h
    simp only [evalArgs]
    rw [evalArgs_congr es (fun n hn => h n (.inr hn))]
    congr 1
    funext t
    exact evalAs_congr e (fun n hn => h n (.inl hn)) t

end

/-- Every computed column only names columns of a lower rank. -/
def Ranked (t : Table P) (r : Row P) (rank : Nat → Nat) : Prop :=
  ∀ n c e, t.columns[n]? = some c → c.computed = true → r.expressionTree t c = .ok e → ∀ m ∈ uses e, rank m < rank n

theorem column_of_position {t : Table P} (hp : Positions t) {n : Nat} {c : Column} (h : t.columns[n]? = some c) :
    t.column c.index = some c := by
  rw [hp n c h]
  unfold Table.column
  have := (List.getElem?_eq_some_iff.mp h).1
  rw [if_neg (by omega)]
  simpa using h

/-- C55: when computed columns do not name each other in circles, their value is reached at a depth of calls bounded by their rank and
does not depend on how much deeper the stack is. -/
theorem C55_depth {t : Table P} (hp : Positions t) {r : Row P} {rank : Nat → Nat} (hr : Ranked t r rank) (n : Nat) {d d' : Nat}
    (h : rank n < d) (h' : rank n < d') : r.column t d n = r.column t d' n := by
  induction d generalizing n d' with
  | zero => omega
  | succ d ih =>
    cases d' with
    | zero => omega
    | succ d' =>
      show Row.evaluateColumn _ t r n = Row.evaluateColumn _ t r n
      unfold Row.evaluateColumn
      split
      · rfl
      · rename_i c hc
        have hcol := column_of_position hp hc
        have : r.get (r.column t d) t c.type c.index = r.get (r.column t d') t c.type c.index := by
          cases hcomp : c.computed with
          | false => rw [get_stored r hcol hcomp, get_stored r hcol hcomp]
          | true =>
            rw [get_computed r hcol hcomp, get_computed r hcol hcomp]
            unfold Row.getComputedValue
            cases he : r.expressionTree t c with
            | err => rfl
            | panic => rfl
            | ok e =>
              simp only [Res.bind_ok, eval]
              rw [evalAs_congr e (fun m hm => ih m (d' := d') (by have := hr n c e hc hcomp he m hm; omega)
                (by have := hr n c e hc hcomp he m hm; omega))]
        rw [this]

/-- A column computed from itself has no value at any depth: reading it overflows the stack. -/
theorem C55_circle_false {t : Table P} (hp : Positions t) {r : Row P} {n : Nat} {c : Column} (hc : t.columns[n]? = some c)
    (hcomp : c.computed = true) (ht : c.type ≠ .undefined) (he : r.expressionTree t c = .ok (.column n)) (depth : Nat) :
    r.column t depth n = .panic ∧ r.get (r.column t depth) t c.type c.index = .panic := by
  have hcol := column_of_position hp hc
  have step : ∀ col, col n = .panic → r.get col t c.type c.index = .panic := by
    intro col h
    rw [get_computed r hcol hcomp]
    unfold Row.getComputedValue
    rw [he]
    simp only [Res.bind_ok, eval, evalAs, h]
    rfl
  have key : r.column t depth n = .panic := by
    induction depth with
    | zero => rfl
    | succ d ih =>
      show Row.evaluateColumn _ t r n = _
      unfold Row.evaluateColumn
      rw [hc]
      simp only [ht, if_false]
      rw [step _ ih]
      rfl
  exact ⟨key, step _ key⟩

/-! ### The conversions against those of expressions -/

/-- The column types that are the type of an expression value. -/
def Plain (dt : DT) : Prop :=
  dt ∈ [DT.string, .boolean, .dateTime, .double, .decimal, .guid, .int32, .int64]

/-- Partial: converting a result to a column's type agrees with the expression function `Convert`. Missing: text, whose parse errors
`Convert` ignores; Booleans to Int32, where `Convert` panics (`C57_boolean_false`); dates to Boolean, see `C55_date_false`. -/
theorem C55_conversion_partial (v : Val P) (hn : v.isNull = false) {dt : DT} (hd : Plain dt) (h1 : v.type = .string → dt = .string)
    (h2 : v.type = .boolean → dt ≠ .int32) (h3 : v.type = .dateTime → dt ≠ .boolean) :
    (convertResult v dt >>= Cell.toVal) = v.convert dt.exprType := by
  simp only [Plain, List.mem_cons, List.not_mem_nil, or_false] at hd
  cases v with
  | null t => cases hn
  | string s => rw [h1 rfl]; rfl
  | boolean b => rcases hd with rfl | rfl | rfl | rfl | rfl | rfl | rfl | rfl <;> first | rfl | exact absurd rfl (h2 rfl)
  | dateTime b => rcases hd with rfl | rfl | rfl | rfl | rfl | rfl | rfl | rfl <;> first | rfl | exact absurd rfl (h3 rfl)
  | double f =>
    rcases hd with rfl | rfl | rfl | rfl | rfl | rfl | rfl | rfl <;> try rfl
    show ((match P.decOfFlt f with | some d => Res.ok (Cell.decimal d) | none => .panic) >>= Cell.toVal) =
      (match P.decOfFlt f with | some d => Res.ok (Val.decimal d) | none => .panic)
    cases P.decOfFlt f <;> rfl
  | _ => rcases hd with rfl | rfl | rfl | rfl | rfl | rfl | rfl | rfl <;> rfl

/-- A date read through a computed Boolean column is the opposite of the same date converted to Boolean by an expression, for all
dates. -/
theorem C55_date_false (x : P.Time) : ∃ b, (Val.dateTime x).convert .boolean = .ok (.boolean b) ∧
    convertResult (Val.dateTime x) .boolean = .ok (.boolean (!b)) := by
  refine ⟨P.timeUnix x != 0, rfl, ?_⟩
  show Res.ok (Cell.boolean (P.timeUnix x == 0)) = _
  congr 2
  simp only [bne, Bool.not_not]

/-! ### A case -/

/-- Columns `A` (Int32), `B` (Int32, computed as `A + 1`) and `C` (String, computed as `B`). -/
def demo : Table Toy.prim where
  columnIndexes := fun n => if n = lit "A" then some 0 else if n = lit "B" then some 1 else if n = lit "C" then some 2 else none
  columns := [{ name := lit "A", type := .int32, expression := [], index := 0 },
    { name := lit "B", type := .int32, expression := lit "A + 1", index := 1 },
    { name := lit "C", type := .string, expression := lit "B", index := 2 }]
  rows := []
  parse := fun s => if s = lit "A + 1" then some (.op .add (.column 0) (.value (.int32 1))) else if s = lit "B" then some (.column 1) else none

theorem demo_positions : Positions demo := by
  intro i c h
  match i, h with
  | 0, h => injection h with h; subst h; rfl
  | 1, h => injection h with h; subst h; rfl
  | 2, h => injection h with h; subst h; rfl
  | n + 3, h => simp [demo] at h

/-- `A` is 41. -/
def demoRow : Row Toy.prim := { id := 0, values := [some (.int32 41), none, none] }

example : Reachable demo demoRow := Reachable.set 0 (some (.int32 41)) (Reachable.create 0) rfl

example : demoRow.getByName (demoRow.column demo 3) demo .string (lit "C") = present (convertResult (.int32 42) .string) :=
  (C55_readers_partial (c := { name := lit "C", type := .string, expression := lit "B", index := 2 }) demo_positions demoRow rfl rfl
    (e := .column 1) (.inl ⟨rfl, rfl⟩) (v := .int32 42) rfl rfl).2.2

example : demoRow.valueByName demo (lit "C") = .ok none := rfl

example : Ranked demo demoRow id := by
  intro n c e hc hcomp he m hm
  match n, hc with
  | 0, hc => injection hc with hc; subst hc; cases hcomp
  | 1, hc =>
    injection hc with hc; subst hc
    injection he with he; subst he
    simp [uses] at hm
    subst hm
    decide
  | 2, hc =>
    injection hc with hc; subst hc
    injection he with he; subst he
    simp [uses] at hm
    subst hm
    decide
  | n + 3, h => simp [demo] at h

/-- The cached tree, then reading again. -/
example : (demoRow.cache demo { name := lit "B", type := .int32, expression := lit "A + 1", index := 1 }).value? 1 =
    .ok (some (.tree (.op .add (.column 0) (.value (.int32 1))))) := rfl

end Verif.Table
