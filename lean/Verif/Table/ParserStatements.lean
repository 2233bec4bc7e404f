import Verif.Table.ParserProps

/-!
# C54: what a single statement finds
-/

set_option linter.dupNamespace false

namespace Verif.Table.Parser

open Verif.Expr

variable {P : Prim}

theorem predicate_eq (v : Val P) : predicate v = .ok (isTrue (.ok v)) := by
  unfold predicate
  cases v <;> simp [Val.type, isTrue]
  case null t => cases t <;> simp [Val.booleanValue]
  case boolean b => cases b <;> simp [Val.booleanValue]

theorem rowItems_rows {p : Parser P} {t : Table P} {depth : Nat} {r : Row P} {c : Int} {items : List (Item P)} (ht : p.trackRows = true)
    (h : p.rowItems t depth r c = .ok items) : p.rowsOf items = [r] := by
  unfold rowItems at h
  cases hi : p.trackIDs with
  | false => rw [hi] at h; injection h with h; subst h; simp [rowsOf, ht]
  | true =>
    rw [hi] at h
    obtain ⟨o, ho, h⟩ := Res.bind_eq_ok.mp h
    cases o <;> injection h with h <;> subst h <;> simp [rowsOf, ht]

theorem rowItems_ids {p : Parser P} {t : Table P} {depth : Nat} {r : Row P} {c : Int} {items : List (Item P)} (ht : p.trackIDs = true)
    (h : p.rowItems t depth r c = .ok items) (g : Guid.Guid) :
    g ∈ p.idsOf items ↔ Guid.isZero g = false ∧ guidValue t depth r c = .ok (some g) := by
  unfold rowItems at h
  rw [ht] at h
  obtain ⟨o, ho, h⟩ := Res.bind_eq_ok.mp h
  rw [ho]
  cases o <;> injection h with h <;> subst h <;> simp [idsOf, ht]
  rename_i k
  constructor
  · rintro ⟨rfl, hz⟩; exact ⟨hz, rfl⟩
  · rintro ⟨hz, rfl⟩; exact ⟨rfl, hz⟩

theorem matchedItems_rows {p : Parser P} {t : Table P} {depth : Nat} {c : Int} {rs : List (Row P)} {items : List (Item P)}
    (ht : p.trackRows = true) (h : p.matchedItems t depth c rs = .ok items) : p.rowsOf items = rs := by
  induction rs generalizing items with
  | nil => injection h with h; subst h; simp [rowsOf]
  | cons r rs ih =>
    obtain ⟨a, ha, h⟩ := Res.bind_eq_ok.mp h
    obtain ⟨b, hb, h⟩ := Res.bind_eq_ok.mp h
    injection h with h; subst h
    rw [rowsOf_append, rowItems_rows ht ha, ih hb]
    rfl

theorem matchedItems_ids {p : Parser P} {t : Table P} {depth : Nat} {c : Int} {rs : List (Row P)} {items : List (Item P)}
    (ht : p.trackIDs = true) (h : p.matchedItems t depth c rs = .ok items) (g : Guid.Guid) :
    g ∈ p.idsOf items ↔ Guid.isZero g = false ∧ ∃ r ∈ rs, guidValue t depth r c = .ok (some g) := by
  induction rs generalizing items with
  | nil => injection h with h; subst h; simp [idsOf]
  | cons r rs ih =>
    obtain ⟨a, ha, h⟩ := Res.bind_eq_ok.mp h
    obtain ⟨b, hb, h⟩ := Res.bind_eq_ok.mp h
    injection h with h; subst h
    rw [idsOf_append, List.mem_append, rowItems_ids ht ha, ih hb]
    simp only [List.mem_cons, exists_eq_or_imp]
    tauto

/-- The limit of a `TOP` clause; none when it is missing or is no number. -/
def topOf (applyLimit : Bool) (top : Option (Option Int)) (rows : List (Row P)) : List (Row P) :=
  match applyLimit, top with
  | true, some (some n) => cut n rows
  | _, _ => rows

theorem selectWhere_eq {f : Filter P} {t : Table P} {depth : Nat} {al : Bool} (sort : Sorter P)
    (hv : ∀ r ∈ present? t.rows, ∃ v, f.evaluate t depth r = .ok v) :
    f.selectWhere sort t depth predicate al false =
      .ok (if al then cut f.topLimit ((present? t.rows).filter fun r => isTrue (f.evaluate t depth r))
        else (present? t.rows).filter fun r => isTrue (f.evaluate t depth r)) := by
  have hs : ∀ r ∈ present? t.rows, (f.evaluate t depth r >>= predicate) = .ok (isTrue (f.evaluate t depth r)) := by
    intro r hr
    obtain ⟨v, hv⟩ := hv r hr
    rw [hv, Res.bind_ok, predicate_eq]
  have : selectLoop (f.evaluate t depth) predicate al f.topLimit t.rows [] = .ok (if al then cut f.topLimit ((present? t.rows).filter fun r =>
      isTrue (f.evaluate t depth r)) else (present? t.rows).filter fun r => isTrue (f.evaluate t depth r)) := by
    cases al with
    | false => rw [selectLoop_all (.inl rfl) _ _ hs]; rfl
    | true =>
      by_cases hn : f.topLimit < 0
      · rw [selectLoop_all (.inr hn) _ _ hs]; simp [cut, hn]
      · have := selectLoop_limit (top := f.topLimit.toNat) t.rows [] (by simp) hs
        rw [show ((f.topLimit.toNat : Nat) : Int) = f.topLimit by omega] at this
        rw [this]
        simp [cut, hn]
  unfold Filter.selectWhere
  rw [this, Res.bind_ok, if_neg (by simp)]
  rfl

/-- The filter found by a tree: its table, the matched rows and their signal IDs. -/
theorem tree_found {p : Parser P} {sort : Sorter P} {depth : Nat} {al : Bool} {table : Str} {f : Filter P} {items : List (Item P)}
    {t : Table P} {name : Str} (h : p.treesItems sort depth al false [(table, f)] = .ok items)
    (htab : p.tables (if table.length = 0 then p.primary else table) = some (name, t))
    (hv : ∀ r ∈ present? t.rows, ∃ v, f.evaluate t depth r = .ok v) :
    (p.trackRows = true → p.rowsOf items = if al then cut f.topLimit ((present? t.rows).filter fun r => isTrue (f.evaluate t depth r))
      else (present? t.rows).filter fun r => isTrue (f.evaluate t depth r)) ∧
    (p.trackIDs = true → ∃ fields c, p.idFields name = some fields ∧ t.columnByName fields.signalID = some c ∧
      ∀ g, g ∈ p.idsOf items ↔ Guid.isZero g = false ∧ ∃ r ∈ (if al then cut f.topLimit ((present? t.rows).filter fun r =>
        isTrue (f.evaluate t depth r)) else (present? t.rows).filter fun r => isTrue (f.evaluate t depth r)),
        guidValue t depth r c.index = .ok (some g)) := by
  obtain ⟨a, ha, h⟩ := Res.bind_eq_ok.mp h
  obtain ⟨b, hb, h⟩ := Res.bind_eq_ok.mp h
  injection hb with hb; subst hb
  injection h with h; subst h
  rw [List.append_nil]
  unfold treeItems at ha
  split at ha
  · cases ha
  dsimp only at ha
  rw [htab] at ha
  dsimp only at ha
  rw [selectWhere_eq sort hv, Res.bind_ok] at ha
  obtain ⟨c, hc, ha⟩ := Res.bind_eq_ok.mp ha
  refine ⟨fun ht => matchedItems_rows ht ha, fun ht => ?_⟩
  unfold signalIDColumn at hc
  rw [ht, if_pos rfl] at hc
  cases hf : p.idFields name with
  | none => rw [hf] at hc; cases hc
  | some fields =>
    rw [hf] at hc
    dsimp only at hc
    cases hcol : t.columnByName fields.signalID with
    | none => rw [hcol] at hc; cases hc
    | some col =>
      rw [hcol] at hc
      injection hc with hc
      subst hc
      exact ⟨fields, col, rfl, hcol, matchedItems_ids ht ha⟩

/-- C54: a `FILTER` statement finds the rows of its table for which the expression is true, in table order up to the `TOP` limit, and
the signal IDs of these rows that are neither null nor zero. Rows for which the expression is not Boolean are left out. -/
theorem C54_filter_statement (p : Parser P) (sort : Sorter P) (depth : Nat) (al : Bool) (table : Str) (top : Option (Option Int))
    (terms : List OrderingTerm) (root : Tree P) (st : Found P) (name : Str) (t : Table P) (hne : table ≠ [])
    (htab : p.tables table = some (name, t)) (hv : ∀ r ∈ present? t.rows, ∃ v, eval (r.column t depth) root = .ok v)
    (h : p.evaluate sort depth al false [.filter table top terms root] = .ok st) :
    (p.trackRows = true → st.rows = topOf al top ((present? t.rows).filter fun r => isTrue (eval (r.column t depth) root))) ∧
    (p.trackIDs = true → ∃ fields c, p.idFields name = some fields ∧ t.columnByName fields.signalID = some c ∧
      ∀ g, g ∈ st.ids ↔ Guid.isZero g = false ∧
        ∃ r ∈ topOf al top ((present? t.rows).filter fun r => isTrue (eval (r.column t depth) root)),
          guidValue t depth r c.index = .ok (some g)) := by
  obtain ⟨items, ⟨a, b, ha, hb, rfl⟩, h1, h2⟩ := evaluate_one_ok h
  simp only [walkItems, htab] at ha
  obtain ⟨obs, hobs, ha⟩ := Res.bind_eq_ok.mp ha
  injection ha with ha; subst ha
  have hl : ¬ table.length = 0 := by simpa using hne
  have := tree_found hb (by rw [if_neg hl]; exact htab) hv
  simp only [Filter.evaluate] at this
  rw [h1, h2, List.nil_append]
  cases al with
  | false => exact this
  | true => rcases top with _ | _ | n <;> exact this

/-- C54: an expression without `FILTER` does the same on the primary table. -/
theorem C54_expression_statement (p : Parser P) (sort : Sorter P) (depth : Nat) (al : Bool) (root : Tree P) (st : Found P) (name : Str)
    (t : Table P) (htab : p.tables p.primary = some (name, t)) (hv : ∀ r ∈ present? t.rows, ∃ v, eval (r.column t depth) root = .ok v)
    (h : p.evaluate sort depth al false [.expression root] = .ok st) :
    (p.trackRows = true → st.rows = (present? t.rows).filter fun r => isTrue (eval (r.column t depth) root)) ∧
    (p.trackIDs = true → ∃ fields c, p.idFields name = some fields ∧ t.columnByName fields.signalID = some c ∧
      ∀ g, g ∈ st.ids ↔ Guid.isZero g = false ∧
        ∃ r ∈ (present? t.rows).filter fun r => isTrue (eval (r.column t depth) root), guidValue t depth r c.index = .ok (some g)) := by
  obtain ⟨items, ⟨a, b, ha, hb, rfl⟩, h1, h2⟩ := evaluate_one_ok h
  injection ha with ha; subst ha
  have := tree_found hb (table := []) htab hv
  have he : ∀ rows : List (Row P), (if al = true then cut (-1) rows else rows) = rows := by
    intro rows; cases al <;> rfl
  simp only [Filter.evaluate, he] at this
  rw [h1, h2, List.nil_append]
  exact this

/-! ### Identifiers -/

/-- `findRow` gives the first row meeting the condition, when the condition can be read on every row. -/
theorem findRow_eq {cond : Row P → Res Bool} {hit : Row P → Bool} {rows : List (Option (Row P))}
    (h : ∀ r ∈ present? rows, cond r = .ok (hit r)) : findRow cond rows = .ok ((present? rows).find? hit) := by
  induction rows with
  | nil => rfl
  | cons row rows ih =>
    cases row with
    | none => exact ih (fun r hr => h r (by simpa [present?] using hr))
    | some r =>
      have h0 := h r (by simp [present?])
      have ih := ih (fun r hr => h r (by simp only [present?] at hr; simp [present?, hr]))
      simp only [findRow, h0, Res.bind_ok]
      cases hh : hit r with
      | true => simp [present?, hh]
      | false => simpa [present?, hh] using ih

/-- What is read from a column of signal IDs: null and values that cannot be read count as nothing. -/
def guidOf (t : Table P) (depth : Nat) (r : Row P) (c : Int) : Option Guid.Guid :=
  match guidValue t depth r c with
  | .ok o => o
  | _ => none

/-- What is read from a column of strings. -/
def stringOf (t : Table P) (depth : Nat) (r : Row P) (c : Int) : Option Str :=
  match stringValue t depth r c with
  | .ok o => o
  | _ => none

/-- C54: a signal ID that is not zero always adds itself to the signal IDs, whether or not a row has it, and adds the first row of the
primary table that has it to the rows. -/
theorem C54_guid_statement (p : Parser P) (sort : Sorter P) (depth : Nat) (al as : Bool) (g : Guid.Guid) (st : Found P) (name : Str)
    (t : Table P) (fields : IDFields) (c : Column) (hz : Guid.isZero g = false) (htab : p.tables p.primary = some (name, t))
    (hf : p.idFields p.primary = some fields) (hc : t.columnByName fields.signalID = some c)
    (hv : ∀ r ∈ present? t.rows, guidValue t depth r c.index ≠ .panic) (h : p.evaluate sort depth al as [.guid g] = .ok st) :
    (p.trackIDs = true → st.ids = [g]) ∧
    (p.trackRows = true → st.rows = ((present? t.rows).find? fun r => guidOf t depth r c.index == some g).toList) := by
  obtain ⟨items, ⟨a, b, ha, hb, rfl⟩, h1, h2⟩ := evaluate_one_ok h
  simp only [walkItems, identItems] at ha
  obtain ⟨o, ho, ha⟩ := Res.bind_eq_ok.mp ha
  injection ha with ha; subst ha
  injection hb with hb; subst hb
  obtain ⟨o', ho', ho⟩ := Res.bind_eq_ok.mp ho
  injection ho with ho; subst ho
  have hfind : findRow (fun r => do return (← guidValue t depth r c.index) == some g) t.rows =
      .ok ((present? t.rows).find? fun r => guidOf t depth r c.index == some g) := by
    apply findRow_eq
    intro r hr
    unfold guidOf
    cases hg : guidValue t depth r c.index with
    | ok o => rfl
    | err =>
      exfalso
      unfold guidValue hasValue at hg
      cases hx : r.get (r.column t depth) t .guid c.index with
      | ok v => rw [hx] at hg; rcases v with _ | v <;> [cases hg; (cases v <;> cases hg)]
      | err => rw [hx] at hg; cases hg
      | panic => rw [hx] at hg; cases hg
    | panic => exact absurd hg (hv r hr)
  have hids : ∀ o' : List (Item P), p.guidItems depth g = .ok o' → p.idsOf o' = [] ∧
      (p.trackRows = true → p.rowsOf o' = ((present? t.rows).find? fun r => guidOf t depth r c.index == some g).toList) := by
    intro o' ho'
    unfold guidItems at ho'
    by_cases ht : p.trackRows = true
    · rw [if_pos ⟨ht, by rw [hz]; simp⟩, htab, hf] at ho'
      dsimp only at ho'
      rw [hc] at ho'
      dsimp only at ho'
      rw [hfind, Res.bind_ok] at ho'
      cases hx : (present? t.rows).find? fun r => guidOf t depth r c.index == some g with
      | none => rw [hx] at ho'; injection ho' with ho'; subst ho'; simp [idsOf, rowsOf]
      | some r => rw [hx] at ho'; injection ho' with ho'; subst ho'; simp [idsOf, rowsOf, ht]
    · rw [if_neg (fun h => ht h.1)] at ho'
      injection ho' with ho'; subst ho'
      exact ⟨by simp [idsOf], fun h => absurd h ht⟩
  obtain ⟨e1, e2⟩ := hids o' ho'
  rw [h1, h2, List.append_nil]
  refine ⟨fun ht => ?_, fun ht => ?_⟩
  · rw [idsOf_id, e1]; simp [ht, hz]
  · rw [rowsOf_id, e2 ht]

/-- The item added by a key or tag: the first row of the primary table whose field is equal to the text but for letter case. -/
theorem key_found {p : Parser P} {depth : Nat} {field : IDFields → Str} {text : Str} {name : Str} {t : Table P} {fields : IDFields}
    {c k : Column} {items : List (Item P)} (htab : p.tables p.primary = some (name, t)) (hf : p.idFields p.primary = some fields)
    (hc : t.columnByName fields.signalID = some c) (hk : t.columnByName (field fields) = some k)
    (hv : ∀ r ∈ present? t.rows, stringValue t depth r k.index ≠ .panic) (h : p.keyItems depth field text = .ok items) :
    (p.trackRows = true → p.rowsOf items =
      ((present? t.rows).find? fun r => (stringOf t depth r k.index).map P.upper == some (P.upper text)).toList) ∧
    (p.trackIDs = true → ∀ g, g ∈ p.idsOf items ↔ Guid.isZero g = false ∧
      ∃ r ∈ (present? t.rows).find? fun r => (stringOf t depth r k.index).map P.upper == some (P.upper text),
        guidValue t depth r c.index = .ok (some g)) := by
  have hfind : findRow (fun r => do return (← stringValue t depth r k.index).map P.upper == some (P.upper text)) t.rows =
      .ok ((present? t.rows).find? fun r => (stringOf t depth r k.index).map P.upper == some (P.upper text)) := by
    apply findRow_eq
    intro r hr
    unfold stringOf
    cases hg : stringValue t depth r k.index with
    | ok o => rfl
    | err =>
      exfalso
      unfold stringValue hasValue at hg
      cases hx : r.get (r.column t depth) t .string k.index with
      | ok v => rw [hx] at hg; rcases v with _ | v <;> [cases hg; (cases v <;> cases hg)]
      | err => rw [hx] at hg; cases hg
      | panic => rw [hx] at hg; cases hg
    | panic => exact absurd hg (hv r hr)
  unfold keyItems at h
  rw [htab, hf] at h
  dsimp only at h
  rw [hc] at h
  dsimp only at h
  unfold fieldItems at h
  rw [hk] at h
  dsimp only at h
  rw [hfind, Res.bind_ok] at h
  cases hx : (present? t.rows).find? fun r => (stringOf t depth r k.index).map P.upper == some (P.upper text) with
  | none => rw [hx] at h; injection h with h; subst h; simp [idsOf, rowsOf]
  | some r =>
    rw [hx] at h
    dsimp only at h
    exact ⟨fun ht => rowItems_rows ht h, fun ht g => by rw [rowItems_ids ht h]; simp⟩

/-- C54: a measurement key finds the first row of the primary table whose key is equal to it but for letter case, and the signal ID of
this row. -/
theorem C54_key_statement (p : Parser P) (sort : Sorter P) (depth : Nat) (al as : Bool) (text : Str) (st : Found P) (name : Str)
    (t : Table P) (fields : IDFields) (c k : Column) (htab : p.tables p.primary = some (name, t))
    (hf : p.idFields p.primary = some fields) (hc : t.columnByName fields.signalID = some c)
    (hk : t.columnByName fields.measurementKey = some k)
    (hv : ∀ r ∈ present? t.rows, stringValue t depth r k.index ≠ .panic)
    (h : p.evaluate sort depth al as [.measurementKey text] = .ok st) :
    (p.trackRows = true → st.rows =
      ((present? t.rows).find? fun r => (stringOf t depth r k.index).map P.upper == some (P.upper text)).toList) ∧
    (p.trackIDs = true → ∀ g, g ∈ st.ids ↔ Guid.isZero g = false ∧
      ∃ r ∈ (present? t.rows).find? fun r => (stringOf t depth r k.index).map P.upper == some (P.upper text),
        guidValue t depth r c.index = .ok (some g)) := by
  obtain ⟨items, ⟨a, b, ha, hb, rfl⟩, h1, h2⟩ := evaluate_one_ok h
  simp only [walkItems, identItems] at ha
  obtain ⟨o, ho, ha⟩ := Res.bind_eq_ok.mp ha
  injection ha with ha; subst ha
  injection hb with hb; subst hb
  rw [h1, h2, List.append_nil]
  exact key_found htab hf hc hk hv ho

/-- C54: a point tag likewise. -/
theorem C54_tag_statement (p : Parser P) (sort : Sorter P) (depth : Nat) (al as : Bool) (text : Str) (st : Found P) (name : Str)
    (t : Table P) (fields : IDFields) (c k : Column) (htab : p.tables p.primary = some (name, t))
    (hf : p.idFields p.primary = some fields) (hc : t.columnByName fields.signalID = some c)
    (hk : t.columnByName fields.pointTag = some k)
    (hv : ∀ r ∈ present? t.rows, stringValue t depth r k.index ≠ .panic)
    (h : p.evaluate sort depth al as [.pointTag text] = .ok st) :
    (p.trackRows = true → st.rows =
      ((present? t.rows).find? fun r => (stringOf t depth r k.index).map P.upper == some (P.upper text)).toList) ∧
    (p.trackIDs = true → ∀ g, g ∈ st.ids ↔ Guid.isZero g = false ∧
      ∃ r ∈ (present? t.rows).find? fun r => (stringOf t depth r k.index).map P.upper == some (P.upper text),
        guidValue t depth r c.index = .ok (some g)) := by
  obtain ⟨items, ⟨a, b, ha, hb, rfl⟩, h1, h2⟩ := evaluate_one_ok h
  simp only [walkItems, identItems] at ha
  obtain ⟨o, ho, ha⟩ := Res.bind_eq_ok.mp ha
  injection ha with ha; subst ha
  injection hb with hb; subst hb
  rw [h1, h2, List.append_nil]
  exact key_found htab hf hc hk hv ho

/-! ### C65: the modifier for exact match in `ORDER BY` -/

/-- The string of a row in a column. -/
def HasString (t : Table P) (depth : Nat) (r : Row P) (i : Int) (s : Str) : Prop :=
  r.get (r.column t depth) t .string i = .ok (some (.string s))

/-- C65: how a single ascending term over a column of strings orders two rows, in the code: with the modifier by the upper-case
strings, without it by the strings themselves. -/
theorem C65_inverted (t : Table P) (depth : Nat) (term : OrderingTerm) (obs : List OrderBy) (c : Column) (l r : Row P) (a b : Str)
    (h : orderBy t [term] = .ok obs) (hc : t.columnByName term.column = some c) (hi : t.column c.index = some c) (hs : c.type = .string)
    (hd : term.desc = false) (ha : HasString t depth l c.index a) (hb : HasString t depth r c.index b) :
    less t depth l r obs = .ok (if term.exactMatchModifier then strLt (P.upper a) (P.upper b) else strLt a b) := by
  unfold orderBy at h
  rw [hc] at h
  dsimp only at h
  obtain ⟨os, ho, h⟩ := Res.bind_eq_ok.mp h
  injection ho with ho; subst ho
  injection h with h; subst h
  have e : compareColumns t depth l r c.index (!term.exactMatchModifier) =
      .ok (if term.exactMatchModifier then strCompare (P.upper a) (P.upper b) else strCompare a b) := by
    unfold compareColumns
    rw [hi]
    dsimp only
    rw [hs, if_neg (by simp), ha, hb]
    simp only [hasValue, Res.bind_ok, cellCompare]
    cases term.exactMatchModifier <;> rfl
  have key : ∀ x y : Str, ((strCompare x y < 0 ↔ strLt x y = true) ∧ (strCompare x y = 0 ∨ strCompare x y = -1 ∨ strCompare x y = 1)) := by
    intro x y
    unfold strCompare
    rcases Decidable.em (x = y) with rfl | hne
    · simp [strLt_irrefl]
    · by_cases hl : strLt x y = true <;> simp [hne, hl]
  have fin : ∀ x y : Str, (do
      let result ← (.ok (strCompare x y) : Res Int)
      if result < 0 then return true
      if result > 0 then return false
      less t depth l r []) = .ok (strLt x y) := by
    intro x y
    obtain ⟨k1, k2⟩ := key x y
    rw [Res.bind_ok]
    by_cases hl : strCompare x y < 0
    · rw [if_pos hl, k1.mp hl]; rfl
    · rw [if_neg hl]
      have : strLt x y = false := by
        cases hx : strLt x y with
        | false => rfl
        | true => exact absurd (k1.mpr hx) hl
      rw [this]
      by_cases hg : strCompare x y > 0
      · simp [hg]
      · simp [hg, less]
  unfold less
  dsimp only
  rw [hd, if_pos (by rfl), e]
  cases term.exactMatchModifier
  · exact fin a b
  · exact fin (P.upper a) (P.upper b)

/-- C65 (partial: strings that upper-casing leaves as they are). Full statement: for all strings, with the modifier rows are ordered by
the strings themselves, without it by the upper-case strings. Missing: strings with lower-case letters, for which it is the other way
round, see `C65_inverted` and `C65_modifier_false`. -/
theorem C65_order_partial (t : Table P) (depth : Nat) (term : OrderingTerm) (obs : List OrderBy) (c : Column) (l r : Row P) (a b : Str)
    (h : orderBy t [term] = .ok obs) (hc : t.columnByName term.column = some c) (hi : t.column c.index = some c) (hs : c.type = .string)
    (hd : term.desc = false) (ha : HasString t depth l c.index a) (hb : HasString t depth r c.index b) (ua : P.upper a = a)
    (ub : P.upper b = b) :
    less t depth l r obs = .ok (if term.exactMatchModifier then strLt a b else strLt (P.upper a) (P.upper b)) := by
  rw [C65_inverted t depth term obs c l r a b h hc hi hs hd ha hb, ua, ub]

/-! ### A concrete parser -/

/-- A signal ID made of a byte. -/
def guidNo (b : Byte) : Guid.Guid := ⟨b :: List.replicate 15 0#8, by simp⟩

/-- A row of the example table. -/
def demoRow (n : Nat) (id : Option Guid.Guid) (key tag : String) (a : Option Int) : Row Toy.prim :=
  { id := n, values := [id.map .guid, some (.string (lit key)), some (.string (lit tag)), a.map fun a => .int32 (BitVec.ofInt 32 a)] }

/-- Signals of which two share a signal ID, one has none, and one row is missing. -/
def demoTable : Table Toy.prim where
  columnIndexes := fun n => if n = lit "SIGNALID" then some 0 else if n = lit "ID" then some 1 else if n = lit "POINTTAG" then some 2
    else if n = lit "A" then some 3 else none
  columns := [{ name := lit "SignalID", type := .guid, expression := [], index := 0 },
    { name := lit "ID", type := .string, expression := [], index := 1 },
    { name := lit "PointTag", type := .string, expression := [], index := 2 },
    { name := lit "A", type := .int32, expression := [], index := 3 }]
  rows := [some (demoRow 0 (some (guidNo 1)) "PPA:1" "alpha" (some 3)), none, some (demoRow 1 (some (guidNo 2)) "PPA:2" "Beta" (some 1)),
    some (demoRow 2 (some (guidNo 1)) "ppa:2" "gamma" (some 5)), some (demoRow 3 none "PPA:4" "delta" none)]
  parse := fun _ => none

def demoParser : Parser Toy.prim where
  tables := fun n => if Toy.upper n = lit "T" then some (lit "T", demoTable) else none
  primary := lit "T"
  idFields := fun n => if n = lit "T" then some ⟨lit "SignalID", lit "ID", lit "PointTag"⟩ else none
  trackIDs := true

/-- `A > 2` -/
def demoRoot : Tree Toy.prim := .op .greaterThan (.column 3) (.value (.int32 2))

/-- The row IDs and the signal IDs found. -/
def summary (x : Res (Found Toy.prim)) : Option (List Nat × List Guid.Guid) :=
  match x with
  | .ok st => some (st.rows.map Row.id, st.ids)
  | _ => none

/-- Alone, the filter `A > 2` finds rows 0 and 2, which have the same signal ID, and the row with a null is left out. -/
theorem demo_filter : summary (demoParser.evaluate insertionSort 1 false false [.filter (lit "t") none [] demoRoot]) =
    some ([0, 2], [guidNo 1, guidNo 1]) := by decide +kernel

/-- With other statements the duplicates are gone: the key finds row 1, the first with this key in any letter case, and so do the signal
ID of this row and its tag; signal ID 9 has no row. -/
theorem demo_union : summary (demoParser.evaluate insertionSort 1 false false
      [.measurementKey (lit "ppa:2"), .filter (lit "t") none [] demoRoot, .guid (guidNo 2), .pointTag (lit "BETA"), .guid (guidNo 9)]) =
    some ([1, 0, 2], [guidNo 2, guidNo 9, guidNo 1]) := by decide +kernel

theorem summary_some {x : Res (Found Toy.prim)} {o : List Nat × List Guid.Guid} (h : summary x = some o) :
    ∃ st, x = .ok st ∧ st.rows.map Row.id = o.1 ∧ st.ids = o.2 := by
  cases x with
  | ok st => injection h with h; subst h; exact ⟨st, rfl, rfl, rfl⟩
  | err => cases h
  | panic => cases h

/-- `C54_succeeds` on the five statements. -/
example : ∀ s ∈ ([.measurementKey (lit "ppa:2"), .filter (lit "t") none [] demoRoot, .guid (guidNo 2), .pointTag (lit "BETA"),
    .guid (guidNo 9)] : List (Statement Toy.prim)), ∃ st, demoParser.evaluate insertionSort 1 false false [s] = .ok st := by
  obtain ⟨st, h, -⟩ := summary_some demo_union
  exact (C54_succeeds _ _ _ _ _ _ (.inl rfl)).mp ⟨st, h⟩

/-- `C54_union` on the five statements: row 2 comes from the filter alone. -/
example : ∃ s ∈ ([.measurementKey (lit "ppa:2"), .filter (lit "t") none [] demoRoot, .guid (guidNo 2), .pointTag (lit "BETA"),
    .guid (guidNo 9)] : List (Statement Toy.prim)), ∃ st', demoParser.evaluate insertionSort 1 false false [s] = .ok st' ∧
      2 ∈ st'.rows.map Row.id := by
  obtain ⟨st, h, e, -⟩ := summary_some demo_union
  exact ((C54_union _ _ _ _ _ _ st h).1 2).mp (by rw [e]; decide)

/-- The rows of the example table. -/
theorem demo_rows {Q : Row Toy.prim → Prop} (h0 : Q (demoRow 0 (some (guidNo 1)) "PPA:1" "alpha" (some 3)))
    (h1 : Q (demoRow 1 (some (guidNo 2)) "PPA:2" "Beta" (some 1))) (h2 : Q (demoRow 2 (some (guidNo 1)) "ppa:2" "gamma" (some 5)))
    (h3 : Q (demoRow 3 none "PPA:4" "delta" none)) : ∀ r ∈ present? demoTable.rows, Q r := by
  intro r hr
  simp only [present?, demoTable, List.filterMap_cons, List.filterMap_nil, id_eq, List.mem_cons, List.not_mem_nil, or_false] at hr
  rcases hr with rfl | rfl | rfl | rfl
  · exact h0
  · exact h1
  · exact h2
  · exact h3

/-- `C54_filter_statement` with its hypotheses met. -/
example : ∃ st, demoParser.evaluate insertionSort 1 false false [.filter (lit "t") none [] demoRoot] = .ok st ∧
    st.rows = (present? demoTable.rows).filter fun r => isTrue (eval (r.column demoTable 1) demoRoot) := by
  obtain ⟨st, h, -⟩ := summary_some demo_filter
  exact ⟨st, h, (C54_filter_statement _ _ _ _ _ _ _ _ _ (lit "T") demoTable (by decide) rfl
    (demo_rows ⟨_, rfl⟩ ⟨_, rfl⟩ ⟨_, rfl⟩ ⟨_, rfl⟩) h).1 rfl⟩

/-- `C54_expression_statement`. -/
example : ∃ st, demoParser.evaluate insertionSort 1 true false [.expression demoRoot] = .ok st ∧
    st.rows = (present? demoTable.rows).filter fun r => isTrue (eval (r.column demoTable 1) demoRoot) := by
  obtain ⟨st, h, -⟩ := summary_some (x := demoParser.evaluate insertionSort 1 true false [.expression demoRoot])
    (o := ([0, 2], [guidNo 1, guidNo 1])) (by decide +kernel)
  exact ⟨st, h, (C54_expression_statement _ _ _ _ _ _ (lit "T") demoTable rfl (demo_rows ⟨_, rfl⟩ ⟨_, rfl⟩ ⟨_, rfl⟩ ⟨_, rfl⟩) h).1 rfl⟩

/-- `C54_guid_statement` for a signal ID that two rows have. -/
example : ∃ st, demoParser.evaluate insertionSort 1 false false [.guid (guidNo 1)] = .ok st ∧ st.ids = [guidNo 1] ∧
    st.rows.map Row.id = [0] := by
  obtain ⟨st, h, -⟩ := summary_some (x := demoParser.evaluate insertionSort 1 false false [.guid (guidNo 1)])
    (o := ([0], [guidNo 1])) (by decide +kernel)
  obtain ⟨h1, h2⟩ := C54_guid_statement _ _ _ _ _ _ _ (lit "T") demoTable _ _ (by decide) rfl rfl rfl
    (demo_rows (by intro h; cases h) (by intro h; cases h) (by intro h; cases h) (by intro h; cases h)) h
  exact ⟨st, h, h1 rfl, by rw [h2 rfl]; rfl⟩

/-- `C54_key_statement` for a key that two rows have in different letter case. -/
example : ∃ st, demoParser.evaluate insertionSort 1 false false [.measurementKey (lit "pPa:2")] = .ok st ∧ st.rows.map Row.id = [1] := by
  obtain ⟨st, h, -⟩ := summary_some (x := demoParser.evaluate insertionSort 1 false false [.measurementKey (lit "pPa:2")])
    (o := ([1], [guidNo 2])) (by decide +kernel)
  have h2 := C54_key_statement _ _ _ _ _ _ _ (lit "T") demoTable _ _ _ rfl rfl rfl rfl
    (demo_rows (by intro h; cases h) (by intro h; cases h) (by intro h; cases h) (by intro h; cases h)) h
  exact ⟨st, h, by rw [h2.1 rfl]; rfl⟩

/-- `C54_tag_statement`. -/
example : ∃ st, demoParser.evaluate insertionSort 1 false false [.pointTag (lit "GAMMA")] = .ok st ∧ st.rows.map Row.id = [2] := by
  obtain ⟨st, h, -⟩ := summary_some (x := demoParser.evaluate insertionSort 1 false false [.pointTag (lit "GAMMA")])
    (o := ([2], [guidNo 1])) (by decide +kernel)
  have h2 := C54_tag_statement _ _ _ _ _ _ _ (lit "T") demoTable _ _ _ rfl rfl rfl rfl
    (demo_rows (by intro h; cases h) (by intro h; cases h) (by intro h; cases h) (by intro h; cases h)) h
  exact ⟨st, h, by rw [h2.1 rfl]; rfl⟩

/-- `ORDER BY BINARY PointTag` puts "alpha" before "Beta", though in an exact comparison "Beta" comes first; without `BINARY` it is the
other way round. -/
theorem C65_modifier_false :
    strLt (lit "Beta") (lit "alpha") = true ∧ strLt (Toy.upper (lit "alpha")) (Toy.upper (lit "Beta")) = true ∧
    (∃ obs, orderBy demoTable [⟨lit "PointTag", false, true⟩] = .ok obs ∧
      less demoTable 1 (demoRow 0 (some (guidNo 1)) "PPA:1" "alpha" (some 3)) (demoRow 1 (some (guidNo 2)) "PPA:2" "Beta" (some 1)) obs =
        .ok true) ∧
    (∃ obs, orderBy demoTable [⟨lit "PointTag", false, false⟩] = .ok obs ∧
      less demoTable 1 (demoRow 1 (some (guidNo 2)) "PPA:2" "Beta" (some 1)) (demoRow 0 (some (guidNo 1)) "PPA:1" "alpha" (some 3)) obs =
        .ok true) := by
  refine ⟨by decide, by decide, ⟨_, rfl, ?_⟩, ⟨_, rfl, ?_⟩⟩
  · exact C65_inverted demoTable 1 ⟨lit "PointTag", false, true⟩ _ _ _ _ (lit "alpha") (lit "Beta") rfl rfl rfl rfl rfl rfl rfl
  · exact C65_inverted demoTable 1 ⟨lit "PointTag", false, false⟩ _ _ _ _ (lit "Beta") (lit "alpha") rfl rfl rfl rfl rfl rfl rfl

/-- `C65_order_partial` on the keys of the first two rows. -/
example : ∃ obs, orderBy demoTable [⟨lit "ID", false, true⟩] = .ok obs ∧
    less demoTable 1 (demoRow 0 (some (guidNo 1)) "PPA:1" "alpha" (some 3)) (demoRow 1 (some (guidNo 2)) "PPA:2" "Beta" (some 1)) obs =
      .ok true :=
  ⟨_, rfl, C65_order_partial demoTable 1 ⟨lit "ID", false, true⟩ _ _ _ _ (lit "PPA:1") (lit "PPA:2") rfl rfl rfl rfl rfl rfl rfl
    (by decide) (by decide)⟩

end Verif.Table.Parser
