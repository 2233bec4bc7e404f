import Verif.Data.LoadProps
import Verif.Expr.Toy

/-!
# C67: the records, the round trip, and what goes wrong
-/

namespace Verif.Data

open Verif.Expr (Prim Str lit)
open Verif.Table (Table Column Row DT Cell)
open Text

variable {P : Prim}

/-! ### The records -/

/-- The columns of a table are those written, in order, and are found by name. -/
structure Layout (t : Table P) (cols : List (Str × DT × Str)) : Prop where
  columns : t.columns = cols.mapIdx colAt
  byName : ∀ (i : Nat) c, cols[i]? = some c → t.columnByName c.1 = some (colAt i c)

theorem Layout.column {t : Table P} {cols : List (Str × DT × Str)} (h : Layout t cols) {i : Nat} {c} (hc : cols[i]? = some c) :
    t.column i = some (colAt i c) := by
  have hi : i < cols.length := by
    rcases Nat.lt_or_ge i cols.length with h | h
    · exact h
    · rw [List.getElem?_eq_none h] at hc; cases hc
  unfold Table.column
  rw [h.columns, List.length_mapIdx, if_neg (by omega), Int.toNat_natCast, List.getElem?_mapIdx, hc]
  rfl

theorem layout_schema (X : XmlLib P) (T : TableDef P) (hT : Fits X T) : Layout (schemaTable X T) T.cols := by
  have hcol : (schemaTable X T).columns = T.cols.mapIdx colAt := by
    show (T.cols.foldl addColumn (emptyTable P)).columns = _
    rw [(fold_columns T.cols (emptyTable P)).1]
    simp [emptyTable]
  refine ⟨hcol, ?_⟩
  intro i c hc
  have hi : (schemaTable X T).columnIndexes (P.upper c.1) = some i := by
    have := fold_index T.cols (emptyTable P) hT.distinct i c hc
    rw [show (emptyTable P).columns.length + i = i from Nat.zero_add i] at this
    exact this
  have hl : i < T.cols.length := by
    rcases Nat.lt_or_ge i T.cols.length with h | h
    · exact h
    · rw [List.getElem?_eq_none h] at hc; cases hc
  unfold Table.columnByName
  rw [hi]
  dsimp only
  unfold Table.column
  rw [hcol, List.length_mapIdx, if_neg (by omega), Int.toNat_natCast, List.getElem?_mapIdx, hc]
  rfl

theorem setValue_at (t : Table P) (r : Row P) (k : Nat) (c : Column) (v : Option (Cell P)) (hc : t.column k = some c)
    (he : c.computed = false) (hk : k < r.values.length) : r.setValue t k v = .ok { r with values := r.values.set k v } := by
  unfold Row.setValue Row.validateColumnType
  rw [hc]
  dsimp only
  rw [if_neg (by simp), if_neg (by simp [he])]
  simp only [Res.bind_ok]
  rw [if_neg (by omega), Int.toNat_natCast]
  rfl

/-- The fields of a record fill a row from the left. -/
theorem fields_fill (X : XmlLib P) (t : Table P) (cols : List (Str × DT × Str)) (row : List (Option (Cell P))) (id : Nat)
    (done : List (Option (Cell P))) (hf : List.Forall₂ (CellFits X) cols row) (hu : ∀ c ∈ cols, c.2.1 ≠ .undefined)
    (hn : ∀ (i : Nat) c, cols[i]? = some c → t.columnByName c.1 = some (colAt (done.length + i) c) ∧
      t.column ((done.length + i : Nat) : Int) = some (colAt (done.length + i) c)) :
    setFields X t (fieldElements X cols row) { id := id, values := done ++ List.replicate cols.length none } =
      .ok { id := id, values := done ++ row.map (Option.map asRead) } := by
  induction hf generalizing done with
  | nil => rfl
  | @cons c v cs vs h1 h2 ih =>
    have hrest : ∀ (i : Nat) d, cs[i]? = some d → t.columnByName d.1 = some (colAt ((done ++ [v.map asRead]).length + i) d) ∧
        t.column (((done ++ [v.map asRead]).length + i : Nat) : Int) = some (colAt ((done ++ [v.map asRead]).length + i) d) := by
      intro i d hd
      have := hn (i + 1) d hd
      rw [List.length_append, List.length_singleton, Nat.add_assoc, Nat.add_comm 1 i]
      exact this
    have hi := ih (done ++ [v.map asRead]) (fun x hx => hu x (by simp [hx])) hrest
    have ha : ∀ l : List (Option (Cell P)), done ++ [v.map asRead] ++ l = done ++ v.map asRead :: l := by intro l; simp
    rw [ha, ha] at hi
    rw [List.map_cons]
    cases v with
    | none => exact hi
    | some x =>
      obtain ⟨hx1, hx2, hx3⟩ := h1 x rfl
      obtain ⟨hb, hc⟩ := hn 0 c rfl
      rw [Nat.add_zero] at hb hc
      have hv : fieldValue X c.2.1 (cellText X x) = some (asRead x) := by
        rw [← hx1]
        exact value_back X x (by rw [hx1]; exact hu c (by simp)) hx3
      have hs : setField X t { id := id, values := done ++ List.replicate (c :: cs).length none } (.node c.1 [] [] (cellText X x) []) =
          .ok { id := id, values := done ++ some (asRead x) :: List.replicate cs.length none } := by
        unfold setField
        show (match t.columnByName c.1 with | none => _ | some c => _) = _
        rw [hb]
        dsimp only [colAt, Xml.Tree.inner]
        rw [hv]
        dsimp only
        rw [setValue_at t _ done.length (colAt done.length c) (some (asRead x)) hc (by simp [Column.computed, colAt, hx2]) (by simp)]
        simp [List.replicate_succ]
      simp only [fieldElements, setFields, hs, Res.bind_ok]
      exact hi

/-- The values of the rows. -/
def values (t : Table P) : List (Option (List (Option (Cell P)))) := t.rows.map (Option.map Row.values)

theorem records_back (X : XmlLib P) (T : TableDef P) (hT : Fits X T) (rows : List (List (Option (Cell P)))) (hr : ∀ row ∈ rows, row ∈ T.rows)
    (t : Table P) (hl : Layout t T.cols) :
    ∃ t', addRecords X (rows.map (rowElement X T)) t = .ok t' ∧ Layout t' T.cols ∧ t'.parse = t.parse ∧
      values t' = values t ++ rows.map fun row => some (row.map (Option.map asRead)) := by
  induction rows generalizing t with
  | nil => exact ⟨t, rfl, hl, rfl, by simp⟩
  | cons row rows ih =>
    have hfill := fields_fill X t T.cols row t.rows.length [] (hT.rows row (hr row (by simp))) (fun c hc => (hT.cols c hc).2)
      (fun i c hc => by
        rw [List.length_nil, Nat.zero_add]
        exact ⟨hl.byName i c hc, hl.column hc⟩)
    have hlen : t.columns.length = T.cols.length := by rw [hl.columns, List.length_mapIdx]
    obtain ⟨t', h1, h2, h3, h4⟩ := ih (fun x hx => hr x (by simp [hx])) { t with rows := t.rows ++ [some ⟨t.rows.length, row.map (Option.map asRead)⟩] }
      ⟨hl.columns, hl.byName⟩
    refine ⟨t', ?_, h2, h3, ?_⟩
    · rw [List.map_cons]
      simp only [addRecords]
      rw [hlen]
      show (setFields X t (fieldElements X T.cols row) { id := t.rows.length, values := [] ++ List.replicate T.cols.length none } >>= _) = _
      rw [hfill]
      exact h1
    · rw [h4]
      simp [values]

/-- The children of the document with the name of a table are its rows. -/
theorem filter_rows (X : XmlLib P) (D : List (TableDef P)) (hd : (D.map fun T => P.upper T.name).Nodup) (T : TableDef P) (hT : T ∈ D) :
    ((D.flatMap fun T => T.rows.map (rowElement X T)).filter fun c => c.name = T.name) = T.rows.map (rowElement X T) := by
  have same : ((T.rows.map (rowElement X T)).filter fun c => c.name = T.name) = T.rows.map (rowElement X T) := by
    rw [List.filter_eq_self]
    intro c hc
    obtain ⟨row, -, rfl⟩ := List.mem_map.mp hc
    simp [rowElement, Xml.Tree.name]
  have diff : ∀ U : TableDef P, U.name ≠ T.name → ((U.rows.map (rowElement X U)).filter fun c => c.name = T.name) = [] := by
    intro U hU
    rw [List.filter_eq_nil_iff]
    intro c hc
    obtain ⟨row, -, rfl⟩ := List.mem_map.mp hc
    show ¬ decide (U.name = T.name) = true
    simpa using hU
  induction D with
  | nil => cases hT
  | cons U D ih =>
    rw [List.map_cons, List.nodup_cons] at hd
    rw [List.flatMap_cons, List.filter_append]
    rcases List.mem_cons.mp hT with rfl | hT
    · rw [same]
      have : ((D.flatMap fun T => T.rows.map (rowElement X T)).filter fun c => c.name = T.name) = [] := by
        rw [List.filter_eq_nil_iff]
        intro c hc
        obtain ⟨V, hV, hc⟩ := List.mem_flatMap.mp hc
        have hne : V.name ≠ T.name := by
          intro e
          exact hd.1 (List.mem_map.mpr ⟨V, hV, by rw [e]⟩)
        exact List.filter_eq_nil_iff.mp (diff V hne) c hc
      rw [this, List.append_nil]
    · have hne : U.name ≠ T.name := by
        intro e
        exact hd.1 (List.mem_map.mpr ⟨T, hT, by rw [e]⟩)
      rw [diff U hne, ih hd.2 hT, List.nil_append]

/-- What is to be found for a table: its name, its columns in order with their types and expressions, the columns by name ignoring case,
and its rows in order with their values. -/
structure Loaded (X : XmlLib P) (T : TableDef P) (n : Named P) : Prop where
  name : n.name = T.name
  columns : n.table.columns = T.cols.mapIdx fun i c => { name := c.1, type := c.2.1, expression := c.2.2, index := i }
  byName : ∀ (i : Nat) c, T.cols[i]? = some c →
    n.table.columnByName c.1 = some { name := c.1, type := c.2.1, expression := c.2.2, index := i }
  parse : n.table.parse = X.parse n.table.columns
  rows : n.table.rows.map (Option.map Row.values) = T.rows.map some

theorem load_back (X : XmlLib P) (px name : Str) (D : List (TableDef P)) (hd : (D.map fun T => P.upper T.name).Nodup)
    (D' : List (TableDef P)) (hsub : ∀ T ∈ D', T ∈ D) (hD : ∀ T ∈ D', Fits X T) :
    ∃ ds, loadRecords X (render X px name D) (D'.map (entry X)) = .ok ds ∧
      List.Forall₂ (fun T e => e.1 = P.upper T.name ∧ Loaded X T.asRead e.2) D' ds := by
  induction D' with
  | nil => exact ⟨[], rfl, List.Forall₂.nil⟩
  | cons T D' ih =>
    obtain ⟨ds, h1, h2⟩ := ih (fun x hx => hsub x (by simp [hx])) (fun x hx => hD x (by simp [hx]))
    have hT := hD T (by simp)
    have hl := layout_schema X T hT
    have hf : ((render X px name D).children.filter fun c => c.name = T.name) = T.rows.map (rowElement X T) := by
      rw [← filter_rows X D hd T (hsub T (by simp))]
      show List.filter _ (schemaElement px name D :: _) = _
      rw [List.filter_cons, if_neg]
      show ¬ decide (lit "schema" = T.name) = true
      rw [decide_eq_true_eq]
      exact fun e => hT.notSchema e.symm
    obtain ⟨t, h3, h4, h5, h6⟩ := records_back X T hT T.rows (fun _ h => h) { schemaTable X T with rows := [] } ⟨hl.columns, hl.byName⟩
    refine ⟨(P.upper T.name, ⟨T.name, t⟩) :: ds, ?_, List.Forall₂.cons ⟨rfl, ?_⟩ h2⟩
    · show loadRecords X _ ((P.upper T.name, (⟨T.name, schemaTable X T⟩ : Named P)) :: D'.map (entry X)) = _
      simp only [loadRecords]
      rw [hf, h3, h1]
      rfl
    · exact ⟨rfl, h4.columns, h4.byName, by
        rw [h4.columns]
        show t.parse = _
        rw [h5]
        show X.parse (T.cols.foldl addColumn (emptyTable P)).columns = _
        exact congrArg X.parse hl.columns, by
        have : values t = T.asRead.rows.map some := by rw [h6]; simp [values, TableDef.asRead]
        exact this⟩

theorem found (X : XmlLib P) (D : List (TableDef P)) (hd : (D.map fun T => P.upper T.name).Nodup) (ds : DataSet P)
    (h : List.Forall₂ (fun T e => e.1 = P.upper T.name ∧ Loaded X T.asRead e.2) D ds) (T : TableDef P) (hT : T ∈ D) (x : Str)
    (hx : P.upper x = P.upper T.name) : ∃ n, ds.find x = some n ∧ Loaded X T.asRead n := by
  unfold DataSet.find GoMap.get
  rw [hx]
  induction h with
  | nil => cases hT
  | @cons U e D ds h1 h2 ih =>
    rw [List.map_cons, List.nodup_cons] at hd
    rcases List.mem_cons.mp hT with rfl | hT
    · exact ⟨e.2, by rw [List.find?_cons_of_pos (by simpa using h1.1)]; rfl, h1.2⟩
    · obtain ⟨n, hn⟩ := ih hd.2 hT
      have hne : ¬ e.1 = P.upper T.name := by
        rw [h1.1]
        intro he
        exact hd.1 (List.mem_map.mpr ⟨T, hT, he.symm⟩)
      exact ⟨n, by rw [List.find?_cons_of_neg (by simpa using hne)]; exact hn.1, hn.2⟩

theorem not_found (X : XmlLib P) (D : List (TableDef P)) (ds : DataSet P)
    (h : List.Forall₂ (fun T e => e.1 = P.upper T.name ∧ Loaded X T.asRead e.2) D ds) (x : Str)
    (hx : ∀ T ∈ D, P.upper T.name ≠ P.upper x) : ds.find x = none := by
  unfold DataSet.find GoMap.get
  induction h with
  | nil => rfl
  | @cons U e D ds h1 h2 ih =>
    rw [List.find?_cons_of_neg (by rw [h1.1]; simpa using hx U (by simp))]
    exact ih (fun T hT => hx T (by simp [hT]))

theorem prefix_written (px name : Str) (hpx : px ≠ lit "id" ∧ px ≠ lit "ext") (D : List (TableDef P)) (hne : name ≠ schemaSpace) (pre : Str)
    (h : IsPrefix (schemaElement px name D) pre) : pre = px := by
  have ha : ∀ q, Xml.attrOf (schemaElement px name D) q = some schemaSpace ↔ q = px := by
    intro q
    have : Xml.attrOf (schemaElement px name D) q = (([(lit "id", [], name), (lit "ext", lit "xmlns", extSpace), (px, lit "xmlns", schemaSpace)] :
        List (Str × Str × Str)).find? fun a => a.1 == q).map fun a => a.2.2 := rfl
    rw [this]
    by_cases h1 : lit "id" = q
    · subst h1
      rw [List.find?_cons_of_pos (by simp)]
      constructor
      · intro e
        injection e with e
        exact absurd e hne
      · intro e
        exact absurd e.symm hpx.1
    · rw [List.find?_cons_of_neg (by simpa using h1)]
      by_cases h3 : lit "ext" = q
      · subst h3
        rw [List.find?_cons_of_pos (by simp)]
        constructor
        · intro e
          injection e with e
          exact absurd e (by decide)
        · intro e
          exact absurd e.symm hpx.2
      · rw [List.find?_cons_of_neg (by simpa using h3)]
        by_cases h2 : px = q
        · subst h2
          rw [List.find?_cons_of_pos (by simp)]
          simp
        · rw [List.find?_cons_of_neg (by simpa using h2)]
          simp only [List.find?_nil, Option.map_none]
          constructor
          · intro e; cases e
          · intro e; exact absurd e.symm h2
  rcases h with h | ⟨-, h⟩
  · exact (ha pre).mp h
  · exact absurd ((ha _).mpr rfl) (h px)

/-- A prefix to which the schema namespace can be bound, with an attribute `id` and the prefix `ext` beside it. -/
def Bindable (px : Str) : Prop := px ≠ [] ∧ px ≠ lit "id" ∧ px ≠ lit "ext"

/-- A data set loads as it was written, but for the characters of strings that are escaped: they come back as escaped. -/
theorem C67_loads (X : XmlLib P) (px name : Str) (hpx : Bindable px) (D : List (TableDef P)) (hne : name ≠ schemaSpace) (hD : ∀ T ∈ D, Fits X T)
    (hd : (D.map fun T => P.upper T.name).Nodup) (pre : Str) (hp : IsPrefix (schemaElement px name D) pre) :
    ∃ ds, parseDocument X pre (render X px name D) [] = .ok ds ∧
      (∀ T ∈ D, ∀ x, P.upper x = P.upper T.name → ∃ n, ds.find x = some n ∧ Loaded X T.asRead n) ∧
      (∀ x, (∀ T ∈ D, P.upper T.name ≠ P.upper x) → ds.find x = none) := by
  obtain ⟨ds, h1, h2⟩ := load_back X px name D hd D (fun _ h => h) hD
  refine ⟨ds, ?_, fun T hT x hx => found X D hd ds h2 T hT x hx, fun x hx => not_found X D ds h2 x hx⟩
  rw [prefix_written px name ⟨hpx.2.1, hpx.2.2⟩ D hne pre hp]
  unfold parseDocument
  have hs : ((render X px name D).children.find? fun c => c.name = lit "schema") = some (schemaElement px name D) :=
    List.find?_cons_of_pos (by simp [schemaElement, Xml.Tree.name])
  rw [hs]
  dsimp only
  have hi : Xml.attrOf (schemaElement px name D) (lit "id") = some name := rfl
  rw [hi]
  dsimp only
  rw [if_neg (by simp [render, Xml.Tree.name]), if_neg (by simp [schemaElement, Xml.Tree.space]), schema_back X px name hpx.1 D hD hd]
  exact h1

/-- A data set loads as it was written. Partial: there must be nothing to escape in its strings. -/
theorem C67_round_trip_partial (X : XmlLib P) (px name : Str) (hpx : Bindable px) (D : List (TableDef P)) (hne : name ≠ schemaSpace) (hD : ∀ T ∈ D, Fits X T)
    (hs : ∀ T ∈ D, Unescaped T) (hd : (D.map fun T => P.upper T.name).Nodup) (pre : Str) (hp : IsPrefix (schemaElement px name D) pre) :
    ∃ ds, parseDocument X pre (render X px name D) [] = .ok ds ∧
      (∀ T ∈ D, ∀ x, P.upper x = P.upper T.name → ∃ n, ds.find x = some n ∧ Loaded X T n) ∧
      (∀ x, (∀ T ∈ D, P.upper T.name ≠ P.upper x) → ds.find x = none) := by
  obtain ⟨ds, h1, h2, h3⟩ := C67_loads X px name hpx D hne hD hd pre hp
  refine ⟨ds, h1, fun T hT x hx => ?_, h3⟩
  obtain ⟨n, hn, hl⟩ := h2 T hT x hx
  exact ⟨n, hn, by rw [asRead_eq T (hs T hT)] at hl; exact hl⟩

/-! ### Any document -/

/-- Every column found by name is at its own index. -/
def Sound (t : Table P) : Prop := ∀ x i, t.columnIndexes x = some i → ∃ c, t.columns[i]? = some c ∧ c.index = i

theorem sound_addColumn (t : Table P) (h : Sound t) (c : Str × DT × Str) : Sound (addColumn t c) := by
  intro x i hi
  simp only [addColumn] at hi ⊢
  by_cases hx : x = P.upper c.1
  · rw [if_pos hx] at hi
    injection hi with hi
    subst hi
    exact ⟨_, by rw [List.getElem?_append_right (Nat.le_refl _), Nat.sub_self]; rfl, rfl⟩
  · rw [if_neg hx] at hi
    obtain ⟨d, h1, h2⟩ := h x i hi
    refine ⟨d, ?_, h2⟩
    rw [List.getElem?_append_left]
    · exact h1
    · rcases Nat.lt_or_ge i t.columns.length with h | h
      · exact h
      · rw [List.getElem?_eq_none h] at h1; cases h1

theorem sound_addFields (pre : Str) (fields : List Xml.Node) (t : Table P) (h : Sound t) : Sound (addFields pre t fields) := by
  unfold addFields
  induction fields generalizing t with
  | nil => exact h
  | cons f fields ih =>
    rw [List.foldl_cons]
    apply ih
    cases fieldColumn pre f.tree with
    | none => exact h
    | some c => exact sound_addColumn t h c

/-- All tables of a data set are sound. -/
def AllSound (ds : DataSet P) : Prop := ∀ e ∈ ds, Sound e.2.table

theorem sound_set (ds : DataSet P) (h : AllSound ds) (k : Str) (n : Named P) (hn : Sound n.table) : AllSound (GoMap.set ds k n) := by
  unfold GoMap.set
  split
  · intro e he
    obtain ⟨p, hp, rfl⟩ := List.mem_map.mp he
    split
    · exact hn
    · exact h p hp
  · intro e he
    rcases List.mem_append.mp he with he | he
    · exact h e he
    · rw [List.mem_singleton] at he
      subst he
      exact hn

theorem addTable_total (X : XmlLib P) (pre : Str) (ds : DataSet P) (h : AllSound ds) (n : Xml.Node) :
    ∃ ds', addTable X pre ds n = .ok ds' ∧ AllSound ds' := by
  unfold addTable
  cases Xml.attrOf n.tree (lit "name") with
  | none => exact ⟨ds, rfl, h⟩
  | some name =>
    dsimp only
    by_cases hl : name.length = 0
    · rw [if_pos hl]
      exact ⟨ds, rfl, h⟩
    · rw [if_neg hl]
      obtain ⟨rs, h1, -⟩ := select_descend (textLib P) n (lit "complexType/sequence/element") (by decide)
      rw [h1]
      refine ⟨_, rfl, sound_set ds h _ _ ?_⟩
      have : Sound (emptyTable P) := by intro x i hi; cases hi
      exact sound_addFields pre rs _ this

theorem addTables_total (X : XmlLib P) (pre : Str) (ns : List Xml.Node) (ds : DataSet P) (h : AllSound ds) :
    ∃ ds', addTables X pre ns ds = .ok ds' ∧ AllSound ds' := by
  induction ns generalizing ds with
  | nil => exact ⟨ds, rfl, h⟩
  | cons n ns ih =>
    obtain ⟨d1, h1, h2⟩ := addTable_total X pre ds h n
    simp only [addTables, h1, Res.bind_ok]
    exact ih d1 h2

theorem validate_total (t : Table P) (i : Int) : Row.validateColumnType t i none false ≠ .panic := by
  unfold Row.validateColumnType
  cases t.column i with
  | none => simp
  | some c =>
    dsimp only
    split
    · simp
    · split <;> simp

theorem setField_total (X : XmlLib P) (t : Table P) (h : Sound t) (r : Row P) (hr : r.values.length = t.columns.length) (f : Xml.Tree) :
    ∃ r', setField X t r f = .ok r' ∧ r'.values.length = t.columns.length := by
  unfold setField
  cases hc : t.columnByName f.name with
  | none => exact ⟨r, rfl, hr⟩
  | some c =>
    dsimp only
    have hidx : 0 ≤ c.index ∧ c.index < t.columns.length := by
      unfold Table.columnByName at hc
      cases hi : t.columnIndexes (P.upper f.name) with
      | none => rw [hi] at hc; cases hc
      | some i =>
        rw [hi] at hc
        dsimp only at hc
        obtain ⟨d, h1, h2⟩ := h _ i hi
        unfold Table.column at hc
        split at hc
        · cases hc
        · rename_i hn
          rw [Int.toNat_natCast, h1] at hc
          injection hc with hc
          subst hc
          rw [h2]
          omega
    cases fieldValue X c.type f.inner with
    | none => exact ⟨r, rfl, hr⟩
    | some v =>
      dsimp only
      unfold Row.setValue
      cases hv : Row.validateColumnType t c.index none false with
      | err => exact ⟨r, rfl, hr⟩
      | panic => exact absurd hv (validate_total t c.index)
      | ok d =>
        simp only [Res.bind_ok]
        rw [if_neg (by omega)]
        exact ⟨_, rfl, by simpa using hr⟩

theorem setFields_total (X : XmlLib P) (t : Table P) (h : Sound t) (fs : List Xml.Tree) (r : Row P)
    (hr : r.values.length = t.columns.length) : ∃ r', setFields X t fs r = .ok r' ∧ r'.values.length = t.columns.length := by
  induction fs generalizing r with
  | nil => exact ⟨r, rfl, hr⟩
  | cons f fs ih =>
    obtain ⟨r1, h1, h2⟩ := setField_total X t h r hr f
    simp only [setFields, h1, Res.bind_ok]
    exact ih r1 h2

theorem addRecords_total (X : XmlLib P) (recs : List Xml.Tree) (t : Table P) (h : Sound t) :
    ∃ t', addRecords X recs t = .ok t' ∧ t'.columns = t.columns ∧ t'.columnIndexes = t.columnIndexes ∧
      t'.rows.length = t.rows.length + recs.length ∧
      ∀ r ∈ t'.rows, r ∈ t.rows ∨ ∃ r', r = some r' ∧ r'.values.length = t.columns.length := by
  induction recs generalizing t with
  | nil => exact ⟨t, rfl, rfl, rfl, rfl, fun r hr => Or.inl hr⟩
  | cons rec recs ih =>
    obtain ⟨r1, h1, h2⟩ := setFields_total X t h rec.children { id := t.rows.length, values := List.replicate t.columns.length none } (by simp)
    obtain ⟨t', h3, h4, h5, h6, h7⟩ := ih { t with rows := t.rows ++ [some r1] } h
    refine ⟨t', ?_, h4, h5, ?_, ?_⟩
    · simp only [addRecords, h1, Res.bind_ok]
      exact h3
    · rw [h6]
      show (t.rows ++ [some r1]).length + recs.length = _
      simp only [List.length_append, List.length_cons, List.length_nil]
      omega
    · intro r hr
      rcases h7 r hr with hr | hr
      · rcases List.mem_append.mp hr with hr | hr
        · exact Or.inl hr
        · rw [List.mem_singleton] at hr
          exact Or.inr ⟨r1, hr, h2⟩
      · exact Or.inr hr

/-- What holds of each loaded table, for any document: as many rows as the root has children with the table's name, all of full width. -/
def Shaped (root : Xml.Tree) (n : Named P) : Prop :=
  n.table.rows.length = (root.children.filter fun c => c.name = n.name).length ∧
    ∀ r ∈ n.table.rows, ∃ r', r = some r' ∧ r'.values.length = n.table.columns.length

theorem loadRecords_total (X : XmlLib P) (root : Xml.Tree) (ds : DataSet P) (h : AllSound ds) :
    ∃ ds', loadRecords X root ds = .ok ds' ∧ ∀ e ∈ ds', Shaped root e.2 := by
  induction ds with
  | nil => exact ⟨[], rfl, by simp⟩
  | cons e ds ih =>
    obtain ⟨k, n⟩ := e
    obtain ⟨ds', h1, h2⟩ := ih (fun x hx => h x (by simp [hx]))
    obtain ⟨t, h3, h4, h5, h6, h7⟩ := addRecords_total X (root.children.filter fun c => c.name = n.name) { n.table with rows := [] }
      (h (k, n) (by simp))
    refine ⟨(k, ⟨n.name, t⟩) :: ds', ?_, ?_⟩
    · simp only [loadRecords, h3, h1, Res.bind_ok]
      rfl
    · intro e he
      rcases List.mem_cons.mp he with rfl | he
      · refine ⟨by rw [h6]; simp, ?_⟩
        intro r hr
        rcases h7 r hr with hr | hr
        · cases hr
        · obtain ⟨r', ha, hb⟩ := hr
          exact ⟨r', ha, by rw [hb]; exact congrArg List.length h4.symm⟩
      · exact h2 e he

/-- The root has a schema that loading accepts: its first child named `schema` has an `id` equal to the root's name and belongs to the
XML Schema namespace. -/
def HasSchema (root : Xml.Tree) : Prop :=
  ∃ schema, root.children.find? (fun c => c.name = lit "schema") = some schema ∧ Xml.attrOf schema (lit "id") = some root.name ∧
    schema.space = schemaSpace

/-- Loading any document ends in an error exactly when there is no schema to accept, and never in a panic; each table that is loaded has
one row, of full width, for each child of the root with its name. -/
theorem C67_any_document (X : XmlLib P) (pre : Str) (root : Xml.Tree) :
    (HasSchema root ∧ ∃ ds, parseDocument X pre root [] = .ok ds ∧ ∀ x n, ds.find x = some n → Shaped root n) ∨
    (¬ HasSchema root ∧ parseDocument X pre root [] = .err) := by
  unfold parseDocument
  cases hs : root.children.find? (fun c => c.name = lit "schema") with
  | none =>
    refine Or.inr ⟨?_, rfl⟩
    rintro ⟨s, h, -⟩
    rw [hs] at h
    cases h
  | some schema =>
    dsimp only
    have hu : ∀ s, root.children.find? (fun c => c.name = lit "schema") = some s → s = schema := by
      intro s h
      rw [hs] at h
      injection h with h
      exact h.symm
    cases ha : Xml.attrOf schema (lit "id") with
    | none =>
      refine Or.inr ⟨?_, rfl⟩
      rintro ⟨s, h1, h2, -⟩
      rw [hu s h1, ha] at h2
      cases h2
    | some id =>
      dsimp only
      by_cases hid : id = root.name
      · rw [if_neg (by simpa using hid)]
        by_cases hsp : schema.space = schemaSpace
        · rw [if_neg (by simpa using hsp)]
          refine Or.inl ⟨⟨schema, hs, by rw [ha, hid], hsp⟩, ?_⟩
          have hl : ∃ d, loadSchema X pre ⟨[], schema⟩ [] = .ok d ∧ AllSound d := by
            unfold loadSchema
            obtain ⟨rs, h1, -⟩ := select_descend (textLib P) ⟨[], schema⟩ (lit "element/complexType/choice/element") (by decide)
            rw [h1]
            exact addTables_total X pre rs [] (by intro e he; cases he)
          obtain ⟨d, h1, h2⟩ := hl
          obtain ⟨ds, h3, h4⟩ := loadRecords_total X root d h2
          refine ⟨ds, by rw [h1]; exact h3, ?_⟩
          intro x n hn
          unfold DataSet.find GoMap.get at hn
          cases hf : List.find? (fun p : Str × Named P => p.1 = P.upper x) ds with
          | none => rw [hf] at hn; cases hn
          | some e =>
            rw [hf] at hn
            injection hn with hn
            rw [← hn]
            exact h4 e (List.mem_of_find?_eq_some hf)
        · rw [if_pos hsp]
          refine Or.inr ⟨?_, rfl⟩
          rintro ⟨s, h1, -, h3⟩
          rw [hu s h1] at h3
          exact hsp h3
      · rw [if_pos hid]
        refine Or.inr ⟨?_, rfl⟩
        rintro ⟨s, h1, h2, -⟩
        rw [hu s h1, ha] at h2
        injection h2 with h2
        exact hid h2

/-! ### What goes wrong -/

/-- Texts that XML Schema gives a meaning of its own are read otherwise: the Boolean `1` is read as false, the Int32 `010` as eight, and an
Int8 out of range as the nearest one in range, without an error. -/
theorem C67_texts_false (X : XmlLib P) :
    fieldValue X .boolean (lit "1") = some (.boolean false) ∧
    fieldValue X .int32 (lit "010") = some (.int32 8#32) ∧
    fieldValue X .int8 (lit "300") = some (.int8 127#8) := by
  refine ⟨rfl, ?_, ?_⟩
  · show some (Cell.int32 (BitVec.ofInt 32 (intValue 32 (lit "010")))) = _
    rw [show intValue 32 (lit "010") = 8 by decide +kernel]
    rfl
  · show some (Cell.int8 (BitVec.ofInt 8 (intValue 8 (lit "300")))) = _
    rw [show intValue 8 (lit "300") = 127 by decide +kernel]
    rfl

/-- The example library: numbers for times, floats and decimals. -/
def toyLib : XmlLib Expr.Toy.prim where
  time := fun s => (Expr.Toy.parseInt s).getD 0
  single := fun s => Expr.Toy.parseInt s
  decimal := fun s => (Expr.Toy.parseInt s).getD 0
  timeText := Expr.Val.intStr
  singleText := fun f => match f with
    | some x => Expr.Val.intStr x
    | none => lit "NaN"
  doubleText := fun f => match f with
    | some x => Expr.Val.intStr x
    | none => lit "NaN"
  decimalText := Expr.Val.intStr
  parse := fun _ _ => none

/-- A table with a string column, its one value holding an ampersand. -/
def ampersand : TableDef Expr.Toy.prim := ⟨lit "T", [(lit "A", .string, [])], [[some (.string (lit "a&b"))]]⟩

/-- Escapes are not undone: the value `a&b`, written `a&amp;b`, is read as `a&amp;b`. -/
theorem C67_escape_false :
    ∃ ds n, parseDocument toyLib (lit "xs") (render toyLib (lit "xs") (lit "D") [ampersand]) [] = .ok ds ∧ ds.find (lit "T") = some n ∧
      n.table.rows.map (Option.map Row.values) = [some [some (.string (lit "a&amp;b"))]] := ⟨_, _, rfl, rfl, rfl⟩

/-- A document whose schema binds two prefixes to the XML Schema namespace and whose one column is written with the first. -/
def twoPrefixes : Xml.Tree :=
  .node (lit "D") [] [] []
    [.node (lit "schema") schemaSpace
      [(lit "xs", lit "xmlns", schemaSpace), (lit "xsd", lit "xmlns", schemaSpace), (lit "id", [], lit "D")] []
      [.node (lit "element") schemaSpace [] [] [.node (lit "complexType") schemaSpace [] [] [.node (lit "choice") schemaSpace [] []
        [.node (lit "element") schemaSpace [(lit "name", [], lit "T")] []
          [.node (lit "complexType") schemaSpace [] [] [.node (lit "sequence") schemaSpace [] []
            [.node (lit "element") schemaSpace [(lit "name", [], lit "A"), (lit "type", [], lit "xs:int")] [] []]]]]]]]]

/-- With two prefixes for the namespace, the columns depend on the order in which Go walks a map: either prefix may be found, and with
one of them the column is there while with the other it is not. -/
theorem C67_prefix_false :
    ∃ schema, twoPrefixes.children.find? (fun c => c.name = lit "schema") = some schema ∧ IsPrefix schema (lit "xs") ∧
      IsPrefix schema (lit "xsd") ∧
      (∃ ds n, parseDocument toyLib (lit "xs") twoPrefixes [] = .ok ds ∧ ds.find (lit "T") = some n ∧ n.table.columns.length = 1) ∧
      (∃ ds n, parseDocument toyLib (lit "xsd") twoPrefixes [] = .ok ds ∧ ds.find (lit "T") = some n ∧ n.table.columns.length = 0) :=
  ⟨_, rfl, Or.inl rfl, Or.inl rfl, ⟨_, _, rfl, rfl, rfl⟩, ⟨_, _, rfl, rfl, rfl⟩⟩

/-! ### Examples -/

/-- Two tables: one with a null, a negative number and a computed column, one with a date and a Boolean. -/
def sampleSet : List (TableDef Expr.Toy.prim) :=
  [⟨lit "Devices", [(lit "Name", .string, []), (lit "Level", .int16, []), (lit "Twice", .int32, lit "Level*2")],
      [[some (.string (lit "alpha")), some (.int16 (-5)), none], [none, some (.int16 7), none]]⟩,
    ⟨lit "Events", [(lit "At", .dateTime, []), (lit "Open", .boolean, [])], [[some (.dateTime (12 : Int)), some (.boolean true)]]⟩]

theorem sample_fits : ∀ T ∈ sampleSet, Fits toyLib T := by
  intro T hT
  have cell : ∀ (c : Str × DT × Str) (x : Cell Expr.Toy.prim), x.type = c.2.1 ∧ c.2.2 = [] ∧ ReadsBack toyLib x → CellFits toyLib c (some x) := by
    intro c x h y hy
    injection hy with hy
    subst hy
    exact h
  have null : ∀ (c : Str × DT × Str), CellFits toyLib c none := by
    intro c y hy
    cases hy
  rcases List.mem_cons.mp hT with rfl | hT
  · refine ⟨by decide, by decide, by decide, by decide, ?_⟩
    intro row hrow
    rcases List.mem_cons.mp hrow with rfl | hrow
    · exact .cons (cell _ _ ⟨rfl, rfl, trivial⟩) (.cons (cell _ _ ⟨rfl, rfl, trivial⟩) (.cons (null _) .nil))
    · rw [List.mem_singleton] at hrow
      subst hrow
      exact .cons (null _) (.cons (cell _ _ ⟨rfl, rfl, trivial⟩) (.cons (null _) .nil))
  · rw [List.mem_singleton] at hT
    subst hT
    refine ⟨by decide, by decide, by decide, by decide, ?_⟩
    intro row hrow
    rw [List.mem_singleton] at hrow
    subst hrow
    exact .cons (cell _ _ ⟨rfl, rfl, show ((Expr.Toy.parseInt (Expr.Val.intStr 12)).getD 0 : Int) = 12 by decide +kernel⟩) (.cons (cell _ _ ⟨rfl, rfl, trivial⟩) .nil)

theorem sample_unescaped : ∀ T ∈ sampleSet, Unescaped T := by
  intro T hT row hrow s hs
  have : s = lit "alpha" := by
    rcases List.mem_cons.mp hT with rfl | hT
    · rcases List.mem_cons.mp hrow with rfl | hrow
      · simpa using hs
      · rw [List.mem_singleton] at hrow
        subst hrow
        simp at hs
    · rw [List.mem_singleton] at hT
      subst hT
      rw [List.mem_singleton] at hrow
      subst hrow
      simp at hs
  subst this
  decide

/-- The sample meets all hypotheses of the round trip, and loads. -/
example : ∃ ds n, parseDocument toyLib (lit "xs") (render toyLib (lit "xs") (lit "Set") sampleSet) [] = .ok ds ∧ ds.find (lit "DEVICES") = some n ∧
    n.table.rows.map (Option.map Row.values) =
      [some [some (.string (lit "alpha")), some (.int16 (-5)), none], some [none, some (.int16 7), none]] := by
  obtain ⟨ds, h1, h2, -⟩ := C67_round_trip_partial toyLib (lit "xs") (lit "Set") (by unfold Bindable; decide) sampleSet (by decide) sample_fits sample_unescaped (by decide) (lit "xs") (Or.inl rfl)
  obtain ⟨n, h3, h4⟩ := h2 _ (List.mem_cons_self) (lit "DEVICES") (by decide)
  exact ⟨ds, n, h1, h3, h4.rows⟩

/-- A string with an ampersand is loaded as escaped. -/
example : ∃ ds n, parseDocument toyLib (lit "xs") (render toyLib (lit "xs") (lit "D") [ampersand]) [] = .ok ds ∧ ds.find (lit "t") = some n ∧
    n.table.rows.map (Option.map Row.values) = [some [some (.string (lit "a&amp;b"))]] := by
  have hf : ∀ T ∈ [ampersand], Fits toyLib T := by
    intro T hT
    rw [List.mem_singleton] at hT
    subst hT
    refine ⟨by decide, by decide, by decide, by decide, ?_⟩
    intro row hrow
    rw [show ampersand.rows = [_] from rfl, List.mem_singleton] at hrow
    subst hrow
    refine .cons ?_ .nil
    intro y hy
    injection hy with hy
    subst hy
    exact ⟨rfl, rfl, trivial⟩
  obtain ⟨ds, h1, h2, -⟩ := C67_loads toyLib (lit "xs") (lit "D") (by unfold Bindable; decide) [ampersand] (by decide) hf (by decide) (lit "xs") (Or.inl rfl)
  obtain ⟨n, h3, h4⟩ := h2 _ (List.mem_cons_self) (lit "t") (by decide)
  exact ⟨ds, n, h1, h3, h4.rows⟩

/-- A document with a schema, and one whose schema has another name. -/
example : HasSchema twoPrefixes := ⟨_, rfl, rfl, rfl⟩
example : ¬ HasSchema (.node (lit "E") [] [] [] twoPrefixes.children) := by
  rintro ⟨s, h1, h2, -⟩
  injection h1 with h1
  subst h1
  exact absurd h2 (by decide)

end Verif.Data
