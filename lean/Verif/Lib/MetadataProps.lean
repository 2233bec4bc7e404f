import Verif.Lib.XmlBytes
import Verif.Meta.Registry

/-!
# C115: metadata as published is metadata as looked up

From the elements of a received document to the records of the signals: `handleMetadataReceived` and `loadMeasurementMetadata` (Subscriber.go L517-609)
with the data set read as in `Verif.Data.Load` and the libraries of `Verif.Lib`.
-/

namespace Verif.Lib

open Verif.Expr
open Verif.Data (TableDef Loaded)
open Verif.Table (Cell DT Row Table Column)
open Verif.Meta (Registry Record columnIndex)

variable {R : Rest}

/-- The registry after the data set of `handleMetadataReceived` was read (Subscriber.go L517-524): a document that cannot be parsed leaves it as it is. -/
def taken (depth : Nat) (r : Res (Data.DataSet (go R))) (reg : Registry (go R)) : Res (Registry (go R)) :=
  match r with
  | .ok ds => Meta.load depth ((ds.find (lit "MeasurementDetail")).map Data.Named.table) reg
  | .err => .ok reg
  | .panic => .panic

/-- The registry after `handleMetadataReceived` (Subscriber.go L517-524), given the document. -/
def received (R : Rest) (parse : List Column → Str → Option (Tree (go R))) (depth : Nat) (pre : Str) (doc : Xml.Tree) (reg : Registry (go R)) :
    Res (Registry (go R)) :=
  taken depth (Data.parseDocument (xml R parse) pre doc []) reg

/-- The registry after `handleMetadataReceived` (Subscriber.go L517-524), given the bytes received. -/
def receivedBytes (R : Rest) (parse : List Column → Str → Option (Tree (go R))) (depth : Nat) (N : Xml.NameLib) (pre : Xml.Tree → Str) (s : Str)
    (reg : Registry (go R)) : Res (Registry (go R)) :=
  taken depth (Data.parseXml N (xml R parse) pre s []) reg

/-- Where the columns of a table of measurements are. -/
structure Details (T : TableDef (go R)) (signal key tag reference type description updated : Nat) : Prop where
  name : T.name = lit "MeasurementDetail"
  signal : T.cols[signal]? = some (lit "SignalID", .guid, [])
  key : T.cols[key]? = some (lit "ID", .string, [])
  tag : T.cols[tag]? = some (lit "PointTag", .string, [])
  reference : T.cols[reference]? = some (lit "SignalReference", .string, [])
  type : T.cols[type]? = some (lit "SignalAcronym", .string, [])
  description : T.cols[description]? = some (lit "Description", .string, [])
  updated : T.cols[updated]? = some (lit "UpdatedOn", .dateTime, [])

/-- The text a row has in a column, empty for none. -/
def textAt (row : List (Option (Cell (go R)))) (i : Nat) : Str :=
  match row[i]? with
  | some (some (.string s)) => s
  | _ => []

/-- The date a row has in a column, 1 January of year 1 for none. -/
def timeAt (row : List (Option (Cell (go R)))) (i : Nat) : (go R).Time :=
  match row[i]? with
  | some (some (.dateTime d)) => d
  | _ => (go R).timeZero

theorem column_index {X : Data.XmlLib (go R)} {T : TableDef (go R)} {n : Data.Named (go R)} (h : Loaded X T n) {i : Nat} {name : String} {dt : DT}
    (hi : T.cols[i]? = some (lit name, dt, [])) : columnIndex n.table name = i := by
  unfold columnIndex
  rw [h.byName i _ hi]

/-- What is read of a row. -/
theorem get_loaded {X : Data.XmlLib (go R)} {T : TableDef (go R)} {n : Data.Named (go R)} (h : Loaded X T n) {i : Nat} {name : Str} {dt : DT}
    (hi : T.cols[i]? = some (name, dt, [])) {r : Row (go R)} (hr : List.Forall₂ FieldFits T.cols r.values) (col : Nat → Res (Val (go R))) :
    ∃ v, r.values[i]? = some v ∧ r.get col n.table dt i = .ok v ∧ ∀ x, v = some x → x.type = dt := by
  have hlt : i < T.cols.length := (List.getElem?_eq_some_iff.mp hi).1
  have hlt' : i < r.values.length := hr.length_eq ▸ hlt
  have hv : r.values[i]? = some r.values[i] := List.getElem?_eq_getElem hlt'
  have hf : ∀ x, r.values[i] = some x → x.type = dt := by
    intro x hx
    have := (List.forall₂_iff_get.mp hr).2 i hlt hlt'
    simp only [List.get_eq_getElem] at this
    obtain ⟨h1, h2⟩ := List.getElem?_eq_some_iff.mp hi
    rw [h2] at this
    exact (this x hx).1
  have hcol : n.table.column (i : Int) = some { name := name, type := dt, expression := [], index := i } := by
    unfold Table.column
    have : n.table.columns.length = T.cols.length := by rw [h.columns, List.length_mapIdx]
    rw [if_neg (by rw [this]; omega), Int.toNat_natCast, h.columns, List.getElem?_mapIdx, hi]
    rfl
  refine ⟨_, hv, ?_, hf⟩
  unfold Row.get Row.validateColumnType
  rw [hcol]
  simp only [Option.isSome_some, ne_eq, not_true_eq_false, and_false, if_false, Bool.not_true, Bool.false_eq_true, Column.computed,
    List.length_nil, Nat.lt_irrefl, decide_false, Res.bind_ok, gt_iff_lt]
  have hval : r.value? (i : Int) = .ok r.values[i] := by
    unfold Row.value?
    rw [if_neg (by omega), Int.toNat_natCast, hv]
  rw [hval]
  simp only [Res.bind_ok]
  cases hx : r.values[i] with
  | none => rfl
  | some x => simp only [Row.assert, hf x hx, if_true]

theorem text_loaded {X : Data.XmlLib (go R)} {T : TableDef (go R)} {n : Data.Named (go R)} (h : Loaded X T n) {i : Nat} {name : Str}
    (hi : T.cols[i]? = some (name, .string, [])) {r : Row (go R)} (hr : List.Forall₂ FieldFits T.cols r.values) (depth : Nat) :
    Meta.textOf n.table depth r i = .ok (textAt r.values i) := by
  obtain ⟨v, h1, h2, h3⟩ := get_loaded h hi hr (r.column n.table depth)
  unfold Meta.textOf textAt Table.hasValue
  rw [h2, h1]
  cases v with
  | none => rfl
  | some x => have := h3 x rfl; cases x <;> rfl

theorem time_loaded {X : Data.XmlLib (go R)} {T : TableDef (go R)} {n : Data.Named (go R)} (h : Loaded X T n) {i : Nat} {name : Str}
    (hi : T.cols[i]? = some (name, .dateTime, [])) {r : Row (go R)} (hr : List.Forall₂ FieldFits T.cols r.values) (depth : Nat) :
    Meta.timeOf n.table depth r i = .ok (timeAt r.values i) := by
  obtain ⟨v, h1, h2, h3⟩ := get_loaded h hi hr (r.column n.table depth)
  unfold Meta.timeOf timeAt Table.hasValue
  rw [h2, h1]
  cases v with
  | none => rfl
  | some x => have := h3 x rfl; cases x <;> rfl

variable {X : Data.XmlLib (go R)} {T : TableDef (go R)} {n : Data.Named (go R)} {signal key tag reference type description updated : Nat}

theorem has_loaded (h : Loaded X T n) (hd : Details T signal key tag reference type description updated) {r : Row (go R)}
    (hr : List.Forall₂ FieldFits T.cols r.values) (depth : Nat) (g : Guid.Guid) :
    Meta.RowHas n.table depth r g ↔ r.values[signal]? = some (some (.guid g)) := by
  obtain ⟨v, h1, h2, h3⟩ := get_loaded h hd.signal hr (r.column n.table depth)
  unfold Meta.RowHas
  rw [column_index h hd.signal, h2, h1]
  simp

theorem fill_loaded (h : Loaded X T n) (hd : Details T signal key tag reference type description updated) {r : Row (go R)}
    (hr : List.Forall₂ FieldFits T.cols r.values) (depth : Nat) (m : Record (go R)) : ∃ m', Meta.fill n.table depth r m = .ok m' := by
  unfold Meta.fill Meta.withText Meta.withTime
  rw [column_index h hd.key, column_index h hd.tag, column_index h hd.reference, column_index h hd.type, column_index h hd.description,
    column_index h hd.updated, text_loaded h hd.key hr, text_loaded h hd.tag hr, text_loaded h hd.reference hr, text_loaded h hd.type hr,
    text_loaded h hd.description hr, time_loaded h hd.updated hr]
  have hpos : ∀ i : Nat, (i : Int) > -1 := fun i => by omega
  simp only [hpos, if_true]
  exact ⟨_, rfl⟩

theorem rows_load (h : Loaded X T n) (hd : Details T signal key tag reference type description updated) (depth : Nat)
    (rows : List (Option (Row (go R)))) (hr : ∀ r, some r ∈ rows → List.Forall₂ FieldFits T.cols r.values) (reg : Registry (go R)) :
    ∃ reg', Meta.loadRows n.table depth rows reg = .ok reg' := by
  induction rows generalizing reg with
  | nil => exact ⟨reg, rfl⟩
  | cons row rows ih =>
    have ih' := ih (fun r hm => hr r (by simp [hm]))
    cases row with
    | none => exact ih' reg
    | some r =>
      have hf := hr r (by simp)
      have : ∃ reg1, Meta.loadRow n.table depth reg r = .ok reg1 := by
        obtain ⟨v, h1, h2, h3⟩ := get_loaded h hd.signal hf (r.column n.table depth)
        unfold Meta.loadRow Table.hasValue
        rw [column_index h hd.signal, h2]
        cases v with
        | none => exact ⟨_, rfl⟩
        | some x =>
          have := h3 x rfl
          cases x with
          | guid g =>
            obtain ⟨m', hm⟩ := fill_loaded h hd hf depth (Meta.lookup reg g).2
            simp only [Res.bind_ok, hm]
            exact ⟨_, rfl⟩
          | _ => cases this
      obtain ⟨reg1, h1⟩ := this
      obtain ⟨reg2, h2⟩ := ih' reg1
      exact ⟨reg2, by simp only [Meta.loadRows, h1, Res.bind_ok, h2]⟩

/-- What the record of a signal is to say, its texts changed by `f`. -/
structure Says (f : Str → Str) (m : Record (go R)) (row : List (Option (Cell (go R)))) (key tag reference type description updated : Nat) : Prop where
  tag : m.tag = f (textAt row tag)
  reference : m.signalReference = f (textAt row reference)
  type : m.signalType = f (textAt row type)
  description : m.description = f (textAt row description)
  updated : m.updatedOn = timeAt row updated
  key : ∀ source n, 58#8 ∉ source → n < 2 ^ 64 → textAt row key = source ++ 58#8 :: Format.decimal n → m.source = f source ∧ m.id = n

/-- What is taken of a data set with a loaded table of measurements. -/
theorem taken_loaded (ds : Data.DataSet (go R)) (hn : ds.find (lit "MeasurementDetail") = some n) (hl : Loaded X T n)
    (hrows : ∀ row ∈ T.rows, List.Forall₂ FieldFits T.cols row) (hd : Details T signal key tag reference type description updated) (depth : Nat)
    (reg : Registry (go R)) :
    ∃ reg', taken depth (.ok ds) reg = .ok reg' ∧
      (∀ g before row after, T.rows = before ++ row :: after → row[signal]? = some (some (.guid g)) →
        (∀ row' ∈ after, row'[signal]? ≠ some (some (.guid g))) →
        ∃ m, reg' g = some m ∧ Says id m row key tag reference type description updated) ∧
      (∀ g, (∀ row ∈ T.rows, row[signal]? ≠ some (some (.guid g))) → reg' g = reg g) := by
  have hrow : ∀ r, some r ∈ n.table.rows → r.values ∈ T.rows := by
    intro r hr
    have : some r.values ∈ n.table.rows.map (Option.map Row.values) := List.mem_map.mpr ⟨_, hr, rfl⟩
    rw [hl.rows] at this
    obtain ⟨x, hx, e⟩ := List.mem_map.mp this
    cases e; exact hx
  have hfit : ∀ r, some r ∈ n.table.rows → List.Forall₂ FieldFits T.cols r.values := fun r hr => hrows _ (hrow r hr)
  obtain ⟨reg', hreg⟩ := rows_load hl hd depth n.table.rows hfit reg
  have hci := column_index hl hd.signal
  have hload : Meta.load depth (some n.table) reg = .ok reg' := by
    simp only [Meta.load]
    rw [if_pos (by rw [hci]; omega), hreg]
  have hpres : (Table.present? n.table.rows).map Row.values = T.rows := by
    have hall : ∀ l : List (Option (Row (go R))), ∀ L, l.map (Option.map Row.values) = L.map some → (Table.present? l).map Row.values = L := by
      intro l
      induction l with
      | nil => intro L e; cases L with
        | nil => rfl
        | cons => cases e
      | cons a l ih =>
        intro L e
        cases L with
        | nil => cases e
        | cons b L =>
          rw [List.map_cons, List.map_cons] at e
          injection e with e1 e2
          cases a with
          | none => cases e1
          | some a =>
            have hp : Table.present? (some a :: l) = a :: Table.present? l := by simp [Table.present?]
            injection e1 with e1
            rw [hp, List.map_cons, ih L e2, e1]
    exact hall _ _ hl.rows
  have hmem : ∀ r ∈ Table.present? n.table.rows, some r ∈ n.table.rows := by
    intro r hr
    simpa [Table.present?] using hr
  refine ⟨reg', ?_, ?_, ?_⟩
  · unfold taken
    dsimp only
    rw [hn]
    exact hload
  · intro g before row after e hg hlast
    rw [e] at hpres
    obtain ⟨b', c', e1, e2, e3⟩ := List.map_eq_append_iff.mp hpres
    obtain ⟨r, a', e4, e5, e6⟩ := List.map_eq_cons_iff.mp e3
    subst e4
    have hrm : some r ∈ n.table.rows := hmem r (by rw [e1]; simp)
    have hg' : Meta.RowHas n.table depth r g := (has_loaded hl hd (hfit r hrm) depth g).mpr (by rw [e5]; exact hg)
    have hafter : ∀ r' ∈ a', ¬ Meta.RowHas n.table depth r' g := by
      intro r' hr' hh
      have hrm' : some r' ∈ n.table.rows := hmem r' (by rw [e1]; simp [hr'])
      have := (has_loaded hl hd (hfit r' hrm') depth g).mp hh
      exact hlast r'.values (by rw [← e6]; exact List.mem_map.mpr ⟨r', hr', rfl⟩) this
    obtain ⟨m, hm, hgv⟩ := Meta.C66_received depth n.table reg reg' g b' a' r hload (by rw [hci]; omega) e1 hg' hafter
    have hf := hfit r hrm
    have get : ∀ {i : Nat} {nm : String} {x : Str}, T.cols[i]? = some (lit nm, .string, []) →
        (columnIndex n.table nm > -1 → Meta.Reads n.table depth r nm x) → x = textAt row i := by
      intro i nm x hi hx
      have hx' := hx (by rw [column_index hl hi]; omega)
      unfold Meta.Reads at hx'
      rw [column_index hl hi, text_loaded hl hi hf] at hx'
      injection hx' with hx'
      rw [← e5]; exact hx'.symm
    refine ⟨m, hm, get hd.tag hgv.tag, get hd.reference hgv.reference, get hd.type hgv.type, get hd.description hgv.description, ?_, ?_⟩
    · have := hgv.updated (by rw [column_index hl hd.updated]; omega)
      rw [column_index hl hd.updated, time_loaded hl hd.updated hf] at this
      injection this with this
      rw [← e5]; exact this.symm
    · intro source k hs hk ht
      refine hgv.key (by rw [column_index hl hd.key]; omega) source k hs hk ?_
      unfold Meta.Reads
      rw [column_index hl hd.key, text_loaded hl hd.key hf, e5, ht]
  · intro g hg
    refine Meta.C66_others depth (some n.table) reg reg' g hload ?_
    rintro ⟨_, r, hr, hh⟩
    have hrm := hmem r hr
    exact hg r.values (hrow r hrm) ((has_loaded hl hd (hfit r hrm) depth g).mp hh)

/-! ### Strings as they are loaded -/

theorem fits_asRead (hrows : ∀ row ∈ T.rows, List.Forall₂ FieldFits T.cols row) : ∀ row ∈ T.asRead.rows, List.Forall₂ FieldFits T.asRead.cols row := by
  intro row hrow
  obtain ⟨row, hrow', rfl⟩ := List.mem_map.mp hrow
  rw [List.forall₂_map_right_iff]
  refine (hrows row hrow').imp fun c v hv x hx => ?_
  cases v with
  | none => cases hx
  | some y =>
    injection hx with hx
    subst hx
    obtain ⟨h1, h2, h3⟩ := hv y rfl
    cases y with
    | string s => exact ⟨h1, h2, trivial⟩
    | _ => exact ⟨h1, h2, h3⟩

theorem details_asRead (hd : Details T signal key tag reference type description updated) :
    Details T.asRead signal key tag reference type description updated := ⟨hd.1, hd.2, hd.3, hd.4, hd.5, hd.6, hd.7, hd.8⟩

theorem guid_asRead (row : List (Option (Cell (go R)))) (i : Nat) (g : Guid.Guid) :
    (row.map (Option.map Data.asRead))[i]? = some (some (.guid g)) ↔ row[i]? = some (some (.guid g)) := by
  rw [List.getElem?_map]
  cases row[i]? with
  | none => simp
  | some v => cases v with
    | none => simp
    | some x => cases x <;> simp [Data.asRead]

theorem text_asRead (row : List (Option (Cell (go R)))) (i : Nat) : textAt (row.map (Option.map Data.asRead)) i = Data.escape (textAt row i) := by
  unfold textAt
  rw [List.getElem?_map]
  cases row[i]? with
  | none => rfl
  | some v => cases v with
    | none => rfl
    | some x => cases x <;> rfl

theorem time_asRead (row : List (Option (Cell (go R)))) (i : Nat) : timeAt (row.map (Option.map Data.asRead)) i = timeAt row i := by
  unfold timeAt
  rw [List.getElem?_map]
  cases row[i]? with
  | none => rfl
  | some v => cases v with
    | none => rfl
    | some x => cases x <;> rfl

theorem escape_append (a b : Str) : Data.escape (a ++ b) = Data.escape a ++ Data.escape b := by
  unfold Data.escape
  rw [List.flatMap_append]

theorem escape_digits (s : Str) (h : ∀ b ∈ s, 48 ≤ b.toNat ∧ b.toNat ≤ 57) : Data.escape s = s := by
  refine escape_plain s ⟨?_, ?_, ?_⟩ <;> (intro hm; have := h _ hm; revert this; decide)

theorem escape_colon (s : Str) (h : 58#8 ∉ s) : 58#8 ∉ Data.escape s := by
  intro hm
  obtain ⟨b, hb, hm⟩ := List.mem_flatMap.mp hm
  split_ifs at hm
  · revert hm; decide
  · revert hm; decide
  · revert hm; decide
  · rw [List.mem_singleton] at hm
    exact h (hm ▸ hb)

theorem says_asRead {m : Record (go R)} {row : List (Option (Cell (go R)))}
    (h : Says id m (row.map (Option.map Data.asRead)) key tag reference type description updated) :
    Says Data.escape m row key tag reference type description updated := by
  refine ⟨?_, ?_, ?_, ?_, ?_, ?_⟩
  · rw [← text_asRead]; exact h.tag
  · rw [← text_asRead]; exact h.reference
  · rw [← text_asRead]; exact h.type
  · rw [← text_asRead]; exact h.description
  · rw [← time_asRead]; exact h.updated
  · intro source k hs hk ht
    refine h.key (Data.escape source) k (escape_colon source hs) hk ?_
    rw [text_asRead, ht, escape_append, show 58#8 :: Format.decimal k = [58#8] ++ Format.decimal k from rfl, escape_append,
      escape_digits _ (Format.decimal_digits k)]
    rfl

theorem taken_asRead (ds : Data.DataSet (go R)) (hn : ds.find (lit "MeasurementDetail") = some n) (hl : Loaded X T.asRead n)
    (hrows : ∀ row ∈ T.rows, List.Forall₂ FieldFits T.cols row) (hd : Details T signal key tag reference type description updated) (depth : Nat)
    (reg : Registry (go R)) :
    ∃ reg', taken depth (.ok ds) reg = .ok reg' ∧
      (∀ g before row after, T.rows = before ++ row :: after → row[signal]? = some (some (.guid g)) →
        (∀ row' ∈ after, row'[signal]? ≠ some (some (.guid g))) →
        ∃ m, reg' g = some m ∧ Says Data.escape m row key tag reference type description updated) ∧
      (∀ g, (∀ row ∈ T.rows, row[signal]? ≠ some (some (.guid g))) → reg' g = reg g) := by
  obtain ⟨reg', h1, h2, h3⟩ := taken_loaded ds hn hl (fits_asRead hrows) (details_asRead hd) depth reg
  refine ⟨reg', h1, ?_, ?_⟩
  · intro g before row after e hg ha
    obtain ⟨m, hm, hs⟩ := h2 g (before.map (List.map (Option.map Data.asRead))) (row.map (Option.map Data.asRead))
      (after.map (List.map (Option.map Data.asRead))) (by
        show T.rows.map (List.map (Option.map Data.asRead)) = _
        rw [e, List.map_append, List.map_cons]) ((guid_asRead row signal g).mpr hg) (by
        intro row' hr
        obtain ⟨row', hr', rfl⟩ := List.mem_map.mp hr
        rw [ne_eq, guid_asRead]
        exact ha row' hr')
    exact ⟨m, hm, says_asRead hs⟩
  · intro g hg
    refine h3 g ?_
    intro row hr
    obtain ⟨row, hr', rfl⟩ := List.mem_map.mp hr
    rw [ne_eq, guid_asRead]
    exact hg row hr'

/-- **C115**: when a document of usual tables among which is one of measurements has been received, whatever was known before, every signal in it has
the key, tag, reference, type, description and time of update of the last row written for it, the texts as XML escapes them, and every other signal has what
it had. -/
theorem C115_received (parse : List Column → Str → Option (Tree (go R))) (px name : Str) (hpx : Data.Bindable px) (D : List (TableDef (go R)))
    (hne : name ≠ Data.schemaSpace)
    (hD : ∀ T ∈ D, Writable T) (hu : (D.map fun T => R.upper T.name).Nodup) (pre : Str) (hp : Data.IsPrefix (Data.schemaElement px name D) pre)
    (hT : T ∈ D) (hd : Details T signal key tag reference type description updated) (depth : Nat) (reg : Registry (go R)) :
    ∃ reg', received R parse depth pre (Data.render (xml R parse) px name D) reg = .ok reg' ∧
      (∀ g before row after, T.rows = before ++ row :: after → row[signal]? = some (some (.guid g)) →
        (∀ row' ∈ after, row'[signal]? ≠ some (some (.guid g))) →
        ∃ m, reg' g = some m ∧ Says Data.escape m row key tag reference type description updated) ∧
      (∀ g, (∀ row ∈ T.rows, row[signal]? ≠ some (some (.guid g))) → reg' g = reg g) := by
  obtain ⟨ds, h1, h2, _⟩ := C67_libraries parse px name hpx D hne hD hu pre hp
  obtain ⟨n, hn, hl⟩ := h2 T hT (lit "MeasurementDetail") (by rw [hd.name])
  unfold received
  rw [h1]
  exact taken_asRead ds hn hl (hD T hT).rows hd depth reg

/-- **C115**: when a document of usual tables among which is one of measurements has been received, whatever was known before, every signal in it has
the key, tag, reference, type, description and time of update of the last row written for it, and every other signal has what it had. Partial: texts with
characters that XML escapes are left out, for them it is false (`C115_escape_false`). -/
theorem C115_published_partial (parse : List Column → Str → Option (Tree (go R))) (px name : Str) (hpx : Data.Bindable px) (D : List (TableDef (go R)))
    (hne : name ≠ Data.schemaSpace)
    (hD : ∀ T ∈ D, Writable T) (hs : Data.Unescaped T) (hu : (D.map fun T => R.upper T.name).Nodup) (pre : Str)
    (hp : Data.IsPrefix (Data.schemaElement px name D) pre)
    (hT : T ∈ D) (hd : Details T signal key tag reference type description updated) (depth : Nat) (reg : Registry (go R)) :
    ∃ reg', received R parse depth pre (Data.render (xml R parse) px name D) reg = .ok reg' ∧
      (∀ g before row after, T.rows = before ++ row :: after → row[signal]? = some (some (.guid g)) →
        (∀ row' ∈ after, row'[signal]? ≠ some (some (.guid g))) →
        ∃ m, reg' g = some m ∧ Says id m row key tag reference type description updated) ∧
      (∀ g, (∀ row ∈ T.rows, row[signal]? ≠ some (some (.guid g))) → reg' g = reg g) := by
  obtain ⟨ds, h1, h2, _⟩ := C67_libraries parse px name hpx D hne hD hu pre hp
  obtain ⟨n, hn, hl⟩ := h2 T hT (lit "MeasurementDetail") (by rw [hd.name])
  rw [Data.asRead_eq T hs] at hl
  unfold received
  rw [h1]
  exact taken_loaded ds hn hl (hD T hT).rows hd depth reg

/-- C115, from bytes: whatever prolog comes before the document, whatever blanks are between its tags and whatever comes after it. -/
theorem C115_bytes (N : Xml.NameLib) (parse : List Column → Str → Option (Tree (go R))) (pro px ws name rest : Str) (D : List (TableDef (go R)))
    (hpx : Data.PrefixName N px) (hb : Data.Bindable px) (hpro : Xml.Prolog N pro) (hw : Xml.Blank ws) (hn : Data.Plain N name) (hne : name ≠ Data.schemaSpace) (hD : ∀ T ∈ D, Writable T)
    (hN : ∀ T ∈ D, Named N T) (hu : (D.map fun T => R.upper T.name).Nodup) (pre : Xml.Tree → Str) (hp : ∀ t, Data.IsPrefix t (pre t))
    (hT : T ∈ D) (hd : Details T signal key tag reference type description updated) (depth : Nat) (reg : Registry (go R)) :
    ∃ reg', receivedBytes R parse depth N pre (pro ++ (Data.document (xml R parse) px ws name D ++ rest)) reg = .ok reg' ∧
      (∀ g before row after, T.rows = before ++ row :: after → row[signal]? = some (some (.guid g)) →
        (∀ row' ∈ after, row'[signal]? ≠ some (some (.guid g))) →
        ∃ m, reg' g = some m ∧ Says Data.escape m row key tag reference type description updated) ∧
      (∀ g, (∀ row ∈ T.rows, row[signal]? ≠ some (some (.guid g))) → reg' g = reg g) := by
  obtain ⟨ds, h1, h2, _⟩ := C67_libraries_bytes N parse pro px ws name rest D hpx hb hpro hw hn hne hD hN hu pre hp
  obtain ⟨n, hn, hl⟩ := h2 T hT (lit "MeasurementDetail") (by rw [hd.name])
  unfold receivedBytes
  rw [h1]
  exact taken_asRead ds hn hl (hD T hT).rows hd depth reg

/-- C115: no bytes end the program; what is no document, or has no schema to accept, leaves what is known as it is. -/
theorem C115_any_bytes (N : Xml.NameLib) (parse : List Column → Str → Option (Tree (go R))) (depth : Nat) (pre : Xml.Tree → Str) (s : Str) (reg : Registry (go R))
    (h : ∀ pro raw rest root, s = pro ++ (raw ++ rest) → Xml.Prolog N pro → Xml.Element N [] raw root → ¬ Data.HasSchema root) :
    receivedBytes R parse depth N pre s reg = .ok reg := by
  unfold receivedBytes
  rcases Data.C67_any_bytes N (xml R parse) pre s with ⟨pro, raw, rest, root, ds, e, h1, h2, h3, -⟩ | ⟨-, h1⟩
  · exact absurd h3 (h pro raw rest root e h1 h2)
  · rw [h1]
    rfl

/-- A table of three measurements, two of them of one signal, with a column more than is looked for. -/
def details : TableDef (go sample) := ⟨lit "MeasurementDetail",
  [(lit "DeviceAcronym", .string, []), (lit "ID", .string, []), (lit "SignalID", .guid, []), (lit "PointTag", .string, []),
    (lit "SignalReference", .string, []), (lit "SignalAcronym", .string, []), (lit "Description", .string, []), (lit "UpdatedOn", .dateTime, [])],
  [[some (.string (lit "SHELBY")), some (.string (lit "PPA:1")), some (.guid (Guid.parse (lit "12345678-9abc-def0-1234-56789abcdef0")).1),
      some (.string (lit "OLD")), none, none, none, none],
    [some (.string (lit "SHELBY")), some (.string (lit "PPA:2")), some (.guid (Guid.parse (lit "12345678-9abc-def0-1234-56789abcdef0")).1),
      some (.string (lit "GPA_SHELBY:ABBF")), some (.string (lit "SHELBY-FQ")), some (.string (lit "FREQ")), none,
      some (.dateTime (Calendar.dayNumber 2021 7 29 * 86400000000000 + 1))],
    [none, some (.string (lit "PPA:3")), some (.guid (Guid.parse (lit "22345678-9abc-def0-1234-56789abcdef0")).1), none, none, none, none, none]]⟩

theorem details_writable : Writable details := by
  refine ⟨by decide, by decide, by decide, by decide +kernel, ?_⟩
  intro row hrow
  rw [show details.rows = [_, _, _] from rfl, List.mem_cons, List.mem_cons, List.mem_singleton] at hrow
  rcases hrow with rfl | rfl | rfl <;>
    refine .cons ?_ (.cons ?_ (.cons ?_ (.cons ?_ (.cons ?_ (.cons ?_ (.cons ?_ (.cons ?_ .nil))))))) <;>
    first
    | (rintro x hx; cases hx; done)
    | (rintro x hx; cases hx; refine ⟨rfl, rfl, ?_⟩; trivial)

theorem details_unescaped : Data.Unescaped details := by
  intro row hrow s hs
  rw [show details.rows = [_, _, _] from rfl, List.mem_cons, List.mem_cons, List.mem_singleton] at hrow
  have : s ∈ [lit "SHELBY", lit "PPA:1", lit "OLD", lit "PPA:2", lit "GPA_SHELBY:ABBF", lit "SHELBY-FQ", lit "FREQ", lit "PPA:3"] := by
    rcases hrow with rfl | rfl | rfl <;> simp only [List.mem_cons, List.not_mem_nil, or_false, reduceCtorEq, Option.some.injEq, Cell.string.injEq, false_or] at hs ⊢ <;>
      tauto
  revert this
  have h : ∀ s ∈ [lit "SHELBY", lit "PPA:1", lit "OLD", lit "PPA:2", lit "GPA_SHELBY:ABBF", lit "SHELBY-FQ", lit "FREQ", lit "PPA:3"], Data.escape s = s := by
    decide
  exact h s

/-- `C115_published_partial` for the signal with two rows. -/
example : ∃ reg m, received sample (fun _ _ => none) 1 (lit "xs") (Data.render (xml sample fun _ _ => none) (lit "xs") (lit "D") [details]) (fun _ => none) = .ok reg ∧
    reg (Guid.parse (lit "12345678-9abc-def0-1234-56789abcdef0")).1 = some m ∧ m.tag = lit "GPA_SHELBY:ABBF" ∧ m.description = [] ∧ m.source = lit "PPA" ∧
    m.id = 2 := by
  obtain ⟨reg, h1, h2, _⟩ := C115_published_partial (T := details) (signal := 2) (key := 1) (tag := 3) (reference := 4) (type := 5) (description := 6)
    (updated := 7) (fun _ _ => none) (lit "xs") (lit "D") (by unfold Data.Bindable; decide) [details] (by decide) (by simp [details_writable]) details_unescaped (by simp) (lit "xs") (.inl rfl) (by simp)
    ⟨rfl, rfl, rfl, rfl, rfl, rfl, rfl, rfl⟩ 1 (fun _ => none)
  obtain ⟨m, hm, hs⟩ := h2 (Guid.parse (lit "12345678-9abc-def0-1234-56789abcdef0")).1 [details.rows[0]] details.rows[1] [details.rows[2]] rfl rfl
    (by
      intro row hr
      rw [List.mem_singleton] at hr
      subst hr
      show some (some (Cell.guid (Guid.parse (lit "22345678-9abc-def0-1234-56789abcdef0")).1)) ≠ _
      intro e
      injection e with e; injection e with e; injection e with e
      revert e; decide +kernel)
  refine ⟨reg, m, h1, hm, hs.tag, hs.description, ?_⟩
  exact hs.key (lit "PPA") 2 (by decide) (by decide) (by decide +kernel)

/-- The same from bytes, with its names fit for XML. -/
example (pre : Xml.Tree → Str) (hp : ∀ t, Data.IsPrefix t (pre t)) :
    ∃ reg m, receivedBytes sample (fun _ _ => none) 1 Xml.ascii pre (Data.document (xml sample fun _ _ => none) (lit "xs") [10#8] (lit "D") [details]) (fun _ => none) =
        .ok reg ∧ reg (Guid.parse (lit "22345678-9abc-def0-1234-56789abcdef0")).1 = some m ∧ m.source = lit "PPA" ∧ m.id = 3 := by
  have name : ∀ n : Str, Xml.isName Xml.ascii n = true → 58#8 ∉ n → (n.all fun b => decide (b.toNat < 128 ∧ 32 ≤ b.toNat)) = true → Data.Plain Xml.ascii n :=
    fun n h1 h2 h3 => ⟨Data.ascii_name h1, h2, Data.chars_ascii_lit n h3⟩
  have hN : Named Xml.ascii details := by
    refine ⟨name _ (by decide +kernel) (by decide) (by decide), ?_, ?_⟩
    · have h : ∀ c ∈ details.cols, (Xml.isName Xml.ascii c.1 = true ∧ 58#8 ∉ c.1 ∧ (c.1.all fun b => decide (b.toNat < 128 ∧ 32 ≤ b.toNat)) = true) ∧ c.2.2 = [] := by
        decide +kernel
      intro c hc
      obtain ⟨⟨h1, h2, h3⟩, h4⟩ := h c hc
      exact ⟨name _ h1 h2 h3, by rw [h4]; exact Data.chars_ascii_lit _ (by decide)⟩
    · intro row hrow s hs
      refine Data.chars_ascii_lit s ?_
      revert s
      have h : ∀ row ∈ details.rows, ∀ v ∈ row, (match v with | some (.string s) => (s.all fun b => decide (b.toNat < 128 ∧ 32 ≤ b.toNat)) | _ => true) = true := by
        decide +kernel
      intro s hs
      exact h row hrow _ hs
  obtain ⟨reg, h1, h2, _⟩ := C115_bytes (T := details) (signal := 2) (key := 1) (tag := 3) (reference := 4) (type := 5) (description := 6)
    (updated := 7) Xml.ascii (fun _ _ => none) [] (lit "xs") [10#8] (lit "D") [] [details]
    ⟨name _ (by decide +kernel) (by decide) (by decide), by decide, by decide⟩ (by unfold Data.Bindable; decide) .nil (by decide) (name _ (by decide +kernel) (by decide) (by decide)) (by decide)
    (by simp [details_writable]) (by simp [hN]) (by simp) pre hp (by simp) ⟨rfl, rfl, rfl, rfl, rfl, rfl, rfl, rfl⟩ 1 (fun _ => none)
  rw [List.append_nil, List.nil_append] at h1
  obtain ⟨m, hm, hs⟩ := h2 (Guid.parse (lit "22345678-9abc-def0-1234-56789abcdef0")).1 [details.rows[0], details.rows[1]] details.rows[2] [] rfl rfl (by simp)
  exact ⟨reg, m, h1, hm, hs.key (lit "PPA") 3 (by decide) (by decide) (by decide +kernel)⟩

/-- A measurement whose description has an ampersand. -/
def research : TableDef (go sample) := ⟨lit "MeasurementDetail", [(lit "SignalID", .guid, []), (lit "Description", .string, [])],
  [[some (.guid (Guid.parse (lit "12345678-9abc-def0-1234-56789abcdef0")).1), some (.string (lit "R&D"))]]⟩

/-- **C115 is false for texts with characters that XML escapes**: the description `R&D`, as written into the document, is looked up as `R&amp;D`. -/
theorem C115_escape_false :
    ∃ reg m, received sample (fun _ _ => none) 1 (lit "xs") (Data.render (xml sample fun _ _ => none) (lit "xs") (lit "D") [research]) (fun _ => none) = .ok reg ∧
      reg (Guid.parse (lit "12345678-9abc-def0-1234-56789abcdef0")).1 = some m ∧ m.description = lit "R&amp;D" := by
  have h : (match received sample (fun _ _ => none) 1 (lit "xs") (Data.render (xml sample fun _ _ => none) (lit "xs") (lit "D") [research]) (fun _ => none) with
      | .ok reg => (reg (Guid.parse (lit "12345678-9abc-def0-1234-56789abcdef0")).1).map (·.description)
      | _ => none) = some (lit "R&amp;D") := by decide +kernel
  cases e : received sample (fun _ _ => none) 1 (lit "xs") (Data.render (xml sample fun _ _ => none) (lit "xs") (lit "D") [research]) (fun _ => none) with
  | ok reg =>
    rw [e] at h
    obtain ⟨m, hm, hd⟩ := Option.map_eq_some_iff.1 h
    exact ⟨reg, m, rfl, hm, hd⟩
  | err => rw [e] at h; cases h
  | panic => rw [e] at h; cases h

end Verif.Lib
