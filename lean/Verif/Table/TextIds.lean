import Verif.Table.TextProps
import Verif.Meta.SignalRef

/-!
# C88: the signal IDs a filter expression selects
-/

set_option linter.dupNamespace false

namespace Verif.Table

open Verif.Expr Verif.Parse

variable {P : Prim}

theorem mem_matching {t : Table P} {depth : Nat} {root : Tree P} {n : Int} {r : Row P} (h : r ∈ cut n (matching t depth root)) : r ∈ present? t.rows := by
  have : r ∈ matching t depth root := by
    unfold cut at h
    split at h
    · exact h
    · exact List.mem_of_mem_take h
  exact (List.mem_filter.1 this).1

namespace Parser

theorem tree_ok {p : Parser P} (hi : p.trackIDs = true) {sort : Sorter P} {depth : Nat} {table name : Str} {root : Tree P} {top : Int}
    {obs : List OrderBy} {t : Table P} (hne : table ≠ [] ∨ p.primary ≠ []) (htab : p.tables (if table.length = 0 then p.primary else table) = some (name, t))
    (hv : ∀ r ∈ present? t.rows, ∃ v, eval (r.column t depth) root = .ok v) {fields : IDFields} {c : Column} (hf : p.idFields name = some fields)
    (hc : t.columnByName fields.signalID = some c) (hg : ∀ r ∈ present? t.rows, guidValue t depth r c.index ≠ .panic) :
    ∃ items, p.treesItems sort depth true false [(table, { root := root, topLimit := top, orderBy := obs })] = .ok items := by
  have hn : ¬ (table.length = 0 ∧ p.primary.length = 0) := by
    rw [List.length_eq_zero_iff, List.length_eq_zero_iff]
    rcases hne with h | h
    · exact fun h' => h h'.1
    · exact fun h' => h h'.2
  have hs := selectWhere_eq (f := { root := root, topLimit := top, orderBy := obs }) (al := true) sort hv
  obtain ⟨items, hitems⟩ := matchedItems_tracked hi t depth c.index (cut top (matching t depth root)) fun r hr => hg r (mem_matching hr)
  refine ⟨items, ?_⟩
  rw [if_pos rfl] at hs
  simp only [treesItems, treeItems, hn, if_false, htab, hs, Res.bind_ok, signalIDColumn, hi, if_true, hf, hc]
  have : p.matchedItems t depth c.index (cut top ((present? t.rows).filter fun r =>
      isTrue (Filter.evaluate { root := root, topLimit := top, orderBy := obs } t depth r))) = .ok items := hitems
  rw [this, Res.bind_ok, List.append_nil]

theorem filter_ok {p : Parser P} (hi : p.trackIDs = true) {sort : Sorter P} {depth : Nat} {table name : Str} {top : Option (Option Int)}
    {terms : List OrderingTerm} {obs : List OrderBy} {root : Tree P} {t : Table P} (hne : table ≠ []) (htab : p.tables table = some (name, t))
    (ho : orderBy t terms = .ok obs) (hv : ∀ r ∈ present? t.rows, ∃ v, eval (r.column t depth) root = .ok v) {fields : IDFields} {c : Column}
    (hf : p.idFields name = some fields) (hc : t.columnByName fields.signalID = some c)
    (hg : ∀ r ∈ present? t.rows, guidValue t depth r c.index ≠ .panic) :
    ∃ st, p.evaluate sort depth true false [.filter table top terms root] = .ok st := by
  have hlen : table.length ≠ 0 := fun h => hne (List.length_eq_zero_iff.1 h)
  have ha : p.walkItems depth (.filter table top terms root) = .ok ([], [(table, { root := root, topLimit := limitOf top, orderBy := obs })]) := by
    simp only [walkItems, htab, ho, Res.bind_ok, Res.pure_eq]
    rfl
  obtain ⟨items, hb⟩ := tree_ok hi (sort := sort) (top := limitOf top) (obs := obs) (.inl hne) (by rw [if_neg hlen]; exact htab) hv hf hc hg
  obtain ⟨st, h1, -, -⟩ := evaluate_one (.inr hi) ⟨_, _, ha, hb, rfl⟩
  exact ⟨st, h1⟩

theorem expression_ok {p : Parser P} (hi : p.trackIDs = true) {sort : Sorter P} {depth : Nat} {name : Str} {root : Tree P} {t : Table P}
    (hne : p.primary ≠ []) (htab : p.tables p.primary = some (name, t)) (hv : ∀ r ∈ present? t.rows, ∃ v, eval (r.column t depth) root = .ok v)
    {fields : IDFields} {c : Column} (hf : p.idFields name = some fields) (hc : t.columnByName fields.signalID = some c)
    (hg : ∀ r ∈ present? t.rows, guidValue t depth r c.index ≠ .panic) :
    ∃ st, p.evaluate sort depth true false [.expression root] = .ok st := by
  obtain ⟨items, hb⟩ := tree_ok hi (sort := sort) (table := []) (top := -1) (obs := []) (.inr hne) (by simpa using htab) hv hf hc hg
  obtain ⟨st, h1, -, -⟩ := evaluate_one (s := .expression root) (.inr hi) ⟨_, _, rfl, hb, rfl⟩
  exact ⟨st, h1⟩

theorem key_ok {p : Parser P} (hi : p.trackIDs = true) {depth : Nat} {text name : Str} {field : IDFields → Str} {t : Table P}
    (htab : p.tables p.primary = some (name, t)) {fields : IDFields} {c k : Column} (hf : p.idFields p.primary = some fields)
    (hc : t.columnByName fields.signalID = some c) (hk : t.columnByName (field fields) = some k)
    (hv : ∀ r ∈ present? t.rows, stringValue t depth r k.index ≠ .panic) (hg : ∀ r ∈ present? t.rows, guidValue t depth r c.index ≠ .panic) :
    ∃ items, p.keyItems depth field text = .ok items := by
  have hfind : findRow (fun r => do return (← stringValue t depth r k.index).map P.upper == some (P.upper text)) t.rows =
      .ok ((present? t.rows).find? fun r => (stringOf t depth r k.index).map P.upper == some (P.upper text)) := by
    apply findRow_eq
    intro r hr
    unfold stringOf
    cases hg : stringValue t depth r k.index with
    | ok o => rfl
    | err =>
      exfalso
      unfold stringValue hasValue at hg
      cases hx : r.get (r.column t depth) t .string k.index with
      | ok v => rw [hx] at hg; rcases v with _ | v <;> [cases hg; (cases v <;> cases hg)]
      | err => rw [hx] at hg; cases hg
      | panic => rw [hx] at hg; cases hg
    | panic => exact absurd hg (hv r hr)
  unfold keyItems
  rw [htab, hf]
  dsimp only
  rw [hc]
  dsimp only
  unfold fieldItems
  rw [hk]
  dsimp only
  rw [hfind, Res.bind_ok]
  cases hx : (present? t.rows).find? fun r => (stringOf t depth r k.index).map P.upper == some (P.upper text) with
  | none => exact ⟨_, rfl⟩
  | some r =>
    obtain ⟨items, h⟩ := matchedItems_tracked hi t depth c.index [r] (by simpa using hg r (List.mem_of_find?_eq_some hx))
    simp only [matchedItems] at h
    obtain ⟨i, h1, h2⟩ := Res.bind_eq_ok.mp h
    exact ⟨i, h1⟩

theorem guid_ok {p : Parser P} (hr : p.trackRows = false) (hi : p.trackIDs = true) (sort : Sorter P) (depth : Nat) (g : Guid.Guid) :
    ∃ st, p.evaluate sort depth true false [.guid g] = .ok st ∧ ∀ k, k ∈ st.ids ↔ k = g ∧ Guid.isZero g = false := by
  have ha : p.walkItems depth (.guid g) = .ok ([.id g], []) := by
    simp only [walkItems, identItems, guidItems, hr, Bool.false_eq_true, false_and, if_false, Res.bind_ok]
    rfl
  obtain ⟨st, h1, -, h2⟩ := evaluate_one (sort := sort) (al := true) (as := false) (.inr hi) ⟨_, _, ha, rfl, rfl⟩
  refine ⟨st, h1, fun k => ?_⟩
  rw [h2, List.append_nil, idsOf_id]
  cases Guid.isZero g <;> simp [hi, idsOf]

end Parser

/-- The parser of `SelectSignalIDSet`. -/
abbrev forIDs (tables : Str → Option (Str × Table P)) (primary : Str) (fields : Option IDFields) : Parser P :=
  { forDataSet tables primary fields with trackRows := false, trackIDs := true }

theorem idSet_one {tables : Str → Option (Str × Table P)} {sort : Sorter P} {depth : Nat} {text primary : Str} {fields : Option IDFields} {s : S}
    (hw : s.WF) (hs : Lex.tokens text = s.toks) {d : Statement P} (hd : (forIDs tables primary fields).statementOf s = .ok d) {st : Found P}
    (h : (forIDs tables primary fields).evaluate sort depth true false [d] = .ok st) :
    ∃ set, selectSignalIDSet tables sort depth text primary fields = some (.ok (some set)) ∧ ∀ g, g ∈ set ↔ g ∈ st.ids := by
  have hl : Listed [s] (Lex.tokens text) := by rw [hs]; simpa using Listed.one 0 0 s
  obtain ⟨S, hS, hm⟩ := (Parser.sets_evaluate h).1.2 rfl
  refine ⟨S, ?_, hm⟩
  unfold selectSignalIDSet
  rw [if_neg (listed_text hl)]
  refine some_map_ok.2 ⟨st, ?_, hS⟩
  rw [Parser.C88_text (.inr rfl) sort depth true false (by simpa using hw) hl (.cons hd .nil), h]

/-- The field names in use. -/
theorem idFields_primary (tables : Str → Option (Str × Table P)) {primary : Str} (hne : primary ≠ []) (fields : Option IDFields) :
    (forIDs tables primary fields).idFields primary = some (fields.getD defaultIDFields) := by
  simp [forDataSet, List.length_pos_iff.2 hne]

/-- **The text of a `FILTER` statement on the primary table selects the signal IDs of its rows**, apart from null and the zero GUID. The name the
caller gives for the primary table must be the table's own, letter by letter. -/
theorem C88_filter_ids_partial (tables : Str → Option (Str × Table P)) (sort : Sorter P) (depth : Nat) {text primary : Str} {fields : Option IDFields}
    {top : Option Top} {table : Str} {e : E} {terms : List Term} (hw : e.WF 0) (ht : Lex.tokens text = (S.filter top table e terms).toks)
    (hne : table ≠ []) (hne' : primary ≠ []) {t : Table P} (htab : tables table = some (primary, t)) {root : Tree P}
    (hroot : build (columnOf t) e = .ok root) (hterms : ∀ x ∈ terms, ∃ c, t.columnByName x.column = some c)
    (hv : ∀ r ∈ present? t.rows, ∃ v, eval (r.column t depth) root = .ok v) {c : Column}
    (hc : t.columnByName (fields.getD defaultIDFields).signalID = some c) (hg : ∀ r ∈ present? t.rows, Parser.guidValue t depth r c.index ≠ .panic) :
    ∃ set, selectSignalIDSet tables sort depth text primary fields = some (.ok (some set)) ∧
      ∀ g, g ∈ set ↔ Guid.isZero g = false ∧
        ∃ r ∈ Parser.topOf true (topNumber top) (matching t depth root), Parser.guidValue t depth r c.index = .ok (some g) := by
  obtain ⟨obs, ho⟩ := Parser.orderBy_ok t (terms.map Parser.orderingTerm) (by
    intro x hx
    obtain ⟨y, hy, rfl⟩ := List.mem_map.1 hx
    exact hterms y hy)
  have hid := idFields_primary tables hne' fields
  obtain ⟨st, h1⟩ := Parser.filter_ok (p := forIDs tables primary fields) rfl (sort := sort) (top := topNumber top) hne htab ho hv hid hc hg
  obtain ⟨set, h3, h4⟩ := idSet_one (s := .filter top table e terms) hw ht
    (filter_statementOf (p := forIDs tables primary fields) hne htab hroot) h1
  refine ⟨set, h3, fun g => ?_⟩
  obtain ⟨f', c', e1, e2, e3⟩ := (Parser.C54_filter_statement (forIDs tables primary fields) sort depth true table (topNumber top)
    (terms.map Parser.orderingTerm) root st primary t hne htab hv h1).2 rfl
  rw [hid] at e1
  injection e1 with e1
  subst e1
  rw [hc] at e2
  injection e2 with e2
  subst e2
  rw [h4, e3]
  rfl

/-- **A GUID selects itself**, whatever the data set has, unless it is the zero GUID. -/
theorem C88_guid (tables : Str → Option (Str × Table P)) (sort : Sorter P) (depth : Nat) {text primary x : Str} {fields : Option IDFields}
    (ht : Lex.tokens text = [.guid x]) {g : Guid.Guid} (hg : literal (P := P) (.guid x) = .ok (.guid g)) :
    ∃ set, selectSignalIDSet tables sort depth text primary fields = some (.ok (some set)) ∧ ∀ k, k ∈ set ↔ k = g ∧ Guid.isZero g = false := by
  have hd : (forIDs tables primary fields).statementOf (.guid x) = .ok (.guid g) := by
    simp only [literal] at hg
    simp only [Parser.statementOf, Parser.guidLiteral]
    cases hu : unquote (ch '\'') x with
    | ok s =>
      rw [hu, Res.bind_ok] at hg
      rw [Res.bind_ok]
      split at hg
      · rename_i h
        injection hg with hg
        injection hg with hg
        rw [if_pos h, hg]
        rfl
      · cases hg
    | err => rw [hu] at hg; cases hg
    | panic => rw [hu] at hg; cases hg
  have he := Parser.guid_ok (p := forIDs tables primary fields) rfl rfl sort depth g
  obtain ⟨st, h1, h2⟩ := he
  obtain ⟨set, h3, h4⟩ := idSet_one (s := .guid x) trivial ht hd h1
  exact ⟨set, h3, fun k => by rw [h4, h2]⟩

/-- The signal ID of the first row of the table whose column `k` has the text, letter case aside. -/
def HasKey (t : Table P) (depth : Nat) (k c : Column) (text : Str) (g : Guid.Guid) : Prop :=
  ∃ r ∈ (present? t.rows).find? fun r => (Parser.stringOf t depth r k.index).map P.upper == some (P.upper text),
    Parser.guidValue t depth r c.index = .ok (some g)

/-- **A measurement key selects the signal ID of the first row with this key.** -/
theorem C88_key (tables : Str → Option (Str × Table P)) (sort : Sorter P) (depth : Nat) {text primary name x : Str} {fields : Option IDFields}
    (ht : Lex.tokens text = [.measurementKey x]) (hne : primary ≠ []) {t : Table P} (htab : tables primary = some (name, t)) {c k : Column}
    (hc : t.columnByName (fields.getD defaultIDFields).signalID = some c) (hk : t.columnByName (fields.getD defaultIDFields).measurementKey = some k)
    (hv : ∀ r ∈ present? t.rows, Parser.stringValue t depth r k.index ≠ .panic)
    (hg : ∀ r ∈ present? t.rows, Parser.guidValue t depth r c.index ≠ .panic) :
    ∃ set, selectSignalIDSet tables sort depth text primary fields = some (.ok (some set)) ∧
      ∀ g, g ∈ set ↔ Guid.isZero g = false ∧ HasKey t depth k c x g := by
  have hid := idFields_primary tables hne fields
  obtain ⟨items, hi⟩ := Parser.key_ok (p := forIDs tables primary fields) rfl (text := x) (field := IDFields.measurementKey) htab hid hc hk hv hg
  have ha : (forIDs tables primary fields).walkItems depth (.measurementKey x) = .ok (items, []) := by
    simp only [Parser.walkItems, Parser.identItems, hi, Res.bind_ok]
    rfl
  obtain ⟨st, h1, -, -⟩ := Parser.evaluate_one (sort := sort) (al := true) (as := false) (.inr rfl) ⟨_, _, ha, rfl, rfl⟩
  obtain ⟨set, h3, h4⟩ := idSet_one (s := .measurementKey x) trivial ht rfl h1
  refine ⟨set, h3, fun g => ?_⟩
  rw [h4, (Parser.C54_key_statement (forIDs tables primary fields) sort depth true false x st name t _ c k htab hid hc hk hv h1).2 rfl]
  rfl

/-- **A point tag likewise**: the text between the quotes is looked up. -/
theorem C88_tag (tables : Str → Option (Str × Table P)) (sort : Sorter P) (depth : Nat) {text primary name x : Str} {fields : Option IDFields}
    (ht : Lex.tokens text = [.pointTag (34#8 :: (x ++ [34#8]))]) (hne : primary ≠ []) {t : Table P} (htab : tables primary = some (name, t)) {c k : Column}
    (hc : t.columnByName (fields.getD defaultIDFields).signalID = some c) (hk : t.columnByName (fields.getD defaultIDFields).pointTag = some k)
    (hv : ∀ r ∈ present? t.rows, Parser.stringValue t depth r k.index ≠ .panic)
    (hg : ∀ r ∈ present? t.rows, Parser.guidValue t depth r c.index ≠ .panic) :
    ∃ set, selectSignalIDSet tables sort depth text primary fields = some (.ok (some set)) ∧
      ∀ g, g ∈ set ↔ Guid.isZero g = false ∧ HasKey t depth k c x g := by
  have hid := idFields_primary tables hne fields
  obtain ⟨items, hi⟩ := Parser.key_ok (p := forIDs tables primary fields) rfl (text := x) (field := IDFields.pointTag) htab hid hc hk hv hg
  have ha : (forIDs tables primary fields).walkItems depth (.pointTag x) = .ok (items, []) := by
    simp only [Parser.walkItems, Parser.identItems, hi, Res.bind_ok]
    rfl
  obtain ⟨st, h1, -, -⟩ := Parser.evaluate_one (sort := sort) (al := true) (as := false) (.inr rfl) ⟨_, _, ha, rfl, rfl⟩
  have hd : (forIDs tables primary fields).statementOf (.pointTag (34#8 :: (x ++ [34#8]))) = .ok (.pointTag x) := by
    simp only [Parser.statementOf]
    have : unquote (ch '"') (34#8 :: (x ++ [34#8])) = .ok x := by
      have h1 : ch '"' = 34#8 := rfl
      simp only [unquote, h1, if_true]
      cases x with
      | nil => rfl
      | cons b x =>
        simp only [inner, List.cons_append]
        rw [show b :: (x ++ [34#8]) = (b :: x) ++ [34#8] from rfl, List.dropLast_concat]
    rw [this]
    rfl
  obtain ⟨set, h3, h4⟩ := idSet_one (s := .pointTag (34#8 :: (x ++ [34#8]))) trivial ht hd h1
  refine ⟨set, h3, fun g => ?_⟩
  rw [h4, (Parser.C54_tag_statement (forIDs tables primary fields) sort depth true false x st name t _ c k htab hid hc hk hv h1).2 rfl]
  rfl

/-- **The text of an expression selects the signal IDs of the rows of the primary table.** -/
theorem C88_expression_ids_partial (tables : Str → Option (Str × Table P)) (sort : Sorter P) (depth : Nat) {text primary : Str} {fields : Option IDFields}
    {e : E} (hw : e.WF 0) (hg' : ∀ g, e.toks ≠ [.guid g]) (ht : Lex.tokens text = e.toks) (hne : primary ≠ []) {t : Table P}
    (htab : tables primary = some (primary, t)) {root : Tree P} (hroot : build (columnOf t) e = .ok root)
    (hv : ∀ r ∈ present? t.rows, ∃ v, eval (r.column t depth) root = .ok v) {c : Column}
    (hc : t.columnByName (fields.getD defaultIDFields).signalID = some c) (hg : ∀ r ∈ present? t.rows, Parser.guidValue t depth r c.index ≠ .panic) :
    ∃ set, selectSignalIDSet tables sort depth text primary fields = some (.ok (some set)) ∧
      ∀ g, g ∈ set ↔ Guid.isZero g = false ∧ ∃ r ∈ matching t depth root, Parser.guidValue t depth r c.index = .ok (some g) := by
  have hid := idFields_primary tables hne fields
  obtain ⟨st, h1⟩ := Parser.expression_ok (p := forIDs tables primary fields) rfl (sort := sort) hne htab hv hid hc hg
  have hd : (forIDs tables primary fields).statementOf (.expr e) = .ok (.expression root) := by
    simp only [Parser.statementOf]
    rw [columnNamed_primary hne htab, hroot]
    rfl
  obtain ⟨set, h3, h4⟩ := idSet_one (s := .expr e) ⟨hw, hg'⟩ ht hd h1
  refine ⟨set, h3, fun g => ?_⟩
  obtain ⟨f', c', e1, e2, e3⟩ := (Parser.C54_expression_statement (forIDs tables primary fields) sort depth true root st primary t htab hv h1).2 rfl
  rw [hid] at e1
  injection e1 with e1
  subst e1
  rw [hc] at e2
  injection e2 with e2
  subst e2
  rw [h4, e3]
  rfl

/-- A limit of decimal digits is their number. -/
theorem C88_top (n : Nat) (h : n < 2 ^ 63) : topNumber (some ⟨none, Format.decimal n⟩) = some (some (n : Int)) ∧
    topNumber (some ⟨some false, Format.decimal n⟩) = some (some (n : Int)) ∧ topNumber (some ⟨some true, Format.decimal n⟩) = some (some (-n : Int)) := by
  have hp : Text.parseUint (Format.decimal n) = .value n := Meta.parse_decimal n (by omega)
  have hs : Text.sign (Format.decimal n) = (false, Format.decimal n) := by
    cases hd : Format.decimal n with
    | nil => rfl
    | cons b t =>
      have := Format.decimal_digits n b (by rw [hd]; simp)
      unfold Text.sign
      have h1 : b ≠ 45#8 := by rintro rfl; revert this; decide
      have h2 : b ≠ 43#8 := by rintro rfl; revert this; decide
      simp [h1, h2]
  refine ⟨?_, ?_, ?_⟩
  · simp only [topNumber, Option.map_some, topText, atoi, hs, hp]
    simp
    omega
  · have : Text.sign (43#8 :: Format.decimal n) = (false, Format.decimal n) := rfl
    simp only [topNumber, Option.map_some, topText, atoi, this, hp]
    simp
    omega
  · have : Text.sign (45#8 :: Format.decimal n) = (true, Format.decimal n) := rfl
    simp only [topNumber, Option.map_some, topText, atoi, this, hp]
    simp
    omega

end Verif.Table
