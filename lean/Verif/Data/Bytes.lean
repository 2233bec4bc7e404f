import Verif.Data.Props
import Verif.Xml.WriteProps

/-!
# C67, from bytes: what a document of bytes loads (data/DataSet.go L154-162)

Data sets are written as text, as publishers do it; reading that text gives the tree of which `C67_round_trip_partial` speaks, up to what is between the tags
of elements that are not fields.
-/

namespace Verif.Data

open Verif.Expr (Prim Str lit)
open Verif.Table (Table Column Row DT Cell)
open Verif.Xml (NameLib Blank Chars IsName QNameText Element Content Prolog Scope declared spaceFor nodeIn tag emptyTag spaced Attr)

variable {P : Prim}

/-- `ParseXml` (DataSet.go L154-162); `pre` chooses what `Prefix` gives for the schema node, Go's map order being any. -/
def parseXml (T : NameLib) (X : XmlLib P) (pre : Xml.Tree → Str) (s : Str) (ds : DataSet P) : Res (DataSet P) :=
  match Xml.decode T s with
  | none => .err
  | some root => parseDocument X (pre ((root.children.find? fun c => c.name = lit "schema").getD root)) root ds

/-! ### Trees that load alike -/

/-- Elements that differ in what is between tags only. -/
inductive Same : Xml.Tree → Xml.Tree → Prop
  | node {n sp : Str} {as : List (Str × Str × Str)} {i j : Str} {cs ds : List Xml.Tree} : List.Forall₂ Same cs ds → Same (.node n sp as i cs) (.node n sp as j ds)

theorem Same.name {t u : Xml.Tree} (h : Same t u) : t.name = u.name := by cases h; rfl
theorem Same.space {t u : Xml.Tree} (h : Same t u) : t.space = u.space := by cases h; rfl
theorem Same.attrs {t u : Xml.Tree} (h : Same t u) : t.attrs = u.attrs := by cases h; rfl
theorem Same.children {t u : Xml.Tree} (h : Same t u) : List.Forall₂ Same t.children u.children := by cases h; assumption

theorem Same.attrOf {t u : Xml.Tree} (h : Same t u) (n : Str) : Xml.attrOf t n = Xml.attrOf u n := by
  unfold Xml.attrOf
  rw [h.attrs]

theorem pick_same (e : Str) {ts us : List Xml.Tree} (h : List.Forall₂ Same ts us) : List.Forall₂ Same (pick e ts) (pick e us) := by
  unfold pick
  induction h with
  | nil => exact .nil
  | @cons t u ts us h1 _ ih =>
    rw [List.filter_cons, List.filter_cons, h1.name]
    split
    · exact .cons h1 ih
    · exact ih

theorem children_same {ts us : List Xml.Tree} (h : List.Forall₂ Same ts us) :
    List.Forall₂ Same (ts.flatMap Xml.Tree.children) (us.flatMap Xml.Tree.children) := by
  induction h with
  | nil => exact .nil
  | @cons t u ts us h1 _ ih =>
    rw [List.flatMap_cons, List.flatMap_cons]
    exact List.rel_append h1.children ih

theorem descend_same (es : List Str) : ∀ {ts us : List Xml.Tree}, List.Forall₂ Same ts us → List.Forall₂ Same (descend es ts) (descend es us) := by
  induction es with
  | nil => intro ts us _; exact .nil
  | cons e es ih =>
    intro ts us h
    cases es with
    | nil => exact pick_same e h
    | cons e' es => exact ih (children_same (pick_same e h))

theorem fieldColumn_same (pre : Str) {t u : Xml.Tree} (h : Same t u) : fieldColumn pre t = fieldColumn pre u := by
  have hs : ∀ n, spaceOf t n = spaceOf u n := by intro n; unfold spaceOf; rw [h.attrs]
  have he : ∀ n, extended t n = extended u n := by intro n; unfold extended; rw [h.attrOf, hs]
  unfold fieldColumn
  rw [h.attrOf, h.attrOf, he, he]

theorem addFields_same (pre : Str) {fs gs : List Xml.Node} (h : List.Forall₂ Same (fs.map Xml.Node.tree) (gs.map Xml.Node.tree)) :
    ∀ t : Table P, addFields pre t fs = addFields pre t gs := by
  unfold addFields
  induction fs generalizing gs with
  | nil =>
    intro t
    cases gs with
    | nil => rfl
    | cons g gs => cases h
  | cons f fs ih =>
    intro t
    cases gs with
    | nil => cases h
    | cons g gs =>
      rw [List.map_cons, List.map_cons, List.forall₂_cons] at h
      rw [List.foldl_cons, List.foldl_cons, fieldColumn_same pre h.1, ih h.2]

theorem addTable_same (X : XmlLib P) (pre : Str) (ds : DataSet P) {n m : Xml.Node} (h : Same n.tree m.tree) : addTable X pre ds n = addTable X pre ds m := by
  unfold addTable
  rw [h.attrOf]
  cases Xml.attrOf m.tree (lit "name") with
  | none => rfl
  | some name =>
    dsimp only
    obtain ⟨rs, h1, h2⟩ := select_descend (textLib P) n (lit "complexType/sequence/element") (by decide)
    obtain ⟨qs, h3, h4⟩ := select_descend (textLib P) m (lit "complexType/sequence/element") (by decide)
    rw [h1, h3]
    simp only [Res.bind_ok]
    rw [addFields_same pre (fs := rs) (gs := qs) (by rw [h2, h4]; exact descend_same _ h.children)]

theorem addTables_same (X : XmlLib P) (pre : Str) : ∀ {ns ms : List Xml.Node}, List.Forall₂ Same (ns.map Xml.Node.tree) (ms.map Xml.Node.tree) →
    ∀ ds : DataSet P, addTables X pre ns ds = addTables X pre ms ds := by
  intro ns
  induction ns with
  | nil =>
    intro ms h ds
    cases ms with
    | nil => rfl
    | cons m ms => cases h
  | cons n ns ih =>
    intro ms h ds
    cases ms with
    | nil => cases h
    | cons m ms =>
      rw [List.map_cons, List.map_cons, List.forall₂_cons] at h
      unfold addTables
      rw [addTable_same X pre ds h.1]
      cases addTable X pre ds m with
      | ok d => exact ih h.2 d
      | err => rfl
      | panic => rfl

theorem loadSchema_same (X : XmlLib P) (pre : Str) {t u : Xml.Tree} (h : Same t u) (p q : Xml.Path) (ds : DataSet P) :
    loadSchema X pre ⟨p, t⟩ ds = loadSchema X pre ⟨q, u⟩ ds := by
  unfold loadSchema
  obtain ⟨rs, h1, h2⟩ := select_descend (textLib P) ⟨p, t⟩ (lit "element/complexType/choice/element") (by decide)
  obtain ⟨qs, h3, h4⟩ := select_descend (textLib P) ⟨q, u⟩ (lit "element/complexType/choice/element") (by decide)
  rw [h1, h3]
  simp only [Res.bind_ok]
  exact addTables_same X pre (by rw [h2, h4]; exact descend_same _ h.children) ds

/-- Records that load alike. -/
def RowLike (t u : Xml.Tree) : Prop := t.name = u.name ∧ t.children = u.children

theorem addRecords_like (X : XmlLib P) {ts us : List Xml.Tree} (h : List.Forall₂ RowLike ts us) : ∀ t : Table P, addRecords X ts t = addRecords X us t := by
  induction h with
  | nil => intro t; rfl
  | cons h1 _ ih =>
    intro t
    unfold addRecords
    rw [h1.2]
    congr 1
    funext r
    exact ih _

theorem filter_like (n : Str) {ts us : List Xml.Tree} (h : List.Forall₂ RowLike ts us) :
    List.Forall₂ RowLike (ts.filter fun c => c.name = n) (us.filter fun c => c.name = n) := by
  induction h with
  | nil => exact .nil
  | @cons t u ts us h1 _ ih =>
    rw [List.filter_cons, List.filter_cons, h1.1]
    split
    · exact .cons h1 ih
    · exact ih

theorem loadRecords_like (X : XmlLib P) {root root' s s' : Xml.Tree} {ts us : List Xml.Tree} (hr : root.children = s :: ts) (hr' : root'.children = s' :: us)
    (hs : s.name = lit "schema") (hs' : s'.name = lit "schema") (h : List.Forall₂ RowLike ts us) :
    ∀ ds : DataSet P, (∀ e ∈ ds, e.2.name ≠ lit "schema") → loadRecords X root ds = loadRecords X root' ds := by
  intro ds
  induction ds with
  | nil => intro _; rfl
  | cons e ds ih =>
    intro hd
    obtain ⟨k, n⟩ := e
    have hn : n.name ≠ lit "schema" := hd (k, n) (by simp)
    unfold loadRecords
    rw [hr, hr', List.filter_cons, List.filter_cons, if_neg (by rw [hs]; simpa using Ne.symm hn), if_neg (by rw [hs']; simpa using Ne.symm hn),
      addRecords_like X (filter_like n.name h), ih (fun x hx => hd x (by simp [hx]))]

/-! ### Writing -/

/-- The element of a column. -/
def colText (px : Str) (c : Str × DT × Str) : Str :=
  emptyTag (px ++ 58#8 :: lit "element")
    ([(lit "name", c.1), (lit "type", px ++ 58#8 :: xsdName c.2.1)] ++
      (if c.2.1 = .guid then [(lit "ext:DataType", lit "System.Guid")] else []) ++
      (if c.2.2 = [] then [] else [(lit "ext:Expression", c.2.2)]))

/-- The element of a table. -/
def tableText (px ws : Str) (T : TableDef P) : Str :=
  tag (px ++ 58#8 :: lit "element") [(lit "name", T.name)] (spaced ws [tag (px ++ 58#8 :: lit "complexType") [] (spaced ws
    [tag (px ++ 58#8 :: lit "sequence") [] (spaced ws (T.cols.map (colText px)))])])

/-- The schema. -/
def schemaText (px ws name : Str) (D : List (TableDef P)) : Str :=
  tag (px ++ 58#8 :: lit "schema") [(lit "xmlns:" ++ px, schemaSpace), (lit "xmlns:ext", extSpace), (lit "id", name)] (spaced ws [tag (px ++ 58#8 :: lit "element") [] (spaced ws
    [tag (px ++ 58#8 :: lit "complexType") [] (spaced ws [tag (px ++ 58#8 :: lit "choice") [] (spaced ws (D.map (tableText px ws)))])])])

/-- The elements of the fields that are not null. -/
def fieldTexts (X : XmlLib P) : List (Str × DT × Str) → List (Option (Cell P)) → List Str
  | c :: cs, some v :: vs => tag c.1 [] (cellText X v) :: fieldTexts X cs vs
  | _ :: cs, none :: vs => fieldTexts X cs vs
  | _, _ => []

/-- The element of a row. -/
def rowText (X : XmlLib P) (ws : Str) (T : TableDef P) (row : List (Option (Cell P))) : Str := tag T.name [] (spaced ws (fieldTexts X T.cols row))

/-- The document, `ws` between all tags but those of fields. -/
def document (X : XmlLib P) (px ws name : Str) (D : List (TableDef P)) : Str :=
  tag name [] (spaced ws (schemaText px ws name D :: D.flatMap fun T => T.rows.map (rowText X ws T)))

/-- A name of a data set, a table or a column that can be the name of an element. -/
def Plain (T : NameLib) (n : Str) : Prop := IsName T n ∧ 58#8 ∉ n ∧ Chars n

/-- A text that can stand between tags as it is. -/
def Clean (s : Str) : Prop := Chars s ∧ 38#8 ∉ s ∧ 60#8 ∉ s ∧ 62#8 ∉ s

/-- A value that can be written: a string of characters of XML, or one whose text is clean. -/
def Legible (X : XmlLib P) : Cell P → Prop
  | .string s => Chars s
  | v => Clean (cellText X v)

/-- A table whose names and texts are ones of XML. -/
structure Spelled (T : NameLib) (X : XmlLib P) (S : TableDef P) : Prop where
  name : Plain T S.name
  cols : ∀ c ∈ S.cols, Plain T c.1 ∧ Chars c.2.2
  rows : ∀ row ∈ S.rows, ∀ v, some v ∈ row → Legible X v

/-! ### Reading what was written -/

/-- The name spaces that the schema declares. -/
def Scoped (px : Str) (scope : Scope) : Prop := declared scope px = some schemaSpace ∧ declared scope (lit "ext") = some extSpace

theorem ascii_name {T : NameLib} {n : Str} (h : Xml.isName Xml.ascii n = true) : IsName T n := by
  have hb : ∀ r, Xml.ascii.begins r = true → T.begins r = true ∧ r < 128 := by
    intro r hr
    unfold NameLib.begins at hr ⊢
    by_cases h1 : r < 128
    · rw [if_pos h1] at hr ⊢
      exact ⟨hr, h1⟩
    · rw [if_neg h1] at hr
      simp [Xml.ascii] at hr
  obtain ⟨r, rs, h1, h2, h3, h4⟩ := (Xml.isName_iff _ _).mp h
  refine ⟨r, rs, h1, h2, (hb r h3).1, fun x hx => ?_⟩
  have hx := h4 x hx
  unfold NameLib.follows at hx ⊢
  rw [Bool.or_eq_true] at hx ⊢
  rcases hx with hx | hx
  · exact Or.inl (hb x hx).1
  · right
    by_cases h1 : x < 128
    · rw [if_pos h1] at hx ⊢
      exact hx
    · rw [if_neg h1] at hx
      simp [Xml.ascii] at hx

/-- A prefix that can be written. -/
def PrefixName (T : NameLib) (px : Str) : Prop := Plain T px ∧ px ≠ Xml.xmlns ∧ px ≠ lit "xml"

theorem ascii_text (b : Str) (h : ∀ c ∈ b, c.toNat < 128) : b = Utf8.text (b.map BitVec.toNat) := by
  unfold Utf8.text
  induction b with
  | nil => rfl
  | cons c b ih =>
    rw [List.map_cons, List.flatMap_cons, ← ih (fun x hx => h x (by simp [hx]))]
    have hc := h c (by simp)
    have : Utf8.encode c.toNat = [c] := by
      unfold Utf8.encode
      rw [if_pos (by omega)]
      unfold Utf8.byte
      simp
    rw [this]
    rfl

theorem ascii_follows {T : NameLib} {r : Nat} (hr : r < 128) (h : Xml.ascii.follows r = true) : T.follows r = true := by
  unfold NameLib.follows NameLib.begins at h ⊢
  rw [if_pos hr, if_pos hr] at h ⊢
  exact h

theorem text_append (a b : List Nat) : Utf8.text (a ++ b) = Utf8.text a ++ Utf8.text b := by
  unfold Utf8.text
  rw [List.flatMap_append]

/-- Bytes that may stand in a name after its first one. -/
def Following (b : Str) : Bool := b.all fun c => decide (c.toNat < 128) && Xml.ascii.follows c.toNat

theorem following_runes {T : NameLib} {b : Str} (hb : Following b = true) : b = Utf8.text (b.map BitVec.toNat) ∧
    (∀ x ∈ b.map BitVec.toNat, Utf8.Valid x) ∧ ∀ x ∈ b.map BitVec.toNat, T.follows x = true := by
  have h : ∀ c ∈ b, c.toNat < 128 ∧ Xml.ascii.follows c.toNat = true := by
    intro c hc
    have := List.all_eq_true.mp hb c hc
    rwa [Bool.and_eq_true, decide_eq_true_eq] at this
  refine ⟨ascii_text b fun c hc => (h c hc).1, ?_, ?_⟩
  · intro x hx
    obtain ⟨c, hc, rfl⟩ := List.mem_map.mp hx
    exact Or.inl (by have := (h c hc).1; omega)
  · intro x hx
    obtain ⟨c, hc, rfl⟩ := List.mem_map.mp hx
    exact ascii_follows (h c hc).1 (h c hc).2

theorem name_append {T : NameLib} {a b : Str} (ha : IsName T a) (hb : Following b = true) : IsName T (a ++ b) := by
  obtain ⟨r, rs, h1, h2, h3, h4⟩ := ha
  obtain ⟨g1, g2, g3⟩ := following_runes (T := T) hb
  refine ⟨r, rs ++ b.map BitVec.toNat, ?_, ?_, h3, ?_⟩
  · rw [← List.cons_append, text_append, ← h1, ← g1]
  · intro x hx
    rw [← List.cons_append, List.mem_append] at hx
    exact hx.elim (h2 x) (g2 x)
  · intro x hx
    rw [List.mem_append] at hx
    exact hx.elim (h4 x) (g3 x)

theorem name_prepend {T : NameLib} {a b : Str} (ha : IsName T a) (hb : IsName T b) : IsName T (a ++ b) := by
  obtain ⟨r, rs, h1, h2, h3, h4⟩ := ha
  obtain ⟨q, qs, g1, g2, g3, g4⟩ := hb
  refine ⟨r, rs ++ q :: qs, ?_, ?_, h3, ?_⟩
  · rw [← List.cons_append, text_append, ← h1, ← g1]
  · intro x hx
    rw [← List.cons_append, List.mem_append] at hx
    exact hx.elim (h2 x) (g2 x)
  · intro x hx
    rw [List.mem_append, List.mem_cons] at hx
    rcases hx with hx | rfl | hx
    · exact h4 x hx
    · unfold NameLib.follows
      rw [g3]
      rfl
    · exact g4 x hx

theorem plain_ne {T : NameLib} {n : Str} (h : Plain T n) : n ≠ [] := by
  obtain ⟨⟨r, rs, h1, -⟩, -⟩ := h
  rw [h1, Utf8.text_cons]
  simp [Utf8.encode_ne_nil]

theorem following_colon {l : Str} (h : Following l = true) : Following (58#8 :: l) = true := by
  unfold Following at h ⊢
  rw [List.all_cons, h]
  decide

theorem xs_name {T : NameLib} {px : Str} (hpx : PrefixName T px) (l : Str) (h1 : Following l = true) (h2 : l ≠ []) (h3 : 58#8 ∉ l) :
    QNameText T (px ++ 58#8 :: l) (px, l) :=
  .prefixed (name_append hpx.1.1 (following_colon h1)) (plain_ne hpx.1) h2 hpx.1.2.1 h3

theorem plain_name {T : NameLib} {n : Str} (h : Plain T n) : QNameText T n ([], n) := .plain h.1 h.2.1

theorem own_name {T : NameLib} (n : Str) (h : Xml.isName Xml.ascii n = true) (h3 : 58#8 ∉ n) : QNameText T n ([], n) := .plain (ascii_name h) h3

theorem xs_space {T : NameLib} {px : Str} (hpx : PrefixName T px) {scope : Scope} (h : Scoped px scope) (l : Str) :
    spaceFor scope (px, l) true = schemaSpace := by
  unfold spaceFor
  rw [if_neg hpx.2.1, if_neg hpx.2.2, if_neg (plain_ne hpx.1), h.1]
  rfl

theorem own_space {scope : Scope} (n : Str) : spaceFor scope ([], n) false = [] := by
  unfold spaceFor
  rw [if_neg (show ([] : Str) ≠ Xml.xmlns by decide), if_neg (show ([] : Str) ≠ lit "xml" by decide), if_pos rfl, if_neg (by simp)]

theorem ext_space {px : Str} {scope : Scope} (h : Scoped px scope) (l : Str) : spaceFor scope (lit "ext", l) false = extSpace := by
  unfold spaceFor
  rw [if_neg (show lit "ext" ≠ Xml.xmlns by decide), if_neg (show lit "ext" ≠ lit "xml" by decide), if_neg (show lit "ext" ≠ [] by decide), h.2]
  rfl

theorem inside {px : Str} {scope : Scope} (h : Scoped px scope) {qs : List (Xml.QName × Str)} (hq : Xml.Undeclaring qs) : Scoped px (qs.reverse ++ scope) := by
  unfold Scoped
  rw [Xml.declared_inside hq]
  exact h

/-- A written element is that of a tree, but for what is between tags. -/
def Writes (T : NameLib) (scope : Scope) (s : Str) (t : Xml.Tree) : Prop := ∃ u, Element T scope s u ∧ Same u t

theorem writes_all {T : NameLib} {scope : Scope} {A : Type} (l : List A) (f : A → Str) (g : A → Xml.Tree) (h : ∀ x ∈ l, Writes T scope (f x) (g x)) :
    ∃ us, List.Forall₂ (Element T scope) (l.map f) us ∧ List.Forall₂ Same us (l.map g) := by
  induction l with
  | nil => exact ⟨[], .nil, .nil⟩
  | cons x l ih =>
    obtain ⟨u, h1, h2⟩ := h x (by simp)
    obtain ⟨us, h3, h4⟩ := ih (fun y hy => h y (by simp [hy]))
    exact ⟨u :: us, .cons h1 h3, .cons h2 h4⟩

/-- A schema element around others. -/
theorem writes_tag {T : NameLib} {px : Str} (hpx : PrefixName T px) {scope : Scope} {ws : Str} (hw : Blank ws) (hsc : Scoped px scope) {A : Type} (l : List A) (f : A → Str) (g : A → Xml.Tree)
    (n : Str) (h1 : Following n = true) (h2 : n ≠ []) (h3 : 58#8 ∉ n) (as : List (Str × Str)) (qs : List (Str × Str))
    (ha : List.Forall₂ (fun a q => QNameText T a.1 ([], q.1) ∧ a.2 = q.2 ∧ Chars a.2 ∧ q.1 ≠ Xml.xmlns) as qs)
    (h : ∀ sc, Scoped px sc → ∀ x ∈ l, Writes T sc (f x) (g x)) :
    Writes T scope (tag (px ++ 58#8 :: n) as (spaced ws (l.map f))) (.node n schemaSpace (qs.map fun q => (q.1, [], q.2)) [] (l.map g)) := by
  have hq : Xml.Undeclaring (qs.map fun q => (([], q.1), q.2)) := by
    intro a ha'
    obtain ⟨q, hq, rfl⟩ := List.mem_map.mp ha'
    refine ⟨by show ([] : Str) ≠ _; decide, ?_⟩
    intro e
    injection e with _ e
    obtain ⟨a, -, hx⟩ : ∃ a ∈ as, QNameText T a.1 ([], q.1) ∧ a.2 = q.2 ∧ Chars a.2 ∧ q.1 ≠ Xml.xmlns := by
      clear e ha'
      induction ha with
      | nil => cases hq
      | @cons a q' as qs hh _ ih =>
        rcases List.mem_cons.mp hq with rfl | hq
        · exact ⟨a, by simp, hh⟩
        · obtain ⟨a, ha, hx⟩ := ih hq
          exact ⟨a, by simp [ha], hx⟩
    exact hx.2.2.2 e
  obtain ⟨us, e1, e2⟩ := writes_all l f g (h _ (inside hsc hq))
  have ha' : List.Forall₂ (Attr T) as (qs.map fun q => (([], q.1), q.2)) := by
    rw [List.forall₂_map_right_iff]
    exact ha.imp fun a q hh => ⟨hh.1, hh.2.1, hh.2.2.1⟩
  refine ⟨_, Xml.tag_element (xs_name hpx n h1 h2 h3) ha' (Xml.spaced_content hw e1), ?_⟩
  unfold nodeIn
  rw [xs_space hpx (inside hsc hq)]
  have : (List.map (fun a => (a.1.2, spaceFor ((qs.map fun q => ((([] : Str), q.1), q.2)).reverse ++ scope) a.1 false, a.2)) (qs.map fun q => ((([] : Str), q.1), q.2))) =
      qs.map fun q => (q.1, [], q.2) := by
    rw [List.map_map]
    apply List.map_congr_left
    intro q _
    show (q.1, spaceFor _ ([], q.1) false, q.2) = _
    rw [own_space]
  rw [this]
  exact .node e2

theorem chars_ascii_lit (s : Str) (h : (s.all fun b => decide (b.toNat < 128 ∧ 32 ≤ b.toNat)) = true) : Chars s := by
  refine Xml.ascii_chars s fun b hb => ?_
  have := List.all_eq_true.mp h b hb
  rw [decide_eq_true_eq] at this
  exact ⟨this.1, Or.inr (Or.inr (Or.inr this.2))⟩

theorem chars_append {a b : Str} (ha : Chars a) (hb : Chars b) : Chars (a ++ b) := by
  obtain ⟨rs, rfl, hr⟩ := ha
  obtain ⟨qs, rfl, hq⟩ := hb
  refine ⟨rs ++ qs, (text_append rs qs).symm, fun x hx => ?_⟩
  rw [List.mem_append] at hx
  exact hx.elim (hr x) (hq x)

theorem writes_col {T : NameLib} {px : Str} (hpx : PrefixName T px) {scope : Scope} (hsc : Scoped px scope) (c : Str × DT × Str) (hn : Chars c.1) (he : Chars c.2.2) :
    Writes T scope (colText px c) (colElement px c) := by
  obtain ⟨n, dt, ex⟩ := c
  let qs : List (Xml.QName × Str) := [(([], lit "name"), n), (([], lit "type"), px ++ 58#8 :: xsdName dt)] ++
    (if dt = .guid then [((lit "ext", lit "DataType"), lit "System.Guid")] else []) ++ (if ex = [] then [] else [((lit "ext", lit "Expression"), ex)])
  have hq : Xml.Undeclaring qs := by
    intro a ha
    rcases List.mem_append.mp ha with ha | ha
    · rcases List.mem_append.mp ha with ha | ha
      · rcases List.mem_cons.mp ha with rfl | ha
        · exact ⟨by show ([] : Str) ≠ _; decide, by intro e; injection e with _ e; revert e; decide⟩
        · rw [List.mem_singleton] at ha
          subst ha
          exact ⟨by show ([] : Str) ≠ _; decide, by intro e; injection e with _ e; revert e; decide⟩
      · by_cases hg : dt = .guid
        · rw [if_pos hg, List.mem_singleton] at ha
          subst ha
          exact ⟨by show lit "ext" ≠ _; decide, by intro e; injection e with e _; revert e; decide⟩
        · rw [if_neg hg] at ha; cases ha
    · by_cases hg : ex = []
      · rw [if_pos hg] at ha; cases ha
      · rw [if_neg hg, List.mem_singleton] at ha
        subst ha
        exact ⟨by show lit "ext" ≠ _; decide, by intro e; injection e with e _; revert e; decide⟩
  have hext : ∀ l, Xml.isName Xml.ascii (lit "ext:" ++ l) = true → l ≠ [] → 58#8 ∉ l → QNameText T (lit "ext:" ++ l) (lit "ext", l) :=
    fun l h1 h2 h3 => .prefixed (p := lit "ext") (ascii_name h1) (by decide) h2 (by decide) h3
  have ha : List.Forall₂ (Attr T) ([(lit "name", n), (lit "type", px ++ 58#8 :: xsdName dt)] ++
      (if dt = .guid then [(lit "ext:DataType", lit "System.Guid")] else []) ++ (if ex = [] then [] else [(lit "ext:Expression", ex)])) qs := by
    have hty : Chars (px ++ 58#8 :: xsdName dt) := chars_append hpx.1.2.2 (chars_ascii_lit _ (by cases dt <;> decide))
    refine List.rel_append (List.rel_append (.cons ⟨own_name (lit "name") (by decide +kernel) (by decide), rfl, hn⟩
      (.cons ⟨own_name (lit "type") (by decide +kernel) (by decide), rfl, hty⟩ .nil)) ?_) ?_
    · by_cases hg : dt = .guid
      · rw [if_pos hg, if_pos hg]
        exact .cons ⟨hext (lit "DataType") (by decide +kernel) (by decide) (by decide), rfl, chars_ascii_lit _ (by decide)⟩ .nil
      · rw [if_neg hg, if_neg hg]; exact .nil
    · by_cases hg : ex = []
      · rw [if_pos hg, if_pos hg]; exact .nil
      · rw [if_neg hg, if_neg hg]
        exact .cons ⟨hext (lit "Expression") (by decide +kernel) (by decide) (by decide), rfl, he⟩ .nil
  refine ⟨_, Xml.emptyTag_element (xs_name hpx (lit "element") (by decide +kernel) (by decide) (by decide)) ha, ?_⟩
  unfold nodeIn colElement
  rw [xs_space hpx (inside hsc hq)]
  have hsc' := inside hsc hq
  have : (qs.map fun a => (a.1.2, spaceFor (qs.reverse ++ scope) a.1 false, a.2)) = [(lit "name", [], n), (lit "type", [], px ++ 58#8 :: xsdName dt)] ++
      (if dt = .guid then [(lit "DataType", extSpace, lit "System.Guid")] else []) ++ (if ex = [] then [] else [(lit "Expression", extSpace, ex)]) := by
    generalize qs.reverse ++ scope = sc at hsc'
    rw [List.map_append, List.map_append]
    congr 1
    · rw [List.map_cons, List.map_cons, own_space, own_space]
      congr 1
      · by_cases hg : dt = .guid
        · rw [if_pos hg, if_pos hg, List.map_cons, ext_space hsc']
          rfl
        · rw [if_neg hg, if_neg hg]
          rfl
    · by_cases hg : ex = []
      · rw [if_pos hg, if_pos hg]
        rfl
      · rw [if_neg hg, if_neg hg, List.map_cons, ext_space hsc']
        rfl
  rw [this]
  exact .node .nil

theorem writes_table {T : NameLib} {px : Str} (hpx : PrefixName T px) {ws : Str} (hw : Blank ws) {scope : Scope} (hsc : Scoped px scope) (S : TableDef P) (hn : Chars S.name)
    (hc : ∀ c ∈ S.cols, Chars c.1 ∧ Chars c.2.2) : Writes T scope (tableText px ws S) (tableElement px S) := by
  have h1 := fun sc (hs : Scoped px sc) => writes_tag (T := T) hpx hw hs S.cols (colText px) (colElement px) (lit "sequence") (by decide +kernel) (by decide) (by decide) [] [] .nil
    (fun sc hs c hc' => writes_col hpx hs c (hc c hc').1 (hc c hc').2)
  have h2 := fun sc (hs : Scoped px sc) => writes_tag (T := T) hpx hw hs [()] (fun _ => tag (px ++ 58#8 :: lit "sequence") [] (spaced ws (S.cols.map (colText px))))
    (fun _ => .node (lit "sequence") schemaSpace [] [] (S.cols.map (colElement px))) (lit "complexType") (by decide +kernel) (by decide) (by decide) [] [] .nil
    (fun sc hs _ _ => h1 sc hs)
  exact writes_tag (T := T) hpx hw hsc [()] (fun _ => tag (px ++ 58#8 :: lit "complexType") [] (spaced ws [tag (px ++ 58#8 :: lit "sequence") [] (spaced ws (S.cols.map (colText px)))]))
    (fun _ => .node (lit "complexType") schemaSpace [] [] [.node (lit "sequence") schemaSpace [] [] (S.cols.map (colElement px))]) (lit "element")
    (by decide +kernel) (by decide) (by decide) [(lit "name", S.name)] [(lit "name", S.name)]
    (.cons ⟨own_name (lit "name") (by decide +kernel) (by decide), rfl, hn, show lit "name" ≠ Xml.xmlns by decide⟩ .nil) (fun sc hs _ _ => h2 sc hs)

theorem writes_schema {T : NameLib} {px : Str} (hpx : PrefixName T px) (hext : px ≠ lit "ext") {ws : Str} (hw : Blank ws) (name : Str) (hn : Chars name) (D : List (TableDef P)) (hD : ∀ S ∈ D, Chars S.name)
    (hc : ∀ S ∈ D, ∀ c ∈ S.cols, Chars c.1 ∧ Chars c.2.2) : Writes T [] (schemaText px ws name D) (schemaElement px name D) := by
  let qs : List (Xml.QName × Str) := [((lit "xmlns", px), schemaSpace), ((lit "xmlns", lit "ext"), extSpace), (([], lit "id"), name)]
  have hsc : Scoped px (qs.reverse ++ []) := by
    have h1 := plain_ne hpx.1
    have hq : qs.reverse ++ [] = [(([], lit "id"), name), ((lit "xmlns", lit "ext"), extSpace), ((lit "xmlns", px), schemaSpace)] := rfl
    unfold Scoped
    rw [hq]
    refine ⟨?_, rfl⟩
    unfold declared
    simp only [if_neg h1]
    rw [List.find?_cons_of_neg (by simp [Xml.xmlns, lit]), List.find?_cons_of_neg (by simpa using fun _ e => hext e.symm),
      List.find?_cons_of_pos (by simp; rfl)]
    rfl
  have hx : ∀ l, Xml.isName Xml.ascii (lit "xmlns:" ++ l) = true → l ≠ [] → 58#8 ∉ l → QNameText T (lit "xmlns:" ++ l) (lit "xmlns", l) :=
    fun l h1 h2 h3 => .prefixed (p := lit "xmlns") (ascii_name h1) (by decide) h2 (by decide) h3
  have ha : List.Forall₂ (Attr T) [(lit "xmlns:" ++ px, schemaSpace), (lit "xmlns:ext", extSpace), (lit "id", name)] qs := by
    refine .cons ⟨.prefixed (p := lit "xmlns") (name_prepend (a := lit "xmlns:") (ascii_name (by decide +kernel)) hpx.1.1) (by decide) (plain_ne hpx.1) (by decide)
      hpx.1.2.1, rfl, chars_ascii_lit schemaSpace (by decide)⟩
      (.cons ⟨hx (lit "ext") (by decide +kernel) (by decide) (by decide), rfl, chars_ascii_lit _ (by decide)⟩
      (.cons ⟨own_name (lit "id") (by decide +kernel) (by decide), rfl, hn⟩ .nil))
  have h1 := fun sc (hs : Scoped px sc) => writes_tag (T := T) hpx hw hs D (tableText px ws) (tableElement px) (lit "choice") (by decide +kernel) (by decide) (by decide) [] [] .nil
    (fun sc hs S hS => writes_table hpx hw hs S (hD S hS) (hc S hS))
  have h2 := fun sc (hs : Scoped px sc) => writes_tag (T := T) hpx hw hs [()] (fun _ => tag (px ++ 58#8 :: lit "choice") [] (spaced ws (D.map (tableText px ws))))
    (fun _ => .node (lit "choice") schemaSpace [] [] (D.map (tableElement px))) (lit "complexType") (by decide +kernel) (by decide) (by decide) [] [] .nil
    (fun sc hs _ _ => h1 sc hs)
  have h3 := fun sc (hs : Scoped px sc) => writes_tag (T := T) hpx hw hs [()] (fun _ => tag (px ++ 58#8 :: lit "complexType") [] (spaced ws [tag (px ++ 58#8 :: lit "choice") [] (spaced ws (D.map (tableText px ws)))]))
    (fun _ => .node (lit "complexType") schemaSpace [] [] [.node (lit "choice") schemaSpace [] [] (D.map (tableElement px))]) (lit "element") (by decide +kernel) (by decide) (by decide) [] [] .nil
    (fun sc hs _ _ => h2 sc hs)
  obtain ⟨u, e1, e2⟩ := h3 _ hsc
  refine ⟨_, Xml.tag_element (xs_name hpx (lit "schema") (by decide +kernel) (by decide) (by decide)) ha (Xml.spaced_content hw (.cons e1 .nil)), ?_⟩
  unfold nodeIn schemaElement
  rw [xs_space hpx hsc]
  exact .node (.cons e2 .nil)

theorem bare_element {T : NameLib} {n body : Str} {cs : List Xml.Tree} (hn : QNameText T n ([], n)) (hb : Content T [] body cs) :
    Element T [] (tag n [] body) (.node n [] [] body cs) := by
  have := Xml.tag_element (scope := []) hn .nil hb
  have hs : spaceFor [] ([], n) true = [] := by
    unfold spaceFor
    rw [if_neg (show ([] : Str) ≠ Xml.xmlns by decide), if_neg (show ([] : Str) ≠ lit "xml" by decide), if_pos rfl]
    split <;> rfl
  unfold nodeIn at this
  rw [show ([] : List (Xml.QName × Str)).reverse ++ [] = [] from rfl, hs] at this
  exact this

theorem escape_bytes {s out : Str} (h : Xml.LineEnds s out) : Xml.TextBytes none (escape s) out := by
  unfold escape
  induction h with
  | nil => exact .nil
  | @byte b raw out hb _ ih =>
    rw [List.flatMap_cons]
    by_cases h1 : b = 38#8
    · rw [if_pos h1]
      subst h1
      exact Xml.TextBytes.entity Xml.EntityText.amp ih
    rw [if_neg h1]
    by_cases h2 : b = 60#8
    · rw [if_pos h2]
      subst h2
      exact Xml.TextBytes.entity Xml.EntityText.lt ih
    rw [if_neg h2]
    by_cases h3 : b = 62#8
    · rw [if_pos h3]
      subst h3
      exact Xml.TextBytes.entity Xml.EntityText.gt ih
    rw [if_neg h3]
    exact .byte h1 h2 hb (by simp) ih
  | crlf _ ih => exact .crlf ih
  | @cr raw out hh _ ih =>
    refine .cr ?_ ih
    cases raw with
    | nil => simp
    | cons b raw =>
      have hb : b ≠ 10#8 := fun e => hh (by rw [e]; rfl)
      show (escape (b :: raw)).head? ≠ _
      unfold escape
      rw [List.flatMap_cons]
      intro e
      split_ifs at e
      · revert e; simp [lit]
      · revert e; simp [lit]
      · revert e; simp [lit]
      · injection e with e
        exact hb e

theorem escape_content (T : NameLib) (scope : Scope) {s : Str} (hc : Chars s) : Content T scope (escape s) [] := by
  by_cases h0 : s = []
  · subst h0; exact .nil
  have hne : escape s ≠ [] := by
    cases s with
    | nil => exact absurd rfl h0
    | cons b s =>
      unfold escape
      rw [List.flatMap_cons]
      split_ifs <;> simp [lit]
  have hgt : 62#8 ∉ escape s := by
    intro hm
    obtain ⟨b, -, hb⟩ := List.mem_flatMap.mp hm
    split_ifs at hb with h1 h2 h3
    · revert hb; decide
    · revert hb; decide
    · revert hb; decide
    · rw [List.mem_singleton] at hb
      exact h3 hb.symm
  obtain ⟨rs, rfl, hr⟩ := hc
  obtain ⟨out, ho, hch⟩ := Xml.lines_chars _ rs (Nat.le_refl _) hr
  have := Content.text (T := T) (scope := scope) (raw := escape (Utf8.text rs)) (rest := []) ⟨hne, by
    rintro ⟨a, b, e⟩
    apply hgt
    rw [← e]
    simp [lit], out, escape_bytes ho, hch⟩ (by simp) .nil
  rwa [List.append_nil] at this

theorem legible_content {T : NameLib} (scope : Scope) (X : XmlLib P) (v : Cell P) (h : Legible X v) : Content T scope (cellText X v) [] := by
  cases v with
  | string s => exact escape_content T scope h
  | _ => exact Xml.plain_content T scope h.1 h.2.1 h.2.2.1 h.2.2.2

theorem fields_text {T : NameLib} (X : XmlLib P) : ∀ (cols : List (Str × DT × Str)) (row : List (Option (Cell P))), (∀ c ∈ cols, Plain T c.1) →
    (∀ v, some v ∈ row → Legible X v) → List.Forall₂ (Element T []) (fieldTexts X cols row) (fieldElements X cols row) := by
  intro cols
  induction cols with
  | nil => intro row _ _; exact .nil
  | cons c cols ih =>
    intro row hc hr
    cases row with
    | nil => exact .nil
    | cons v row =>
      have ht := ih row (fun x hx => hc x (by simp [hx])) (fun x hx => hr x (by simp [hx]))
      cases v with
      | none => exact ht
      | some v =>
        exact .cons (bare_element (plain_name (hc c (by simp))) (legible_content [] X v (hr v (by simp)))) ht

theorem row_text {T : NameLib} (X : XmlLib P) {ws : Str} (hw : Blank ws) (S : TableDef P) (hS : Spelled T X S) (row : List (Option (Cell P))) (hr : row ∈ S.rows) :
    ∃ u, Element T [] (rowText X ws S row) u ∧ RowLike u (rowElement X S row) :=
  ⟨_, bare_element (plain_name hS.name) (Xml.spaced_content hw (fields_text X S.cols row (fun c hc => (hS.cols c hc).1) (hS.rows row hr))), rfl, rfl⟩

theorem rows_text {T : NameLib} (X : XmlLib P) {ws : Str} (hw : Blank ws) (D : List (TableDef P)) (hD : ∀ S ∈ D, Spelled T X S) :
    ∃ us, List.Forall₂ (Element T []) (D.flatMap fun S => S.rows.map (rowText X ws S)) us ∧
      List.Forall₂ RowLike us (D.flatMap fun S => S.rows.map (rowElement X S)) := by
  induction D with
  | nil => exact ⟨[], .nil, .nil⟩
  | cons S D ih =>
    obtain ⟨us, h1, h2⟩ := ih (fun x hx => hD x (by simp [hx]))
    have hS := hD S (by simp)
    have : ∀ rows : List (List (Option (Cell P))), (∀ row ∈ rows, row ∈ S.rows) → ∃ us, List.Forall₂ (Element T []) (rows.map (rowText X ws S)) us ∧
        List.Forall₂ RowLike us (rows.map (rowElement X S)) := by
      intro rows
      induction rows with
      | nil => intro _; exact ⟨[], .nil, .nil⟩
      | cons row rows ih' =>
        intro hr
        obtain ⟨us, h1, h2⟩ := ih' (fun x hx => hr x (by simp [hx]))
        obtain ⟨u, h3, h4⟩ := row_text X hw S hS row (hr row (by simp))
        exact ⟨u :: us, .cons h3 h1, .cons h4 h2⟩
    obtain ⟨vs, h3, h4⟩ := this S.rows (fun _ h => h)
    exact ⟨vs ++ us, by rw [List.flatMap_cons]; exact List.rel_append h3 h1, by rw [List.flatMap_cons]; exact List.rel_append h4 h2⟩

/-- What is read of a written document. -/
theorem document_read {T : NameLib} (X : XmlLib P) {px : Str} (hpx : PrefixName T px) (hext : px ≠ lit "ext") {ws name : Str} (hw : Blank ws) (hn : Plain T name) (D : List (TableDef P)) (hD : ∀ S ∈ D, Spelled T X S) :
    ∃ inner s us, Element T [] (document X px ws name D) (.node name [] [] inner (s :: us)) ∧ Same s (schemaElement px name D) ∧
      List.Forall₂ RowLike us (D.flatMap fun S => S.rows.map (rowElement X S)) := by
  obtain ⟨s, h1, h2⟩ := writes_schema (T := T) hpx hext hw name hn.2.2 D (fun S hS => (hD S hS).name.2.2) (fun S hS c hc => ⟨((hD S hS).cols c hc).1.2.2, ((hD S hS).cols c hc).2⟩)
  obtain ⟨us, h3, h4⟩ := rows_text X hw D hD
  exact ⟨_, s, us, bare_element (plain_name hn) (Xml.spaced_content hw (.cons h1 h3)), h2, h4⟩

/-- C67, from bytes: a data set loads as it was written, but for the characters of strings that are escaped, whatever blanks are between its tags,
whatever prolog comes before it and whatever after it. -/
theorem C67_bytes (T : NameLib) (X : XmlLib P) (pro px ws name rest : Str) (D : List (TableDef P)) (hpx : PrefixName T px) (hb : Bindable px) (hpro : Prolog T pro) (hw : Blank ws) (hn : Plain T name)
    (hne : name ≠ schemaSpace) (hS : ∀ S ∈ D, Spelled T X S) (hD : ∀ S ∈ D, Fits X S) (hd : (D.map fun S => P.upper S.name).Nodup)
    (pre : Xml.Tree → Str) (hp : ∀ t, IsPrefix t (pre t)) :
    ∃ ds, parseXml T X pre (pro ++ (document X px ws name D ++ rest)) [] = .ok ds ∧
      (∀ S ∈ D, ∀ x, P.upper x = P.upper S.name → ∃ n, ds.find x = some n ∧ Loaded X S.asRead n) ∧
      (∀ x, (∀ S ∈ D, P.upper S.name ≠ P.upper x) → ds.find x = none) := by
  obtain ⟨inner, s, us, h1, h2, h3⟩ := document_read X hpx hb.2.2 hw hn D hS
  have hdec : Xml.decode T (pro ++ (document X px ws name D ++ rest)) = some (.node name [] [] inner (s :: us)) :=
    (Xml.C120_reads T _ _).mpr ⟨pro, _, rest, rfl, hpro, h1⟩
  have hsn : s.name = lit "schema" := h2.name
  have hfind : (Xml.Tree.node name [] [] inner (s :: us)).children.find? (fun c => c.name = lit "schema") = some s :=
    List.find?_cons_of_pos (by simpa using hsn)
  have hpre : IsPrefix (schemaElement px name D) (pre s) := by
    have := hp s
    unfold IsPrefix at this ⊢
    rw [h2.space] at this
    simpa only [h2.attrOf] using this
  obtain ⟨ds, g1, g2, g3⟩ := C67_loads X px name hb D hne hD hd (pre s) hpre
  refine ⟨ds, ?_, g2, g3⟩
  unfold parseXml
  rw [hdec]
  dsimp only
  rw [hfind, Option.getD_some, ← g1]
  have hfind' : (render X px name D).children.find? (fun c => c.name = lit "schema") = some (schemaElement px name D) :=
    List.find?_cons_of_pos (by simp [schemaElement, Xml.Tree.name])
  unfold parseDocument
  rw [hfind, hfind']
  dsimp only
  rw [h2.attrOf, h2.space]
  have hid : Xml.attrOf (schemaElement px name D) (lit "id") = some name := rfl
  rw [hid]
  dsimp only
  rw [if_neg (by simp [Xml.Tree.name]), if_neg (not_not.mpr (show (schemaElement px name D).space = schemaSpace from rfl)),
    if_neg (not_not.mpr (show name = (render X px name D).name from rfl)),
    loadSchema_same X (pre s) h2 [] [], prefix_written px name ⟨hb.2.1, hb.2.2⟩ D hne (pre s) hpre, schema_back X px name hb.1 D hD hd]
  show loadRecords X _ _ = loadRecords X _ _
  refine loadRecords_like X (ts := us) (us := D.flatMap fun S => S.rows.map (rowElement X S)) rfl rfl hsn rfl h3 _ ?_
  intro e he
  obtain ⟨S, hS', rfl⟩ := List.mem_map.mp he
  exact (hD S hS').notSchema

/-- C67, from bytes: a data set loads as it was written. Partial as `C67_round_trip_partial` is: there must be nothing to escape in its strings. -/
theorem C67_bytes_partial (T : NameLib) (X : XmlLib P) (pro px ws name rest : Str) (D : List (TableDef P)) (hpx : PrefixName T px) (hb : Bindable px) (hpro : Prolog T pro) (hw : Blank ws) (hn : Plain T name)
    (hne : name ≠ schemaSpace) (hS : ∀ S ∈ D, Spelled T X S) (hD : ∀ S ∈ D, Fits X S) (hs : ∀ S ∈ D, Unescaped S)
    (hd : (D.map fun S => P.upper S.name).Nodup) (pre : Xml.Tree → Str) (hp : ∀ t, IsPrefix t (pre t)) :
    ∃ ds, parseXml T X pre (pro ++ (document X px ws name D ++ rest)) [] = .ok ds ∧
      (∀ S ∈ D, ∀ x, P.upper x = P.upper S.name → ∃ n, ds.find x = some n ∧ Loaded X S n) ∧
      (∀ x, (∀ S ∈ D, P.upper S.name ≠ P.upper x) → ds.find x = none) := by
  obtain ⟨ds, h1, h2, h3⟩ := C67_bytes T X pro px ws name rest D hpx hb hpro hw hn hne hS hD hd pre hp
  refine ⟨ds, h1, fun S hS x hx => ?_, h3⟩
  obtain ⟨n, hn, hl⟩ := h2 S hS x hx
  exact ⟨n, hn, by rw [asRead_eq S (hs S hS)] at hl; exact hl⟩

/-- C67: no bytes make `ParseXml` panic; it fails exactly when they are no document or one without a schema to accept. -/
theorem C67_any_bytes (T : NameLib) (X : XmlLib P) (pre : Xml.Tree → Str) (s : Str) :
    (∃ pro raw rest root ds, s = pro ++ (raw ++ rest) ∧ Prolog T pro ∧ Element T [] raw root ∧ HasSchema root ∧ parseXml T X pre s [] = .ok ds ∧
      ∀ x n, ds.find x = some n → Shaped root n) ∨
    ((∀ pro raw rest root, s = pro ++ (raw ++ rest) → Prolog T pro → Element T [] raw root → ¬ HasSchema root) ∧ parseXml T X pre s [] = .err) := by
  unfold parseXml
  cases hd : Xml.decode T s with
  | none =>
    refine Or.inr ⟨?_, rfl⟩
    intro pro raw rest root e h1 h2
    rw [(Xml.C120_reads T s root).mpr ⟨pro, raw, rest, e, h1, h2⟩] at hd
    cases hd
  | some root =>
    dsimp only
    obtain ⟨pro, raw, rest, e, h1, h2⟩ := (Xml.C120_reads T s root).mp hd
    rcases C67_any_document X (pre ((root.children.find? fun c => c.name = lit "schema").getD root)) root with ⟨a, ds, b, c⟩ | ⟨a, b⟩
    · exact Or.inl ⟨pro, raw, rest, root, ds, e, h1, h2, a, b, c⟩
    · refine Or.inr ⟨?_, b⟩
      intro pro' raw' rest' root' e' h1' h2'
      have := (Xml.C120_reads T s root').mpr ⟨pro', raw', rest', e', h1', h2'⟩
      rw [hd] at this
      injection this with this
      rw [← this]
      exact a

/-! ### Examples -/

/-- There is a prefix for every element. -/
theorem prefix_exists : ∃ pre : Xml.Tree → Str, ∀ t, IsPrefix t (pre t) := by
  have : ∀ t, ∃ p, IsPrefix t p := by
    intro t
    by_cases h : ∃ q, Xml.attrOf t q = some t.space
    · obtain ⟨q, hq⟩ := h
      exact ⟨q, Or.inl hq⟩
    · exact ⟨[], Or.inr ⟨rfl, fun q hq => h ⟨q, hq⟩⟩⟩
  exact ⟨fun t => (this t).choose, fun t => (this t).choose_spec⟩

/-- What the sample is written as, with a line end between tags. -/
def sampleBytes : Str := document toyLib (lit "xs") [10#8] (lit "Set") sampleSet

theorem sample_spelled (T : NameLib) : ∀ S ∈ sampleSet, Spelled T toyLib S := by
  have name : ∀ n : Str, Xml.isName Xml.ascii n = true → 58#8 ∉ n → (n.all fun b => decide (b.toNat < 128 ∧ 32 ≤ b.toNat)) = true → Plain T n :=
    fun n h1 h2 h3 => ⟨ascii_name h1, h2, chars_ascii_lit n h3⟩
  have clean : ∀ v : Cell Expr.Toy.prim, ((cellText toyLib v).all fun b => decide ((b.toNat < 128 ∧ 32 ≤ b.toNat) ∧ b ≠ 38#8 ∧ b ≠ 60#8 ∧ b ≠ 62#8)) = true →
      Clean (cellText toyLib v) := by
    intro v hv
    have h : ∀ b ∈ cellText toyLib v, (b.toNat < 128 ∧ 32 ≤ b.toNat) ∧ b ≠ 38#8 ∧ b ≠ 60#8 ∧ b ≠ 62#8 := fun b hb => by
      have := List.all_eq_true.mp hv b hb
      rwa [decide_eq_true_eq] at this
    exact ⟨chars_ascii_lit _ (by
      rw [List.all_eq_true]
      intro b hb
      rw [decide_eq_true_eq]
      exact (h b hb).1), fun hm => (h _ hm).2.1 rfl, fun hm => (h _ hm).2.2.1 rfl, fun hm => (h _ hm).2.2.2 rfl⟩
  intro S hS
  rcases List.mem_cons.mp hS with rfl | hS
  · refine ⟨name _ (by decide +kernel) (by decide) (by decide), ?_, ?_⟩
    · intro c hc
      simp only [List.mem_cons, List.not_mem_nil, or_false] at hc
      rcases hc with rfl | rfl | rfl <;>
        exact ⟨name _ (by decide +kernel) (by decide) (by decide), chars_ascii_lit _ (by decide)⟩
    · intro row hrow v hv
      simp only [List.mem_cons, List.not_mem_nil, or_false] at hrow
      rcases hrow with rfl | rfl <;> simp only [List.mem_cons, List.not_mem_nil, or_false, reduceCtorEq, Option.some.injEq, false_or] at hv
      · rcases hv with rfl | rfl
        · exact chars_ascii_lit _ (by decide)
        · exact clean (.int16 (-5)) (by decide +kernel)
      · subst hv
        exact clean (.int16 7) (by decide +kernel)
  · rw [List.mem_singleton] at hS
    subst hS
    refine ⟨name _ (by decide +kernel) (by decide) (by decide), ?_, ?_⟩
    · intro c hc
      simp only [List.mem_cons, List.not_mem_nil, or_false] at hc
      rcases hc with rfl | rfl <;>
        exact ⟨name _ (by decide +kernel) (by decide) (by decide), chars_ascii_lit _ (by decide)⟩
    · intro row hrow v hv
      rw [List.mem_singleton] at hrow
      subst hrow
      simp only [List.mem_cons, List.not_mem_nil, or_false, Option.some.injEq] at hv
      rcases hv with rfl | rfl
      · exact clean (.dateTime (12 : Int)) (by decide +kernel)
      · exact clean (.boolean true) (by decide +kernel)

/-- The sample as bytes, after a comment and before more text. -/
example (pre : Xml.Tree → Str) (hp : ∀ t, IsPrefix t (pre t)) :
    ∃ ds n, parseXml Xml.ascii toyLib pre (lit "<!-- tables -->" ++ (sampleBytes ++ lit "\nend")) [] = .ok ds ∧ ds.find (lit "EVENTS") = some n ∧
      n.table.rows.map (Option.map Row.values) = [some [some (.dateTime (12 : Int)), some (.boolean true)]] := by
  have hpro : Prolog Xml.ascii (lit "<!-- tables -->") := by
    rw [show lit "<!-- tables -->" = lit "<!--" ++ (lit " tables " ++ lit "-->") ++ [] by decide]
    exact .misc (Xml.Misc.comment (T := Xml.ascii) (c := lit " tables ") (by decide +kernel)) .nil
  have hn : Plain Xml.ascii (lit "Set") := ⟨ascii_name (by decide +kernel), by decide, chars_ascii_lit _ (by decide)⟩
  have hne : lit "Set" ≠ schemaSpace := by decide
  obtain ⟨ds, h1, h2, -⟩ := C67_bytes_partial Xml.ascii toyLib (lit "<!-- tables -->") (lit "xs") [10#8] (lit "Set") (lit "\nend") sampleSet
    ⟨⟨ascii_name (by decide +kernel), by decide, chars_ascii_lit _ (by decide)⟩, by decide, by decide⟩ (by unfold Bindable; decide) hpro (by decide)
    hn hne (sample_spelled _) sample_fits sample_unescaped (by decide) pre hp
  obtain ⟨n, h3, h4⟩ := h2 _ (List.mem_cons_of_mem _ List.mem_cons_self) (lit "EVENTS") (by decide)
  exact ⟨ds, n, h1, h3, h4.rows⟩

/-- What is written begins with the schema. -/
example : (lit "<Set>\n<xs:schema xmlns:xs=\"http://www.w3.org/2001/XMLSchema\" xmlns:ext=\"urn:schemas-microsoft-com:xml-msdata\" id=\"Set\">\n") <+: sampleBytes := by
  decide +kernel

end Verif.Data
