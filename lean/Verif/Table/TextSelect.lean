import Verif.Table.TextIds
import Verif.Lex.Meaning
import Verif.Lex.Append

/-!
# C89: `DataTable.Select`; C90: the values of expressions
-/

set_option linter.dupNamespace false

namespace Verif.Table

open Verif.Expr Verif.Parse
open Verif.Lex (tokens codes Writes Clean)

variable {P : Prim}

/-! ### Trees -/

/-- The parser of `GenerateExpressionTree`. -/
abbrev forTrees (tables : Str → Option (Str × Table P)) (primary : Str) : Parser P := { forDataSet tables primary none with trackRows := false }

/-- The tree of a `FILTER` statement. -/
theorem generateTree_filter (tables : Str → Option (Str × Table P)) (depth : Nat) {name table own text : Str} {top : Option Top} {e : E}
    {terms : List Term} (hw : e.WF 0) (ht : tokens text = (S.filter top table e terms).toks) (hne : table ≠ []) {t : Table P}
    (htab : tables table = some (own, t)) {root : Tree P} (hroot : build (columnOf t) e = .ok root) {obs : List OrderBy} (ho : OrderOf t terms obs) :
    generateTree tables depth name text = some (.ok { root := root, topLimit := limitOf (topNumber top), orderBy := obs }) := by
  have hl : Listed [.filter top table e terms] (tokens text) := by rw [ht]; simpa using Listed.one 0 0 (S.filter top table e terms)
  have hr := read_listed (text := text) (ss := [.filter top table e terms]) (by simpa [S.WF] using hw) hl
  have hd := filter_statementOf (p := forTrees tables name) (top := top) (terms := terms) hne htab hroot
  have hv : (forTrees tables name).listenAll depth {} [.filter top table e terms] =
      .ok { Parser.enterStatement (forTrees tables name) {} with trees := [(table, { root := root, topLimit := limitOf (topNumber top), orderBy := obs })] } := by
    have hl : (forTrees tables name).listen depth {} (.filter top table e terms) =
        .ok { Parser.enterStatement (forTrees tables name) {} with trees := [(table, { root := root, topLimit := limitOf (topNumber top), orderBy := obs })] } := by
      unfold Parser.listen
      rw [hd, Res.bind_ok]
      have ho := ho.terms
      have htab' : (forTrees tables name).tables table = some (own, t) := htab
      simp only [Parser.visit, Parser.enterFilterStatement]
      rw [htab']
      simp only [ho, Res.bind_ok, Res.pure_eq]
      rfl
    rw [Parser.listenAll, hl]
    rfl
  unfold generateTree generateTrees
  rw [if_neg (listed_text hl)]
  unfold Parser.expressionTrees
  rw [hr]
  simp only [Option.map_some, Res.bind_ok]
  rw [hv]
  rfl

/-- The tree of an expression. -/
theorem generateTree_expr (tables : Str → Option (Str × Table P)) (depth : Nat) {name own text : Str} {e : E} (hw : e.WF 0)
    (hg : ∀ g, e.toks ≠ [.guid g]) (ht : tokens text = e.toks) (hne : name ≠ []) {t : Table P} (htab : tables name = some (own, t)) {root : Tree P}
    (hroot : build (columnOf t) e = .ok root) : generateTree tables depth name text = some (.ok { root := root }) := by
  have hl : Listed [.expr e] (tokens text) := by rw [ht]; simpa [S.toks] using Listed.one 0 0 (S.expr e)
  have hr := read_listed (text := text) (ss := [.expr e]) (by simpa [S.WF] using ⟨hw, hg⟩) hl
  have hd : (forTrees tables name).statementOf (.expr e) = .ok (.expression root) := by
    simp only [Parser.statementOf]
    rw [columnNamed_primary hne htab, hroot]
    rfl
  have hv : (forTrees tables name).listenAll depth {} [.expr e] =
      .ok { Parser.enterStatement (forTrees tables name) {} with trees := [([], { root := root })] } := by
    have hl : (forTrees tables name).listen depth {} (.expr e) =
        .ok { Parser.enterStatement (forTrees tables name) {} with trees := [([], { root := root })] } := by
      unfold Parser.listen
      rw [hd, Res.bind_ok]
      rfl
    rw [Parser.listenAll, hl]
    rfl
  unfold generateTree generateTrees
  rw [if_neg (listed_text hl)]
  unfold Parser.expressionTrees
  rw [hr]
  simp only [Option.map_some, Res.bind_ok]
  rw [hv]
  rfl

/-! ### The text `Select` makes -/

theorem ascii_codes {s : String} (h : ∀ c ∈ s.toList, c.toNat < 128) : ascii s = Utf8.text (codes s) := by
  rw [Lex.text_ascii (by
    intro c hc
    obtain ⟨d, hd, rfl⟩ := List.mem_map.1 hc
    exact h d hd)]
  simp only [ascii, codes, List.map_map]
  rfl

/-- The digits of a number as characters. -/
def digitCodes (n : Nat) : List Nat := (Format.decimal n).map BitVec.toNat

theorem digitCodes_text (n : Nat) : Utf8.text (digitCodes n) = Format.decimal n := by
  have hd := Format.decimal_digits n
  rw [Lex.text_ascii]
  · simp [digitCodes, List.map_map, Function.comp_def]
  · intro c hc
    obtain ⟨b, hb, rfl⟩ := List.mem_map.1 hc
    have := hd b hb
    revert this
    generalize b = b
    revert b
    decide +kernel

theorem digitCodes_writes (n : Nat) : Writes (.integer (Format.decimal n)) (digitCodes n) := by
  have hd := Format.decimal_digits n
  refine Lex.spelled_writes (Lex.valid_ascii ?_) ?_ (.inl ⟨?_, ?_⟩)
  · intro c hc
    obtain ⟨b, hb, rfl⟩ := List.mem_map.1 hc
    have := hd b hb
    revert this
    generalize b = b
    revert b
    decide +kernel
  · simp [Lex.textOf, digitCodes_text]
  · simp [digitCodes, Format.decimal_ne_nil]
  · intro c hc
    obtain ⟨b, hb, rfl⟩ := List.mem_map.1 hc
    have := hd b hb
    revert this
    generalize b = b
    revert b
    decide +kernel

/-- The characters that ask for the sort order. -/
def tailCodes : Option (List Nat) → List Nat
  | none => []
  | some o => 32 :: (codes "ORDER" ++ 32 :: (codes "BY" ++ 32 :: o))

/-- The characters of the text. -/
def selectCodes (name filter : List Nat) (sortOrder : Option (List Nat)) (limit : Int) : List Nat :=
  codes "FILTER" ++ 32 ::
    if limit > 0 then
      codes "TOP" ++ 32 :: (digitCodes limit.toNat ++ 32 :: (name ++ 32 :: (codes "WHERE" ++ 32 :: (filter ++ tailCodes sortOrder))))
    else name ++ 32 :: (codes "WHERE" ++ 32 :: (filter ++ tailCodes sortOrder))

theorem text_ne_nil {s : List Nat} (h : s ≠ []) : (Utf8.text s).length ≠ 0 := by
  obtain ⟨c, s, rfl⟩ := List.exists_cons_of_ne_nil h
  have : (Utf8.encode c).length ≠ 0 := by
    unfold Utf8.encode
    repeat' split
    all_goals simp
  simp only [Utf8.text, List.flatMap_cons, List.length_append]
  omega

theorem selectText_codes {name filter : List Nat} (hf : filter ≠ []) (sortOrder : Option (List Nat)) (hs : sortOrder ≠ some []) (limit : Int) :
    selectText (Utf8.text name) (Utf8.text filter) (Utf8.text (sortOrder.getD [])) limit = Utf8.text (selectCodes name filter sortOrder limit) := by
  have h1 : ascii "FILTER TOP " = Utf8.text (codes "FILTER" ++ 32 :: (codes "TOP" ++ [32])) := by decide
  have h2 : ascii " WHERE " = Utf8.text (32 :: (codes "WHERE" ++ [32])) := by decide
  have h3 : ascii " ORDER BY " = Utf8.text (32 :: (codes "ORDER" ++ 32 :: (codes "BY" ++ [32]))) := by decide
  have h4 : ascii "FILTER " = Utf8.text (codes "FILTER" ++ [32]) := by decide
  have h5 : ascii " " = Utf8.text [32] := by decide
  have h6 : limit > 0 → Format.formatInt limit = Utf8.text (digitCodes limit.toNat) := by
    intro h
    rw [digitCodes_text, Format.formatInt, if_neg (by omega), show limit.natAbs = limit.toNat by omega]
  unfold selectText selectCodes
  simp only
  rw [if_neg (text_ne_nil hf), h1, h2, h3, h4, h5]
  by_cases hl : limit > 0
  · rw [if_pos hl, if_pos hl, h6 hl]
    cases sortOrder with
    | none => simp [Utf8.text, tailCodes]
    | some o =>
      have ho : (Utf8.text o).length > 0 := Nat.pos_of_ne_zero (text_ne_nil fun h => hs (by rw [h]))
      rw [Option.getD_some, if_pos ho]
      simp only [← Utf8.text_append]
      simp [tailCodes]
  · rw [if_neg hl, if_neg hl]
    cases sortOrder with
    | none => simp [Utf8.text, tailCodes]
    | some o =>
      have ho : (Utf8.text o).length > 0 := Nat.pos_of_ne_zero (text_ne_nil fun h => hs (by rw [h]))
      rw [Option.getD_some, if_pos ho]
      simp only [← Utf8.text_append]
      simp [tailCodes]

/-- The sort order asked for: no text, or a text of ordering terms. -/
def SortText (sortOrder : Option (List Nat)) (terms : List Term) : Prop :=
  match sortOrder with
  | none => terms = []
  | some o => terms ≠ [] ∧ (∀ c ∈ o, Utf8.Valid c) ∧ tokens (Utf8.text o) = termsToks terms

/-- The limit asked for. -/
def topOfLimit (limit : Int) : Option Top := if limit > 0 then some ⟨none, Format.decimal limit.toNat⟩ else none

theorem valid_append {a b : List Nat} (ha : ∀ c ∈ a, Utf8.Valid c) (hb : ∀ c ∈ b, Utf8.Valid c) : ∀ c ∈ a ++ b, Utf8.Valid c := by
  intro c hc
  rcases List.mem_append.1 hc with h | h
  · exact ha c h
  · exact hb c h

theorem valid_blank {b : List Nat} (hb : ∀ c ∈ b, Utf8.Valid c) : ∀ c ∈ 32 :: b, Utf8.Valid c := by
  intro c hc
  rcases List.mem_cons.1 hc with rfl | h
  · decide
  · exact hb c h

theorem key_word (s : String) (t : Tok) (h : (codes s, t) ∈ Lex.keys) : Writes t (codes s) := Lex.key_writes h (Lex.keys_sameWord _ h)

theorem selectCodes_tokens {name filter : List Nat} {sortOrder : Option (List Nat)} (limit : Int) {e : E} {terms : List Term}
    (hn : Writes (.ident (Utf8.text name)) name) (hf : ∀ c ∈ filter, Utf8.Valid c) (hc : sortOrder ≠ none → Clean filter)
    (he : tokens (Utf8.text filter) = e.toks) (ho : SortText sortOrder terms) :
    tokens (Utf8.text (selectCodes name filter sortOrder limit)) = (S.filter (topOfLimit limit) (Utf8.text name) e terms).toks := by
  have hF := key_word "FILTER" .kFilter (by decide)
  have hT := key_word "TOP" .kTop (by decide)
  have hW := key_word "WHERE" .kWhere (by decide)
  have hO := key_word "ORDER" .kOrder (by decide)
  have hB := key_word "BY" .kBy (by decide)
  have h1 : ∃ rest, filter ++ tailCodes sortOrder = rest ∧ (∀ c ∈ rest, Utf8.Valid c) ∧
      tokens (Utf8.text rest) = e.toks ++ if terms = [] then [] else .kOrder :: .kBy :: termsToks terms := by
    refine ⟨_, rfl, ?_, ?_⟩
    · cases sortOrder with
      | none => simpa [tailCodes] using hf
      | some o => exact valid_append hf (valid_blank (valid_append hO.1 (valid_blank (valid_append hB.1 (valid_blank ho.2.1)))))
    · cases sortOrder with
      | none =>
        simp only [SortText] at ho
        rw [tailCodes, List.append_nil, he, if_pos ho, List.append_nil]
      | some o =>
        rw [if_neg ho.1, tailCodes]
        rw [Lex.C85_blank (hc (by simp)) hf (valid_append hO.1 (valid_blank (valid_append hB.1 (valid_blank ho.2.1)))), he,
          hO.blank (valid_append hB.1 (valid_blank ho.2.1)), hB.blank ho.2.1, ho.2.2]
  obtain ⟨rest, hrest, hv, ht⟩ := h1
  have h2 := valid_append hW.1 (valid_blank hv)
  have h3 := valid_append hn.1 (valid_blank h2)
  have h4 : tokens (Utf8.text (name ++ 32 :: (codes "WHERE" ++ 32 :: rest))) = .ident (Utf8.text name) :: .kWhere ::
      (e.toks ++ if terms = [] then [] else .kOrder :: .kBy :: termsToks terms) := by
    rw [hn.blank h2, hW.blank hv, ht]
  unfold selectCodes
  rw [hrest]
  by_cases hl : limit > 0
  · have hD := digitCodes_writes limit.toNat
    have h5 := valid_append hD.1 (valid_blank h3)
    rw [if_pos hl, hF.blank (valid_append hT.1 (valid_blank h5)), hT.blank h5, hD.blank h3, h4]
    simp [S.toks, topOfLimit, hl, topToks, signToks]
  · rw [if_neg hl, hF.blank h3, h4]
    simp [S.toks, topOfLimit, hl, topToks]

/-- **`Select` selects by the filter, the sort order and the limit given to it**, when the filter is the text of an expression and has no comment
that is open, and the sort order is one of ordering terms or nothing. -/
theorem C89_select_partial (tables : Str → Option (Str × Table P)) (sort : Sorter P) (depth : Nat) {name filter : List Nat}
    {sortOrder : Option (List Nat)} {limit : Int} (hl : limit < 2 ^ 63) {e : E} {terms : List Term} (hn : Writes (.ident (Utf8.text name)) name)
    (hf : ∀ c ∈ filter, Utf8.Valid c) (hc : sortOrder ≠ none → Clean filter) (hw : e.WF 0) (he : tokens (Utf8.text filter) = e.toks)
    (ho : SortText sortOrder terms) {own : Str} {t : Table P} (htab : tables (Utf8.text name) = some (own, t)) {root : Tree P}
    (hroot : build (columnOf t) e = .ok root) {obs : List OrderBy} (hobs : OrderOf t terms obs) :
    Table.selectFrom tables sort t depth (Utf8.text name) (Utf8.text filter) (Utf8.text (sortOrder.getD [])) limit =
      some (t.select sort depth (some (root, obs)) limit) := by
  have hne : filter ≠ [] := by
    rintro rfl
    exact E.toks_ne e (by rw [← he]; rfl)
  have hso : sortOrder ≠ some [] := by
    rintro rfl
    obtain ⟨h1, -, h2⟩ := ho
    have h3 : termsToks terms = [] := by rw [← h2]; rfl
    obtain ⟨x, xs, rfl⟩ := List.exists_cons_of_ne_nil h1
    cases xs <;> simp [termsToks, Term.toks] at h3
  have hnn : Utf8.text name ≠ [] := by
    intro h
    have := hn.tokens
    rw [h] at this
    cases this
  unfold Table.selectFrom
  rw [selectText_codes hne sortOrder hso, generateTree_filter tables depth hw (selectCodes_tokens limit hn hf hc he ho) hnn htab hroot hobs]
  simp only [Option.map_some, Res.bind_ok, Table.select]
  congr 2
  by_cases h0 : limit > 0
  · have := (C88_top limit.toNat (by omega)).1
    simp only [topOfLimit, if_pos h0, this, limitOf]
    rw [show ((limit.toNat : Nat) : Int) = limit by omega]
  · simp only [topOfLimit, if_neg h0]
    rfl

/-- Without a filter all rows are selected. -/
theorem C89_all (tables : Str → Option (Str × Table P)) (sort : Sorter P) (t : Table P) (depth : Nat) (name sortOrder : Str) (limit : Int) :
    t.selectFrom tables sort depth name [] sortOrder limit = t.selectFrom tables sort depth name (ascii "True") sortOrder limit := rfl

theorem cut_limit (limit : Int) (rows : List (Row P)) :
    cut (if limit > 0 then limit else -1) rows = if limit > 0 then rows.take limit.toNat else rows := by
  unfold cut
  by_cases h0 : limit > 0
  · rw [if_pos h0, if_neg (by omega), if_pos h0]
  · rw [if_neg h0, if_neg h0]
    rfl

/-- **`Select` without a sort order**: the rows for which the filter is true, in table order, and the first of them if there is a limit. -/
theorem C89_rows_partial (tables : Str → Option (Str × Table P)) (sort : Sorter P) (depth : Nat) {name filter : List Nat} {limit : Int}
    (hl : limit < 2 ^ 63) {e : E} (hn : Writes (.ident (Utf8.text name)) name) (hf : ∀ c ∈ filter, Utf8.Valid c) (hw : e.WF 0)
    (he : tokens (Utf8.text filter) = e.toks) {own : Str} {t : Table P} (htab : tables (Utf8.text name) = some (own, t)) {root : Tree P}
    (hroot : build (columnOf t) e = .ok root)
    (h : ∀ r ∈ present? t.rows, eval (r.column t depth) root = .ok (.null .boolean) ∨ ∃ b, eval (r.column t depth) root = .ok (.boolean b)) :
    t.selectFrom tables sort depth (Utf8.text name) (Utf8.text filter) [] limit =
      some (.ok (if limit > 0 then (matching t depth root).take limit.toNat else matching t depth root)) := by
  have := C89_select_partial tables sort depth (sortOrder := none) hl hn hf (by simp) hw he (terms := []) rfl htab hroot (obs := []) trivial
  rw [show ([] : Str) = Utf8.text ((none : Option (List Nat)).getD []) from rfl, this]
  unfold Table.select
  simp only
  rw [C42_select_partial sort { root := root, topLimit := if limit > 0 then limit else -1 } t depth rfl h, cut_limit]
  rfl

/-- `Select` with a sort order: the same rows, ordered by the terms. -/
theorem C89_sorted_partial (tables : Str → Option (Str × Table P)) {sort : Sorter P} (hs : SortSlice sort) (L : OrderLaws P) (depth : Nat)
    {name filter order : List Nat} {limit : Int} (hl : limit < 2 ^ 63) {e : E} {terms : List Term}
    (hn : Writes (.ident (Utf8.text name)) name) (hf : ∀ c ∈ filter, Utf8.Valid c) (hc : Clean filter) (hw : e.WF 0)
    (he : tokens (Utf8.text filter) = e.toks) (ho : SortText (some order) terms) {own : Str} {t : Table P}
    (htab : tables (Utf8.text name) = some (own, t)) {root : Tree P} (hroot : build (columnOf t) e = .ok root) {obs : List OrderBy}
    (hobs : OrderOf t terms obs)
    (h : ∀ r ∈ present? t.rows, eval (r.column t depth) root = .ok (.null .boolean) ∨ ∃ b, eval (r.column t depth) root = .ok (.boolean b))
    (hr : ∀ r ∈ present? t.rows, Sortable t depth obs r) :
    ∃ out, t.selectFrom tables sort depth (Utf8.text name) (Utf8.text filter) (Utf8.text order) limit = some (.ok out) ∧
      out.Perm (if limit > 0 then (matching t depth root).take limit.toNat else matching t depth root) ∧
      out.Pairwise fun a b => less t depth b a obs = .ok false := by
  have := C89_select_partial tables sort depth (sortOrder := some order) hl hn hf (fun _ => hc) hw he ho htab hroot hobs
  obtain ⟨out, h1, h2, h3⟩ := select_sorted hs L { root := root, orderBy := obs, topLimit := if limit > 0 then limit else -1 } t depth h hr
  refine ⟨out, ?_, ?_, h3⟩
  · rw [← h1]
    exact this
  · rw [cut_limit] at h2
    exact h2

end Verif.Table
