import Verif.Table.Text
import Verif.Table.ParserStatements
import Verif.Parse.StatementProps
import Verif.Parse.LiteralProps

/-!
# C88: the text of a filter expression is evaluated as its statements say
-/

set_option linter.dupNamespace false

namespace Verif.Table

open Verif.Expr Verif.Parse

variable {P : Prim}

/-! ### Reading -/

theorem parse_unexpected (u : Str) (ts : List Tok) : parseRecovering (.unexpected u :: ts) = none := by
  cases h : parseRecovering (.unexpected u :: ts) with
  | none => rfl
  | some ss =>
    exfalso
    have : parseRecovering (.unexpected u :: ts) = none := rfl
    rw [this] at h
    cases h

/-- A text is read as the statements it begins with. -/
theorem read_written {text : Str} {ss : List S} (hw : ∀ s ∈ ss, s.WF) (h : Written ss (Lex.tokens text)) : read text = some (.ok ss) := by
  have hp := (C131_read_partial _ _).2 ⟨hw, h⟩
  unfold read
  split
  · rename_i h0
    rw [h0] at h
    obtain ⟨_, _, hc, _⟩ := h.skip_ne
    cases hc
  · rename_i u ts h0
    rw [h0, parse_unexpected] at hp
    cases hp
  · rename_i ts _ _
    rw [hp]
    rfl

theorem read_listed {text : Str} {ss : List S} (hw : ∀ s ∈ ss, s.WF) (h : Listed ss (Lex.tokens text)) : read text = some (.ok ss) :=
  read_written hw h.written

/-- A text that is read as statements has a token. -/
theorem listed_text {text : Str} {ss : List S} (h : Listed ss (Lex.tokens text)) : text.length ≠ 0 := by
  intro h0
  have : text = [] := List.length_eq_zero_iff.1 h0
  rw [this] at h
  exact h.skip_ne rfl

namespace Parser

theorem listenAll_eq {p : Parser P} (ht : p.trackRows = true ∨ p.trackIDs = true) {depth : Nat} {ss : List S} {ds : List (Statement P)}
    (h : List.Forall₂ (fun s d => p.statementOf s = .ok d) ss ds) (st : Found P) : p.listenAll depth st ss = p.visitAll depth st ds := by
  induction h generalizing st with
  | nil => rfl
  | @cons s d ss ds hs _ ih =>
    have : p.listen depth st s = p.visit depth st d := by
      unfold listen
      rw [hs, Res.bind_ok]
      cases d with
      | guid g => simp only; rw [if_neg (by rcases ht with h | h <;> simp [h])]
      | _ => rfl
    simp only [listenAll, visitAll, this]
    cases p.visit depth st d with
    | ok st => exact ih st
    | _ => rfl

theorem listenAll_err {p : Parser P} {depth : Nat} {ss : List S} {s : S} (hs : s ∈ ss) (h : ∀ d, p.statementOf s ≠ .ok d) (st : Found P) :
    p.listenAll depth st ss = .err := by
  induction ss generalizing st with
  | nil => cases hs
  | cons s' ss ih =>
    rw [listenAll]
    rcases List.mem_cons.1 hs with rfl | hs
    · unfold listen
      cases hd : p.statementOf s with
      | ok d => exact absurd hd (h d)
      | err => rfl
      | panic => rfl
    · split
      · exact ih hs _
      · rfl

/-- **A text is evaluated as its statements**: when what is written are these statements, with any semicolons around them, and each of them denotes
something, the result is that of what they denote. -/
theorem C88_text {p : Parser P} (ht : p.trackRows = true ∨ p.trackIDs = true) (sort : Sorter P) (depth : Nat) (al as : Bool) {text : Str}
    {ss : List S} (hw : ∀ s ∈ ss, s.WF) (hl : Listed ss (Lex.tokens text)) {ds : List (Statement P)}
    (h : List.Forall₂ (fun s d => p.statementOf s = .ok d) ss ds) :
    p.evaluateText sort depth al as text = some (p.evaluate sort depth al as ds) := by
  unfold evaluateText evaluate
  rw [if_neg (by rcases ht with h | h <;> simp [h]), if_neg (by rcases ht with h | h <;> simp [h]), read_listed hw hl]
  simp only [Option.map_some, Res.bind_ok, listenAll_eq ht h]

/-- **A statement that denotes nothing makes the text an error**, wherever it stands. -/
theorem C88_refused {p : Parser P} (sort : Sorter P) (depth : Nat) (al as : Bool) {text : Str} {ss : List S} (hw : ∀ s ∈ ss, s.WF)
    (hl : Listed ss (Lex.tokens text)) {s : S} (hs : s ∈ ss) (h : ∀ d, p.statementOf s ≠ .ok d) :
    p.evaluateText sort depth al as text = some .err := by
  unfold evaluateText
  split
  · rfl
  · rw [read_listed hw hl]
    simp only [Option.map_some, Res.bind_ok, listenAll_err hs h]
    rfl

/-! ### Sets -/

theorem sets_evaluate {p : Parser P} {sort : Sorter P} {depth : Nat} {al as : Bool} {ds : List (Statement P)} {st : Found P}
    (h : p.evaluate sort depth al as ds = .ok st) : Sets p (p.initializeSetOperations st) ∧ (p.initializeSetOperations st).rows = st.rows ∧
      (p.initializeSetOperations st).ids = st.ids := by
  refine ⟨?_, rfl, rfl⟩
  obtain ⟨ht, o, items, ho, hi⟩ := evaluate_ok h
  obtain ⟨st1, g1, g2, g3, g4, g5, g6⟩ := visitAll_eq (good_start p) ho
  have e : p.evaluate sort depth al as ds = p.apply st1 items := by
    unfold evaluate
    rw [if_neg (by rcases ht with h | h <;> simp [h]), g1, Res.bind_ok]
    have : st1.trees = o.2 := by simpa using g4
    rw [this]
    exact evaluateTrees_eq hi st1
  rw [e] at h
  by_cases h2 : 2 ≤ st1.count
  · obtain ⟨st', f1, f2, -, -, -, -⟩ := apply_set h2 (g2.2.2 h2) items
    rw [f1] at h
    injection h with h
    subst h
    refine ⟨fun hr => ?_, fun hr => ?_⟩
    · obtain ⟨S, hS, hm⟩ := f2.1 hr
      exact ⟨S, by simp [initializeSetOperations, hS], hm⟩
    · obtain ⟨S, hS, hm⟩ := f2.2 hr
      exact ⟨S, by simp [initializeSetOperations, hS], hm⟩
  · obtain ⟨k1, k2, -, -⟩ := g2.2.1 (by omega)
    rw [apply_vector (by omega)] at h
    injection h with h
    subst h
    refine ⟨fun hr => ⟨_, by simp only [initializeSetOperations, k1, hr, and_self, if_true], fun k => Iff.rfl⟩,
      fun hr => ⟨_, by simp only [initializeSetOperations, k2, hr, and_self, if_true], fun k => Iff.rfl⟩⟩

end Parser

theorem forall₂_of {α β : Type} {R : α → β → Prop} {l : List α} (h : ∀ a ∈ l, ∃ b, R a b) : ∃ bs, List.Forall₂ R l bs := by
  induction l with
  | nil => exact ⟨[], .nil⟩
  | cons a l ih =>
    obtain ⟨b, hb⟩ := h a (by simp)
    obtain ⟨bs, hbs⟩ := ih fun a ha => h a (by simp [ha])
    exact ⟨b :: bs, .cons hb hbs⟩

theorem forall₂_mem_left {α β : Type} {R : α → β → Prop} {l : List α} {bs : List β} (h : List.Forall₂ R l bs) : ∀ a ∈ l, ∃ b ∈ bs, R a b := by
  induction h with
  | nil => simp
  | cons h1 _ ih =>
    intro a ha
    rcases List.mem_cons.1 ha with rfl | ha
    · exact ⟨_, by simp, h1⟩
    · obtain ⟨b, hb, h2⟩ := ih a ha
      exact ⟨b, by simp [hb], h2⟩

theorem forall₂_mem_right {α β : Type} {R : α → β → Prop} {l : List α} {bs : List β} (h : List.Forall₂ R l bs) : ∀ b ∈ bs, ∃ a ∈ l, R a b := by
  induction h with
  | nil => simp
  | cons h1 _ ih =>
    intro b hb
    rcases List.mem_cons.1 hb with rfl | hb
    · exact ⟨_, by simp, h1⟩
    · obtain ⟨a, ha, h2⟩ := ih b hb
      exact ⟨a, by simp [ha], h2⟩

/-- The statements of a text that evaluates. -/
theorem evaluated {p : Parser P} (ht : p.trackRows = true ∨ p.trackIDs = true) {sort : Sorter P} {depth : Nat} {al as : Bool} {text : Str} {ss : List S}
    (hw : ∀ s ∈ ss, s.WF) (hl : Listed ss (Lex.tokens text)) {st : Found P} (h : p.evaluateText sort depth al as text = some (.ok st)) :
    ∃ ds, List.Forall₂ (fun s d => p.statementOf s = .ok d) ss ds ∧ p.evaluate sort depth al as ds = .ok st := by
  obtain ⟨ds, hd⟩ : ∃ ds, List.Forall₂ (fun s d => p.statementOf s = .ok d) ss ds := by
    refine forall₂_of fun s hs => ?_
    apply Classical.byContradiction
    intro hn
    rw [Parser.C88_refused sort depth al as hw hl hs (fun d hd => hn ⟨d, hd⟩)] at h
    cases h
  rw [Parser.C88_text ht sort depth al as hw hl hd] at h
  exact ⟨ds, hd, by simpa using h⟩

theorem union_core {p : Parser P} (ht : p.trackRows = true ∨ p.trackIDs = true) {sort : Sorter P} {depth : Nat} {al as : Bool} {text : Str}
    {ss : List S} (hw : ∀ s ∈ ss, s.WF) (hl : Listed ss (Lex.tokens text)) {one : S → Str} (h1 : ∀ s ∈ ss, Lex.tokens (one s) = s.toks)
    {st : Found P} (h : p.evaluateText sort depth al as text = some (.ok st)) :
    (∀ k, k ∈ st.rows.map Row.id ↔ ∃ s ∈ ss, ∃ st', p.evaluateText sort depth al as (one s) = some (.ok st') ∧ k ∈ st'.rows.map Row.id) ∧
    (∀ g, g ∈ st.ids ↔ ∃ s ∈ ss, ∃ st', p.evaluateText sort depth al as (one s) = some (.ok st') ∧ g ∈ st'.ids) ∧
    (∀ s ∈ ss, ∃ st', p.evaluateText sort depth al as (one s) = some (.ok st')) := by
  obtain ⟨ds, hd, he⟩ := evaluated ht hw hl h
  obtain ⟨u1, u2, -⟩ := Parser.C54_union p sort depth al as ds st he
  have hone : ∀ s ∈ ss, ∀ d, p.statementOf s = .ok d → p.evaluateText sort depth al as (one s) = some (p.evaluate sort depth al as [d]) := by
    intro s hs d hd
    refine Parser.C88_text ht sort depth al as (ss := [s]) (fun x hx => ?_) ?_ (.cons hd .nil)
    · rw [List.mem_singleton] at hx
      exact hx ▸ hw s hs
    · rw [h1 s hs]
      simpa using Listed.one 0 0 s
  refine ⟨fun k => ?_, fun g => ?_, fun s hs => ?_⟩
  · rw [u1]
    constructor
    · rintro ⟨d, hd', st', h2, h3⟩
      obtain ⟨s, hs, h4⟩ := forall₂_mem_right hd d hd'
      exact ⟨s, hs, st', by rw [hone s hs d h4, h2], h3⟩
    · rintro ⟨s, hs, st', h2, h3⟩
      obtain ⟨d, hd', h4⟩ := forall₂_mem_left hd s hs
      exact ⟨d, hd', st', by simpa [hone s hs d h4] using h2, h3⟩
  · rw [u2]
    constructor
    · rintro ⟨d, hd', st', h2, h3⟩
      obtain ⟨s, hs, h4⟩ := forall₂_mem_right hd d hd'
      exact ⟨s, hs, st', by rw [hone s hs d h4, h2], h3⟩
    · rintro ⟨s, hs, st', h2, h3⟩
      obtain ⟨d, hd', h4⟩ := forall₂_mem_left hd s hs
      exact ⟨d, hd', st', by simpa [hone s hs d h4] using h2, h3⟩
  · obtain ⟨d, hd', h4⟩ := forall₂_mem_left hd s hs
    obtain ⟨st', h5⟩ := (Parser.C54_succeeds p sort depth al as ds ht).1 ⟨st, he⟩ d hd'
    exact ⟨st', by rw [hone s hs d h4, h5]⟩

theorem some_map_ok {α β : Type} {x : Option (Res α)} {f : α → β} {b : β} :
    (x.map fun r => r >>= fun a => (pure (f a) : Res β)) = some (.ok b) ↔ ∃ a, x = some (.ok a) ∧ f a = b := by
  cases x with
  | none => simp
  | some r => cases r <;> simp [Res.pure_eq]

/-- **The rows of several statements are those of the single ones together**, and if a statement alone gives an error all do. -/
theorem C88_union (tables : Str → Option (Str × Table P)) (sort : Sorter P) (depth : Nat) {text primary : Str} {fields : Option IDFields} {ss : List S}
    (hw : ∀ s ∈ ss, s.WF) (hl : Listed ss (Lex.tokens text)) {one : S → Str} (h1 : ∀ s ∈ ss, Lex.tokens (one s) = s.toks) {set : List Nat}
    (h : selectDataRowSet tables sort depth text primary fields = some (.ok (some set))) :
    (∀ k, k ∈ set ↔ ∃ s ∈ ss, ∃ set', selectDataRowSet tables sort depth (one s) primary fields = some (.ok (some set')) ∧ k ∈ set') ∧
    ∀ s ∈ ss, ∃ set', selectDataRowSet tables sort depth (one s) primary fields = some (.ok (some set')) := by
  have ht : (forDataSet tables primary fields).trackRows = true := rfl
  have hne : ∀ s ∈ ss, (one s).length ≠ 0 := by
    intro s hs
    refine listed_text (ss := [s]) ?_
    rw [h1 s hs]
    simpa using Listed.one 0 0 s
  unfold selectDataRowSet at h
  rw [if_neg (listed_text hl)] at h
  obtain ⟨st, hst, hset⟩ := some_map_ok.1 h
  obtain ⟨u1, -, u3⟩ := union_core (.inl ht) hw hl h1 hst
  obtain ⟨ds, hd, he⟩ := evaluated (.inl ht) hw hl hst
  have key : ∀ s ∈ ss, ∀ st', (forDataSet tables primary fields).evaluateText sort depth true false (one s) = some (.ok st') →
      ∃ set', selectDataRowSet tables sort depth (one s) primary fields = some (.ok (some set')) ∧ ∀ k, k ∈ set' ↔ k ∈ st'.rows.map Row.id := by
    intro s hs st' hst'
    obtain ⟨ds', -, he'⟩ := evaluated (.inl ht) (ss := [s]) (fun x hx => by rw [List.mem_singleton] at hx; exact hx ▸ hw s hs) (by
      rw [h1 s hs]; simpa using Listed.one 0 0 s) hst'
    obtain ⟨S, hS, hm⟩ := (Parser.sets_evaluate he').1.1 ht
    refine ⟨S, ?_, hm⟩
    unfold selectDataRowSet
    rw [if_neg (hne s hs)]
    exact some_map_ok.2 ⟨st', hst', hS⟩
  obtain ⟨S, hS, hm⟩ := (Parser.sets_evaluate he).1.1 ht
  rw [hset] at hS
  injection hS with hS
  subst hS
  refine ⟨fun k => ?_, fun s hs => ?_⟩
  · rw [hm, show ((forDataSet tables primary fields).initializeSetOperations st).rows = st.rows from rfl, u1]
    constructor
    · rintro ⟨s, hs, st', h2, h3⟩
      obtain ⟨set', h4, h5⟩ := key s hs st' h2
      exact ⟨s, hs, set', h4, (h5 k).2 h3⟩
    · rintro ⟨s, hs, set', h2, h3⟩
      obtain ⟨st', h4⟩ := u3 s hs
      obtain ⟨set'', h5, h6⟩ := key s hs st' h4
      rw [h5] at h2
      simp only [Option.some.injEq, Res.ok.injEq] at h2
      exact ⟨s, hs, st', h4, (h6 k).1 (h2 ▸ h3)⟩
  · obtain ⟨st', h4⟩ := u3 s hs
    obtain ⟨set', h5, -⟩ := key s hs st' h4
    exact ⟨set', h5⟩

/-- **The signal IDs of several statements are those of the single ones together.** -/
theorem C88_union_ids (tables : Str → Option (Str × Table P)) (sort : Sorter P) (depth : Nat) {text primary : Str} {fields : Option IDFields}
    {ss : List S} (hw : ∀ s ∈ ss, s.WF) (hl : Listed ss (Lex.tokens text)) {one : S → Str} (h1 : ∀ s ∈ ss, Lex.tokens (one s) = s.toks)
    {set : List Guid.Guid} (h : selectSignalIDSet tables sort depth text primary fields = some (.ok (some set))) :
    (∀ k, k ∈ set ↔ ∃ s ∈ ss, ∃ set', selectSignalIDSet tables sort depth (one s) primary fields = some (.ok (some set')) ∧ k ∈ set') ∧
    ∀ s ∈ ss, ∃ set', selectSignalIDSet tables sort depth (one s) primary fields = some (.ok (some set')) := by
  have hne : ∀ s ∈ ss, (one s).length ≠ 0 := by
    intro s hs
    refine listed_text (ss := [s]) ?_
    rw [h1 s hs]
    simpa using Listed.one 0 0 s
  unfold selectSignalIDSet at h
  rw [if_neg (listed_text hl)] at h
  obtain ⟨st, hst, hset⟩ := some_map_ok.1 h
  obtain ⟨-, u1, u3⟩ := union_core (.inr rfl) hw hl h1 hst
  obtain ⟨ds, hd, he⟩ := evaluated (.inr rfl) hw hl hst
  have key : ∀ s ∈ ss, ∀ st', Parser.evaluateText { forDataSet tables primary fields with trackRows := false, trackIDs := true } sort depth true false
      (one s) = some (.ok st') →
      ∃ set', selectSignalIDSet tables sort depth (one s) primary fields = some (.ok (some set')) ∧ ∀ k, k ∈ set' ↔ k ∈ st'.ids := by
    intro s hs st' hst'
    obtain ⟨ds', -, he'⟩ := evaluated (.inr rfl) (ss := [s]) (fun x hx => by rw [List.mem_singleton] at hx; exact hx ▸ hw s hs) (by
      rw [h1 s hs]; simpa using Listed.one 0 0 s) hst'
    obtain ⟨S, hS, hm⟩ := (Parser.sets_evaluate he').1.2 rfl
    refine ⟨S, ?_, hm⟩
    unfold selectSignalIDSet
    rw [if_neg (hne s hs)]
    exact some_map_ok.2 ⟨st', hst', hS⟩
  obtain ⟨S, hS, hm⟩ := (Parser.sets_evaluate he).1.2 rfl
  rw [hset] at hS
  injection hS with hS
  subst hS
  refine ⟨fun k => ?_, fun s hs => ?_⟩
  · rw [hm, (Parser.sets_evaluate he).2.2, u1]
    constructor
    · rintro ⟨s, hs, st', h2, h3⟩
      obtain ⟨set', h4, h5⟩ := key s hs st' h2
      exact ⟨s, hs, set', h4, (h5 k).2 h3⟩
    · rintro ⟨s, hs, set', h2, h3⟩
      obtain ⟨st', h4⟩ := u3 s hs
      obtain ⟨set'', h5, h6⟩ := key s hs st' h4
      rw [h5] at h2
      simp only [Option.some.injEq, Res.ok.injEq] at h2
      exact ⟨s, hs, st', h4, (h6 k).1 (h2 ▸ h3)⟩
  · obtain ⟨st', h4⟩ := u3 s hs
    obtain ⟨set', h5, -⟩ := key s hs st' h4
    exact ⟨set', h5⟩

/-! ### Single statements -/

theorem columnNamed_table {p : Parser P} {table name : Str} {t : Table P} (hne : table ≠ []) (h : p.tables table = some (name, t)) :
    p.columnNamed table = columnOf t := by
  funext c
  have : table.length ≠ 0 := fun h => hne (List.length_eq_zero_iff.1 h)
  simp only [Parser.columnNamed, this, false_and, if_false, h, columnOf]
  cases t.columnByName c <;> rfl

theorem columnNamed_primary {p : Parser P} {name : Str} {t : Table P} (hne : p.primary ≠ []) (h : p.tables p.primary = some (name, t)) :
    p.columnNamed [] = columnOf t := by
  funext c
  have : p.primary.length ≠ 0 := fun h => hne (List.length_eq_zero_iff.1 h)
  simp only [Parser.columnNamed, List.length_nil, true_and, this, if_false, if_true, h, columnOf]
  cases t.columnByName c <;> rfl

/-- The rows for which the expression is true, in table order. -/
def matching (t : Table P) (depth : Nat) (root : Tree P) : List (Row P) :=
  (present? t.rows).filter fun r => isTrue (eval (r.column t depth) root)

/-- The number a `TOP` clause gives, if there is one. -/
def topNumber (top : Option Top) : Option (Option Int) := top.map fun x => atoi (topText x)

/-- The limit of the tree `EnterFilterStatement` makes. -/
def limitOf (top : Option (Option Int)) : Int :=
  match top with
  | some (some n) => n
  | _ => -1

theorem cut_limitOf (top : Option (Option Int)) (rows : List (Row P)) : cut (limitOf top) rows = Parser.topOf true top rows := by
  rcases top with _ | _ | n <;> rfl

namespace Parser

theorem matchedItems_untracked {p : Parser P} (h : p.trackIDs = false) (t : Table P) (depth : Nat) (c : Int) (rs : List (Row P)) :
    p.matchedItems t depth c rs = .ok (rs.map .row) := by
  induction rs with
  | nil => rfl
  | cons r rs ih => simp [matchedItems, rowItems, h, ih]

theorem guidValue_ne_err (t : Table P) (depth : Nat) (r : Row P) (c : Int) : guidValue t depth r c ≠ .err := by
  intro hg
  unfold guidValue hasValue at hg
  cases hx : r.get (r.column t depth) t .guid c with
  | ok v => rw [hx] at hg; rcases v with _ | v <;> [cases hg; (cases v <;> cases hg)]
  | err => rw [hx] at hg; cases hg
  | panic => rw [hx] at hg; cases hg

theorem matchedItems_tracked {p : Parser P} (h : p.trackIDs = true) (t : Table P) (depth : Nat) (c : Int) (rs : List (Row P))
    (hv : ∀ r ∈ rs, guidValue t depth r c ≠ .panic) : ∃ items, p.matchedItems t depth c rs = .ok items := by
  induction rs with
  | nil => exact ⟨_, rfl⟩
  | cons r rs ih =>
    obtain ⟨items, hi⟩ := ih fun r hr => hv r (by simp [hr])
    simp only [matchedItems, rowItems, h, if_true, hi]
    cases hg : guidValue t depth r c with
    | err => exact absurd hg (guidValue_ne_err t depth r c)
    | panic => exact absurd hg (hv r (by simp))
    | ok o => cases o <;> exact ⟨_, rfl⟩

/-- What a tree of rows only adds. -/
theorem tree_rows {p : Parser P} (hi : p.trackIDs = false) {sort : Sorter P} {depth : Nat} {al as : Bool} {table name : Str}
    {f : Filter P} {t : Table P} (hne : table ≠ [] ∨ p.primary ≠ []) (htab : p.tables (if table.length = 0 then p.primary else table) = some (name, t))
    {rows : List (Row P)} (h : f.selectWhere sort t depth predicate al as = .ok rows) :
    p.treesItems sort depth al as [(table, f)] = .ok (rows.map .row) := by
  have hn : ¬ (table.length = 0 ∧ p.primary.length = 0) := by
    rw [List.length_eq_zero_iff, List.length_eq_zero_iff]
    rcases hne with h | h
    · exact fun h' => h h'.1
    · exact fun h' => h h'.2
  simp only [treesItems, treeItems, hn, if_false, htab, h, Res.bind_ok, signalIDColumn, hi, Bool.false_eq_true, matchedItems_untracked hi,
    List.append_nil]

theorem rowsOf_rows {p : Parser P} (hr : p.trackRows = true) (rows : List (Row P)) : p.rowsOf (rows.map .row) = rows := by
  simp only [rowsOf, hr, if_true, List.filterMap_map]
  induction rows with
  | nil => rfl
  | cons r rs ih => simp

theorem orderBy_ok (t : Table P) (terms : List OrderingTerm) (h : ∀ x ∈ terms, ∃ c, t.columnByName x.column = some c) :
    ∃ obs, orderBy t terms = .ok obs := by
  induction terms with
  | nil => exact ⟨_, rfl⟩
  | cons x xs ih =>
    obtain ⟨obs, ho⟩ := ih fun x hx => h x (by simp [hx])
    obtain ⟨c, hc⟩ := h x (by simp)
    simp only [orderBy, hc, ho]
    exact ⟨_, rfl⟩

/-- The rows a single statement of one tree finds. -/
theorem filter_rows {p : Parser P} (hr : p.trackRows = true) (hi : p.trackIDs = false) {sort : Sorter P} {depth : Nat} {as : Bool} {table name : Str}
    {top : Option (Option Int)} {terms : List OrderingTerm} {obs : List OrderBy} {root : Tree P} {t : Table P} (hne : table ≠ [])
    (htab : p.tables table = some (name, t)) (ho : orderBy t terms = .ok obs) {rows : List (Row P)}
    (h : Filter.selectWhere sort { root := root, topLimit := limitOf top, orderBy := obs } t depth predicate true as = .ok rows) :
    ∃ st, p.evaluate sort depth true as [.filter table top terms root] = .ok st ∧ st.rows = rows := by
  have hlen : table.length ≠ 0 := fun h => hne (List.length_eq_zero_iff.1 h)
  have ha : p.walkItems depth (.filter table top terms root) = .ok ([], [(table, { root := root, topLimit := limitOf top, orderBy := obs })]) := by
    simp only [walkItems, htab, ho, Res.bind_ok, Res.pure_eq]
    rfl
  have hb := tree_rows (f := { root := root, topLimit := limitOf top, orderBy := obs }) hi (.inl hne) (by rw [if_neg hlen]; exact htab) h
  obtain ⟨st, h1, h2, -⟩ := evaluate_one (.inl hr) ⟨_, _, ha, hb, rfl⟩
  exact ⟨st, h1, by rw [h2, List.nil_append, rowsOf_rows hr]⟩

theorem expression_rows {p : Parser P} (hr : p.trackRows = true) (hi : p.trackIDs = false) {sort : Sorter P} {depth : Nat} {as : Bool} {name : Str}
    {root : Tree P} {t : Table P} (hne : p.primary ≠ []) (htab : p.tables p.primary = some (name, t)) {rows : List (Row P)}
    (h : Filter.selectWhere sort { root := root } t depth predicate true as = .ok rows) :
    ∃ st, p.evaluate sort depth true as [.expression root] = .ok st ∧ st.rows = rows := by
  have hb := tree_rows (f := { root := root }) (table := []) hi (.inr hne) (by simpa using htab) h
  obtain ⟨st, h1, h2, -⟩ := evaluate_one (s := .expression root) (.inl hr) ⟨_, _, rfl, hb, rfl⟩
  exact ⟨st, h1, by rw [h2, List.nil_append, rowsOf_rows hr]⟩

end Parser

theorem rowSet_one {tables : Str → Option (Str × Table P)} {sort : Sorter P} {depth : Nat} {text primary : Str} {fields : Option IDFields} {s : S}
    (hw : s.WF) (hs : Lex.tokens text = s.toks) {d : Statement P} (hd : (forDataSet tables primary fields).statementOf s = .ok d) {st : Found P}
    (h : (forDataSet tables primary fields).evaluate sort depth true false [d] = .ok st) :
    ∃ set, selectDataRowSet tables sort depth text primary fields = some (.ok (some set)) ∧ ∀ k, k ∈ set ↔ k ∈ st.rows.map Row.id := by
  have hl : Listed [s] (Lex.tokens text) := by rw [hs]; simpa using Listed.one 0 0 s
  obtain ⟨S, hS, hm⟩ := (Parser.sets_evaluate h).1.1 rfl
  refine ⟨S, ?_, hm⟩
  unfold selectDataRowSet
  rw [if_neg (listed_text hl)]
  refine some_map_ok.2 ⟨st, ?_, hS⟩
  rw [Parser.C88_text (.inl rfl) sort depth true false (by simpa using hw) hl (.cons hd .nil), h]

theorem rows_one {tables : Str → Option (Str × Table P)} {sort : Sorter P} {depth : Nat} {text primary : Str} {fields : Option IDFields} {s : S}
    (hw : s.WF) (hs : Lex.tokens text = s.toks) {d : Statement P} (hd : (forDataSet tables primary fields).statementOf s = .ok d) {st : Found P}
    (h : (forDataSet tables primary fields).evaluate sort depth true true [d] = .ok st) :
    selectDataRows tables sort depth text primary fields = some (.ok st.rows) := by
  have hl : Listed [s] (Lex.tokens text) := by rw [hs]; simpa using Listed.one 0 0 s
  unfold selectDataRows
  rw [if_neg (listed_text hl)]
  refine some_map_ok.2 ⟨st, ?_, rfl⟩
  rw [Parser.C88_text (.inl rfl) sort depth true true (by simpa using hw) hl (.cons hd .nil), h]

theorem filter_statementOf {p : Parser P} {top : Option Top} {table name : Str} {e : E} {terms : List Term} {t : Table P} (hne : table ≠ [])
    (htab : p.tables table = some (name, t)) {root : Tree P} (hroot : build (columnOf t) e = .ok root) :
    p.statementOf (.filter top table e terms) = .ok (.filter table (topNumber top) (terms.map Parser.orderingTerm) root) := by
  simp only [Parser.statementOf, htab, columnNamed_table hne htab, hroot, Res.bind_ok, Res.pure_eq, topNumber]

/-- **The text of a `FILTER` statement selects the rows for which its expression is true**, the first of them if it has a limit. -/
theorem C88_filter (tables : Str → Option (Str × Table P)) (sort : Sorter P) (depth : Nat) {text primary : Str} {fields : Option IDFields}
    {top : Option Top} {table name : Str} {e : E} {terms : List Term} (hw : e.WF 0) (ht : Lex.tokens text = (S.filter top table e terms).toks)
    (hne : table ≠ []) {t : Table P} (htab : tables table = some (name, t)) {root : Tree P} (hroot : build (columnOf t) e = .ok root)
    (hterms : ∀ x ∈ terms, ∃ c, t.columnByName x.column = some c)
    (hv : ∀ r ∈ present? t.rows, ∃ v, eval (r.column t depth) root = .ok v) :
    ∃ set, selectDataRowSet tables sort depth text primary fields = some (.ok (some set)) ∧
      ∀ k, k ∈ set ↔ ∃ r ∈ Parser.topOf true (topNumber top) (matching t depth root), r.id = k := by
  obtain ⟨obs, ho⟩ := Parser.orderBy_ok t (terms.map Parser.orderingTerm) (by
    intro x hx
    obtain ⟨y, hy, rfl⟩ := List.mem_map.1 hx
    exact hterms y hy)
  have hs := Parser.selectWhere_eq (f := { root := root, topLimit := limitOf (topNumber top), orderBy := obs }) (al := true) sort hv
  obtain ⟨st, h1, h2⟩ := Parser.filter_rows (p := forDataSet tables primary fields) rfl rfl (top := topNumber top) hne htab ho hs
  obtain ⟨set, h3, h4⟩ := rowSet_one (s := .filter top table e terms) hw ht (filter_statementOf hne htab hroot) h1
  refine ⟨set, h3, fun k => ?_⟩
  rw [h4, h2, List.mem_map, if_pos rfl, cut_limitOf]
  rfl

/-- Without `ORDER BY` they are listed in table order. -/
theorem C88_filter_rows (tables : Str → Option (Str × Table P)) (sort : Sorter P) (depth : Nat) {text primary : Str} {fields : Option IDFields}
    {top : Option Top} {table name : Str} {e : E} (hw : e.WF 0) (ht : Lex.tokens text = (S.filter top table e []).toks) (hne : table ≠ []) {t : Table P}
    (htab : tables table = some (name, t)) {root : Tree P} (hroot : build (columnOf t) e = .ok root)
    (hv : ∀ r ∈ present? t.rows, ∃ v, eval (r.column t depth) root = .ok v) :
    selectDataRows tables sort depth text primary fields = some (.ok (Parser.topOf true (topNumber top) (matching t depth root))) := by
  have hs := Parser.selectWhere_eq (f := { root := root, topLimit := limitOf (topNumber top), orderBy := [] }) (al := true) sort hv
  have hs' : Filter.selectWhere sort { root := root, topLimit := limitOf (topNumber top), orderBy := [] } t depth Parser.predicate true true =
      Filter.selectWhere sort { root := root, topLimit := limitOf (topNumber top), orderBy := [] } t depth Parser.predicate true false := by
    simp [Filter.selectWhere]
  rw [hs] at hs'
  obtain ⟨st, h1, h2⟩ := Parser.filter_rows (p := forDataSet tables primary fields) rfl rfl (top := topNumber top) (terms := []) hne htab rfl hs'
  rw [rows_one (s := .filter top table e []) hw ht (filter_statementOf hne htab hroot) h1, h2, if_pos rfl, cut_limitOf]
  rfl

/-- The order the terms of a statement ask for: the columns named, descending for `DESC` only; a modifier for exact match turns exact match off
(`C65_modifier_false`). -/
def OrderOf (t : Table P) : List Term → List OrderBy → Prop
  | [], [] => True
  | x :: xs, o :: os => (∃ c, t.columnByName x.column = some c ∧ o.column = c.index) ∧ (o.ascending = false ↔ x.desc = some true) ∧
      (o.exactMatch = true ↔ x.exact = none) ∧ OrderOf t xs os
  | _, _ => False

theorem OrderOf.terms {t : Table P} {terms : List Term} {obs : List OrderBy} (h : OrderOf t terms obs) :
    Parser.orderBy t (terms.map Parser.orderingTerm) = .ok obs := by
  induction terms generalizing obs with
  | nil =>
    cases obs with
    | nil => rfl
    | cons o os => exact h.elim
  | cons x xs ih =>
    cases obs with
    | nil => exact h.elim
    | cons o os =>
      obtain ⟨⟨c, h1, h2⟩, h3, h4, h5⟩ := h
      rw [List.map_cons, Parser.orderBy, show (Parser.orderingTerm x).column = x.column from rfl, h1]
      dsimp only
      rw [ih h5, Res.bind_ok]
      obtain ⟨oc, oa, oe⟩ := o
      dsimp only at h2 h3 h4
      have e1 : (!(Parser.orderingTerm x).desc) = oa := by
        unfold Parser.orderingTerm
        cases oa
        · simp [h3.1 rfl]
        · have : x.desc ≠ some true := fun hx => by cases h3.2 hx
          simp [this]
      have e2 : (!(Parser.orderingTerm x).exactMatchModifier) = oe := by
        unfold Parser.orderingTerm
        cases oe
        · have : x.exact ≠ none := fun hx => by cases h4.2 hx
          cases hx : x.exact
          · exact absurd hx this
          · simp
        · simp [h4.1 rfl]
      rw [e1, e2, h2]
      rfl

/-- With `ORDER BY` the same rows are listed in the order of the terms. -/
theorem C88_filter_sorted (tables : Str → Option (Str × Table P)) {sort : Sorter P} (hsort : SortSlice sort) (L : OrderLaws P) (depth : Nat)
    {text primary : Str} {fields : Option IDFields} {top : Option Top} {table name : Str} {e : E} {terms : List Term} (hw : e.WF 0)
    (ht : Lex.tokens text = (S.filter top table e terms).toks) (hne : table ≠ []) {t : Table P} (htab : tables table = some (name, t))
    {root : Tree P} (hroot : build (columnOf t) e = .ok root) {obs : List OrderBy} (ho : OrderOf t terms obs)
    (hv : ∀ r ∈ present? t.rows, ∃ v, eval (r.column t depth) root = .ok v) (hr : ∀ r ∈ present? t.rows, Sortable t depth obs r) :
    ∃ out, selectDataRows tables sort depth text primary fields = some (.ok out) ∧
      out.Perm (Parser.topOf true (topNumber top) (matching t depth root)) ∧ out.Pairwise fun a b => less t depth b a obs = .ok false := by
  let f : Filter P := { root := root, topLimit := limitOf (topNumber top), orderBy := obs }
  have hs := Parser.selectWhere_eq (f := f) (al := true) sort hv
  rw [if_pos rfl, cut_limitOf] at hs
  have hmatch : ((present? t.rows).filter fun r => isTrue (f.evaluate t depth r)) = matching t depth root := rfl
  rw [hmatch] at hs
  obtain ⟨rows, hrows⟩ : ∃ rows, rows = Parser.topOf true (topNumber top) (matching t depth root) := ⟨_, rfl⟩
  rw [← hrows] at hs ⊢
  have hsub : ∀ r ∈ rows, r ∈ present? t.rows := by
    intro r hr'
    rw [hrows, ← cut_limitOf] at hr'
    have : r ∈ matching t depth root := by
      unfold cut at hr'
      split at hr'
      · exact hr'
      · exact List.mem_of_mem_take hr'
    exact (List.mem_filter.1 this).1
  have hs' : ∃ out, f.selectWhere sort t depth Parser.predicate true true = .ok out ∧ out.Perm rows ∧
      out.Pairwise fun a b => less t depth b a obs = .ok false := by
    unfold Filter.selectWhere at hs ⊢
    simp only [Bool.false_eq_true, false_and, if_false, Res.pure_eq, Res.bind_eq_ok] at hs
    obtain ⟨m, hm, he⟩ := hs
    injection he with he
    subst he
    rw [hm, Res.bind_ok]
    split
    · exact C44_sorted_partial hsort L t depth obs m fun r hr' => hr r (hsub r hr')
    · rename_i hn
      refine ⟨m, rfl, .refl _, ?_⟩
      by_cases h0 : m.length > 0
      · have : obs = [] := by
          rcases obs with _ | ⟨o, os⟩
          · rfl
          · exact absurd ⟨rfl, h0, by simp [f]⟩ hn
        rw [this]
        exact List.pairwise_of_forall fun _ _ => rfl
      · have : m = [] := List.length_eq_zero_iff.1 (by omega)
        rw [this]
        exact .nil
  obtain ⟨out, h3, h4, h5⟩ := hs'
  obtain ⟨st, h1, h2⟩ := Parser.filter_rows (p := forDataSet tables primary fields) rfl rfl (top := topNumber top) hne htab ho.terms h3
  exact ⟨out, by rw [rows_one (s := .filter top table e terms) hw ht (filter_statementOf hne htab hroot) h1, h2], h4, h5⟩

/-- **The text of an expression selects rows of the primary table.** -/
theorem C88_expression (tables : Str → Option (Str × Table P)) (sort : Sorter P) (depth : Nat) {text primary name : Str} {fields : Option IDFields}
    {e : E} (hw : e.WF 0) (hg : ∀ g, e.toks ≠ [.guid g]) (ht : Lex.tokens text = e.toks) (hne : primary ≠ []) {t : Table P}
    (htab : tables primary = some (name, t)) {root : Tree P} (hroot : build (columnOf t) e = .ok root)
    (hv : ∀ r ∈ present? t.rows, ∃ v, eval (r.column t depth) root = .ok v) :
    selectDataRows tables sort depth text primary fields = some (.ok (matching t depth root)) := by
  have hs := Parser.selectWhere_eq (f := { root := root }) (al := true) sort hv
  have hs' : Filter.selectWhere sort { root := root } t depth Parser.predicate true true =
      Filter.selectWhere sort { root := root } t depth Parser.predicate true false := by
    simp [Filter.selectWhere]
  rw [hs] at hs'
  obtain ⟨st, h1, h2⟩ := Parser.expression_rows (p := forDataSet tables primary fields) rfl rfl hne htab hs'
  have hd : (forDataSet tables primary fields).statementOf (.expr e) = .ok (.expression root) := by
    simp only [Parser.statementOf]
    rw [columnNamed_primary hne htab, hroot]
    rfl
  rw [rows_one (s := .expr e) ⟨hw, hg⟩ ht hd h1, h2]
  rfl

end Verif.Table
