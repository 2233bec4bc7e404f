import Verif.Table.TextCases
import Verif.Table.Stopped
import Verif.Parse.StoppedProps

/-!
# C126: using one parser of filter expressions again (data/FilterExpressionParser.go L138-282)

A `FilterExpressionParser` keeps one stream of tokens (L46-47, L88-89) which `Evaluate` and `ExpressionTrees` do not rewind: each parse goes on where
the last one stopped. ANTLR's parser does not consume the end of the stream, so that at the end every further parse finds no statement, as
for a text with no token. Tables, settings and flags may change between the calls. What a call that fails leaves in the results is that of `Stopped`. What ANTLR makes of a
syntax error that is not behind the statements is not modelled (`none`). A panic of `Evaluate` is not recovered; the parser after it is without meaning.
-/

set_option linter.dupNamespace false

namespace Verif.Table

open Verif.Expr Verif.Parse

variable {P : Prim}

/-- A `FilterExpressionParser` (FilterExpressionParser.go L41-60): the tokens not yet read, and the results. -/
structure Reader (P : Prim) where
  rest : List Tok
  found : Found P

/-- `NewFilterExpressionParser` (FilterExpressionParser.go L85-105). -/
def Reader.new (text : Str) : Reader P := ⟨Lex.tokens text, {}⟩

/-- `fep.parser.Parse()` (FilterExpressionParser.go L300) with `Parse` and `Err` (parser L404-450, L525-561) on the tokens left: the statements, and the tokens
left then. An unexpected character is consumed before the panic (parser L547-553). `none` is a syntax error. -/
def readRest : List Tok → Option (Res (List S) × List Tok)
  | [] => some (.ok [], [])
  | .unexpected _ :: ts => some (.err, ts)
  | ts => (parseRecovering ts).map fun ss => (.ok ss, [])

namespace Reader

/-- `Evaluate` (FilterExpressionParser.go L219-281) after the statements are read. -/
def evaluateRead (p : Parser P) (sort : Sorter P) (depth : Nat) (applyLimit applySort : Bool) (rest : List Tok) : Res (List S) → Res (Found P) × Reader P
  | .ok ss =>
    match p.listenAllOr depth {} ss with
    | .ok st => (p.evaluateTrees sort depth applyLimit applySort st st.trees, ⟨rest, p.evaluated sort depth applyLimit applySort st st.trees⟩)
    | .error st => (.err, ⟨rest, st⟩)
  | .err => (.err, ⟨rest, {}⟩)
  | .panic => (.panic, ⟨rest, {}⟩)

/-- `Evaluate` (FilterExpressionParser.go L202-282), a data set being defined: the results are made new, the tokens are not. -/
def evaluate (o : Reader P) (p : Parser P) (sort : Sorter P) (depth : Nat) (applyLimit applySort : Bool) : Option (Res (Found P) × Reader P) :=
  if !p.trackRows ∧ !p.trackIDs then some (.err, o)
  else (readRest o.rest).map fun ss => evaluateRead p sort depth applyLimit applySort ss.2 ss.1

/-- The walk of `ExpressionTrees` (FilterExpressionParser.go L141-147) after the statements are read, which adds to the results there are. -/
def treesRead (p : Parser P) (depth : Nat) (st : Found P) (rest : List Tok) : Res (List S) → Res (List (Str × Filter P)) × Reader P
  | .ok ss =>
    match p.listenAllOr depth st ss with
    | .ok st => (.ok st.trees, ⟨rest, st⟩)
    | .error st => (.err, ⟨rest, st⟩)
  | .err => (.err, ⟨rest, st⟩)
  | .panic => (.panic, ⟨rest, st⟩)

/-- `ExpressionTrees` (FilterExpressionParser.go L140-148). -/
def trees (o : Reader P) (p : Parser P) (depth : Nat) : Option (Res (List (Str × Filter P)) × Reader P) :=
  if o.found.trees.length = 0 then (readRest o.rest).map fun ss => treesRead p depth o.found ss.2 ss.1
  else some (.ok o.found.trees, o)

/-- A call of a parser, with its data set, settings and flags at that time. (FilterExpressionParser.go L140, L202) -/
inductive Call (P : Prim) where
  | evaluate (p : Parser P) (sort : Sorter P) (depth : Nat) (applyLimit applySort : Bool)
  | trees (p : Parser P) (depth : Nat)

/-- The parser after a call; `none` where this is not modelled. (FilterExpressionParser.go L140-148, L202-282) -/
def call (o : Reader P) : Call P → Option (Reader P)
  | .evaluate p sort depth al as => (o.evaluate p sort depth al as).map (·.2)
  | .trees p depth => (o.trees p depth).map (·.2)

/-- The parser after these calls. (FilterExpressionParser.go L140-148, L202-282) -/
def calls (o : Reader P) : List (Call P) → Option (Reader P)
  | [] => some o
  | c :: cs => (o.call c).bind fun o => o.calls cs

end Reader

/-- As the first call of a parser, it gets as far as parsing: `Evaluate` with something to track, or a look at the trees. -/
def Reader.Call.Parses : Reader.Call P → Prop
  | .evaluate p _ _ _ _ => p.trackRows = true ∨ p.trackIDs = true
  | .trees _ _ => True

theorem readRest_tokens (text : Str) : (readRest (Lex.tokens text)).map (·.1) = read text := by
  unfold read
  generalize Lex.tokens text = ts
  cases ts with
  | nil => rfl
  | cons t ts =>
    cases t with
    | unexpected x => rfl
    | _ =>
      simp only [readRest]
      cases parseRecovering _ <;> rfl

theorem readRest_ok {ts : List Tok} {ss : List S} {r : List Tok} (h : readRest ts = some (.ok ss, r)) : r = [] := by
  unfold readRest at h
  split at h
  · injection h with h; injection h with _ h; exact h.symm
  · injection h with h; injection h with h; cases h
  · cases hp : parseRecovering ts with
    | none => rw [hp] at h; cases h
    | some v => rw [hp] at h; injection h with h; injection h with _ h; exact h.symm

/-- **The first `Evaluate` of a parser gives what its text denotes** (`evaluateText`, of which C88 speaks). -/
theorem C126_first (text : Str) (p : Parser P) (sort : Sorter P) (depth : Nat) (al as : Bool) :
    ((Reader.new text).evaluate p sort depth al as).map (·.1) = p.evaluateText sort depth al as text := by
  unfold Reader.evaluate Parser.evaluateText
  split
  · rfl
  · rw [← readRest_tokens, Option.map_map, Option.map_map]
    show Option.map _ (readRest (Lex.tokens text)) = _
    congr 1
    funext v
    obtain ⟨r, ts⟩ := v
    cases r with
    | ok ss =>
      show (Reader.evaluateRead p sort depth al as ts (.ok ss)).1 = p.listenAll depth {} ss >>= _
      rw [Parser.listenAllOr_same]
      simp only [Reader.evaluateRead]
      cases p.listenAllOr depth {} ss <;> rfl
    | err => rfl
    | panic => rfl

/-- **The first look at the trees gives those of the text.** -/
theorem C126_first_trees (text : Str) (p : Parser P) (depth : Nat) :
    ((Reader.new text).trees p depth).map (·.1) = p.expressionTrees depth text := by
  unfold Reader.trees Parser.expressionTrees
  rw [if_pos (show (Reader.new text : Reader P).found.trees.length = 0 from rfl), ← readRest_tokens, Option.map_map, Option.map_map]
  show Option.map _ (readRest (Lex.tokens text)) = _
  congr 1
  funext v
  obtain ⟨r, ts⟩ := v
  cases r with
  | ok ss =>
    show (Reader.treesRead p depth {} ts (.ok ss)).1 = p.listenAll depth {} ss >>= _
    rw [Parser.listenAllOr_same]
    simp only [Reader.treesRead]
    cases p.listenAllOr depth {} ss <;> rfl
  | err => rfl
  | panic => rfl

/-- With no token left, `Evaluate` finds nothing. -/
theorem evaluate_spent {o : Reader P} (h : o.rest = []) {p : Parser P} (ht : p.trackRows = true ∨ p.trackIDs = true) (sort : Sorter P) (depth : Nat)
    (al as : Bool) : o.evaluate p sort depth al as = some (.ok {}, ⟨[], {}⟩) := by
  unfold Reader.evaluate
  rw [if_neg (by rcases ht with h | h <;> simp [h]), h]
  rfl

/-- With no token left, the trees are those there are. -/
theorem trees_spent {o : Reader P} (h : o.rest = []) (p : Parser P) (depth : Nat) : o.trees p depth = some (.ok o.found.trees, o) := by
  unfold Reader.trees
  split
  · rw [h]
    show some (Reader.treesRead p depth o.found [] (.ok [])) = _
    obtain ⟨r, f⟩ := o
    dsimp only at h
    subst h
    rfl
  · rfl

theorem evaluateRead_rest (p : Parser P) (sort : Sorter P) (depth : Nat) (al as : Bool) (rest : List Tok) (r : Res (List S)) :
    (Reader.evaluateRead p sort depth al as rest r).2.rest = rest := by
  cases r with
  | ok ss => simp only [Reader.evaluateRead]; cases p.listenAllOr depth {} ss <;> rfl
  | err => rfl
  | panic => rfl

theorem treesRead_rest (p : Parser P) (depth : Nat) (st : Found P) (rest : List Tok) (r : Res (List S)) :
    (Reader.treesRead p depth st rest r).2.rest = rest := by
  cases r with
  | ok ss => simp only [Reader.treesRead]; cases p.listenAllOr depth st ss <;> rfl
  | err => rfl
  | panic => rfl

theorem call_spent {o o' : Reader P} (h : o.rest = []) {c : Reader.Call P} (hc : o.call c = some o') : o'.rest = [] := by
  cases c with
  | evaluate p sort depth al as =>
    simp only [Reader.call] at hc
    unfold Reader.evaluate at hc
    split at hc
    · injection hc with hc; subst hc; exact h
    · rw [h] at hc; injection hc with hc; subst hc; exact evaluateRead_rest ..
  | trees p depth =>
    simp only [Reader.call] at hc
    rw [trees_spent h] at hc
    injection hc with hc; subst hc; exact h

theorem calls_spent {cs : List (Reader.Call P)} {o o' : Reader P} (h : o.rest = []) (hc : o.calls cs = some o') : o'.rest = [] := by
  induction cs generalizing o with
  | nil => injection hc with hc; subst hc; exact h
  | cons c cs ih =>
    rw [Reader.calls] at hc
    cases hd : o.call c with
    | none => rw [hd] at hc; cases hc
    | some o1 => rw [hd] at hc; exact ih (call_spent h hd) hc

/-- Looks at the trees change nothing once no token is left. -/
theorem looks_spent {cs : List (Reader.Call P)} (hcs : ∀ c ∈ cs, ∃ p depth, c = .trees p depth) {o : Reader P} (h : o.rest = []) : o.calls cs = some o := by
  induction cs with
  | nil => rfl
  | cons c cs ih =>
    obtain ⟨q, d, rfl⟩ := hcs c (List.mem_cons_self)
    rw [Reader.calls]
    simp only [Reader.call, trees_spent h, Option.map_some, Option.bind_some]
    exact ih (fun c hc => hcs c (List.mem_cons_of_mem _ hc))

/-- A parse of a text with no syntax error that does not begin with an unexpected character leaves no token. -/
theorem parsed {text : Str} {ss : List S} (h : read text = some (.ok ss)) : readRest (Lex.tokens text) = some (.ok ss, []) := by
  have ht := readRest_tokens text
  rw [h] at ht
  cases hr : readRest (Lex.tokens text) with
  | none => rw [hr] at ht; cases ht
  | some v =>
    rw [hr] at ht
    obtain ⟨a, b⟩ := v
    injection ht with ht
    dsimp only at ht
    subst ht
    rw [readRest_ok hr]

/-- `Evaluate` of a text that can be read, as the first call. -/
theorem evaluate_parsed {text : Str} {ss : List S} (h : read text = some (.ok ss)) {p : Parser P} (ht : p.trackRows = true ∨ p.trackIDs = true)
    (sort : Sorter P) (depth : Nat) (al as : Bool) :
    (Reader.new text).evaluate p sort depth al as = some (Reader.evaluateRead p sort depth al as [] (.ok ss)) := by
  unfold Reader.evaluate
  rw [if_neg (by rcases ht with h | h <;> simp [h])]
  show Option.map _ (readRest (Lex.tokens text)) = _
  rw [parsed h]
  rfl

/-- A look at the trees of a text that can be read, as the first call. -/
theorem trees_parsed {text : Str} {ss : List S} (h : read text = some (.ok ss)) (p : Parser P) (depth : Nat) :
    (Reader.new text).trees p depth = some (Reader.treesRead p depth {} [] (.ok ss)) := by
  unfold Reader.trees
  rw [if_pos (show (Reader.new text : Reader P).found.trees.length = 0 from rfl)]
  show Option.map _ (readRest (Lex.tokens text)) = _
  rw [parsed h]
  rfl

/-- The first call that parses leaves no token, whether it succeeds or not. -/
theorem call_parses {text : Str} {ss : List S} (h : read text = some (.ok ss)) {c : Reader.Call P} (hc : c.Parses) :
    ∃ o, (Reader.new text).call c = some o ∧ o.rest = [] := by
  cases c with
  | evaluate p sort depth al as =>
    simp only [Reader.call]
    rw [evaluate_parsed h hc]
    exact ⟨_, rfl, evaluateRead_rest ..⟩
  | trees p depth =>
    simp only [Reader.call]
    rw [trees_parsed h]
    exact ⟨_, rfl, treesRead_rest ..⟩

/-- **A parser evaluates its text once**: after a call that parsed it, whatever came of that call and whatever calls follow, every further `Evaluate`
reports no error and finds no row, no signal ID and no tree, on whatever data. -/
theorem C126_once {text : Str} {ss : List S} (h : read text = some (.ok ss)) {c : Reader.Call P} (hc : c.Parses)
    {cs : List (Reader.Call P)} {o : Reader P} (ho : (Reader.new text).calls (c :: cs) = some o) {p : Parser P}
    (ht : p.trackRows = true ∨ p.trackIDs = true) (sort : Sorter P) (depth : Nat) (al as : Bool) :
    ∃ o', o.evaluate p sort depth al as = some (.ok {}, o') := by
  obtain ⟨o1, h1, hr⟩ := call_parses (P := P) h hc
  rw [Reader.calls, h1] at ho
  exact ⟨_, evaluate_spent (calls_spent hr ho) ht sort depth al as⟩

/-- C126 (partial: the results there are). Full statement: `Evaluate` gives the same on a parser used before as on a new one with the same text, data set and
settings; the trees stay those of the text. Missing: `Evaluate` after a call that parsed, which finds nothing (`C126_once`, `C126_again_false`). Proved here: after
an `Evaluate` that reports no error, `ExpressionTrees` gives the trees of this evaluation, with whatever data set and settings, as often as it is called, and leaves the
results as they are. -/
theorem C126_trees_partial {text : Str} {p : Parser P} {sort : Sorter P} {depth : Nat} {al as : Bool} {st : Found P} {o : Reader P} {ss : List S}
    (h : read text = some (.ok ss)) (he : (Reader.new text).evaluate p sort depth al as = some (.ok st, o)) :
    ∀ cs : List (Reader.Call P), (∀ c ∈ cs, ∃ p depth, c = .trees p depth) → ∃ o', o.calls cs = some o' ∧ o'.found = st ∧
      ∀ q depth, ∃ o'', o'.trees q depth = some (.ok st.trees, o'') := by
  have ho : o.rest = [] ∧ o.found = st := by
    by_cases ht : p.trackRows = true ∨ p.trackIDs = true
    · rw [evaluate_parsed h ht] at he
      injection he with he
      have hr := evaluateRead_rest p sort depth al as [] (.ok ss)
      rw [he] at hr
      refine ⟨hr, ?_⟩
      simp only [Reader.evaluateRead] at he
      cases hl : p.listenAllOr depth {} ss with
      | ok st' =>
        rw [hl] at he
        injection he with h1 h2
        rw [← h2]
        exact Parser.evaluated_ok h1
      | error st' => rw [hl] at he; injection he with h1 h2; cases h1
    · unfold Reader.evaluate at he
      rw [if_pos (by simpa using ht)] at he
      injection he with he; injection he with he; cases he
  intro cs hcs
  exact ⟨o, looks_spent hcs ho.1, ho.2, fun q d => ⟨o, by rw [trees_spent ho.1, ho.2]⟩⟩

/-- **A text that begins with an unexpected character is refused, and evaluated without it the next time.** -/
theorem C126_unexpected {text : Str} {x : Str} {ts : List Tok} (h : Lex.tokens text = .unexpected x :: ts) {p : Parser P}
    (ht : p.trackRows = true ∨ p.trackIDs = true) (sort : Sorter P) (depth : Nat) (al as : Bool) :
    ∃ o, (Reader.new text).evaluate p sort depth al as = some (.err, o) ∧ ∀ (q : Parser P) (sort : Sorter P) (depth : Nat) (al as : Bool) (text' : Str),
      Lex.tokens text' = ts → (o.evaluate q sort depth al as).map (·.1) = q.evaluateText sort depth al as text' := by
  refine ⟨⟨ts, {}⟩, ?_, ?_⟩
  · unfold Reader.evaluate
    rw [if_neg (by rcases ht with h | h <;> simp [h])]
    show Option.map _ (readRest (Lex.tokens text)) = _
    rw [h]
    rfl
  · intro q sort depth al as text' h'
    rw [← C126_first]
    unfold Reader.evaluate Reader.new
    rw [h']

/-! ### What a refused text leaves -/

/-- What a statement that is refused leaves among the trees: nothing of an identifier, nor of a filter of a table that does not exist; else a tree with the
ordering terms before the first whose column does not exist, and of the expression what `E.left` says, nil if a column to sort by does not exist. -/
def remains (p : Parser P) : S → List (Str × Filter P)
  | .filter top table e terms =>
    match p.tables table with
    | none => []
    | some (_, t) =>
      let exists' (o : Term) : Bool := (t.columnByName o.column).isSome
      [(table,
        { root := if terms.all exists' then e.left (p.columnNamed table) .nil else .nil
          topLimit := topLimit (top.map fun t => atoi (topText t))
          orderBy := (terms.takeWhile exists').filterMap fun o =>
            (t.columnByName o.column).map fun c => { column := c.index, ascending := o.desc ≠ some true, exactMatch := o.exact.isNone } })]
  | .expr e => [([], { root := e.left (p.columnNamed []) .nil })]
  | _ => []

/-- It leaves the trees as they are, whether it panics or not. -/
def Spares (st : Found P) (x : Except (Found P) (Found P)) : Prop :=
  match x with
  | .ok st' => st'.trees = st.trees
  | .error st' => st'.trees = st.trees

theorem Spares.bind {st : Found P} {x : Except (Found P) (Found P)} {f : Found P → Except (Found P) (Found P)} (h : Spares st x)
    (hf : ∀ st', st'.trees = st.trees → Spares st (f st')) : Spares st (x >>= f) := by
  cases x with
  | ok st' => exact hf st' h
  | error st' => exact h

theorem Spares.look {α : Type} {st st' : Found P} (h : st'.trees = st.trees) (x : Res α) {f : α → Except (Found P) (Found P)}
    (hf : ∀ a, Spares st (f a)) : Spares st (orStop st' x >>= f) := by
  cases x with
  | ok a => exact hf a
  | err => exact h
  | panic => exact h

theorem addRow_trees {p : Parser P} {st st' : Found P} {r : Row P} (h : p.addRow st r = .ok st') : st'.trees = st.trees := by
  unfold Parser.addRow at h
  split at h
  · split at h
    · cases hs : hashAdd st.rowSet r.id with
      | ok v => rw [hs] at h; injection h with h; subst h; rfl
      | err => rw [hs] at h; cases h
      | panic => rw [hs] at h; cases h
    · injection h with h; subst h; rfl
  · injection h with h; subst h; rfl

theorem addID_trees {p : Parser P} {st st' : Found P} {g : Guid.Guid} (h : p.addID st g = .ok st') : st'.trees = st.trees := by
  unfold Parser.addID at h
  split at h
  · split at h
    · cases hs : hashAdd st.idSet g with
      | ok v => rw [hs] at h; injection h with h; subst h; rfl
      | err => rw [hs] at h; cases h
      | panic => rw [hs] at h; cases h
    · injection h with h; subst h; rfl
  · injection h with h; subst h; rfl

theorem Spares.row {p : Parser P} {st st' : Found P} (h : st'.trees = st.trees) (r : Row P) : Spares st (orStop st' (p.addRow st' r)) := by
  cases hr : p.addRow st' r with
  | ok a => exact (addRow_trees hr).trans h
  | err => exact h
  | panic => exact h

theorem Spares.id {p : Parser P} {st st' : Found P} (h : st'.trees = st.trees) (g : Guid.Guid) : Spares st (orStop st' (p.addID st' g)) := by
  cases hr : p.addID st' g with
  | ok a => exact (addID_trees hr).trans h
  | err => exact h
  | panic => exact h

theorem mapMatched_spares (p : Parser P) (t : Table P) (depth : Nat) {st st' : Found P} (h : st'.trees = st.trees) (n v : Str) (c : Int) :
    Spares st (p.mapMatchedFieldRowOr t depth st' n v c) := by
  unfold Parser.mapMatchedFieldRowOr
  cases t.columnByName n with
  | none => exact h
  | some col =>
    refine Spares.look h _ fun r => ?_
    cases r with
    | none => exact h
    | some r =>
      refine Spares.bind (Spares.row h r) fun st' h => ?_
      split
      · refine Spares.look h _ fun g => ?_
        cases g with
        | none => exact h
        | some g => exact Spares.id h g
      · exact h

theorem exitIdentifier_spares (p : Parser P) (depth : Nat) (st : Found P) (s : Statement P) : Spares st (p.exitIdentifierOr depth st s) := by
  have key : ∀ (st' : Found P), st'.trees = st.trees → ∀ (s : Statement P) (signalID : Guid.Guid), Spares st
      (match p.tables p.primary, p.idFields p.primary with
      | some (_, t), some fields =>
        match t.columnByName fields.signalID with
        | none => pure st'
        | some signalIDColumn =>
          if p.trackRows ∧ ¬ Guid.isZero signalID then do
            match ← orStop st' (Parser.findRow (fun r => do return (← Parser.guidValue t depth r signalIDColumn.index) == some signalID) t.rows) with
            | some r => orStop st' (p.addRow st' r)
            | none => return st'
          else
            match s with
            | .measurementKey text => p.mapMatchedFieldRowOr t depth st' fields.measurementKey text signalIDColumn.index
            | .pointTag text => p.mapMatchedFieldRowOr t depth st' fields.pointTag text signalIDColumn.index
            | _ => pure st'
      | _, _ => pure st') := by
    intro st' h s signalID
    cases p.tables p.primary with
    | none => exact h
    | some v =>
      cases p.idFields p.primary with
      | none => exact h
      | some fields =>
        dsimp only
        cases v.2.columnByName fields.signalID with
        | none => exact h
        | some c =>
          dsimp only
          split
          · refine Spares.look h _ fun r => ?_
            cases r with
            | none => exact h
            | some r => exact Spares.row h r
          · cases s with
            | measurementKey text => exact mapMatched_spares _ _ _ h ..
            | pointTag text => exact mapMatched_spares _ _ _ h ..
            | _ => exact h
  unfold Parser.exitIdentifierOr
  cases s with
  | guid g =>
    refine Spares.bind (Spares.id rfl g) fun st' h => ?_
    cases htr : p.trackRows with
    | false => exact h
    | true =>
      have := key st' h (.guid g) g
      rw [htr] at this
      exact this
  | measurementKey text => exact key st rfl (.measurementKey text) Guid.empty
  | pointTag text => exact key st rfl (.pointTag text) Guid.empty
  | filter table top terms root => exact key st rfl (.filter table top terms root) Guid.empty
  | expression root => exact key st rfl (.expression root) Guid.empty

theorem enterStatement_trees (p : Parser P) (st : Found P) : (p.enterStatement st).trees = st.trees := by
  unfold Parser.enterStatement
  dsimp only
  split <;> rfl

theorem orderByOr_spec (t : Table P) (terms : List Term) :
    (orderByOr t (terms.map Parser.orderingTerm)).2 = terms.all (fun o => (t.columnByName o.column).isSome) ∧
    (orderByOr t (terms.map Parser.orderingTerm)).1 = (terms.takeWhile fun o => (t.columnByName o.column).isSome).filterMap fun o =>
      (t.columnByName o.column).map fun c => ({ column := c.index, ascending := o.desc ≠ some true, exactMatch := o.exact.isNone } : OrderBy) := by
  induction terms with
  | nil => exact ⟨rfl, rfl⟩
  | cons o os ih =>
    simp only [List.map_cons, orderByOr, List.all_cons]
    rcases Option.eq_none_or_eq_some (t.columnByName o.column) with hc | ⟨c, hc⟩
    · have hc' : t.columnByName (Parser.orderingTerm o).column = none := hc
      rw [List.takeWhile_cons_of_neg (by simp [hc])]
      simp only [hc', hc]
      exact ⟨rfl, rfl⟩
    · have hc' : t.columnByName (Parser.orderingTerm o).column = some c := hc
      rw [List.takeWhile_cons_of_pos (by simp [hc]), List.filterMap_cons]
      simp only [hc', hc, ih.1, ih.2, Option.map_some]
      refine ⟨by simp, ?_⟩
      congr 2
      · simp [Parser.orderingTerm]
      · simp only [Parser.orderingTerm]; cases o.exact <;> rfl

/-- What a statement that is refused leaves among the trees. -/
theorem listenOr_remains {p : Parser P} {depth : Nat} {st st' : Found P} {s : S} (h : p.listenOr depth st s = .error st') :
    st'.trees = st.trees ++ remains p s := by
  have he := enterStatement_trees p st
  have ident : ∀ (x : Statement P), p.exitIdentifierOr depth (p.enterStatement st) x = .error st' → st'.trees = st.trees ++ [] := by
    intro x hx
    have := exitIdentifier_spares p depth (p.enterStatement st) x
    rw [hx] at this
    rw [List.append_nil, ← he]
    exact this
  cases s with
  | guid text =>
    simp only [Parser.listenOr] at h
    cases hg : Parser.guidLiteral (P := P) text with
    | ok g =>
      rw [hg] at h
      simp only [orStop] at h
      change (if _ then _ else _) = _ at h
      split at h
      · cases h
      · exact ident _ h
    | err => rw [hg] at h; injection h with h; subst h; rw [he]; exact (List.append_nil _).symm
    | panic => rw [hg] at h; injection h with h; subst h; rw [he]; exact (List.append_nil _).symm
  | measurementKey text => exact ident (.measurementKey text) h
  | pointTag text =>
    simp only [Parser.listenOr] at h
    cases hg : unquote (ch '"') text with
    | ok g => rw [hg] at h; exact ident (.pointTag g) h
    | err => rw [hg] at h; injection h with h; subst h; rw [he]; exact (List.append_nil _).symm
    | panic => rw [hg] at h; injection h with h; subst h; rw [he]; exact (List.append_nil _).symm
  | filter top table e terms =>
    simp only [Parser.listenOr, Parser.filterOr] at h
    simp only [remains]
    cases ht : p.tables table with
    | none => rw [ht] at h; injection h with h; subst h; rw [he, List.append_nil]
    | some v =>
      rw [ht] at h
      have ho := orderByOr_spec v.2 terms
      dsimp only at h ⊢
      rw [ho.1, ho.2] at h
      split at h
      · rename_i hall
        rw [C126_left] at h
        rw [if_pos hall]
        cases hd : e.den (P := P) (p.columnNamed table) with
        | ok t => rw [hd] at h; cases h
        | err => rw [hd] at h; injection h with h; subst h; dsimp only; rw [he]
        | panic => rw [hd] at h; injection h with h; subst h; dsimp only; rw [he]
      · rename_i hall
        rw [if_neg hall]
        injection h with h; subst h; dsimp only; rw [he]
  | expr e =>
    simp only [Parser.listenOr] at h
    simp only [remains]
    rw [C126_left] at h
    cases hd : e.den (P := P) (p.columnNamed []) with
    | ok t => rw [hd] at h; cases h
    | err => rw [hd] at h; injection h with h; subst h; dsimp only; rw [he]
    | panic => rw [hd] at h; injection h with h; subst h; dsimp only; rw [he]

/-- A walk that fails does so at one statement. -/
theorem listenAllOr_error {p : Parser P} {depth : Nat} {ss : List S} {st st' : Found P} (h : p.listenAllOr depth st ss = .error st') :
    ∃ before s after st0, ss = before ++ s :: after ∧ p.listenAll depth st before = .ok st0 ∧ (∀ st1, p.listen depth st0 s ≠ .ok st1) ∧
      st'.trees = st0.trees ++ remains p s := by
  induction ss generalizing st with
  | nil => cases h
  | cons s ss ih =>
    have hs := Parser.listenOr_same p depth st s
    simp only [Parser.listenAllOr] at h
    cases hl : p.listenOr depth st s with
    | ok st1 =>
      rw [hl] at h hs
      obtain ⟨before, s', after, st0, h1, h2, h3, h4⟩ := ih h
      have hlis : p.listen depth st s = .ok st1 := by
        cases hr : p.listen depth st s with
        | ok a => rw [hr] at hs; injection hs with hs; subst hs; rfl
        | err => rw [hr] at hs; cases hs
        | panic => rw [hr] at hs; cases hs
      exact ⟨s :: before, s', after, st0, by rw [h1]; rfl, by simp only [Parser.listenAll, hlis]; exact h2, h3, h4⟩
    | error st1 =>
      rw [hl] at h hs
      injection h with h
      subst h
      refine ⟨[], s, ss, st, rfl, rfl, fun a ha => ?_, listenOr_remains hl⟩
      rw [ha] at hs; cases hs

/-- **A refused text is refused once**: after `ExpressionTrees` has reported an error, it reports none, however often it is called and with whatever data set and
settings, and gives the trees of the statements before the first that is refused, and what is left of that one. -/
theorem C126_refused {text : Str} {ss : List S} (h : read text = some (.ok ss)) {p : Parser P} {depth : Nat} {o : Reader P}
    (he : (Reader.new text).trees p depth = some (.err, o)) :
    ∃ before s after st, ss = before ++ s :: after ∧ p.listenAll depth {} before = .ok st ∧ (∀ st1, p.listen depth st s ≠ .ok st1) ∧
      ∀ cs : List (Reader.Call P), (∀ c ∈ cs, ∃ p depth, c = .trees p depth) → o.calls cs = some o ∧
        ∀ q d, o.trees q d = some (.ok (st.trees ++ remains p s), o) := by
  rw [trees_parsed h] at he
  injection he with he
  have hr := treesRead_rest p depth {} [] (.ok ss)
  rw [he] at hr
  simp only [Reader.treesRead] at he
  cases hl : p.listenAllOr depth {} ss with
  | ok st => rw [hl] at he; injection he with he; cases he
  | error st =>
    rw [hl] at he
    injection he with _ he
    obtain ⟨before, s, after, st0, h1, h2, h3, h4⟩ := listenAllOr_error hl
    refine ⟨before, s, after, st0, h1, h2, h3, fun cs hcs => ⟨looks_spent hcs hr, fun q d => ?_⟩⟩
    rw [trees_spent hr, ← h4, ← he]

theorem addAll_trees {p : Parser P} {t : Table P} {depth : Nat} {c : Int} {rs : List (Row P)} {st st' : Found P}
    (h : p.addAll t depth c st rs = .ok st') : st'.trees = st.trees := by
  induction rs generalizing st with
  | nil => injection h with h; subst h; rfl
  | cons r rs ih =>
    simp only [Parser.addAll] at h
    cases ha : p.addMatchedRow t depth st r c with
    | ok st1 =>
      rw [ha] at h
      rw [ih h]
      have h1 := Parser.addMatchedRowOr_same p t depth st r c
      rw [ha] at h1
      have h2 : Spares st (p.addMatchedRowOr t depth st r c) := by
        refine Spares.bind (Spares.row rfl r) fun st' h => ?_
        split
        · refine Spares.look h _ fun g => ?_
          cases g with
          | none => exact h
          | some g => exact Spares.id h g
        · exact h
      cases hx : p.addMatchedRowOr t depth st r c with
      | ok a => rw [hx] at h1 h2; injection h1 with h1; subst h1; exact h2
      | error a => rw [hx] at h1; cases h1
    | err => rw [ha] at h; cases h
    | panic => rw [ha] at h; cases h

theorem evaluateTree_trees {p : Parser P} {sort : Sorter P} {depth : Nat} {al as : Bool} {st st' : Found P} {tree : Str × Filter P}
    (h : p.evaluateTree sort depth al as st tree = .ok st') : st'.trees = st.trees := by
  unfold Parser.evaluateTree at h
  split at h
  · cases h
  · split at h
    · cases h
    · rename_i name t _
      cases hm : tree.2.selectWhere sort t depth Parser.predicate al as with
      | ok m =>
        rw [hm] at h
        cases hc : p.signalIDColumn name t with
        | ok c => rw [Res.bind_ok, hc, Res.bind_ok] at h; exact addAll_trees h
        | err => rw [Res.bind_ok, hc] at h; cases h
        | panic => rw [Res.bind_ok, hc] at h; cases h
      | err => rw [hm] at h; cases h
      | panic => rw [hm] at h; cases h

/-- An evaluation that fails does so at one tree, and leaves the results of those before. -/
theorem evaluated_err {p : Parser P} {sort : Sorter P} {depth : Nat} {al as : Bool} {trees : List (Str × Filter P)} {st : Found P}
    (h : p.evaluateTrees sort depth al as st trees = .err) :
    ∃ before t after st', trees = before ++ t :: after ∧ p.evaluateTrees sort depth al as st before = .ok st' ∧
      p.evaluateTree sort depth al as st' t = .err ∧ p.evaluated sort depth al as st trees = st' ∧ st'.trees = st.trees := by
  induction trees generalizing st with
  | nil => cases h
  | cons t ts ih =>
    simp only [Parser.evaluateTrees] at h
    simp only [Parser.evaluated]
    cases hr : p.evaluateTree sort depth al as st t with
    | ok a =>
      rw [hr] at h
      obtain ⟨before, t', after, st', h1, h2, h3, h4, h5⟩ := ih h
      exact ⟨t :: before, t', after, st', by rw [h1]; rfl, by simp only [Parser.evaluateTrees, hr, Res.bind_ok]; exact h2, h3, h4,
        h5.trans (evaluateTree_trees hr)⟩
    | err => exact ⟨[], t, ts, st, rfl, rfl, hr, rfl, rfl⟩
    | panic => rw [hr] at h; cases h

/-- **What an `Evaluate` that fails leaves**: if a statement is refused, the trees of those before it and what is left of it, and no error from `ExpressionTrees`; if
the evaluation of a tree fails, the rows and signal IDs of the identifiers and of the trees before it, and all trees. -/
theorem C126_failed {text : Str} {ss : List S} (h : read text = some (.ok ss)) {p : Parser P} (ht : p.trackRows = true ∨ p.trackIDs = true)
    {sort : Sorter P} {depth : Nat} {al as : Bool} {o : Reader P} (he : (Reader.new text).evaluate p sort depth al as = some (.err, o)) :
    (∃ before s after st, ss = before ++ s :: after ∧ p.listenAll depth {} before = .ok st ∧ (∀ st1, p.listen depth st s ≠ .ok st1) ∧
      ∀ q d, o.trees q d = some (.ok (st.trees ++ remains p s), o)) ∨
    (∃ st before t after st', p.listenAll depth {} ss = .ok st ∧ st.trees = before ++ t :: after ∧
      p.evaluateTrees sort depth al as st before = .ok st' ∧ p.evaluateTree sort depth al as st' t = .err ∧ o.found = st' ∧
      ∀ q d, o.trees q d = some (.ok st.trees, o)) := by
  rw [evaluate_parsed h ht] at he
  injection he with he
  have hr := evaluateRead_rest p sort depth al as [] (.ok ss)
  rw [he] at hr
  simp only [Reader.evaluateRead] at he
  cases hl : p.listenAllOr depth {} ss with
  | ok st =>
    rw [hl] at he
    injection he with he1 he2
    obtain ⟨before, t, after, st', h1, h2, h3, h4, h5⟩ := evaluated_err he1
    have hf : o.found = st' := by rw [← he2]; exact h4
    refine .inr ⟨st, before, t, after, st', by rw [Parser.listenAllOr_same, hl], h1, h2, h3, hf, fun q d => ?_⟩
    rw [trees_spent hr, hf, h5]
  | error st =>
    rw [hl] at he
    injection he with _ he
    obtain ⟨before, s, after, st0, h1, h2, h3, h4⟩ := listenAllOr_error hl
    refine .inl ⟨before, s, after, st0, h1, h2, h3, fun q d => ?_⟩
    rw [trees_spent hr, ← h4, ← he]

/-! ### Cases -/

/-- The rows found by the evaluations of these parsers with the same text, one after the other. -/
def evaluations (o : Reader Toy.prim) : List (Parser Toy.prim) → List (Option (List Nat))
  | [] => []
  | p :: ps =>
    match o.evaluate p insertionSort 1 true true with
    | some (r, o) => (match r with | .ok st => some (st.rows.map Row.id) | _ => none) :: evaluations o ps
    | none => []

/-- The parser of the examples on this data set. -/
def onSet (tables : Str → Option (Str × Table Toy.prim)) : Parser Toy.prim := forDataSet tables (lit "T") none

/-- `C126_once` on a text that finds two rows the first time; and an error is reported only the first time. -/
example : evaluations (Reader.new (ascii "FILTER T WHERE A > 2")) [onSet demoSet, onSet demoSet, onSet demoSet] = [some [0, 2], some [], some []] ∧
    evaluations (Reader.new (ascii "FILTER T WHERE A > 2")) [onSet fun _ => none, onSet demoSet] = [none, some []] ∧
    evaluations (Reader.new (ascii "FILTER T WHERE Nope > 2")) [onSet demoSet, onSet demoSet] = [none, some []] := by decide +kernel

/-- `C126_unexpected`: refused the first time, evaluated the second, and nothing from then on. -/
example : evaluations (Reader.new (ascii "? A > 2")) [onSet demoSet, onSet demoSet, onSet demoSet] = [none, some [0, 2], some []] ∧
    ∃ x, Lex.tokens (ascii "? A > 2") = .unexpected x :: Lex.tokens (ascii "A > 2") := by
  refine ⟨by decide +kernel, ascii "?", by decide +kernel⟩

/-- `C126_trees_partial`: there is a tree to be kept. -/
example : ∃ st o, (Reader.new (ascii "FILTER T WHERE A > 2")).evaluate (onSet demoSet) insertionSort 1 true true = some (.ok st, o) ∧ st.trees.length = 1 := by
  have h : ((Reader.new (ascii "FILTER T WHERE A > 2")).evaluate (onSet demoSet) insertionSort 1 true true).map (fun r =>
      match r.1 with | .ok st => some st.trees.length | _ => none) = some (some 1) := by decide +kernel
  cases hr : (Reader.new (ascii "FILTER T WHERE A > 2")).evaluate (onSet demoSet) insertionSort 1 true true with
  | none => rw [hr] at h; cases h
  | some v =>
    obtain ⟨r, o⟩ := v
    rw [hr] at h
    cases r with
    | ok st => injection h with h; injection h with h; exact ⟨st, o, rfl, h⟩
    | err => injection h with h; cases h
    | panic => injection h with h; cases h

/-- **A second `Evaluate` does not give what a new parser gives**, for the same text, data and settings: rows are found the first time only. -/
theorem C126_again_false : ¬ ∀ (text : Str) (p : Parser Toy.prim) (r r' : Res (Found Toy.prim)) (o o' : Reader Toy.prim),
    (Reader.new text).evaluate p insertionSort 1 true true = some (r, o) → o.evaluate p insertionSort 1 true true = some (r', o') → r = r' := by
  intro h
  have he : evaluations (Reader.new (ascii "FILTER T WHERE A > 2")) [onSet demoSet, onSet demoSet] = [some [0, 2], some []] := by decide +kernel
  unfold evaluations at he
  cases h1 : (Reader.new (ascii "FILTER T WHERE A > 2")).evaluate (onSet demoSet) insertionSort 1 true true with
  | none => rw [h1] at he; cases he
  | some v =>
    rw [h1] at he
    obtain ⟨r, o⟩ := v
    dsimp only at he
    unfold evaluations at he
    cases h2 : o.evaluate (onSet demoSet) insertionSort 1 true true with
    | none => rw [h2] at he; injection he with _ he; cases he
    | some w =>
      rw [h2] at he
      obtain ⟨r', o'⟩ := w
      have hr := h _ _ _ _ _ _ h1 h2
      subst hr
      dsimp only at he
      injection he with ha hb
      injection hb with hb _
      have := ha.symm.trans hb
      cases this

/-- **An error is not reported again**: the first `Evaluate` refuses the text, the second reports success. -/
theorem C126_error_false : ¬ ∀ (text : Str) (p : Parser Toy.prim) (r' : Res (Found Toy.prim)) (o o' : Reader Toy.prim),
    (Reader.new text).evaluate p insertionSort 1 true true = some (.err, o) → o.evaluate p insertionSort 1 true true = some (r', o') →
    ∀ st, r' ≠ .ok st := by
  intro h
  have hr : (read (ascii "FILTER T WHERE Nope > 2")).map (fun r => match r with | .ok _ => true | _ => false) = some true := by decide +kernel
  have he : ((onSet demoSet).evaluateText insertionSort 1 true true (ascii "FILTER T WHERE Nope > 2")).map (fun r => match r with | .err => true | _ => false) =
      some true := by decide +kernel
  rw [← C126_first] at he
  cases h1 : (Reader.new (ascii "FILTER T WHERE Nope > 2")).evaluate (onSet demoSet) insertionSort 1 true true with
  | none => rw [h1] at he; cases he
  | some v =>
    obtain ⟨r, o⟩ := v
    rw [h1] at he
    have : r = .err := by
      cases r with
      | err => rfl
      | _ => injection he with he; cases he
    subst this
    cases hs : read (ascii "FILTER T WHERE Nope > 2") with
    | none => rw [hs] at hr; cases hr
    | some w =>
      rw [hs] at hr
      cases w with
      | ok ss =>
        have ho : (Reader.new (ascii "FILTER T WHERE Nope > 2")).calls [.evaluate (onSet demoSet) insertionSort 1 true true] = some o := by
          simp only [Reader.calls, Reader.call, h1]; rfl
        obtain ⟨o', h2⟩ := C126_once hs (c := .evaluate (onSet demoSet) insertionSort 1 true true) (.inl rfl) ho (p := onSet demoSet) (.inl rfl)
          insertionSort 1 true true
        exact h _ _ _ _ _ h1 h2 _ rfl
      | _ => injection hr with hr; cases hr


/-- The results of this look at the trees and the next: whether an error is reported, and the rows the trees select. -/
def looks (o : Reader Toy.prim) (p : Parser Toy.prim) (t : Table Toy.prim) : Nat → List (Option (List (Option (List Nat))))
  | 0 => []
  | n + 1 =>
    match o.trees p 1 with
    | some (.ok ts, o) => some (ts.map fun f => match f.2.selectWhere insertionSort t 1 Parser.predicate true true with
        | .ok rs => some (rs.map Row.id)
        | _ => none) :: looks o p t n
    | some (_, o) => none :: looks o p t n
    | none => []

/-- `C126_refused`: the text is refused, then has a tree that selects every row, though the text asks for those with more; a second statement that is refused
leaves the tree of the first. -/
example : looks (Reader.new (ascii "FILTER T WHERE True AND Nope > 2")) (onSet demoSet) Parser.demoTable 3 = [none, some [some [0, 1, 2, 3]], some [some [0, 1, 2, 3]]] ∧
    looks (Reader.new (ascii "A > 2; Nope")) (onSet demoSet) Parser.demoTable 2 = [none, some [some [0, 2], some []]] := by decide +kernel

/-- **An `Evaluate` with nothing to track is refused and changes nothing**: wherever it stands among the calls, the parser is afterwards what it is without it. -/
theorem C126_untracked (o : Reader P) {p : Parser P} (h1 : p.trackRows = false) (h2 : p.trackIDs = false) (sort : Sorter P) (depth : Nat) (al as : Bool) :
    o.evaluate p sort depth al as = some (.err, o) ∧
      ∀ before after : List (Reader.Call P), o.calls (before ++ .evaluate p sort depth al as :: after) = o.calls (before ++ after) := by
  have key : ∀ o : Reader P, o.evaluate p sort depth al as = some (.err, o) := by
    intro o
    unfold Reader.evaluate
    rw [h1, h2]
    rfl
  refine ⟨key o, fun before => ?_⟩
  induction before generalizing o with
  | nil =>
    intro after
    show ((o.evaluate p sort depth al as).map (·.2)).bind (fun o => o.calls after) = _
    rw [key o]
    rfl
  | cons c before ih =>
    intro after
    show (o.call c).bind (fun o => o.calls (before ++ _ :: after)) = (o.call c).bind (fun o => o.calls (before ++ after))
    congr 1
    funext o
    exact ih o after

/-- `C126_untracked`: with the flags off nothing is read, and the trees are found after. -/
example : ((Reader.new (ascii "A > 2")).evaluate { onSet demoSet with trackRows := false, trackIDs := false } insertionSort 1 true true).map
      (fun v => looks v.2 (onSet demoSet) Parser.demoTable 1) = some [some [some [0, 2]]] := by decide +kernel

/-- **A refused text has trees the next time**, which is a tree that selects all rows for a text that is not valid. -/
theorem C126_refused_false : ¬ ∀ (text : Str) (p : Parser Toy.prim) (r : Res (List (Str × Filter Toy.prim))) (o o' : Reader Toy.prim),
    (Reader.new text).trees p 1 = some (.err, o) → o.trees p 1 = some (r, o') → ∀ ts, r ≠ .ok ts := by
  intro h
  have he : looks (Reader.new (ascii "FILTER T WHERE True AND Nope > 2")) (onSet demoSet) Parser.demoTable 2 = [none, some [some [0, 1, 2, 3]]] := by decide +kernel
  have hr : (read (ascii "FILTER T WHERE True AND Nope > 2")).map (fun r => match r with | .ok _ => true | _ => false) = some true := by decide +kernel
  cases hs : read (ascii "FILTER T WHERE True AND Nope > 2") with
  | none => rw [hs] at hr; cases hr
  | some w =>
    rw [hs] at hr
    cases w with
    | err => injection hr with hr; cases hr
    | panic => injection hr with hr; cases hr
    | ok ss =>
      cases h1 : (Reader.new (ascii "FILTER T WHERE True AND Nope > 2")).trees (onSet demoSet) 1 with
      | none => simp only [looks, h1] at he; cases he
      | some v =>
        obtain ⟨r, o⟩ := v
        cases r with
        | ok ts => simp only [looks, h1] at he; injection he with he; cases he
        | panic =>
          have := trees_parsed hs (onSet demoSet) 1
          rw [this] at h1
          injection h1 with h1
          simp only [Reader.treesRead] at h1
          cases hl : (onSet demoSet).listenAllOr 1 {} ss with
          | ok st => rw [hl] at h1; injection h1 with h1; cases h1
          | error st => rw [hl] at h1; injection h1 with h1; cases h1
        | err =>
          obtain ⟨before, s, after, st, _, _, _, h2⟩ := C126_refused hs h1
          exact h _ _ _ _ _ h1 ((h2 [] (by simp)).2 (onSet demoSet) 1) _ rfl

end Verif.Table
