import Verif.Parse.StatementProps

/-!
# What follows a filter expression and is none (data/parser/filterexpressionsyntax_parser.go L404-450, L646-734)

A token that cannot continue a statement makes `AdaptivePredict` leave every loop and end every rule up to `Parse`: none of the alternatives goes on
with it, and then ANTLR takes the one that has finished the rule, or the first such (for a GUID, `identifierStatement`). `Sync` lets
pass whatever stands where a rule may end. `Match(EOF)` of `Parse` then fails: if one token is left it is deleted, else the exception is
reported to the error listener and recovered in `Parse`, and all tokens are skipped. The tree keeps the statements read so far.
-/

namespace Verif.Parse

open Verif.Expr

/-- A token that no rule goes on with after a statement or in one, and no alternative either (FilterExpressionSyntax.g4 L26-212). Left out are those for which the
answer of `AdaptivePredict` depends on more. -/
def stray : Tok → Bool
  | .lparen | .rparen | .tilde | .kNull | .fn _ | .ident _ | .integer _ | .numeric _ | .string _ | .datetime _ | .guid _ | .boolean _ | .kFilter | .kTop
  | .kWhere | .kBy | .measurementKey _ | .pointTag _ | .unexpected _ => true
  | _ => false

/-- Those of them no statement begins with (FilterExpressionSyntax.g4 L41-63): after semicolons they leave the loop over the statements too. -/
def halts : Tok → Bool
  | .rparen | .kTop | .kWhere | .kBy | .unexpected _ => true
  | _ => false

/-- `FilterExpressionStatement` (L824-871): a GUID before such a token is an `identifierStatement`. -/
def statementOr (n : Nat) (ts : List Tok) : Option (S × List Tok) :=
  match ts with
  | .guid t :: g :: us => if stray g then some (.guid t, g :: us) else statement n ts
  | ts => statement n ts

/-- What is left after a statement begins with such a token, which ends the list (L692-694, L720). -/
def leave (s : S) (g : Tok) : Option (List S) := if stray g then some [s] else none

/-- `FilterExpressionStatementList` (L646-734) from the first statement on, and what `Parse` does about the tokens left (L434-437). -/
def statementsOr (n : Nat) : Nat → List Tok → Option (List S)
  | 0, _ => none
  | m + 1, ts =>
    match statementOr n ts with
    | some (s, us) =>
      match us with
      | [] => some [s]
      | .semi :: vs =>
        match skip vs with
        | [] => some [s]
        | w :: ws =>
          if halts w then some [s]
          else match statementsOr n m (w :: ws) with
          | some ss => some (s :: ss)
          | none => none
      | g :: _ => leave s g
    | none => none

/-- `Parse` (L404-450), apart from `err`; `none` stands for a text with another syntax error. -/
def parseRecovering (ts : List Tok) : Option (List S) := statementsOr (depth ts) ts.length (skip ts)

/-! ### Which texts are read -/

/-- What follows the statements and `b` semicolons: nothing, or anything that begins with a token that cannot go on there. -/
def Rest (b : Nat) (r : List Tok) : Prop := r = [] ∨ ∃ g G, r = g :: G ∧ ((stray g = true ∧ b = 0) ∨ halts g = true)

/-- The tokens of statements with semicolons between, before and after them, and what is ignored. -/
inductive Written : List S → List Tok → Prop
  | one (a b : Nat) (s : S) {r : List Tok} (hr : Rest b r) : Written [s] (List.replicate a .semi ++ s.toks ++ List.replicate b .semi ++ r)
  | cons (a : Nat) (s : S) {ss : List S} {ts : List Tok} (h : Written ss (.semi :: ts)) :
      Written (s :: ss) (List.replicate a .semi ++ s.toks ++ .semi :: ts)

theorem halts_stray {g : Tok} (h : halts g = true) : stray g = true := by cases g <;> first | rfl | cases h

theorem stray_prec {g : Tok} (h : stray g = true) (G : List Tok) : eprec (g :: G) = 0 ∧ qprec (g :: G) = 0 ∧ vprec (g :: G) = 0 := by
  cases g <;> first | exact ⟨rfl, rfl, rfl⟩ | cases h

/-- What may follow a statement, strays included. -/
def EndsOr (r : List Tok) : Prop := Ends r ∨ ∃ g G, r = g :: G ∧ stray g = true

theorem EndsOr.prec {r : List Tok} (h : EndsOr r) : eprec r = 0 ∧ qprec r = 0 ∧ vprec r = 0 := by
  rcases h with h | ⟨g, G, rfl, h⟩
  · exact h.prec
  · exact stray_prec h G

theorem statement_or_sound {n : Nat} {ts us : List Tok} {s : S} (h : statement n ts = some (s, us)) :
    ts = s.toks ++ us ∧ (s.WF ∨ ∃ t, s.toks = [.guid t] ∧ ts = .guid t :: us) := by
  unfold statement at h
  split at h
  · simp only [Option.some.injEq, Prod.mk.injEq] at h
    obtain ⟨rfl, rfl⟩ := h
    exact ⟨rfl, .inl trivial⟩
  · simp only [Option.some.injEq, Prod.mk.injEq] at h
    obtain ⟨rfl, rfl⟩ := h
    exact ⟨rfl, .inl trivial⟩
  · simp only [Option.some.injEq, Prod.mk.injEq] at h
    obtain ⟨rfl, rfl⟩ := h
    exact ⟨rfl, .inl trivial⟩
  · simp only [Option.some.injEq, Prod.mk.injEq] at h
    obtain ⟨rfl, rfl⟩ := h
    exact ⟨rfl, .inl trivial⟩
  · obtain ⟨h1, h2⟩ := filterStatement_sound h
    exact ⟨h1, .inl h2⟩
  · split at h
    · rename_i e vs h2
      obtain ⟨e2, w⟩ := (Sound.all n).e _ _ _ _ h2
      simp only [Option.some.injEq, Prod.mk.injEq] at h
      obtain ⟨rfl, rfl⟩ := h
      refine ⟨e2, ?_⟩
      by_cases hg : ∃ t, e.toks = [.guid t]
      · obtain ⟨t, ht⟩ := hg
        exact .inr ⟨t, ht, by rw [e2, ht]; rfl⟩
      · exact .inl ⟨w, fun t ht => hg ⟨t, ht⟩⟩
    · cases h

theorem statementOr_sound {n : Nat} {ts us : List Tok} {s : S} (h : statementOr n ts = some (s, us)) (hu : EndsOr us) :
    ts = s.toks ++ us ∧ s.WF := by
  unfold statementOr at h
  split at h
  · rename_i t g vs
    split at h
    · simp only [Option.some.injEq, Prod.mk.injEq] at h
      obtain ⟨rfl, rfl⟩ := h
      exact ⟨rfl, trivial⟩
    · rename_i hg
      rcases hu with hu | ⟨g', G, rfl, hs⟩
      · exact statement_sound h hu
      · obtain ⟨e, w | ⟨t', ht, e'⟩⟩ := statement_or_sound h
        · exact ⟨e, w⟩
        · simp only [List.cons.injEq] at e'
          obtain ⟨_, rfl, _⟩ := e'
          exact absurd hs hg
  · rename_i hne
    rcases hu with hu | ⟨g', G, rfl, hs⟩
    · exact statement_sound h hu
    · obtain ⟨e, w | ⟨t', ht, e'⟩⟩ := statement_or_sound h
      · exact ⟨e, w⟩
      · exact absurd e' (hne t' g' G)

theorem orderingTerm_or {t : Term} {r : List Tok} (hr : EndsOr r ∨ ∃ ts, r = .comma :: ts) : orderingTerm (t.toks ++ r) = some (t, r) := by
  rcases hr with (h | ⟨g, G, rfl, h⟩) | h
  · exact orderingTerm_run t (.inl h)
  · obtain ⟨ex, c, d⟩ := t
    cases g <;> first | (rcases ex with _ | _ | _ <;> rcases d with _ | _ | _ <;> rfl) | cases h
  · exact orderingTerm_run t (.inr h)

theorem orderingTerms_or : ∀ {l : List Term} (_ : l ≠ []) {r : List Tok} (_ : EndsOr r) {n : Nat} (_ : l.length ≤ n),
    orderingTerms n (termsToks l ++ r) = some (l, r)
  | [], h, _, _, _, _ => absurd rfl h
  | [t], _, r, hr, n, hn => by
    obtain ⟨n, rfl⟩ : ∃ k, n = k + 1 := ⟨n - 1, by simp at hn; omega⟩
    unfold orderingTerms termsToks
    rw [orderingTerm_or (.inl hr)]
    rcases hr with (rfl | ⟨ts, rfl⟩) | ⟨g, G, rfl, h⟩
    · rfl
    · rfl
    · cases g <;> first | rfl | cases h
  | t :: u :: ts, _, r, hr, n, hn => by
    obtain ⟨n, rfl⟩ : ∃ k, n = k + 1 := ⟨n - 1, by simp at hn; omega⟩
    unfold orderingTerms termsToks
    rw [List.append_assoc, List.cons_append, orderingTerm_or (.inr ⟨_, rfl⟩)]
    simp only
    rw [orderingTerms_or (by simp) hr (by simp at hn ⊢; omega)]

theorem filterStatement_or {top : Option Top} {table : Str} {e : E} {terms : List Term} (hw : e.WF 0) {r : List Tok} (hr : EndsOr r) {n : Nat}
    (hn : 6 * ((S.filter top table e terms).toks ++ r).length + 3 ≤ n) :
    statement n ((S.filter top table e terms).toks ++ r) = some (.filter top table e terms, r) := by
  obtain ⟨p1, p2, p3⟩ := hr.prec
  simp only [S.toks, List.cons_append, List.append_assoc] at hn ⊢
  simp only [statement, filterStatement, optTop_run]
  by_cases ht : terms = []
  · subst ht
    simp only [if_pos, List.nil_append] at hn ⊢
    rw [expression_run hw p1 p2 p3 (by simp only [List.length_cons, List.length_append] at hn ⊢; omega)]
    rcases hr with (rfl | ⟨ts, rfl⟩) | ⟨g, G, rfl, h⟩
    · rfl
    · rfl
    · cases g <;> first | rfl | cases h
  · simp only [if_neg ht, List.cons_append] at hn ⊢
    rw [expression_run hw rfl rfl rfl (by simp only [List.length_cons, List.length_append] at hn ⊢; omega)]
    simp only [expect_cons]
    have := termsToks_length terms
    rw [orderingTerms_or ht hr (by simp only [List.length_cons, List.length_append] at hn; omega)]

/-- The second token of an expression that begins with a GUID continues it. -/
theorem E.second {e : E} (hw : e.WF 0) {t : Str} {u : Tok} {us : List Tok} (h : e.toks = .guid t :: u :: us) : stray u = false ∧ u ≠ .semi := by
  have hx := expression_run hw (r := []) rfl rfl rfl (n := 6 * (e.toks ++ []).length + 3 + 6) (by omega)
  rw [List.append_nil, h] at hx
  by_contra hc
  have hx' : ∀ k, expression (k + 6) 0 (.guid t :: u :: us) = some (.pred (.value (.lit (.guid t))), u :: us) := by
    intro k
    by_cases hs : u = .semi
    · subst hs; rfl
    · have : stray u = true := by
        by_contra h'; exact hc ⟨by simpa using h', hs⟩
      cases u <;> first | rfl | cases this
  rw [show 6 * (Tok.guid t :: u :: us).length + 3 + 6 = (6 * (Tok.guid t :: u :: us).length + 3) + 6 from rfl, hx'] at hx
  simp at hx

theorem statementOr_run {s : S} (hw : s.WF) {r : List Tok} (hr : EndsOr r) {n : Nat} (hn : 6 * (s.toks ++ r).length + 3 ≤ n) :
    statementOr n (s.toks ++ r) = some (s, r) := by
  cases s with
  | guid t =>
    rcases hr with (rfl | ⟨ts, rfl⟩) | ⟨g, G, rfl, h⟩
    · rfl
    · rfl
    · simp [statementOr, S.toks, h]
  | measurementKey t => rfl
  | pointTag t => rfl
  | filter top table e terms =>
    have := filterStatement_or (top := top) (table := table) (terms := terms) (e := e) hw hr hn
    simpa only [S.toks, List.cons_append, statementOr] using this
  | expr e =>
    obtain ⟨w, hg⟩ := hw
    obtain ⟨p1, p2, p3⟩ := hr.prec
    have hx := expression_run w p1 p2 p3 hn
    obtain ⟨t, ts, ht, hs⟩ := E.head e
    have hst : statement n (e.toks ++ r) = some (.expr e, r) := by
      rw [statement, hx]
      · intro t' h
        rw [ht, List.cons_append] at h
        simp only [List.cons.injEq, List.append_eq_nil_iff] at h
        obtain ⟨rfl, rfl, _⟩ := h
        exact hg t' ht
      · intro t' us h
        rw [ht, List.cons_append] at h
        simp only [List.cons.injEq] at h
        obtain ⟨rfl, h⟩ := h
        cases ts with
        | nil => exact hg t' ht
        | cons u us' =>
          simp only [List.cons_append, List.cons.injEq] at h
          exact (E.second w ht).2 h.1
      all_goals (intros; rename_i h; rw [ht, List.cons_append] at h; simp only [List.cons.injEq] at h; obtain ⟨rfl, _⟩ := h; cases hs)
    simp only [S.toks]
    unfold statementOr
    split
    · rename_i t' g us h
      rw [ht, List.cons_append] at h
      simp only [List.cons.injEq] at h
      obtain ⟨rfl, h⟩ := h
      cases ts with
      | nil => exact absurd ht (hg t')
      | cons u us' =>
        simp only [List.cons_append, List.cons.injEq] at h
        obtain ⟨rfl, h⟩ := h
        rw [if_neg (by rw [(E.second w ht).1]; simp)]
        rw [← hst, ht]
    · exact hst

/-! ### What is read -/

theorem Written.more {ss : List S} {ts : List Tok} (h : Written ss ts) (a : Nat) : Written ss (List.replicate a .semi ++ ts) := by
  cases h with
  | one b c s hr =>
    rw [← List.append_assoc, ← List.append_assoc, ← List.append_assoc, List.replicate_append_replicate]
    exact .one (a + b) c s hr
  | cons b s h =>
    rw [← List.append_assoc, ← List.append_assoc, List.replicate_append_replicate]
    exact .cons (a + b) s h

theorem statementsOr_sound {n m : Nat} : ∀ {ts : List Tok} {ss : List S}, statementsOr n m ts = some ss →
    (∀ s ∈ ss, s.WF) ∧ Written ss ts := by
  induction m with
  | zero => intro ts ss h; cases h
  | succ m ih =>
    intro ts ss h
    unfold statementsOr at h
    split at h
    · rename_i s us h1
      split at h
      · obtain ⟨e, w⟩ := statementOr_sound h1 (.inl (.inl rfl))
        simp only [Option.some.injEq] at h
        subst h
        refine ⟨by simpa using w, ?_⟩
        rw [e]
        simpa using Written.one 0 0 s (.inl rfl)
      · rename_i vs
        obtain ⟨e, w⟩ := statementOr_sound h1 (.inl (.inr ⟨vs, rfl⟩))
        obtain ⟨a, ha⟩ := skip_eq vs
        split at h
        · rename_i h2
          simp only [Option.some.injEq] at h
          subst h
          refine ⟨by simpa using w, ?_⟩
          rw [h2, List.append_nil] at ha
          rw [e, ha]
          simpa [List.replicate_succ] using Written.one 0 (a + 1) s (.inl rfl)
        · rename_i w' ws h2
          split at h
          · rename_i hh
            simp only [Option.some.injEq] at h
            subst h
            refine ⟨by simpa using w, ?_⟩
            rw [e, ha, h2]
            simpa [List.replicate_succ] using Written.one 0 (a + 1) s (.inr ⟨w', ws, rfl, .inr hh⟩)
          · split at h
            · rename_i ss' h3
              simp only [Option.some.injEq] at h
              subst h
              obtain ⟨hw, hl⟩ := ih h3
              refine ⟨by simpa using ⟨w, hw⟩, ?_⟩
              have hl' := hl.more (a + 1)
              rw [List.replicate_succ, List.cons_append, ← h2, ← ha] at hl'
              rw [e]
              simpa using Written.cons 0 s hl'
            · cases h
      · rename_i g G _
        unfold leave at h
        split at h
        · rename_i hg
          obtain ⟨e, w⟩ := statementOr_sound h1 (.inr ⟨g, G, rfl, hg⟩)
          simp only [Option.some.injEq] at h
          subst h
          refine ⟨by simpa using w, ?_⟩
          rw [e]
          simpa using Written.one 0 0 s (.inr ⟨g, G, rfl, .inl ⟨hg, rfl⟩⟩)
        · cases h
    · cases h

theorem Rest.endsOr {r : List Tok} (h : Rest 0 r) : EndsOr r := by
  rcases h with rfl | ⟨g, G, rfl, h | h⟩
  · exact .inl (.inl rfl)
  · exact .inr ⟨g, G, rfl, h.1⟩
  · exact .inr ⟨g, G, rfl, halts_stray h⟩

theorem skip_head {t : Tok} (h : t ≠ .semi) (ts : List Tok) : skip (t :: ts) = t :: ts := by
  cases t <;> first | rfl | exact absurd rfl h

theorem S.head_goes (s : S) (r : List Tok) : ∃ t ts, s.toks ++ r = t :: ts ∧ t ≠ .semi ∧ halts t = false := by
  cases s with
  | guid t => exact ⟨_, _, rfl, nofun, rfl⟩
  | measurementKey t => exact ⟨_, _, rfl, nofun, rfl⟩
  | pointTag t => exact ⟨_, _, rfl, nofun, rfl⟩
  | filter => exact ⟨_, _, rfl, nofun, rfl⟩
  | expr e =>
    obtain ⟨t, ts, ht, hs⟩ := E.head e
    refine ⟨t, ts ++ r, (by rw [S.toks, ht]; rfl), (by rintro rfl; cases hs), ?_⟩
    cases t <;> first | rfl | cases hs

theorem Written.skip_ne {ss : List S} {ts : List Tok} (h : Written ss ts) : ∃ t us, skip ts = t :: us ∧ halts t = false := by
  cases h with
  | one a b s hr =>
    rename_i r
    obtain ⟨t, us, ht, _, hh⟩ := s.head_goes (List.replicate b .semi ++ r)
    exact ⟨t, us, by rw [List.append_assoc, List.append_assoc, skip_semis, skip_toks, ht], hh⟩
  | cons a s h =>
    rename_i ts
    obtain ⟨t, us, ht, _, hh⟩ := s.head_goes (.semi :: ts)
    exact ⟨t, us, by rw [List.append_assoc, skip_semis, skip_toks, ht], hh⟩

theorem statementsOr_run {ss : List S} {ts : List Tok} (h : Written ss ts) (hw : ∀ s ∈ ss, s.WF) : ∀ {n m : Nat},
    6 * ts.length + 3 ≤ n → ts.length ≤ m → statementsOr n m (skip ts) = some ss := by
  induction h with
  | one a b s hr =>
    rename_i r
    intro n m hn hm
    obtain ⟨t, us, ht, _⟩ := s.toks_ne
    simp only [List.length_append, List.length_replicate] at hn hm
    have hl : 1 ≤ s.toks.length := by rw [ht]; simp
    obtain ⟨m, rfl⟩ : ∃ k, m = k + 1 := ⟨m - 1, by omega⟩
    rw [List.append_assoc, List.append_assoc, skip_semis, skip_toks, statementsOr]
    cases b with
    | zero =>
      rw [List.replicate_zero, List.nil_append, statementOr_run (hw s (by simp)) hr.endsOr (by rw [List.length_append]; omega)]
      rcases hr with rfl | ⟨g, G, rfl, h | h⟩
      · rfl
      · obtain ⟨h, _⟩ := h
        cases g <;> first | rfl | cases h
      · cases g <;> first | rfl | cases h
    | succ b =>
      rw [List.replicate_succ, List.cons_append, statementOr_run (hw s (by simp)) (.inl (.inr ⟨_, rfl⟩)) (by
        simp only [List.length_append, List.length_cons, List.length_replicate]; omega)]
      simp only [skip_semis]
      rcases hr with rfl | ⟨g, G, rfl, h | h⟩
      · rfl
      · exact absurd h.2 (by omega)
      · cases g <;> first | rfl | cases h
  | cons a s h ih =>
    rename_i ss ts
    intro n m hn hm
    obtain ⟨t, us, ht, _⟩ := s.toks_ne
    simp only [List.length_append, List.length_replicate, List.length_cons] at hn hm
    have hl : 1 ≤ s.toks.length := by rw [ht]; simp
    obtain ⟨m, rfl⟩ : ∃ k, m = k + 1 := ⟨m - 1, by omega⟩
    rw [List.append_assoc, skip_semis, skip_toks, statementsOr]
    rw [statementOr_run (hw s (by simp)) (.inl (.inr ⟨_, rfl⟩)) (by
      simp only [List.length_append, List.length_cons]; omega)]
    have hi := ih (fun x hx => hw x (by simp [hx])) (n := n) (m := m) (by
      simp only [List.length_cons]; omega) (by simp only [List.length_cons]; omega)
    obtain ⟨w, ws, h0, hh⟩ := h.skip_ne
    rw [skip] at hi h0
    rw [h0] at hi
    simp only [h0, hh, hi, Bool.false_eq_true, if_false]

/-- **What stands behind a filter expression is ignored**: a text is read as a list of statements when it is written as these, and behind them
anything at all that begins with a token that cannot go on; and it is read as a list of statements in no other case modelled. -/
theorem C131_read_partial (ts : List Tok) (ss : List S) : parseRecovering ts = some ss ↔ (∀ s ∈ ss, s.WF) ∧ Written ss ts := by
  constructor
  · intro h
    obtain ⟨hw, hl⟩ := statementsOr_sound h
    obtain ⟨a, ha⟩ := skip_eq ts
    refine ⟨hw, ?_⟩
    rw [ha]
    exact hl.more a
  · rintro ⟨hw, hl⟩
    exact statementsOr_run hl hw (by simp only [depth]; omega) (by omega)

theorem Listed.written {ss : List S} {ts : List Tok} (h : Listed ss ts) : Written ss ts := by
  induction h with
  | one a b s => simpa using Written.one a b s (.inl rfl)
  | cons a s _ ih => exact .cons a s ih

/-- A text the grammar has is read as it says. -/
theorem parseRecovering_parse {ts : List Tok} {ss : List S} (h : parseStatements ts = some ss) : parseRecovering ts = some ss := by
  obtain ⟨hw, hl⟩ := (C87_statements _ _).1 h
  exact (C131_read_partial _ _).2 ⟨hw, hl.written⟩

/-- Behind what the grammar has, if no semicolon is its last token, any token that cannot go on, and then anything, may follow. -/
theorem Listed.stray {ss : List S} {ts : List Tok} (h : Listed ss ts) {g : Tok} (hg : stray g = true) (hl : ts.getLast? ≠ some .semi) (G : List Tok) :
    Written ss (ts ++ g :: G) := by
  induction h with
  | one a b s =>
    cases b with
    | zero => exact .one a 0 s (.inr ⟨g, G, rfl, .inl ⟨hg, rfl⟩⟩)
    | succ b =>
      rw [List.replicate_succ', ← List.append_assoc, List.getLast?_append] at hl
      exact absurd rfl hl
  | cons a s h ih =>
    rename_i ss ts
    rw [List.append_assoc, List.cons_append]
    refine .cons a s (ih ?_)
    rw [List.getLast?_append] at hl
    intro hc
    rw [hc] at hl
    exact hl rfl

/-- `a = 1 b = 2; c` is read as `a = 1`. -/
example : parseRecovering [.ident [97#8], .cmp .eq, .integer [49#8], .ident [98#8], .cmp .eq, .integer [50#8], .semi, .ident [99#8]] =
    some [.expr (.pred (.cmp .eq (.value (.column [97#8])) (.value (.lit (.integer [49#8])))))] := by
  rw [C131_read_partial]
  refine ⟨fun s hs => ?_, .one 0 0 (.expr _) (r := [.ident [98#8], .cmp .eq, .integer [50#8], .semi, .ident [99#8]])
    (.inr ⟨_, _, rfl, .inl ⟨rfl, rfl⟩⟩)⟩
  simp only [List.mem_cons, List.not_mem_nil, or_false] at hs
  subst hs
  refine ⟨by simp [E.WF, Q.WF, V.WF, Q.toks, V.toks, Lit.tok, Q.edge], fun t => ?_⟩
  simp [E.toks, Q.toks, V.toks, Lit.tok]

/-- Each kind of these tokens behind a statement, and those no statement begins with behind its semicolon; the ones left out are not read. -/
example :
    let a : List Tok := [.ident [97#8]]
    let alone (r : Option (List S)) : Bool := match r with
      | some [.expr (.pred (.value (.column n)))] => n == [97#8]
      | _ => false
    ([.lparen, .rparen, .tilde, .kNull, .fn .abs, .ident [98#8], .integer [49#8], .numeric [49#8], .string [39#8, 39#8], .datetime [35#8], .guid [48#8],
      .boolean [116#8], .kFilter, .kTop, .kWhere, .kBy, .measurementKey [49#8], .pointTag [34#8], .unexpected [63#8]] : List Tok).all
        (fun g => alone (parseRecovering (a ++ [g])) && alone (parseRecovering (a ++ [g, .math .star]))) = true ∧
    ([.rparen, .kTop, .kWhere, .kBy, .unexpected [63#8]] : List Tok).all (fun g => alone (parseRecovering (a ++ [.semi, g]))) = true ∧
    ([.math .star, .comma, .not true, .kIn, .kLike, .kOrder, .kAsc, .kBinary, .kIs] : List Tok).all (fun g => (parseRecovering (a ++ [g])).isNone) = true := by
  decide +kernel

end Verif.Parse
