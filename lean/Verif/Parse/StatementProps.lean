import Verif.Parse.Statement

/-!
# Which texts are filter expressions, and of which statements
-/

namespace Verif.Parse

open Verif.Expr

/-- A statement the parser can yield: the expressions need no brackets, and a GUID alone is an identifier. -/
def S.WF : S → Prop
  | .filter _ _ e _ => e.WF 0
  | .expr e => e.WF 0 ∧ ∀ t, e.toks ≠ [.guid t]
  | _ => True

/-- The tokens of statements with semicolons between, before and after them. -/
inductive Listed : List S → List Tok → Prop
  | one (a b : Nat) (s : S) : Listed [s] (List.replicate a .semi ++ s.toks ++ List.replicate b .semi)
  | cons (a : Nat) (s : S) {ss : List S} {ts : List Tok} (h : Listed ss (.semi :: ts)) :
      Listed (s :: ss) (List.replicate a .semi ++ s.toks ++ .semi :: ts)

/-- What may follow a statement. -/
def Ends (r : List Tok) : Prop := r = [] ∨ ∃ ts, r = .semi :: ts

/-! ### What is read is what was written -/

theorem topLimit_sound {ts us : List Tok} {t : Top} (h : topLimit ts = some (t, us)) :
    ts = signToks t.sign ++ [.integer t.digits] ++ us := by
  unfold topLimit at h
  split at h <;> simp_all [signToks]
  all_goals (obtain ⟨rfl, rfl⟩ := h; rfl)

theorem optTop_sound {ts us : List Tok} {t : Option Top} (h : optTop ts = some (t, us)) : ts = topToks t ++ us := by
  unfold optTop at h
  split at h
  · split at h
    · rename_i h1
      have := topLimit_sound h1
      simp only [Option.some.injEq, Prod.mk.injEq] at h
      obtain ⟨rfl, rfl⟩ := h
      simp [topToks, this]
    · cases h
  · simp only [Option.some.injEq, Prod.mk.injEq] at h
    obtain ⟨rfl, rfl⟩ := h
    simp [topToks]

theorem orderingTerm_sound {ts us : List Tok} {t : Term} (h : orderingTerm ts = some (t, us)) : ts = t.toks ++ us := by
  have e := optExact_eq ts
  unfold orderingTerm at h
  generalize optExact ts = x at e h
  subst e
  split at h <;> simp only [Option.some.injEq, Prod.mk.injEq, reduceCtorEq] at h
  all_goals
    obtain ⟨rfl, rfl⟩ := h
    simp_all [Term.toks]

theorem orderingTerms_sound {n : Nat} : ∀ {ts us : List Tok} {l : List Term}, orderingTerms n ts = some (l, us) →
    ts = termsToks l ++ us ∧ l ≠ [] := by
  induction n with
  | zero => intro ts us l h; cases h
  | succ n ih =>
    intro ts us l h
    unfold orderingTerms at h
    split at h
    · rename_i h1
      have e := orderingTerm_sound h1
      split at h
      · rename_i h2
        simp only [Option.some.injEq, Prod.mk.injEq] at h
        obtain ⟨rfl, rfl⟩ := h
        obtain ⟨e2, hne⟩ := ih h2
        refine ⟨?_, by simp⟩
        obtain ⟨u, l', rfl⟩ := List.exists_cons_of_ne_nil hne
        simp only [termsToks, List.append_assoc, List.cons_append]
        rw [← e2]; exact e
      · cases h
    · rename_i h1
      have e := orderingTerm_sound h1
      simp only [Option.some.injEq, Prod.mk.injEq] at h
      obtain ⟨rfl, rfl⟩ := h
      exact ⟨e, by simp⟩
    · cases h

theorem filterStatement_sound {n : Nat} {ts us : List Tok} {s : S} (h : filterStatement n ts = some (s, us)) :
    .kFilter :: ts = s.toks ++ us ∧ s.WF := by
  unfold filterStatement at h
  split at h
  · rename_i top table us' h1
    have e1 := optTop_sound h1
    split at h
    · rename_i e vs h2
      obtain ⟨e2, w⟩ := (Sound.all n).e _ _ _ _ h2
      split at h
      · rename_i ws h3
        have e3 := expect_some h3
        split at h
        · rename_i h4
          obtain ⟨e4, hne⟩ := orderingTerms_sound h4
          simp only [Option.some.injEq, Prod.mk.injEq] at h
          obtain ⟨rfl, rfl⟩ := h
          refine ⟨?_, w⟩
          simp only [S.toks, if_neg hne, List.cons_append, List.append_assoc]
          rw [e1, e2, e3, e4]
        · cases h
      · cases h
    · rename_i e vs _ h2
      obtain ⟨e2, w⟩ := (Sound.all n).e _ _ _ _ h2
      simp only [Option.some.injEq, Prod.mk.injEq] at h
      obtain ⟨rfl, rfl⟩ := h
      refine ⟨?_, w⟩
      simp only [S.toks, if_pos, List.append_nil, List.cons_append, List.append_assoc]
      rw [e1, e2]
    · cases h
  · cases h

theorem statement_sound {n : Nat} {ts us : List Tok} {s : S} (h : statement n ts = some (s, us)) (hu : Ends us) :
    ts = s.toks ++ us ∧ s.WF := by
  unfold statement at h
  split at h
  · simp only [Option.some.injEq, Prod.mk.injEq] at h
    obtain ⟨rfl, rfl⟩ := h
    exact ⟨rfl, trivial⟩
  · simp only [Option.some.injEq, Prod.mk.injEq] at h
    obtain ⟨rfl, rfl⟩ := h
    exact ⟨rfl, trivial⟩
  · simp only [Option.some.injEq, Prod.mk.injEq] at h
    obtain ⟨rfl, rfl⟩ := h
    exact ⟨rfl, trivial⟩
  · simp only [Option.some.injEq, Prod.mk.injEq] at h
    obtain ⟨rfl, rfl⟩ := h
    exact ⟨rfl, trivial⟩
  · exact filterStatement_sound h
  · rename_i g1 g2 _ _ _
    split at h
    · rename_i e vs h2
      obtain ⟨e2, w⟩ := (Sound.all n).e _ _ _ _ h2
      simp only [Option.some.injEq, Prod.mk.injEq] at h
      obtain ⟨rfl, rfl⟩ := h
      refine ⟨e2, w, fun t ht => ?_⟩
      rw [ht] at e2
      rcases hu with rfl | ⟨ts', rfl⟩
      · exact g1 t e2
      · exact g2 t ts' e2
    · cases h

theorem skip_eq (ts : List Tok) : ∃ a, ts = List.replicate a .semi ++ skip ts := by
  induction ts with
  | nil => exact ⟨0, rfl⟩
  | cons t ts ih =>
    by_cases h : t = .semi
    · subst h
      obtain ⟨a, ha⟩ := ih
      exact ⟨a + 1, by rw [List.replicate_succ, List.cons_append, skip, ← ha]⟩
    · refine ⟨0, ?_⟩
      cases t <;> first | rfl | exact absurd rfl h

theorem Listed.more {ss : List S} {ts : List Tok} (h : Listed ss ts) (a : Nat) : Listed ss (List.replicate a .semi ++ ts) := by
  cases h with
  | one b c s =>
    rw [← List.append_assoc, ← List.append_assoc, List.replicate_append_replicate]
    exact .one (a + b) c s
  | cons b s h =>
    rw [← List.append_assoc, ← List.append_assoc, List.replicate_append_replicate]
    exact .cons (a + b) s h

theorem statements_sound {n m : Nat} : ∀ {ts : List Tok} {ss : List S}, statements n m ts = some ss →
    (∀ s ∈ ss, s.WF) ∧ Listed ss ts := by
  induction m with
  | zero => intro ts ss h; cases h
  | succ m ih =>
    intro ts ss h
    unfold statements at h
    split at h
    · rename_i s us h1
      split at h
      · obtain ⟨e, w⟩ := statement_sound h1 (.inl rfl)
        simp only [Option.some.injEq] at h
        subst h
        refine ⟨by simpa using w, ?_⟩
        rw [e]
        simpa using Listed.one 0 0 s
      · rename_i vs
        obtain ⟨e, w⟩ := statement_sound h1 (.inr ⟨vs, rfl⟩)
        obtain ⟨a, ha⟩ := skip_eq vs
        split at h
        · rename_i h2
          simp only [Option.some.injEq] at h
          subst h
          refine ⟨by simpa using w, ?_⟩
          rw [h2, List.append_nil] at ha
          rw [e, ha]
          simpa [List.replicate_succ] using Listed.one 0 (a + 1) s
        · rename_i w' ws h2
          split at h
          · rename_i ss' h3
            simp only [Option.some.injEq] at h
            subst h
            obtain ⟨hw, hl⟩ := ih h3
            refine ⟨by simpa using ⟨w, hw⟩, ?_⟩
            have hl' := hl.more (a + 1)
            rw [List.replicate_succ, List.cons_append, ← h2, ← ha] at hl'
            rw [e]
            simpa using Listed.cons 0 s hl'
          · cases h
      · cases h
    · cases h

/-! ### What was written is read -/

theorem expression_run {e : E} (hw : e.WF 0) {r : List Tok} (h1 : eprec r = 0) (h2 : qprec r = 0) (h3 : vprec r = 0) {n : Nat}
    (hn : 6 * (e.toks ++ r).length + 3 ≤ n) : expression n 0 (e.toks ++ r) = some (e, r) := by
  obtain ⟨N, hN⟩ := E.run e 0 r (e, r) hw h2 h3 (LoopE.stop (Or.inl h1))
  have h := hN (max N n) (by omega)
  rw [expression_stable (by omega)] at h
  rw [expression_stable hn, h]

theorem optTop_run (top : Option Top) (table : Str) (ts : List Tok) :
    optTop (topToks top ++ .ident table :: ts) = some (top, .ident table :: ts) := by
  rcases top with _ | ⟨_ | _ | _, d⟩ <;> rfl

theorem orderingTerm_run (t : Term) {r : List Tok} (hr : Ends r ∨ ∃ ts, r = .comma :: ts) : orderingTerm (t.toks ++ r) = some (t, r) := by
  obtain ⟨ex, c, d⟩ := t
  rcases ex with _ | _ | _ <;> rcases d with _ | _ | _ <;> rcases hr with (rfl | ⟨ts, rfl⟩) | ⟨ts, rfl⟩ <;> rfl

theorem orderingTerms_run : ∀ {l : List Term} (_ : l ≠ []) {r : List Tok} (_ : Ends r) {n : Nat} (_ : l.length ≤ n),
    orderingTerms n (termsToks l ++ r) = some (l, r)
  | [], h, _, _, _, _ => absurd rfl h
  | [t], _, r, hr, n, hn => by
    obtain ⟨n, rfl⟩ : ∃ k, n = k + 1 := ⟨n - 1, by simp at hn; omega⟩
    unfold orderingTerms termsToks
    rw [orderingTerm_run t (.inl hr)]
    rcases hr with rfl | ⟨ts, rfl⟩ <;> rfl
  | t :: u :: ts, _, r, hr, n, hn => by
    obtain ⟨n, rfl⟩ : ∃ k, n = k + 1 := ⟨n - 1, by simp at hn; omega⟩
    unfold orderingTerms termsToks
    rw [List.append_assoc, List.cons_append, orderingTerm_run t (.inr ⟨_, rfl⟩)]
    simp only
    rw [orderingTerms_run (by simp) hr (by simp at hn ⊢; omega)]

theorem Term.toks_pos (t : Term) : 0 < t.toks.length := by simp [Term.toks]

theorem termsToks_length : ∀ l : List Term, l.length ≤ (termsToks l).length
  | [] => by simp
  | [t] => t.toks_pos
  | t :: u :: ts => by
    have := termsToks_length (u :: ts)
    have := t.toks_pos
    simp only [termsToks, List.length_append, List.length_cons] at *
    omega

theorem Ends.prec {r : List Tok} (h : Ends r) : eprec r = 0 ∧ qprec r = 0 ∧ vprec r = 0 := by
  rcases h with rfl | ⟨ts, rfl⟩ <;> exact ⟨rfl, rfl, rfl⟩

theorem statement_run {s : S} (hw : s.WF) {r : List Tok} (hr : Ends r) {n : Nat} (hn : 6 * (s.toks ++ r).length + 3 ≤ n) :
    statement n (s.toks ++ r) = some (s, r) := by
  obtain ⟨p1, p2, p3⟩ := hr.prec
  cases s with
  | guid t => rcases hr with rfl | ⟨ts, rfl⟩ <;> rfl
  | measurementKey t => rfl
  | pointTag t => rfl
  | filter top table e terms =>
    have hn' := hn
    simp only [S.toks, List.cons_append, List.append_assoc] at hn ⊢
    simp only [statement, filterStatement, optTop_run]
    by_cases ht : terms = []
    · subst ht
      simp only [if_pos, List.nil_append] at hn ⊢
      rw [expression_run hw p1 p2 p3 (by simp only [List.length_cons, List.length_append] at hn ⊢; omega)]
      rcases hr with rfl | ⟨ts, rfl⟩ <;> rfl
    · simp only [if_neg ht, List.cons_append] at hn ⊢
      rw [expression_run hw rfl rfl rfl (by simp only [List.length_cons, List.length_append] at hn ⊢; omega)]
      simp only [expect_cons]
      have := termsToks_length terms
      rw [orderingTerms_run ht hr (by simp only [List.length_cons, List.length_append] at hn; omega)]
  | expr e =>
    obtain ⟨w, hg⟩ := hw
    have hx := expression_run w p1 p2 p3 hn
    obtain ⟨t, ts, ht, hs⟩ := E.head e
    simp only [S.toks] at hx ⊢
    rw [statement, hx]
    · intro t' h
      rcases hr with rfl | ⟨us, rfl⟩
      · exact hg t' (by simpa using h)
      · have hl := congrArg List.length h
        have := List.length_pos_iff.2 e.toks_ne
        simp only [List.length_append, List.length_cons, List.length_nil] at hl
        omega
    · intro t' us h
      rw [ht, List.cons_append] at h
      simp only [List.cons.injEq] at h
      obtain ⟨rfl, h⟩ := h
      cases ts with
      | nil => exact hg t' ht
      | cons u us =>
        simp only [List.cons_append, List.cons.injEq] at h
        obtain ⟨rfl, h⟩ := h
        obtain ⟨n, rfl⟩ : ∃ k, n = k + 6 := ⟨n - 6, by simp only [S.toks, ht, List.length_append, List.length_cons] at hn; omega⟩
        rw [ht] at hx
        have hx' : expression (n + 6) 0 (.guid t' :: .semi :: us ++ r) = some (.pred (.value (.lit (.guid t'))), .semi :: us ++ r) := rfl
        rw [hx'] at hx
        simp only [Option.some.injEq, Prod.mk.injEq] at hx
        obtain ⟨rfl, _⟩ := hx
        cases ht
    all_goals (intros; rename_i h; rw [ht, List.cons_append] at h; simp only [List.cons.injEq] at h; obtain ⟨rfl, _⟩ := h; cases hs)

theorem S.toks_ne (s : S) : ∃ t ts, s.toks = t :: ts ∧ t ≠ .semi := by
  cases s with
  | guid t => exact ⟨_, _, rfl, nofun⟩
  | measurementKey t => exact ⟨_, _, rfl, nofun⟩
  | pointTag t => exact ⟨_, _, rfl, nofun⟩
  | filter => exact ⟨_, _, rfl, nofun⟩
  | expr e =>
    obtain ⟨t, ts, ht, hs⟩ := E.head e
    exact ⟨t, ts, ht, by rintro rfl; cases hs⟩

theorem skip_semis (a : Nat) (ts : List Tok) : skip (List.replicate a .semi ++ ts) = skip ts := by
  induction a with
  | zero => rfl
  | succ a ih => rw [List.replicate_succ, List.cons_append, skip, ih]

theorem skip_toks (s : S) (r : List Tok) : skip (s.toks ++ r) = s.toks ++ r := by
  obtain ⟨t, ts, ht, hn⟩ := s.toks_ne
  rw [ht, List.cons_append]
  cases t <;> first | rfl | exact absurd rfl hn

theorem Listed.skip_ne {ss : List S} {ts : List Tok} (h : Listed ss ts) : skip ts ≠ [] := by
  cases h with
  | one a b s =>
    obtain ⟨t, us, ht, _⟩ := s.toks_ne
    rw [List.append_assoc, skip_semis, skip_toks, ht]; simp
  | cons a s h =>
    rw [List.append_assoc, skip_semis, skip_toks]; simp

theorem statements_run {ss : List S} {ts : List Tok} (h : Listed ss ts) (hw : ∀ s ∈ ss, s.WF) : ∀ {n m : Nat},
    6 * ts.length + 3 ≤ n → ts.length ≤ m → statements n m (skip ts) = some ss := by
  induction h with
  | one a b s =>
    intro n m hn hm
    obtain ⟨t, us, ht, _⟩ := s.toks_ne
    simp only [List.length_append, List.length_replicate] at hn hm
    have hl : 1 ≤ s.toks.length := by rw [ht]; simp
    obtain ⟨m, rfl⟩ : ∃ k, m = k + 1 := ⟨m - 1, by omega⟩
    rw [List.append_assoc, skip_semis, skip_toks, statements]
    cases b with
    | zero =>
      rw [List.replicate_zero, statement_run (hw s (by simp)) (.inl rfl) (by rw [List.append_nil]; omega)]
    | succ b =>
      rw [List.replicate_succ, statement_run (hw s (by simp)) (.inr ⟨_, rfl⟩) (by
        simp only [List.length_append, List.length_cons, List.length_replicate]; omega)]
      have := skip_semis b []
      rw [List.append_nil] at this
      simp only [this, skip]
  | cons a s h ih =>
    rename_i ss ts
    intro n m hn hm
    obtain ⟨t, us, ht, _⟩ := s.toks_ne
    simp only [List.length_append, List.length_replicate, List.length_cons] at hn hm
    have hl : 1 ≤ s.toks.length := by rw [ht]; simp
    obtain ⟨m, rfl⟩ : ∃ k, m = k + 1 := ⟨m - 1, by omega⟩
    rw [List.append_assoc, skip_semis, skip_toks, statements]
    rw [statement_run (hw s (by simp)) (.inr ⟨_, rfl⟩) (by
      simp only [List.length_append, List.length_cons]; omega)]
    have hi := ih (fun x hx => hw x (by simp [hx])) (n := n) (m := m) (by
      simp only [List.length_cons]; omega) (by simp only [List.length_cons]; omega)
    rw [skip] at hi
    simp only
    split
    · rename_i h0
      exact absurd h0 h.skip_ne
    · rename_i h0
      rw [h0] at hi
      rw [hi]

/-- **Semicolons separate statements**: a text is read as a list of statements exactly when it is written as these, each as its rule says, with any
number of semicolons before, after and, not less than one, between them. -/
theorem C87_statements (ts : List Tok) (ss : List S) : parseStatements ts = some ss ↔ (∀ s ∈ ss, s.WF) ∧ Listed ss ts := by
  constructor
  · intro h
    obtain ⟨hw, hl⟩ := statements_sound h
    obtain ⟨a, ha⟩ := skip_eq ts
    refine ⟨hw, ?_⟩
    rw [ha]
    exact hl.more a
  · rintro ⟨hw, hl⟩
    exact statements_run hl hw (by simp only [depth]; omega) (by omega)

/-- `FILTER TOP 5 T WHERE a ORDER BY b DESC;; 'k'` -/
example : parseStatements [.kFilter, .kTop, .integer [53#8], .ident [84#8], .kWhere, .ident [97#8], .kOrder, .kBy, .ident [98#8], .kDesc, .semi,
      .semi, .string [39#8, 107#8, 39#8]] =
    some [.filter (some ⟨none, [53#8]⟩) [84#8] (.pred (.value (.column [97#8]))) [⟨none, [98#8], some true⟩],
      .expr (.pred (.value (.lit (.string [39#8, 107#8, 39#8]))))] := by
  rw [C87_statements]
  refine ⟨fun s hs => ?_, .cons 0 (.filter _ _ _ _) (.one 2 0 (.expr _))⟩
  simp only [List.mem_cons, List.not_mem_nil, or_false] at hs
  rcases hs with rfl | rfl
  · simp [S.WF, E.WF, Q.WF, V.WF, Q.toks, V.toks]
  · refine ⟨by simp [E.WF, Q.WF, V.WF, Q.toks, V.toks, Lit.tok], fun t => ?_⟩
    simp [E.toks, Q.toks, V.toks, Lit.tok]

end Verif.Parse
