import Verif.Parse.Parser

/-!
# What the generated parser yields

`WF` says, by the precedences of the rules alone, which syntax trees the text of an expression can stand for without brackets. The parser
yields exactly these, and each from its own tokens.
-/

namespace Verif.Parse

open Verif.Expr

/-- The precedence of the operator that could continue a value: `mathOperator` 2, `bitwiseOperator` 1. -/
def vprec : List Tok → Nat
  | .math _ :: _ => 2
  | .bit _ :: _ => 1
  | _ => 0

/-- The precedence of the operator that could continue a predicate: `IN` 5, `IS NULL` 4, comparisons 3, `LIKE` 2. -/
def qprec (ts : List Tok) : Nat :=
  match next ts with
  | .cmp _ => 3
  | .like => 2
  | .isIn => 5
  | .isNull => 4
  | .stop => 0

/-- The precedence of the operator that could continue an expression: `logicalOperator` 2. -/
def eprec : List Tok → Nat
  | .log _ :: _ => 2
  | _ => 0

/-- An operator of precedence `k` after this predicate is not taken by its right operand. -/
def Q.edge (k : Nat) : Q → Prop
  | .cmp .. => k ≤ 3
  | .like .. => k ≤ 2
  | _ => True

/-- An operator of precedence `k` after this value is not taken by its right operand. -/
def V.edge (k : Nat) : V → Prop
  | .math .. => k ≤ 2
  | .bit .. => k ≤ 1
  | _ => True

mutual

/-- A tree that needs no brackets where an expression of precedence `p` is read: the operators on its left edge bind at least as tightly
as `p`, right operands bind more tightly than their operator, left operands at least as tightly, and what begins with `NOT` is a
negation. -/
def E.WF (p : Nat) : E → Prop
  | .not _ e => e.WF 3
  | .log _ l r => p ≤ 2 ∧ l.WF p ∧ r.WF 3
  | .pred q => q.WF 0 ∧ ∀ b, q.toks.head? ≠ some (.not b)

/-- The same for a predicate. -/
def Q.WF (p : Nat) : Q → Prop
  | .isIn q _ _ list => p ≤ 5 ∧ q.WF p ∧ q.edge 5 ∧ list.WF
  | .isNull q _ => p ≤ 4 ∧ q.WF p ∧ q.edge 4
  | .cmp _ l r => p ≤ 3 ∧ l.WF p ∧ l.edge 3 ∧ r.WF 4
  | .like _ _ l r => p ≤ 2 ∧ l.WF p ∧ l.edge 2 ∧ r.WF 3
  | .value v => v.WF 0

/-- The same for a value. -/
def V.WF (p : Nat) : V → Prop
  | .lit _ => True
  | .column _ => True
  | .call0 _ => True
  | .call _ args => args.WF
  | .unary _ v => v.WF 4
  | .paren e => e.WF 0
  | .math _ l r => p ≤ 2 ∧ l.WF p ∧ l.edge 2 ∧ r.WF 3
  | .bit _ l r => p ≤ 1 ∧ l.WF p ∧ l.edge 1 ∧ r.WF 2

/-- The same for each of a list. -/
def L.WF : L → Prop
  | .one e => e.WF 0
  | .cons e l => e.WF 0 ∧ l.WF

end

theorem expect_some {t : Tok} {ts us : List Tok} (h : expect t ts = some us) : ts = t :: us := by
  cases ts with
  | nil => simp [expect] at h
  | cons u ts =>
    simp only [expect] at h
    split at h
    · next e => simp_all
    · simp at h

@[simp] theorem expect_cons (t : Tok) (ts : List Tok) : expect t (t :: ts) = some ts := by simp [expect]

theorem optNot_eq (ts : List Tok) : negToks (optNot ts).1 ++ (optNot ts).2 = ts := by
  unfold optNot
  split <;> simp [negToks]

theorem optExact_eq (ts : List Tok) : exactToks (optExact ts).1 ++ (optExact ts).2 = ts := by
  unfold optExact
  split <;> simp [exactToks, Exact.tok]

/-- An expression that does not begin with `NOT` is a predicate. -/
theorem expression_pred (n p : Nat) (ts : List Tok) (h : ∀ b, ts.head? ≠ some (.not b)) :
    expression (n + 1) p ts = match predicateExpression n 0 ts with
      | some (q, ts) => expressionLoop n p (.pred q) ts
      | none => none := by
  cases ts with
  | nil => rfl
  | cons t ts =>
    cases t
    case not b => exact absurd rfl (h b)
    all_goals rfl

theorem next_cmp {ts : List Tok} {o : Cmp} (h : next ts = .cmp o) : ts = .cmp o :: ts.tail := by
  unfold next at h
  split at h <;> simp_all

theorem next_isNull {ts : List Tok} (h : next ts = .isNull) : ts = .kIs :: ts.tail := by
  unfold next at h
  split at h <;> simp_all

theorem next_like {ts : List Tok} (h : next ts = .like) : ∃ us, (optNot ts).2 = .kLike :: us := by
  unfold next at h
  split at h <;> simp_all [optNot]

theorem next_isIn {ts : List Tok} (h : next ts = .isIn) : ∃ us, (optNot ts).2 = .kIn :: us := by
  unfold next at h
  split at h <;> simp_all [optNot]

/-! ### What is parsed is what was written, and well formed -/

/-- What soundness says of each function. -/
structure Sound (n : Nat) : Prop where
  e : ∀ p ts e r, expression n p ts = some (e, r) → ts = e.toks ++ r ∧ e.WF p
  el : ∀ p e₀ ts e r, expressionLoop n p e₀ ts = some (e, r) → e₀.WF p → e₀.toks ++ ts = e.toks ++ r ∧ e.WF p
  q : ∀ p ts q r, predicateExpression n p ts = some (q, r) → ts = q.toks ++ r ∧ q.WF p ∧ (qprec r = 0 ∨ qprec r < p)
  ql : ∀ p q₀ ts q r, predicateLoop n p q₀ ts = some (q, r) → q₀.WF p → q₀.edge (qprec ts) →
    q₀.toks ++ ts = q.toks ++ r ∧ q.WF p ∧ (qprec r = 0 ∨ qprec r < p)
  v : ∀ p ts v r, valueExpression n p ts = some (v, r) → ts = v.toks ++ r ∧ v.WF p ∧ (vprec r = 0 ∨ vprec r < p)
  vl : ∀ p v₀ ts v r, valueLoop n p v₀ ts = some (v, r) → v₀.WF p → v₀.edge (vprec ts) →
    v₀.toks ++ ts = v.toks ++ r ∧ v.WF p ∧ (vprec r = 0 ∨ vprec r < p)
  l : ∀ ts l r, expressionList n ts = some (l, r) → ts = l.toks ++ r ∧ l.WF

mutual

theorem E.toks_ne : ∀ e : E, e.toks ≠ []
  | .not _ _ => by simp [E.toks]
  | .log _ l _ => by simp [E.toks]
  | .pred q => by simpa [E.toks] using Q.toks_ne q

theorem Q.toks_ne : ∀ q : Q, q.toks ≠ []
  | .isIn q _ _ _ => by simp [Q.toks]
  | .isNull q _ => by simp [Q.toks]
  | .cmp _ l _ => by simp [Q.toks]
  | .like _ _ l _ => by simp [Q.toks]
  | .value v => by simpa [Q.toks] using V.toks_ne v

theorem V.toks_ne : ∀ v : V, v.toks ≠ []
  | .lit _ => by simp [V.toks]
  | .column _ => by simp [V.toks]
  | .call0 _ => by simp [V.toks]
  | .call _ _ => by simp [V.toks]
  | .unary _ _ => by simp [V.toks]
  | .paren _ => by simp [V.toks]
  | .math _ _ _ => by simp [V.toks]
  | .bit _ _ _ => by simp [V.toks]

end

theorem head_append {ts us r : List Tok} (h : ts = us ++ r) (hu : us ≠ []) : us.head? = ts.head? := by
  cases us with
  | nil => exact absurd rfl hu
  | cons u us => simp [h]

theorem Sound.zero : Sound 0 := by
  constructor <;> intros <;> rename_i h <;>
    simp_all [expression, expressionLoop, predicateExpression, predicateLoop, valueExpression, valueLoop, expressionList]

theorem Sound.vl_succ {n : Nat} (ih : Sound n) (p : Nat) (v₀ : V) (ts : List Tok) (v : V) (r : List Tok)
    (h : valueLoop (n + 1) p v₀ ts = some (v, r)) (hw : v₀.WF p) (he : v₀.edge (vprec ts)) :
    v₀.toks ++ ts = v.toks ++ r ∧ v.WF p ∧ (vprec r = 0 ∨ vprec r < p) := by
  simp only [valueLoop] at h
  split at h
  · rename_i o ts
    split at h
    · rename_i hp
      split at h
      · rename_i r' ts' hx
        obtain ⟨e1, w1, s1⟩ := ih.v _ _ _ _ hx
        obtain ⟨e2, w2, s2⟩ := ih.vl _ _ _ _ _ h ⟨hp, hw, he, w1⟩ (by simp only [V.edge]; omega)
        exact ⟨by rw [← e2, e1]; simp [V.toks], w2, s2⟩
      · simp at h
    · rename_i hp
      simp only [Option.some.injEq, Prod.mk.injEq] at h
      obtain ⟨rfl, rfl⟩ := h
      exact ⟨rfl, hw, Or.inr (by simp only [vprec]; omega)⟩
  · rename_i o ts
    split at h
    · rename_i hp
      split at h
      · rename_i r' ts' hx
        obtain ⟨e1, w1, s1⟩ := ih.v _ _ _ _ hx
        obtain ⟨e2, w2, s2⟩ := ih.vl _ _ _ _ _ h ⟨hp, hw, he, w1⟩ (by simp only [V.edge]; omega)
        exact ⟨by rw [← e2, e1]; simp [V.toks], w2, s2⟩
      · simp at h
    · rename_i hp
      simp only [Option.some.injEq, Prod.mk.injEq] at h
      obtain ⟨rfl, rfl⟩ := h
      exact ⟨rfl, hw, Or.inr (by simp only [vprec]; omega)⟩
  · rename_i h1 h2
    simp only [Option.some.injEq, Prod.mk.injEq] at h
    obtain ⟨rfl, rfl⟩ := h
    refine ⟨rfl, hw, Or.inl ?_⟩
    unfold vprec
    split
    · exact absurd rfl (h1 _ _)
    · exact absurd rfl (h2 _ _)
    · rfl

theorem Sound.v_succ {n : Nat} (ih : Sound n) (p : Nat) (ts : List Tok) (v : V) (r : List Tok)
    (h : valueExpression (n + 1) p ts = some (v, r)) : ts = v.toks ++ r ∧ v.WF p ∧ (vprec r = 0 ∨ vprec r < p) := by
  have leaf : ∀ v₀ us, valueLoop n p v₀ us = some (v, r) → v₀.WF p → (∀ k, v₀.edge k) → ts = v₀.toks ++ us →
      ts = v.toks ++ r ∧ v.WF p ∧ (vprec r = 0 ∨ vprec r < p) := by
    intro v₀ us hv hw he ht
    obtain ⟨e2, w2, s2⟩ := ih.vl _ _ _ _ _ hv hw (he _)
    exact ⟨by rw [ht, e2], w2, s2⟩
  simp only [valueExpression] at h
  split at h
  iterate 8 exact leaf _ _ h (by simp [V.WF]) (fun _ => trivial) (by simp [V.toks, Lit.tok])
  · exact leaf _ _ h (by simp [V.WF]) (fun _ => trivial) (by simp [V.toks])
  · split at h
    · rename_i hx
      split at h
      · rename_i hy
        obtain ⟨e1, w1⟩ := ih.l _ _ _ hx
        exact leaf _ _ h (by simpa [V.WF] using w1) (fun _ => trivial) (by simp [V.toks, e1, expect_some hy])
      · simp at h
    · simp at h
  iterate 4
    · split at h
      · rename_i hx
        obtain ⟨e1, w1, _⟩ := ih.v _ _ _ _ hx
        exact leaf _ _ h (by simpa [V.WF] using w1) (fun _ => trivial) (by simp [V.toks, Un.tok, e1])
      · simp at h
  · split at h
    · rename_i hx
      split at h
      · rename_i hy
        obtain ⟨e1, w1⟩ := ih.e _ _ _ _ hx
        exact leaf _ _ h (by simpa [V.WF] using w1) (fun _ => trivial) (by simp [V.toks, e1, expect_some hy])
      · simp at h
    · simp at h
  · simp at h

theorem Sound.ql_succ {n : Nat} (ih : Sound n) (p : Nat) (q₀ : Q) (ts : List Tok) (q : Q) (r : List Tok)
    (h : predicateLoop (n + 1) p q₀ ts = some (q, r)) (hw : q₀.WF p) (he : q₀.edge (qprec ts)) :
    q₀.toks ++ ts = q.toks ++ r ∧ q.WF p ∧ (qprec r = 0 ∨ qprec r < p) := by
  have stop : ∀ k, qprec ts = k → ¬ k ≥ p → some (q₀, ts) = some (q, r) →
      q₀.toks ++ ts = q.toks ++ r ∧ q.WF p ∧ (qprec r = 0 ∨ qprec r < p) := by
    intro k hk hp hs
    simp only [Option.some.injEq, Prod.mk.injEq] at hs
    obtain ⟨rfl, rfl⟩ := hs
    exact ⟨rfl, hw, Or.inr (by omega)⟩
  simp only [predicateLoop] at h
  split at h
  · rename_i o hn
    have hk : qprec ts = 3 := by simp [qprec, hn]
    rw [hk] at he
    split at h
    · rename_i hp
      split at h
      · rename_i r' us hx
        obtain ⟨e1, w1, s1⟩ := ih.q _ _ _ _ hx
        obtain ⟨e2, w2, s2⟩ := ih.ql _ _ _ _ _ h ⟨hp, hw, he, w1⟩ (by simp only [Q.edge]; omega)
        exact ⟨by rw [← e2, next_cmp hn, e1]; simp [Q.toks], w2, s2⟩
      · simp at h
    · rename_i hp
      exact stop _ hk hp h
  · rename_i hn
    have hk : qprec ts = 2 := by simp [qprec, hn]
    rw [hk] at he
    split at h
    · rename_i hp
      split at h
      · rename_i us hy
        split at h
        · rename_i r' vs hx
          obtain ⟨e1, w1, s1⟩ := ih.q _ _ _ _ hx
          obtain ⟨e2, w2, s2⟩ := ih.ql _ _ _ _ _ h ⟨hp, hw, he, w1⟩ (by simp only [Q.edge]; omega)
          refine ⟨?_, w2, s2⟩
          rw [← e2]
          conv => lhs; rw [← optNot_eq ts, expect_some hy, ← optExact_eq us, e1]
          simp [Q.toks]
        · simp at h
      · simp at h
    · rename_i hp
      exact stop _ hk hp h
  · rename_i hn
    have hk : qprec ts = 5 := by simp [qprec, hn]
    rw [hk] at he
    split at h
    · rename_i hp
      split at h
      · rename_i us hy
        split at h
        · rename_i vs hz
          split at h
          · rename_i list ws hx
            split at h
            · rename_i xs hu
              obtain ⟨e1, w1⟩ := ih.l _ _ _ hx
              obtain ⟨e2, w2, s2⟩ := ih.ql _ _ _ _ _ h ⟨hp, hw, he, w1⟩ trivial
              refine ⟨?_, w2, s2⟩
              rw [← e2]
              conv => lhs; rw [← optNot_eq ts, expect_some hy, ← optExact_eq us, expect_some hz, e1, expect_some hu]
              simp [Q.toks]
            · simp at h
          · simp at h
        · simp at h
      · simp at h
    · rename_i hp
      exact stop _ hk hp h
  · rename_i hn
    have hk : qprec ts = 4 := by simp [qprec, hn]
    rw [hk] at he
    split at h
    · rename_i hp
      split at h
      · rename_i us hy
        obtain ⟨e2, w2, s2⟩ := ih.ql _ _ _ _ _ h ⟨hp, hw, he⟩ trivial
        refine ⟨?_, w2, s2⟩
        rw [← e2]
        conv => lhs; rw [next_isNull hn, ← optNot_eq ts.tail, expect_some hy]
        simp [Q.toks]
      · simp at h
    · rename_i hp
      exact stop _ hk hp h
  · rename_i hn
    simp only [Option.some.injEq, Prod.mk.injEq] at h
    obtain ⟨rfl, rfl⟩ := h
    exact ⟨rfl, hw, Or.inl (by simp [qprec, hn])⟩

theorem Sound.q_succ {n : Nat} (ih : Sound n) (p : Nat) (ts : List Tok) (q : Q) (r : List Tok)
    (h : predicateExpression (n + 1) p ts = some (q, r)) : ts = q.toks ++ r ∧ q.WF p ∧ (qprec r = 0 ∨ qprec r < p) := by
  simp only [predicateExpression] at h
  split at h
  · rename_i v us hx
    obtain ⟨e1, w1, _⟩ := ih.v _ _ _ _ hx
    obtain ⟨e2, w2, s2⟩ := ih.ql _ _ _ _ _ h w1 trivial
    exact ⟨by rw [← e2, e1]; simp [Q.toks], w2, s2⟩
  · simp at h

theorem Sound.el_succ {n : Nat} (ih : Sound n) (p : Nat) (e₀ : E) (ts : List Tok) (e : E) (r : List Tok)
    (h : expressionLoop (n + 1) p e₀ ts = some (e, r)) (hw : e₀.WF p) : e₀.toks ++ ts = e.toks ++ r ∧ e.WF p := by
  simp only [expressionLoop] at h
  split at h
  · split at h
    · rename_i hp
      split at h
      · rename_i hx
        obtain ⟨e1, w1⟩ := ih.e _ _ _ _ hx
        obtain ⟨e2, w2⟩ := ih.el _ _ _ _ _ h ⟨hp, hw, w1⟩
        exact ⟨by rw [← e2, e1]; simp [E.toks], w2⟩
      · simp at h
    · simp only [Option.some.injEq, Prod.mk.injEq] at h
      obtain ⟨rfl, rfl⟩ := h
      exact ⟨rfl, hw⟩
  · simp only [Option.some.injEq, Prod.mk.injEq] at h
    obtain ⟨rfl, rfl⟩ := h
    exact ⟨rfl, hw⟩

theorem Sound.e_succ {n : Nat} (ih : Sound n) (p : Nat) (ts : List Tok) (e : E) (r : List Tok)
    (h : expression (n + 1) p ts = some (e, r)) : ts = e.toks ++ r ∧ e.WF p := by
  simp only [expression] at h
  split at h
  · split at h
    · rename_i hx
      obtain ⟨e1, w1⟩ := ih.e _ _ _ _ hx
      obtain ⟨e2, w2⟩ := ih.el _ _ _ _ _ h w1
      exact ⟨by rw [← e2, e1]; simp [E.toks], w2⟩
    · simp at h
  · rename_i hn
    split at h
    · rename_i q us hx
      obtain ⟨e1, w1, _⟩ := ih.q _ _ _ _ hx
      have hd : ∀ b, q.toks.head? ≠ some (.not b) := by
        intro b hb
        rw [head_append e1 q.toks_ne] at hb
        cases ts with
        | nil => simp at hb
        | cons t ts =>
          simp only [List.head?_cons, Option.some.injEq] at hb
          exact hn b ts (by rw [hb])
      obtain ⟨e2, w2⟩ := ih.el _ _ _ _ _ h ⟨w1, hd⟩
      exact ⟨by rw [← e2, e1]; simp [E.toks], w2⟩
    · simp at h

theorem Sound.l_succ {n : Nat} (ih : Sound n) (ts : List Tok) (l : L) (r : List Tok)
    (h : expressionList (n + 1) ts = some (l, r)) : ts = l.toks ++ r ∧ l.WF := by
  simp only [expressionList] at h
  split at h
  · rename_i hx
    obtain ⟨e1, w1⟩ := ih.e _ _ _ _ hx
    split at h
    · rename_i hy
      obtain ⟨e2, w2⟩ := ih.l _ _ _ hy
      simp only [Option.some.injEq, Prod.mk.injEq] at h
      obtain ⟨rfl, rfl⟩ := h
      exact ⟨by rw [e1, e2]; simp [L.toks], w1, w2⟩
    · simp at h
  · rename_i hx
    obtain ⟨e1, w1⟩ := ih.e _ _ _ _ hx
    simp only [Option.some.injEq, Prod.mk.injEq] at h
    obtain ⟨rfl, rfl⟩ := h
    exact ⟨by rw [e1]; simp [L.toks], w1⟩
  · simp at h

theorem Sound.all (n : Nat) : Sound n := by
  induction n with
  | zero => exact Sound.zero
  | succ n ih => exact ⟨ih.e_succ, ih.el_succ, ih.q_succ, ih.ql_succ, ih.v_succ, ih.vl_succ, ih.l_succ⟩

end Verif.Parse
