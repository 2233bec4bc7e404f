import Verif.Parse.ParserProps

/-!
# Every well-formed expression is parsed from its tokens
-/

namespace Verif.Parse

open Verif.Expr

/-! ### Runs with enough depth -/

/-- With enough depth `expression` yields `x`. -/
def RunE (p : Nat) (ts : List Tok) (x : E × List Tok) : Prop := ∃ N, ∀ n, N ≤ n → expression n p ts = some x
/-- With enough depth the loop of `expression` yields `x`. -/
def LoopE (p : Nat) (e : E) (ts : List Tok) (x : E × List Tok) : Prop := ∃ N, ∀ n, N ≤ n → expressionLoop n p e ts = some x
/-- With enough depth `predicateExpression` yields `x`. -/
def RunQ (p : Nat) (ts : List Tok) (x : Q × List Tok) : Prop := ∃ N, ∀ n, N ≤ n → predicateExpression n p ts = some x
/-- With enough depth the loop of `predicateExpression` yields `x`. -/
def LoopQ (p : Nat) (q : Q) (ts : List Tok) (x : Q × List Tok) : Prop := ∃ N, ∀ n, N ≤ n → predicateLoop n p q ts = some x
/-- With enough depth `valueExpression` yields `x`. -/
def RunV (p : Nat) (ts : List Tok) (x : V × List Tok) : Prop := ∃ N, ∀ n, N ≤ n → valueExpression n p ts = some x
/-- With enough depth the loop of `valueExpression` yields `x`. -/
def LoopV (p : Nat) (v : V) (ts : List Tok) (x : V × List Tok) : Prop := ∃ N, ∀ n, N ≤ n → valueLoop n p v ts = some x
/-- With enough depth `expressionList` yields `x`. -/
def RunL (ts : List Tok) (x : L × List Tok) : Prop := ∃ N, ∀ n, N ≤ n → expressionList n ts = some x

/-- A number not below `N + 1` is a successor. -/
theorem succ_of_le {N n : Nat} (h : N + 1 ≤ n) : ∃ m, n = m + 1 ∧ N ≤ m := ⟨n - 1, by omega, by omega⟩

/-- A token an expression can begin with. -/
def starts : Tok → Bool
  | .rparen | .comma | .bit _ | .cmp _ | .log _ | .kIn | .kLike | .kIs | .kBinary | .semi | .kFilter | .kTop | .kWhere | .kOrder | .kBy | .kAsc | .kDesc
  | .measurementKey _ | .pointTag _ | .unexpected _ => false
  | _ => true

mutual

theorem E.head : ∀ e : E, ∃ t ts, e.toks = t :: ts ∧ starts t = true
  | .not b e => ⟨.not b, e.toks, by simp [E.toks], rfl⟩
  | .log o l r => by
    obtain ⟨t, ts, h, hs⟩ := E.head l
    exact ⟨t, ts ++ .log o :: r.toks, by simp [E.toks, h], hs⟩
  | .pred q => by simpa [E.toks] using Q.head q

theorem Q.head : ∀ q : Q, ∃ t ts, q.toks = t :: ts ∧ starts t = true
  | .isIn q neg exact list => by
    obtain ⟨t, ts, h, hs⟩ := Q.head q
    exact ⟨t, _, by simp only [Q.toks, h, List.cons_append]; rfl, hs⟩
  | .isNull q neg => by
    obtain ⟨t, ts, h, hs⟩ := Q.head q
    exact ⟨t, _, by simp only [Q.toks, h, List.cons_append]; rfl, hs⟩
  | .cmp o l r => by
    obtain ⟨t, ts, h, hs⟩ := Q.head l
    exact ⟨t, _, by simp only [Q.toks, h, List.cons_append]; rfl, hs⟩
  | .like neg exact l r => by
    obtain ⟨t, ts, h, hs⟩ := Q.head l
    exact ⟨t, _, by simp only [Q.toks, h, List.cons_append]; rfl, hs⟩
  | .value v => by simpa [Q.toks] using V.head v

theorem V.head : ∀ v : V, ∃ t ts, v.toks = t :: ts ∧ starts t = true
  | .lit l => ⟨l.tok, [], by simp [V.toks], by cases l <;> rfl⟩
  | .column name => ⟨.ident name, [], by simp [V.toks], rfl⟩
  | .call0 f => ⟨.fn f, [.lparen, .rparen], by simp [V.toks], rfl⟩
  | .call f args => ⟨.fn f, .lparen :: (args.toks ++ [.rparen]), by simp [V.toks], rfl⟩
  | .unary u v => ⟨u.tok, v.toks, by simp [V.toks], by cases u <;> rfl⟩
  | .paren e => ⟨.lparen, e.toks ++ [.rparen], by simp [V.toks], rfl⟩
  | .math o l r => by
    obtain ⟨t, ts, h, hs⟩ := V.head l
    exact ⟨t, ts ++ .math o :: r.toks, by simp [V.toks, h], hs⟩
  | .bit o l r => by
    obtain ⟨t, ts, h, hs⟩ := V.head l
    exact ⟨t, ts ++ .bit o :: r.toks, by simp [V.toks, h], hs⟩

end

theorem L.head (l : L) : ∃ t ts, l.toks = t :: ts ∧ starts t = true := by
  cases l with
  | one e => simpa [L.toks] using E.head e
  | cons e l =>
    obtain ⟨t, ts, h, hs⟩ := E.head e
    exact ⟨t, ts ++ .comma :: l.toks, by simp [L.toks, h], hs⟩

/-! ### Steps -/

theorem LoopE.stop {p : Nat} {e : E} {r : List Tok} (h : eprec r = 0 ∨ eprec r < p) : LoopE p e r (e, r) := by
  refine ⟨1, fun n hn => ?_⟩
  obtain ⟨n, rfl, -⟩ := succ_of_le hn
  simp only [expressionLoop]
  split
  · simp only [eprec] at h
    rw [if_neg (by omega)]
  · rfl

theorem LoopE.step {p : Nat} {e r : E} {o : Log} {ts us : List Tok} {x : E × List Tok} (hp : p ≤ 2) (h1 : RunE 3 ts (r, us))
    (h2 : LoopE p (.log o e r) us x) : LoopE p e (.log o :: ts) x := by
  obtain ⟨N, h1⟩ := h1
  obtain ⟨M, h2⟩ := h2
  refine ⟨max N M + 1, fun n hn => ?_⟩
  obtain ⟨n, rfl, hn⟩ := succ_of_le hn
  simp only [expressionLoop, if_pos hp, h1 n (by omega)]
  exact h2 n (by omega)

theorem RunE.not {p : Nat} {b : Bool} {e : E} {ts us : List Tok} {x : E × List Tok} (h1 : RunE 3 ts (e, us))
    (h2 : LoopE p (.not b e) us x) : RunE p (.not b :: ts) x := by
  obtain ⟨N, h1⟩ := h1
  obtain ⟨M, h2⟩ := h2
  refine ⟨max N M + 1, fun n hn => ?_⟩
  obtain ⟨n, rfl, hn⟩ := succ_of_le hn
  simp only [expression, h1 n (by omega)]
  exact h2 n (by omega)

theorem RunE.pred {p : Nat} {q : Q} {ts us : List Tok} {x : E × List Tok} (hd : ∀ b, ts.head? ≠ some (.not b))
    (h1 : RunQ 0 ts (q, us)) (h2 : LoopE p (.pred q) us x) : RunE p ts x := by
  obtain ⟨N, h1⟩ := h1
  obtain ⟨M, h2⟩ := h2
  refine ⟨max N M + 1, fun n hn => ?_⟩
  obtain ⟨n, rfl, hn⟩ := succ_of_le hn
  rw [expression_pred n p ts hd]
  simp only [h1 n (by omega)]
  exact h2 n (by omega)

theorem RunQ.value {p : Nat} {v : V} {ts us : List Tok} {x : Q × List Tok} (h1 : RunV 0 ts (v, us))
    (h2 : LoopQ p (.value v) us x) : RunQ p ts x := by
  obtain ⟨N, h1⟩ := h1
  obtain ⟨M, h2⟩ := h2
  refine ⟨max N M + 1, fun n hn => ?_⟩
  obtain ⟨n, rfl, hn⟩ := succ_of_le hn
  simp only [predicateExpression, h1 n (by omega)]
  exact h2 n (by omega)

theorem LoopQ.stop {p : Nat} {q : Q} {r : List Tok} (h : qprec r = 0 ∨ qprec r < p) : LoopQ p q r (q, r) := by
  refine ⟨1, fun n hn => ?_⟩
  obtain ⟨n, rfl, -⟩ := succ_of_le hn
  simp only [predicateLoop]
  split
  case h_5 => rfl
  all_goals
    rename_i hn
    simp only [qprec, hn] at h
    rw [if_neg (by omega)]

theorem LoopQ.cmp {p : Nat} {q r : Q} {o : Cmp} {ts us : List Tok} {x : Q × List Tok} (hp : p ≤ 3) (h1 : RunQ 4 ts (r, us))
    (h2 : LoopQ p (.cmp o q r) us x) : LoopQ p q (.cmp o :: ts) x := by
  obtain ⟨N, h1⟩ := h1
  obtain ⟨M, h2⟩ := h2
  refine ⟨max N M + 1, fun n hn => ?_⟩
  obtain ⟨n, rfl, hn⟩ := succ_of_le hn
  simp only [predicateLoop, next, List.tail_cons, if_pos hp, h1 n (by omega)]
  exact h2 n (by omega)

theorem optExact_append {ex : Option Exact} {ts : List Tok} (h : ex = none → ∃ t us, ts = t :: us ∧ starts t = true) :
    optExact (exactToks ex ++ ts) = (ex, ts) := by
  cases ex with
  | some x => cases x <;> rfl
  | none =>
    obtain ⟨t, us, rfl, hs⟩ := h rfl
    cases t <;> first | rfl | simp [starts] at hs

theorem LoopQ.like {p : Nat} {q r : Q} {neg : Option Bool} {ex : Option Exact} {ts us : List Tok} {x : Q × List Tok} (hp : p ≤ 2)
    (hs : ∃ t us, ts = t :: us ∧ starts t = true) (h1 : RunQ 3 ts (r, us)) (h2 : LoopQ p (.like neg ex q r) us x) :
    LoopQ p q (negToks neg ++ .kLike :: (exactToks ex ++ ts)) x := by
  obtain ⟨N, h1⟩ := h1
  obtain ⟨M, h2⟩ := h2
  refine ⟨max N M + 1, fun n hn => ?_⟩
  obtain ⟨n, rfl, hn⟩ := succ_of_le hn
  have hx := optExact_append (ex := ex) (ts := ts) (fun _ => hs)
  cases neg <;>
    simp only [predicateLoop, negToks, List.nil_append, List.cons_append, next, optNot, if_pos hp, expect_cons, hx, h1 n (by omega)] <;>
    exact h2 n (by omega)

theorem LoopQ.isIn {p : Nat} {q : Q} {neg : Option Bool} {ex : Option Exact} {list : L} {ts us : List Tok} {x : Q × List Tok}
    (hp : p ≤ 5) (h1 : RunL ts (list, .rparen :: us)) (h2 : LoopQ p (.isIn q neg ex list) us x) :
    LoopQ p q (negToks neg ++ .kIn :: (exactToks ex ++ .lparen :: ts)) x := by
  obtain ⟨N, h1⟩ := h1
  obtain ⟨M, h2⟩ := h2
  refine ⟨max N M + 1, fun n hn => ?_⟩
  obtain ⟨n, rfl, hn⟩ := succ_of_le hn
  have hx := optExact_append (ex := ex) (ts := .lparen :: ts) (fun _ => ⟨_, _, rfl, rfl⟩)
  cases neg <;>
    simp only [predicateLoop, negToks, List.nil_append, List.cons_append, next, optNot, if_pos hp, expect_cons, hx,
      h1 n (by omega)] <;>
    exact h2 n (by omega)

theorem LoopQ.isNull {p : Nat} {q : Q} {neg : Option Bool} {us : List Tok} {x : Q × List Tok} (hp : p ≤ 4)
    (h2 : LoopQ p (.isNull q neg) us x) : LoopQ p q (.kIs :: (negToks neg ++ .kNull :: us)) x := by
  obtain ⟨M, h2⟩ := h2
  refine ⟨M + 1, fun n hn => ?_⟩
  obtain ⟨n, rfl, hn⟩ := succ_of_le hn
  cases neg <;>
    simp only [predicateLoop, negToks, List.nil_append, List.cons_append, List.tail_cons, next, optNot, if_pos hp, expect_cons] <;>
    exact h2 n (by omega)

theorem LoopV.stop {p : Nat} {v : V} {r : List Tok} (h : vprec r = 0 ∨ vprec r < p) : LoopV p v r (v, r) := by
  refine ⟨1, fun n hn => ?_⟩
  obtain ⟨n, rfl, -⟩ := succ_of_le hn
  simp only [valueLoop]
  split
  · simp only [vprec] at h
    rw [if_neg (by omega)]
  · simp only [vprec] at h
    rw [if_neg (by omega)]
  · rfl

theorem LoopV.math {p : Nat} {v r : V} {o : Math} {ts us : List Tok} {x : V × List Tok} (hp : p ≤ 2) (h1 : RunV 3 ts (r, us))
    (h2 : LoopV p (.math o v r) us x) : LoopV p v (.math o :: ts) x := by
  obtain ⟨N, h1⟩ := h1
  obtain ⟨M, h2⟩ := h2
  refine ⟨max N M + 1, fun n hn => ?_⟩
  obtain ⟨n, rfl, hn⟩ := succ_of_le hn
  simp only [valueLoop, if_pos hp, h1 n (by omega)]
  exact h2 n (by omega)

theorem LoopV.bit {p : Nat} {v r : V} {o : Bit} {ts us : List Tok} {x : V × List Tok} (hp : p ≤ 1) (h1 : RunV 2 ts (r, us))
    (h2 : LoopV p (.bit o v r) us x) : LoopV p v (.bit o :: ts) x := by
  obtain ⟨N, h1⟩ := h1
  obtain ⟨M, h2⟩ := h2
  refine ⟨max N M + 1, fun n hn => ?_⟩
  obtain ⟨n, rfl, hn⟩ := succ_of_le hn
  simp only [valueLoop, if_pos hp, h1 n (by omega)]
  exact h2 n (by omega)

theorem RunV.lit {p : Nat} {l : Lit} {ts : List Tok} {x : V × List Tok} (h2 : LoopV p (.lit l) ts x) : RunV p (l.tok :: ts) x := by
  obtain ⟨M, h2⟩ := h2
  refine ⟨M + 1, fun n hn => ?_⟩
  obtain ⟨n, rfl, hn⟩ := succ_of_le hn
  cases l <;> simp only [Lit.tok, valueExpression] <;> exact h2 n (by omega)

theorem RunV.column {p : Nat} {s : Str} {ts : List Tok} {x : V × List Tok} (h2 : LoopV p (.column s) ts x) :
    RunV p (.ident s :: ts) x := by
  obtain ⟨M, h2⟩ := h2
  refine ⟨M + 1, fun n hn => ?_⟩
  obtain ⟨n, rfl, hn⟩ := succ_of_le hn
  simp only [valueExpression]
  exact h2 n (by omega)

theorem RunV.call0 {p : Nat} {f : Fn} {ts : List Tok} {x : V × List Tok} (h2 : LoopV p (.call0 f) ts x) :
    RunV p (.fn f :: .lparen :: .rparen :: ts) x := by
  obtain ⟨M, h2⟩ := h2
  refine ⟨M + 1, fun n hn => ?_⟩
  obtain ⟨n, rfl, hn⟩ := succ_of_le hn
  simp only [valueExpression]
  exact h2 n (by omega)

theorem RunV.call {p : Nat} {f : Fn} {list : L} {ts us : List Tok} {x : V × List Tok}
    (hs : ∃ t us, ts = t :: us ∧ starts t = true) (h1 : RunL ts (list, .rparen :: us)) (h2 : LoopV p (.call f list) us x) :
    RunV p (.fn f :: .lparen :: ts) x := by
  obtain ⟨N, h1⟩ := h1
  obtain ⟨M, h2⟩ := h2
  refine ⟨max N M + 1, fun n hn => ?_⟩
  obtain ⟨n, rfl, hn⟩ := succ_of_le hn
  have e : valueExpression (n + 1) p (.fn f :: .lparen :: ts) = match expressionList n ts with
      | some (list, us) =>
        match expect .rparen us with
        | some vs => valueLoop n p (.call f list) vs
        | none => none
      | none => none := by
    obtain ⟨t, us, rfl, hs⟩ := hs
    cases t <;> first | rfl | simp [starts] at hs
  rw [e, h1 n (by omega)]
  simp only [expect_cons]
  exact h2 n (by omega)

theorem RunV.unary {p : Nat} {u : Un} {v : V} {ts us : List Tok} {x : V × List Tok} (h1 : RunV 4 ts (v, us))
    (h2 : LoopV p (.unary u v) us x) : RunV p (u.tok :: ts) x := by
  obtain ⟨N, h1⟩ := h1
  obtain ⟨M, h2⟩ := h2
  refine ⟨max N M + 1, fun n hn => ?_⟩
  obtain ⟨n, rfl, hn⟩ := succ_of_le hn
  cases u <;> simp only [Un.tok, valueExpression, h1 n (by omega)] <;> exact h2 n (by omega)

theorem RunV.paren {p : Nat} {e : E} {ts us : List Tok} {x : V × List Tok} (h1 : RunE 0 ts (e, .rparen :: us))
    (h2 : LoopV p (.paren e) us x) : RunV p (.lparen :: ts) x := by
  obtain ⟨N, h1⟩ := h1
  obtain ⟨M, h2⟩ := h2
  refine ⟨max N M + 1, fun n hn => ?_⟩
  obtain ⟨n, rfl, hn⟩ := succ_of_le hn
  simp only [valueExpression, h1 n (by omega), expect_cons]
  exact h2 n (by omega)

theorem RunL.one {e : E} {ts us : List Tok} (h1 : RunE 0 ts (e, us)) (hc : us.head? ≠ some .comma) : RunL ts (.one e, us) := by
  obtain ⟨N, h1⟩ := h1
  refine ⟨N + 1, fun n hn => ?_⟩
  obtain ⟨n, rfl, hn⟩ := succ_of_le hn
  simp only [expressionList, h1 n (by omega)]
  split
  · simp_all
  · simp_all
  · simp_all

theorem RunL.cons {e : E} {l : L} {ts us vs : List Tok} (h1 : RunE 0 ts (e, .comma :: us)) (h2 : RunL us (l, vs)) :
    RunL ts (.cons e l, vs) := by
  obtain ⟨N, h1⟩ := h1
  obtain ⟨M, h2⟩ := h2
  refine ⟨max N M + 1, fun n hn => ?_⟩
  obtain ⟨n, rfl, hn⟩ := succ_of_le hn
  simp only [expressionList, h1 n (by omega), h2 n (by omega)]

/-! ### Completeness -/

theorem Q.edge_of_wf {p k : Nat} {q : Q} (h : q.WF p) (hk : k ≤ p) : q.edge k := by
  cases q <;> simp only [Q.edge, Q.WF] at h ⊢
  · omega
  · omega

theorem V.edge_of_wf {p k : Nat} {v : V} (h : v.WF p) (hk : k ≤ p) : v.edge k := by
  cases v <;> simp only [V.edge, V.WF] at h ⊢
  · omega
  · omega

theorem vprec_le (r : List Tok) : vprec r ≤ 2 := by unfold vprec; split <;> omega
theorem eprec_le (r : List Tok) : eprec r ≤ 2 := by unfold eprec; split <;> omega

theorem vprec_neg_like (neg : Option Bool) (r : List Tok) : vprec (negToks neg ++ .kLike :: r) = 0 := by cases neg <;> rfl
theorem qprec_neg_like (neg : Option Bool) (r : List Tok) : qprec (negToks neg ++ .kLike :: r) = 2 := by cases neg <;> rfl
theorem vprec_neg_in (neg : Option Bool) (r : List Tok) : vprec (negToks neg ++ .kIn :: r) = 0 := by cases neg <;> rfl
theorem qprec_neg_in (neg : Option Bool) (r : List Tok) : qprec (negToks neg ++ .kIn :: r) = 5 := by cases neg <;> rfl

mutual

theorem E.run : ∀ (e : E) (p : Nat) (r : List Tok) (x : E × List Tok), e.WF p → qprec r = 0 → vprec r = 0 → LoopE p e r x →
    RunE p (e.toks ++ r) x
  | .not b e, p, r, x, hw, hq, hv, hl => by
    simp only [E.toks, List.cons_append]
    exact RunE.not (E.run e 3 r (e, r) hw hq hv (LoopE.stop (Or.inr (by have := eprec_le r; omega)))) hl
  | .log o l s, p, r, x, hw, hq, hv, hl => by
    simp only [E.toks, List.append_assoc, List.cons_append]
    exact E.run l p _ x hw.2.1 rfl rfl
      (LoopE.step hw.1 (E.run s 3 r (s, r) hw.2.2 hq hv (LoopE.stop (Or.inr (by have := eprec_le r; omega)))) hl)
  | .pred q, p, r, x, hw, hq, hv, hl => by
    simp only [E.toks]
    refine RunE.pred ?_ (Q.run q 0 r (q, r) hw.1 hv (Q.edge_of_wf hw.1 (by omega)) (LoopQ.stop (Or.inl hq))) hl
    intro b
    have := hw.2 b
    obtain ⟨t, ts, h, -⟩ := Q.head q
    rw [h] at this ⊢
    simpa using this

theorem Q.run : ∀ (q : Q) (p : Nat) (r : List Tok) (x : Q × List Tok), q.WF p → vprec r = 0 → q.edge (qprec r) → LoopQ p q r x →
    RunQ p (q.toks ++ r) x
  | .isIn q neg ex list, p, r, x, hw, hv, he, hl => by
    simp only [Q.toks, List.append_assoc, List.cons_append, List.nil_append]
    refine Q.run q p _ x hw.2.1 (vprec_neg_in _ _) (by rw [qprec_neg_in]; exact hw.2.2.1) (LoopQ.isIn hw.1 ?_ hl)
    exact L.run list (.rparen :: r) hw.2.2.2 rfl rfl rfl (by simp)
  | .isNull q neg, p, r, x, hw, hv, he, hl => by
    simp only [Q.toks, List.append_assoc, List.cons_append, List.nil_append]
    exact Q.run q p _ x hw.2.1 rfl hw.2.2 (LoopQ.isNull hw.1 hl)
  | .cmp o l s, p, r, x, hw, hv, he, hl => by
    simp only [Q.toks, List.append_assoc, List.cons_append]
    simp only [Q.edge] at he
    exact Q.run l p _ x hw.2.1 rfl hw.2.2.1
      (LoopQ.cmp hw.1 (Q.run s 4 r (s, r) hw.2.2.2 hv (Q.edge_of_wf hw.2.2.2 (by omega)) (LoopQ.stop (Or.inr (by omega)))) hl)
  | .like neg ex l s, p, r, x, hw, hv, he, hl => by
    simp only [Q.toks, List.append_assoc, List.cons_append]
    simp only [Q.edge] at he
    refine Q.run l p _ x hw.2.1 (vprec_neg_like _ _) (by rw [qprec_neg_like]; exact hw.2.2.1) (LoopQ.like hw.1 ?_
      (Q.run s 3 r (s, r) hw.2.2.2 hv (Q.edge_of_wf hw.2.2.2 (by omega)) (LoopQ.stop (Or.inr (by omega)))) hl)
    obtain ⟨t, ts, h, hs⟩ := Q.head s
    exact ⟨t, ts ++ r, by rw [h]; rfl, hs⟩
  | .value v, p, r, x, hw, hv, he, hl => by
    simp only [Q.toks]
    exact RunQ.value (V.run v 0 r (v, r) hw (V.edge_of_wf hw (by omega)) (LoopV.stop (Or.inl hv))) hl

theorem V.run : ∀ (v : V) (p : Nat) (r : List Tok) (x : V × List Tok), v.WF p → v.edge (vprec r) → LoopV p v r x →
    RunV p (v.toks ++ r) x
  | .lit l, p, r, x, hw, he, hl => by
    simp only [V.toks, List.cons_append, List.nil_append]
    exact RunV.lit hl
  | .column name, p, r, x, hw, he, hl => by
    simp only [V.toks, List.cons_append, List.nil_append]
    exact RunV.column hl
  | .call0 f, p, r, x, hw, he, hl => by
    simp only [V.toks, List.cons_append, List.nil_append]
    exact RunV.call0 hl
  | .call f args, p, r, x, hw, he, hl => by
    simp only [V.toks, List.append_assoc, List.cons_append, List.nil_append]
    refine RunV.call ?_ (L.run args (.rparen :: r) hw rfl rfl rfl (by simp)) hl
    obtain ⟨t, ts, h, hs⟩ := L.head args
    exact ⟨t, ts ++ .rparen :: r, by rw [h]; rfl, hs⟩
  | .unary u v, p, r, x, hw, he, hl => by
    simp only [V.toks, List.cons_append]
    have := vprec_le r
    exact RunV.unary (V.run v 4 r (v, r) hw (V.edge_of_wf hw (by omega)) (LoopV.stop (Or.inr (by omega)))) hl
  | .paren e, p, r, x, hw, he, hl => by
    simp only [V.toks, List.append_assoc, List.cons_append, List.nil_append]
    exact RunV.paren (E.run e 0 (.rparen :: r) _ hw rfl rfl (LoopE.stop (Or.inl rfl))) hl
  | .math o l s, p, r, x, hw, he, hl => by
    simp only [V.toks, List.append_assoc, List.cons_append]
    simp only [V.edge] at he
    exact V.run l p _ x hw.2.1 hw.2.2.1
      (LoopV.math hw.1 (V.run s 3 r (s, r) hw.2.2.2 (V.edge_of_wf hw.2.2.2 (by omega)) (LoopV.stop (Or.inr (by omega)))) hl)
  | .bit o l s, p, r, x, hw, he, hl => by
    simp only [V.toks, List.append_assoc, List.cons_append]
    simp only [V.edge] at he
    exact V.run l p _ x hw.2.1 hw.2.2.1
      (LoopV.bit hw.1 (V.run s 2 r (s, r) hw.2.2.2 (V.edge_of_wf hw.2.2.2 (by omega)) (LoopV.stop (Or.inr (by omega)))) hl)

theorem L.run : ∀ (l : L) (r : List Tok), l.WF → eprec r = 0 → qprec r = 0 → vprec r = 0 → r.head? ≠ some .comma →
    RunL (l.toks ++ r) (l, r)
  | .one e, r, hw, h1, h2, h3, hc => by
    simp only [L.toks]
    exact RunL.one (E.run e 0 r (e, r) hw h2 h3 (LoopE.stop (Or.inl h1))) hc
  | .cons e l, r, hw, h1, h2, h3, hc => by
    simp only [L.toks, List.append_assoc, List.cons_append]
    exact RunL.cons (E.run e 0 _ (e, _) hw.1 rfl rfl (LoopE.stop (Or.inl rfl))) (L.run l r hw.2 h1 h2 h3 hc)

end

end Verif.Parse
