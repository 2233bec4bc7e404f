import Verif.Parse.Complete

/-!
# The depth that `parse` allows is enough
-/

namespace Verif.Parse

open Verif.Expr

/-- Above a bound in the number of tokens one more level of calls changes nothing. -/
structure Stable (n : Nat) : Prop where
  e : ∀ p ts, 6 * ts.length + 3 ≤ n → expression (n + 1) p ts = expression n p ts
  el : ∀ p e ts, 6 * ts.length + 1 ≤ n → expressionLoop (n + 1) p e ts = expressionLoop n p e ts
  q : ∀ p ts, 6 * ts.length + 2 ≤ n → predicateExpression (n + 1) p ts = predicateExpression n p ts
  ql : ∀ p q ts, 6 * ts.length + 1 ≤ n → predicateLoop (n + 1) p q ts = predicateLoop n p q ts
  v : ∀ p ts, 6 * ts.length + 1 ≤ n → valueExpression (n + 1) p ts = valueExpression n p ts
  vl : ∀ p v ts, 6 * ts.length + 1 ≤ n → valueLoop (n + 1) p v ts = valueLoop n p v ts
  l : ∀ ts, 6 * ts.length + 4 ≤ n → expressionList (n + 1) ts = expressionList n ts

theorem Stable.zero : Stable 0 := by
  constructor <;> intros <;> omega

theorem len_e {n p : Nat} {ts r : List Tok} {e : E} (h : expression n p ts = some (e, r)) : r.length < ts.length := by
  have := ((Sound.all n).e _ _ _ _ h).1
  have hn := List.length_pos_iff.2 (E.toks_ne e)
  rw [this, List.length_append]; omega

theorem len_q {n p : Nat} {ts r : List Tok} {q : Q} (h : predicateExpression n p ts = some (q, r)) : r.length < ts.length := by
  have := ((Sound.all n).q _ _ _ _ h).1
  have hn := List.length_pos_iff.2 (Q.toks_ne q)
  rw [this, List.length_append]; omega

theorem len_v {n p : Nat} {ts r : List Tok} {v : V} (h : valueExpression n p ts = some (v, r)) : r.length < ts.length := by
  have := ((Sound.all n).v _ _ _ _ h).1
  have hn := List.length_pos_iff.2 (V.toks_ne v)
  rw [this, List.length_append]; omega

theorem len_l {n : Nat} {ts r : List Tok} {l : L} (h : expressionList n ts = some (l, r)) : r.length ≤ ts.length := by
  have := ((Sound.all n).l _ _ _ h).1
  rw [this, List.length_append]; omega

theorem len_expect {t : Tok} {ts us : List Tok} (h : expect t ts = some us) : ts.length = us.length + 1 := by
  rw [expect_some h]; rfl

theorem len_optNot (ts : List Tok) : (optNot ts).2.length ≤ ts.length := by
  conv_rhs => rw [← optNot_eq ts]
  simp

theorem len_optExact (ts : List Tok) : (optExact ts).2.length ≤ ts.length := by
  conv_rhs => rw [← optExact_eq ts]
  simp

theorem expression_not (n p : Nat) (b : Bool) (ts : List Tok) : expression (n + 1) p (.not b :: ts) =
    match expression n 3 ts with
    | some (e, ts) => expressionLoop n p (.not b e) ts
    | none => none := rfl

theorem expressionLoop_log (n p : Nat) (e : E) (o : Log) (ts : List Tok) : expressionLoop (n + 1) p e (.log o :: ts) =
    if 2 ≥ p then
      match expression n 3 ts with
      | some (r, ts) => expressionLoop n p (.log o e r) ts
      | none => none
    else some (e, .log o :: ts) := rfl

theorem predicateExpression_succ (n p : Nat) (ts : List Tok) : predicateExpression (n + 1) p ts =
    match valueExpression n 0 ts with
    | some (v, ts) => predicateLoop n p (.value v) ts
    | none => none := rfl

theorem predicateLoop_succ (n p : Nat) (q : Q) (ts : List Tok) : predicateLoop (n + 1) p q ts =
    match next ts with
    | .cmp o =>
      if 3 ≥ p then
        match predicateExpression n 4 ts.tail with
        | some (r, ts) => predicateLoop n p (.cmp o q r) ts
        | none => none
      else some (q, ts)
    | .like =>
      if 2 ≥ p then
        match expect .kLike (optNot ts).2 with
        | some us =>
          match predicateExpression n 3 (optExact us).2 with
          | some (r, vs) => predicateLoop n p (.like (optNot ts).1 (optExact us).1 q r) vs
          | none => none
        | none => none
      else some (q, ts)
    | .isIn =>
      if 5 ≥ p then
        match expect .kIn (optNot ts).2 with
        | some us =>
          match expect .lparen (optExact us).2 with
          | some vs =>
            match expressionList n vs with
            | some (list, ws) =>
              match expect .rparen ws with
              | some xs => predicateLoop n p (.isIn q (optNot ts).1 (optExact us).1 list) xs
              | none => none
            | none => none
          | none => none
        | none => none
      else some (q, ts)
    | .isNull =>
      if 4 ≥ p then
        match expect .kNull (optNot ts.tail).2 with
        | some us => predicateLoop n p (.isNull q (optNot ts.tail).1) us
        | none => none
      else some (q, ts)
    | .stop => some (q, ts) := rfl

theorem valueExpression_lparen (n p : Nat) (ts : List Tok) : valueExpression (n + 1) p (.lparen :: ts) =
    match expression n 0 ts with
    | some (e, us) =>
      match expect .rparen us with
      | some vs => valueLoop n p (.paren e) vs
      | none => none
    | none => none := rfl

theorem valueLoop_math (n p : Nat) (v : V) (o : Math) (ts : List Tok) : valueLoop (n + 1) p v (.math o :: ts) =
    if 2 ≥ p then
      match valueExpression n 3 ts with
      | some (r, ts) => valueLoop n p (.math o v r) ts
      | none => none
    else some (v, .math o :: ts) := rfl

theorem valueLoop_bit (n p : Nat) (v : V) (o : Bit) (ts : List Tok) : valueLoop (n + 1) p v (.bit o :: ts) =
    if 1 ≥ p then
      match valueExpression n 2 ts with
      | some (r, ts) => valueLoop n p (.bit o v r) ts
      | none => none
    else some (v, .bit o :: ts) := rfl

theorem expressionList_succ (n : Nat) (ts : List Tok) : expressionList (n + 1) ts =
    match expression n 0 ts with
    | some (e, .comma :: us) =>
      match expressionList n us with
      | some (list, vs) => some (.cons e list, vs)
      | none => none
    | some (e, us) => some (.one e, us)
    | none => none := rfl

theorem Stable.e_succ {n : Nat} (ih : Stable n) (p : Nat) (ts : List Tok) (h : 6 * ts.length + 3 ≤ n + 1) :
    expression (n + 1 + 1) p ts = expression (n + 1) p ts := by
  by_cases hd : ∃ b, ts.head? = some (.not b)
  · obtain ⟨b, hd⟩ := hd
    cases ts with
    | nil => simp at hd
    | cons t ts =>
      simp only [List.head?_cons, Option.some.injEq] at hd
      subst hd
      simp only [List.length_cons] at h
      rw [expression_not, expression_not, ih.e 3 ts (by omega)]
      cases hx : expression n 3 ts with
      | none => rfl
      | some x =>
        obtain ⟨e, us⟩ := x
        have := len_e hx
        exact ih.el _ _ _ (by omega)
  · have hd' : ∀ b, ts.head? ≠ some (.not b) := fun b hb => hd ⟨b, hb⟩
    rw [expression_pred _ p ts hd', expression_pred _ p ts hd', ih.q 0 ts (by omega)]
    cases hx : predicateExpression n 0 ts with
    | none => rfl
    | some x =>
      obtain ⟨q, us⟩ := x
      have := len_q hx
      exact ih.el _ _ _ (by omega)

theorem Stable.el_succ {n : Nat} (ih : Stable n) (p : Nat) (e : E) (ts : List Tok) (h : 6 * ts.length + 1 ≤ n + 1) :
    expressionLoop (n + 1 + 1) p e ts = expressionLoop (n + 1) p e ts := by
  cases ts with
  | nil => rfl
  | cons t ts =>
    cases t
    case log o =>
      simp only [List.length_cons] at h
      rw [expressionLoop_log, expressionLoop_log, ih.e 3 ts (by omega)]
      cases hx : expression n 3 ts with
      | none => rfl
      | some x =>
        obtain ⟨e', us⟩ := x
        have := len_e hx
        simp only [ih.el _ _ us (by omega)]
    all_goals rfl

theorem Stable.q_succ {n : Nat} (ih : Stable n) (p : Nat) (ts : List Tok) (h : 6 * ts.length + 2 ≤ n + 1) :
    predicateExpression (n + 1 + 1) p ts = predicateExpression (n + 1) p ts := by
  rw [predicateExpression_succ, predicateExpression_succ, ih.v 0 ts (by omega)]
  cases hx : valueExpression n 0 ts with
  | none => rfl
  | some x =>
    obtain ⟨v, us⟩ := x
    have := len_v hx
    exact ih.ql _ _ _ (by omega)

theorem Stable.ql_succ {n : Nat} (ih : Stable n) (p : Nat) (q : Q) (ts : List Tok) (h : 6 * ts.length + 1 ≤ n + 1) :
    predicateLoop (n + 1 + 1) p q ts = predicateLoop (n + 1) p q ts := by
  rw [predicateLoop_succ, predicateLoop_succ]
  cases hn : next ts with
  | stop => rfl
  | cmp o =>
    have ht : ts.length = ts.tail.length + 1 := by
      conv_lhs => rw [next_cmp hn]
      rfl
    dsimp only
    rw [ih.q 4 ts.tail (by omega)]
    cases hx : predicateExpression n 4 ts.tail with
    | none => rfl
    | some x =>
      obtain ⟨r, us⟩ := x
      have := len_q hx
      simp only [ih.ql _ _ us (by omega)]
  | like =>
    dsimp only
    cases hk : expect .kLike (optNot ts).2 with
    | none => rfl
    | some us =>
      have h1 := len_expect hk
      have h2 := len_optNot ts
      have h3 := len_optExact us
      dsimp only
      rw [ih.q 3 _ (by omega)]
      cases hx : predicateExpression n 3 (optExact us).2 with
      | none => rfl
      | some x =>
        obtain ⟨r, vs⟩ := x
        have := len_q hx
        simp only [ih.ql _ _ vs (by omega)]
  | isIn =>
    dsimp only
    cases hk : expect .kIn (optNot ts).2 with
    | none => rfl
    | some us =>
      have h1 := len_expect hk
      have h2 := len_optNot ts
      have h3 := len_optExact us
      dsimp only
      cases hl : expect .lparen (optExact us).2 with
      | none => rfl
      | some vs =>
        have h4 := len_expect hl
        dsimp only
        rw [ih.l vs (by omega)]
        cases hx : expressionList n vs with
        | none => rfl
        | some x =>
          obtain ⟨list, ws⟩ := x
          have h5 := len_l hx
          dsimp only
          cases hr : expect .rparen ws with
          | none => rfl
          | some xs =>
            have h6 := len_expect hr
            simp only [ih.ql _ _ xs (by omega)]
  | isNull =>
    have ht : ts.length = ts.tail.length + 1 := by
      conv_lhs => rw [next_isNull hn]
      rfl
    dsimp only
    cases hk : expect .kNull (optNot ts.tail).2 with
    | none => rfl
    | some us =>
      have h1 := len_expect hk
      have h2 := len_optNot ts.tail
      simp only [ih.ql _ _ us (by omega)]

theorem Stable.unary {n p : Nat} (ih : Stable n) (u : Un) (ts : List Tok) (h : 6 * (ts.length + 1) + 1 ≤ n + 1) :
    (match valueExpression (n + 1) 4 ts with
      | some (v, us) => valueLoop (n + 1) p (.unary u v) us
      | none => none) =
    match valueExpression n 4 ts with
      | some (v, us) => valueLoop n p (.unary u v) us
      | none => none := by
  rw [ih.v 4 ts (by omega)]
  cases hx : valueExpression n 4 ts with
  | none => rfl
  | some x =>
    obtain ⟨v, us⟩ := x
    have := len_v hx
    exact ih.vl _ _ _ (by omega)

theorem Stable.call {n p : Nat} (ih : Stable n) (f : Fn) (ts : List Tok) (h : 6 * (ts.length + 2) + 1 ≤ n + 1) :
    (match expressionList (n + 1) ts with
      | some (list, us) =>
        match expect .rparen us with
        | some vs => valueLoop (n + 1) p (.call f list) vs
        | none => none
      | none => none) =
    match expressionList n ts with
      | some (list, us) =>
        match expect .rparen us with
        | some vs => valueLoop n p (.call f list) vs
        | none => none
      | none => none := by
  rw [ih.l ts (by omega)]
  cases hx : expressionList n ts with
  | none => rfl
  | some x =>
    obtain ⟨list, us⟩ := x
    have := len_l hx
    dsimp only
    cases hr : expect .rparen us with
    | none => rfl
    | some vs =>
      have := len_expect hr
      exact ih.vl _ _ _ (by omega)

theorem Stable.v_succ {n : Nat} (ih : Stable n) (p : Nat) (ts : List Tok) (h : 6 * ts.length + 1 ≤ n + 1) :
    valueExpression (n + 1 + 1) p ts = valueExpression (n + 1) p ts := by
  cases ts with
  | nil => rfl
  | cons t ts =>
    simp only [List.length_cons] at h
    cases t
    case kNull => exact ih.vl _ _ ts (by omega)
    case boolean => exact ih.vl _ _ ts (by omega)
    case integer => exact ih.vl _ _ ts (by omega)
    case numeric => exact ih.vl _ _ ts (by omega)
    case guid => exact ih.vl _ _ ts (by omega)
    case string => exact ih.vl _ _ ts (by omega)
    case datetime => exact ih.vl _ _ ts (by omega)
    case ident => exact ih.vl _ _ ts (by omega)
    case tilde => exact ih.unary .tilde ts h
    case not b => exact ih.unary (.not b) ts h
    case math o =>
      cases o
      case minus => exact ih.unary .minus ts h
      case plus => exact ih.unary .plus ts h
      all_goals rfl
    case lparen =>
      rw [valueExpression_lparen, valueExpression_lparen, ih.e 0 ts (by omega)]
      cases hx : expression n 0 ts with
      | none => rfl
      | some x =>
        obtain ⟨e, us⟩ := x
        have := len_e hx
        dsimp only
        cases hr : expect .rparen us with
        | none => rfl
        | some vs =>
          have := len_expect hr
          exact ih.vl _ _ _ (by omega)
    case fn f =>
      cases ts with
      | nil => rfl
      | cons t ts =>
        cases t
        case lparen =>
          simp only [List.length_cons] at h
          cases ts with
          | nil => exact ih.call f [] h
          | cons t ts =>
            cases t
            case rparen =>
              simp only [List.length_cons] at h
              exact ih.vl _ _ ts (by omega)
            all_goals exact ih.call f _ h
        all_goals rfl
    all_goals rfl

theorem Stable.vl_succ {n : Nat} (ih : Stable n) (p : Nat) (v : V) (ts : List Tok) (h : 6 * ts.length + 1 ≤ n + 1) :
    valueLoop (n + 1 + 1) p v ts = valueLoop (n + 1) p v ts := by
  cases ts with
  | nil => rfl
  | cons t ts =>
    simp only [List.length_cons] at h
    cases t
    case math o =>
      rw [valueLoop_math, valueLoop_math, ih.v 3 ts (by omega)]
      cases hx : valueExpression n 3 ts with
      | none => rfl
      | some x =>
        obtain ⟨r, us⟩ := x
        have := len_v hx
        simp only [ih.vl _ _ us (by omega)]
    case bit o =>
      rw [valueLoop_bit, valueLoop_bit, ih.v 2 ts (by omega)]
      cases hx : valueExpression n 2 ts with
      | none => rfl
      | some x =>
        obtain ⟨r, us⟩ := x
        have := len_v hx
        simp only [ih.vl _ _ us (by omega)]
    all_goals rfl

theorem Stable.l_succ {n : Nat} (ih : Stable n) (ts : List Tok) (h : 6 * ts.length + 4 ≤ n + 1) :
    expressionList (n + 1 + 1) ts = expressionList (n + 1) ts := by
  rw [expressionList_succ, expressionList_succ, ih.e 0 ts (by omega)]
  cases hx : expression n 0 ts with
  | none => rfl
  | some x =>
    obtain ⟨e, us⟩ := x
    have := len_e hx
    cases us with
    | nil => rfl
    | cons u us =>
      simp only [List.length_cons] at this
      cases u
      case comma => simp only [ih.l us (by omega)]
      all_goals rfl

theorem Stable.all (n : Nat) : Stable n := by
  induction n with
  | zero => exact Stable.zero
  | succ n ih => exact ⟨ih.e_succ, ih.el_succ, ih.q_succ, ih.ql_succ, ih.v_succ, ih.vl_succ, ih.l_succ⟩

/-- Any depth from the bound on gives the same result. -/
theorem expression_stable {p : Nat} {ts : List Tok} {n : Nat} (h : 6 * ts.length + 3 ≤ n) :
    expression n p ts = expression (6 * ts.length + 3) p ts := by
  induction n with
  | zero => omega
  | succ n ih =>
    rcases Nat.lt_or_ge n (6 * ts.length + 3) with h' | h'
    · rw [show n + 1 = 6 * ts.length + 3 by omega]
    · rw [(Stable.all n).e p ts h', ih h']

/-- **An expression is parsed from its tokens, and from no others.** `parse` yields a tree exactly if the tree needs no brackets under
the precedences of the rules and the tokens are those of the tree. -/
theorem C70_parse (ts : List Tok) (e : E) : parse ts = some e ↔ e.WF 0 ∧ e.toks = ts := by
  constructor
  · intro h
    simp only [parse] at h
    cases hx : expression (depth ts) 0 ts with
    | none => rw [hx] at h; simp at h
    | some x =>
      obtain ⟨e', r⟩ := x
      rw [hx] at h
      cases r with
      | nil =>
        simp only [Option.some.injEq] at h
        subst h
        obtain ⟨h1, h2⟩ := (Sound.all _).e _ _ _ _ hx
        exact ⟨h2, by simpa using h1.symm⟩
      | cons => simp at h
  · rintro ⟨hw, rfl⟩
    obtain ⟨N, hN⟩ := E.run e 0 [] (e, []) hw rfl rfl (LoopE.stop (Or.inl rfl))
    simp only [List.append_nil] at hN
    have h1 := hN (max N (depth e.toks)) (by omega)
    rw [expression_stable (by simp only [depth]; omega)] at h1
    simp only [parse]
    rw [expression_stable (by simp only [depth]; omega), h1]

/-- `a < b AND NOT c IN (1, 2)`, and a text that is no expression. -/
example :
    let a : Tok := .ident [97#8]; let b : Tok := .ident [98#8]; let c : Tok := .ident [99#8]
    parse [a, .cmp .lt, b, .log .kAnd, .not false, c, .kIn, .lparen, .integer [49#8], .comma, .integer [50#8], .rparen] =
      some (.log .kAnd (.pred (.cmp .lt (.value (.column [97#8])) (.value (.column [98#8]))))
        (.not false (.pred (.isIn (.value (.column [99#8])) none none
          (.cons (.pred (.value (.lit (.integer [49#8])))) (.one (.pred (.value (.lit (.integer [50#8])))))))))) ∧
    parse [a, .cmp .lt] = none ∧ parse [a, b] = none := ⟨rfl, rfl, rfl⟩

/-- A text has one reading: trees that need no brackets and have the same tokens are the same. -/
theorem C70_unique {e e' : E} (h : e.WF 0) (h' : e'.WF 0) (ht : e.toks = e'.toks) : e = e' := by
  have h1 := (C70_parse _ e).2 ⟨h, rfl⟩
  have h2 := (C70_parse _ e').2 ⟨h', rfl⟩
  rw [ht, h2] at h1
  exact (Option.some.inj h1).symm

end Verif.Parse
