import Verif.Parse.ListenerProps
import Verif.Expr.Toy

/-!
# How operators group

The comment in the grammar (data/FilterExpressionSyntax.g4 L69-80) lists the binary operators from highest to lowest precedence.
-/

namespace Verif.Parse

open Verif.Expr

variable {P : Prim}

/-- A binary operator with the modifiers between its operands. -/
inductive Bin where
  | math (o : Math)
  | bit (o : Bit)
  | cmp (o : Cmp)
  | like (neg : Option Bool) (exact : Option Exact)
  | log (o : Log)

/-- Its tokens (g4 L82-104). -/
def Bin.toks : Bin → List Tok
  | .math o => [.math o]
  | .bit o => [.bit o]
  | .cmp o => [.cmp o]
  | .like neg exact => negToks neg ++ .kLike :: exactToks exact
  | .log o => [.log o]

/-- The operator it stands for. -/
def Bin.op : Bin → Op
  | .math o => o.op
  | .bit o => o.op
  | .cmp o => o.op
  | .like neg exact => likeOp neg exact
  | .log o => o.op

/-- The rule of the grammar that has the operator: `mathOperator`, `bitwiseOperator`, `comparisonOperator`, `LIKE`, `logicalOperator`
(g4 L82-104), in the order in which the parser binds them. -/
def Bin.rule : Bin → Nat
  | .math _ => 5
  | .bit _ => 4
  | .cmp _ => 3
  | .like _ _ => 2
  | .log _ => 1

/-- The precedence the grammar documents (g4 L69-80); `XOR` and `^` are not in the list. -/
def Bin.documented : Bin → Option Nat
  | .math .star | .math .slash | .math .percent => some 8
  | .math .plus | .math .minus => some 7
  | .bit .shl | .bit .shr | .bit .amp | .bit .bar => some 6
  | .bit .kXor | .bit .caret => none
  | .cmp .lt | .cmp .le | .cmp .gt | .cmp .ge => some 5
  | .cmp _ => some 4
  | .like _ _ => some 3
  | .log .kAnd | .log .ampAmp => some 2
  | .log .kOr | .log .barBar => some 1

/-- A literal, column, call or bracketed expression. -/
def V.Closed : V → Prop
  | .lit _ => True
  | .column _ => True
  | .call0 _ => True
  | .call _ args => args.WF
  | .paren e => e.WF 0
  | _ => False

theorem V.Closed.wf {v : V} (h : v.Closed) (p : Nat) : v.WF p := by
  cases v <;> simp only [V.Closed] at h <;> simp only [V.WF] <;> exact h

theorem V.edge_math (k : Nat) (o : Math) (l r : V) : (V.math o l r).edge k ↔ k ≤ 2 := Iff.rfl
theorem V.edge_bit (k : Nat) (o : Bit) (l r : V) : (V.bit o l r).edge k ↔ k ≤ 1 := Iff.rfl
theorem Q.edge_cmp (k : Nat) (o : Cmp) (l r : Q) : (Q.cmp o l r).edge k ↔ k ≤ 3 := Iff.rfl
theorem Q.edge_like (k : Nat) (neg : Option Bool) (ex : Option Exact) (l r : Q) : (Q.like neg ex l r).edge k ↔ k ≤ 2 := Iff.rfl
theorem Q.edge_value (k : Nat) (v : V) : (Q.value v).edge k ↔ True := Iff.rfl

theorem V.Closed.edge {v : V} (h : v.Closed) (k : Nat) : v.edge k := by
  cases v <;> simp only [V.Closed] at h <;> trivial

theorem V.Closed.head {v : V} (h : v.Closed) (r : List Tok) (b : Bool) : (v.toks ++ r).head? ≠ some (.not b) := by
  cases v <;> simp only [V.Closed] at h <;> simp [V.toks]
  next l => cases l <;> simp [Lit.tok]

/-- Two operators group to the left if the second does not bind more tightly, else to the right. -/
def grouped (left : Prop) [Decidable left] (o₁ o₂ : Op) (a b c : Tree P) : Tree P :=
  if left then .op o₂ (.op o₁ a b) c else .op o₁ a (.op o₂ b c)

/-- Checks that a tree of closed operands needs no brackets and has its tokens. -/
local macro "wf" : tactic => `(tactic| (
  refine ⟨?_, ?_⟩
  · simp only [E.WF, Q.WF, V.WF, V.edge_math, V.edge_bit, Q.edge_cmp, Q.edge_like, Q.edge_value, E.toks, Q.toks, V.toks, List.append_assoc,
      List.cons_append, Nat.zero_le, Nat.le_refl, Nat.reduceLeDiff, ne_eq, not_false_eq_true, implies_true, and_true, *]
  · simp only [E.toks, Q.toks, V.toks, Bin.toks, List.append_assoc, List.cons_append, List.nil_append]))

/-- Computes the meaning of a tree of operands with known meanings. -/
local macro "den" h1:term "," h2:term "," h3:term : tactic =>
  `(tactic| simp only [E.den, Q.den, V.den, $h1:term, $h2:term, $h3:term, Res.bind_ok, grouped, Bin.rule, Bin.op, Nat.reduceLeDiff, if_true, if_false,
    Nat.le_refl])

/-- **How two operators group.** `a o₁ b o₂ c` is read, and means `(a o₁ b) o₂ c` unless the rule of `o₂` binds more tightly than that of
`o₁`: first `* / % + -` together, then the bitwise operators, then all comparisons together, then `LIKE`, then `AND` and `OR` together. -/
theorem C69_grouping (o₁ o₂ : Bin) (a b c : V) (ha : a.Closed) (hb : b.Closed) (hc : c.Closed) :
    ∃ e, parse (a.toks ++ (o₁.toks ++ (b.toks ++ (o₂.toks ++ c.toks)))) = some e ∧
      ∀ (P : Prim) (col : Str → Res Nat) (ta tb tc : Tree P), a.den col = .ok ta → b.den col = .ok tb → c.den col = .ok tc →
        build col e = .ok (grouped (o₂.rule ≤ o₁.rule) o₁.op o₂.op ta tb tc) := by
  have wa := ha.wf
  have wb := hb.wf
  have wc := hc.wf
  have ea := ha.edge
  have eb := hb.edge
  have ec := hc.edge
  have na := ha.head
  have nb := hb.head
  have nc := hc.head
  have na' : ∀ b, a.toks.head? ≠ some (.not b) := by simpa using na []
  have nb' : ∀ x, b.toks.head? ≠ some (.not x) := by simpa using nb []
  have nc' : ∀ b, c.toks.head? ≠ some (.not b) := by simpa using nc []
  suffices h : ∃ e : E, (e.WF 0 ∧ e.toks = a.toks ++ (o₁.toks ++ (b.toks ++ (o₂.toks ++ c.toks)))) ∧
      ∀ (P : Prim) (col : Str → Res Nat) (ta tb tc : Tree P), a.den col = .ok ta → b.den col = .ok tb → c.den col = .ok tc →
        e.den col = .ok (grouped (o₂.rule ≤ o₁.rule) o₁.op o₂.op ta tb tc) by
    obtain ⟨e, h1, h2⟩ := h
    refine ⟨e, (C70_parse _ _).2 h1, fun P col ta tb tc h3 h4 h5 => ?_⟩
    rw [C70_build, h2 P col ta tb tc h3 h4 h5]
  cases o₁ with
  | math o =>
    cases o₂ with
    | math o' => exact ⟨.pred (.value (.math o' (.math o a b) c)), by wf, by
        intro P col ta tb tc h1 h2 h3; den h1, h2, h3⟩
    | bit o' => exact ⟨.pred (.value (.bit o' (.math o a b) c)), by wf, by
        intro P col ta tb tc h1 h2 h3; den h1, h2, h3⟩
    | cmp o' => exact ⟨.pred (.cmp o' (.value (.math o a b)) (.value c)), by wf, by
        intro P col ta tb tc h1 h2 h3; den h1, h2, h3⟩
    | like neg ex => exact ⟨.pred (.like neg ex (.value (.math o a b)) (.value c)), by wf, by
        intro P col ta tb tc h1 h2 h3; den h1, h2, h3⟩
    | log o' => exact ⟨.log o' (.pred (.value (.math o a b))) (.pred (.value c)), by wf, by
        intro P col ta tb tc h1 h2 h3; den h1, h2, h3⟩
  | bit o =>
    cases o₂ with
    | math o' => exact ⟨.pred (.value (.bit o a (.math o' b c))), by wf, by
        intro P col ta tb tc h1 h2 h3; den h1, h2, h3⟩
    | bit o' => exact ⟨.pred (.value (.bit o' (.bit o a b) c)), by wf, by
        intro P col ta tb tc h1 h2 h3; den h1, h2, h3⟩
    | cmp o' => exact ⟨.pred (.cmp o' (.value (.bit o a b)) (.value c)), by wf, by
        intro P col ta tb tc h1 h2 h3; den h1, h2, h3⟩
    | like neg ex => exact ⟨.pred (.like neg ex (.value (.bit o a b)) (.value c)), by wf, by
        intro P col ta tb tc h1 h2 h3; den h1, h2, h3⟩
    | log o' => exact ⟨.log o' (.pred (.value (.bit o a b))) (.pred (.value c)), by wf, by
        intro P col ta tb tc h1 h2 h3; den h1, h2, h3⟩
  | cmp o =>
    cases o₂ with
    | math o' => exact ⟨.pred (.cmp o (.value a) (.value (.math o' b c))), by wf, by
        intro P col ta tb tc h1 h2 h3; den h1, h2, h3⟩
    | bit o' => exact ⟨.pred (.cmp o (.value a) (.value (.bit o' b c))), by wf, by
        intro P col ta tb tc h1 h2 h3; den h1, h2, h3⟩
    | cmp o' => exact ⟨.pred (.cmp o' (.cmp o (.value a) (.value b)) (.value c)), by wf, by
        intro P col ta tb tc h1 h2 h3; den h1, h2, h3⟩
    | like neg ex => exact ⟨.pred (.like neg ex (.cmp o (.value a) (.value b)) (.value c)), by wf, by
        intro P col ta tb tc h1 h2 h3; den h1, h2, h3⟩
    | log o' => exact ⟨.log o' (.pred (.cmp o (.value a) (.value b))) (.pred (.value c)), by wf, by
        intro P col ta tb tc h1 h2 h3; den h1, h2, h3⟩
  | like neg ex =>
    cases o₂ with
    | math o' => exact ⟨.pred (.like neg ex (.value a) (.value (.math o' b c))), by wf, by
        intro P col ta tb tc h1 h2 h3; den h1, h2, h3⟩
    | bit o' => exact ⟨.pred (.like neg ex (.value a) (.value (.bit o' b c))), by wf, by
        intro P col ta tb tc h1 h2 h3; den h1, h2, h3⟩
    | cmp o' => exact ⟨.pred (.like neg ex (.value a) (.cmp o' (.value b) (.value c))), by wf, by
        intro P col ta tb tc h1 h2 h3; den h1, h2, h3⟩
    | like neg' ex' => exact ⟨.pred (.like neg' ex' (.like neg ex (.value a) (.value b)) (.value c)), by wf, by
        intro P col ta tb tc h1 h2 h3; den h1, h2, h3⟩
    | log o' => exact ⟨.log o' (.pred (.like neg ex (.value a) (.value b))) (.pred (.value c)), by wf, by
        intro P col ta tb tc h1 h2 h3; den h1, h2, h3⟩
  | log o =>
    cases o₂ with
    | math o' => exact ⟨.log o (.pred (.value a)) (.pred (.value (.math o' b c))), by wf, by
        intro P col ta tb tc h1 h2 h3; den h1, h2, h3⟩
    | bit o' => exact ⟨.log o (.pred (.value a)) (.pred (.value (.bit o' b c))), by wf, by
        intro P col ta tb tc h1 h2 h3; den h1, h2, h3⟩
    | cmp o' => exact ⟨.log o (.pred (.value a)) (.pred (.cmp o' (.value b) (.value c))), by wf, by
        intro P col ta tb tc h1 h2 h3; den h1, h2, h3⟩
    | like neg ex => exact ⟨.log o (.pred (.value a)) (.pred (.like neg ex (.value b) (.value c))), by wf, by
        intro P col ta tb tc h1 h2 h3; den h1, h2, h3⟩
    | log o' => exact ⟨.log o' (.log o (.pred (.value a)) (.pred (.value b))) (.pred (.value c)), by wf, by
        intro P col ta tb tc h1 h2 h3; den h1, h2, h3⟩

/-! ### The documented precedence -/

/-- The operators of the grammar's comment bind in its order: two operators group to the left if the first is in the same or an earlier line,
else to the right. -/
def AsDocumented (o₁ o₂ : Bin) : Prop :=
  ∀ (d₁ d₂ : Nat), o₁.documented = some d₁ → o₂.documented = some d₂ → ∀ a b c : V, a.Closed → b.Closed → c.Closed →
    ∃ e, parse (a.toks ++ (o₁.toks ++ (b.toks ++ (o₂.toks ++ c.toks)))) = some e ∧
      ∀ (P : Prim) (col : Str → Res Nat) (ta tb tc : Tree P), a.den col = .ok ta → b.den col = .ok tb → c.den col = .ok tc →
        build col e = .ok (grouped (d₂ ≤ d₁) o₁.op o₂.op ta tb tc)

/-- The token of a whole number. -/
def int (n : Nat) : V := .lit (.integer (Format.decimal n))

/-- The texts `1`, `2` and `3`. -/
theorem int_den (n : Nat) (h : n < 2 ^ 31) (col : Str → Res Nat) : (int n).den (P := P) col = .ok (.value (.int32 (BitVec.ofNat 32 n))) := by
  simp only [int, V.den, literal, integerLiteral, Data.parse_decimal 64 n (by omega), Res.bind_ok]
  rw [if_pos (by omega), if_neg (by omega)]

/-- Two operators whose documented order is not that of their rules do not group as documented. -/
theorem not_documented {o₁ o₂ : Bin} {d₁ d₂ : Nat} (h₁ : o₁.documented = some d₁) (h₂ : o₂.documented = some d₂)
    (hr : ¬ (d₂ ≤ d₁ ↔ o₂.rule ≤ o₁.rule)) : ¬ AsDocumented o₁ o₂ := by
  intro h
  obtain ⟨e, he, hd⟩ := h d₁ d₂ h₁ h₂ (int 1) (int 2) (int 3) trivial trivial trivial
  obtain ⟨e', he', hd'⟩ := C69_grouping o₁ o₂ (int 1) (int 2) (int 3) trivial trivial trivial
  rw [he] at he'
  cases Option.some.inj he'
  have h1 := hd Toy.prim (fun _ => .err) _ _ _ (int_den 1 (by decide) _) (int_den 2 (by decide) _) (int_den 3 (by decide) _)
  have h2 := hd' Toy.prim (fun _ => .err) _ _ _ (int_den 1 (by decide) _) (int_den 2 (by decide) _) (int_den 3 (by decide) _)
  rw [h1] at h2
  simp only [Res.ok.injEq, grouped] at h2
  by_cases hd : d₂ ≤ d₁ <;> by_cases hr' : o₂.rule ≤ o₁.rule
  · exact hr ⟨fun _ => hr', fun _ => hd⟩
  · rw [if_pos hd, if_neg hr'] at h2
    simp only [Tree.op.injEq] at h2
    nomatch h2.2.2
  · rw [if_neg hd, if_pos hr'] at h2
    simp only [Tree.op.injEq] at h2
    nomatch h2.2.1
  · exact hr ⟨fun x => absurd x hd, fun x => absurd x hr'⟩

/-- **The documented precedence does not hold**: `+` and `*` group from the left, so do `OR` and `AND`, `=` and `<`. -/
theorem C69_precedence_false : ¬ ∀ o₁ o₂ : Bin, AsDocumented o₁ o₂ :=
  fun h => not_documented (o₁ := .math .plus) (o₂ := .math .star) rfl rfl (by decide) (h _ _)

theorem C69_and_or_false : ¬ AsDocumented (.log .kOr) (.log .kAnd) := not_documented rfl rfl (by decide)

theorem C69_comparison_false : ¬ AsDocumented (.cmp .eq) (.cmp .lt) := not_documented rfl rfl (by decide)

/-- **Operators of different rules, and of the same line of the comment, do group as documented.** What is missing from the full statement: `*`, `/`, `%`
against `+`, `-`; `<` and its kin against `=` and its kin; `AND` against `OR`. -/
theorem C69_precedence_partial (o₁ o₂ : Bin) (h : o₁.rule ≠ o₂.rule ∨ o₁.documented = o₂.documented) : AsDocumented o₁ o₂ := by
  intro d₁ d₂ h₁ h₂ a b c ha hb hc
  obtain ⟨e, he, hd⟩ := C69_grouping o₁ o₂ a b c ha hb hc
  refine ⟨e, he, fun P col ta tb tc h1 h2 h3 => ?_⟩
  rw [hd P col ta tb tc h1 h2 h3]
  have hiff : o₂.rule ≤ o₁.rule ↔ d₂ ≤ d₁ := by
    have bound : ∀ (o : Bin) (d : Nat), o.documented = some d →
        (o.rule = 5 ∧ (d = 8 ∨ d = 7)) ∨ (o.rule = 4 ∧ d = 6) ∨ (o.rule = 3 ∧ (d = 5 ∨ d = 4)) ∨ (o.rule = 2 ∧ d = 3) ∨
          (o.rule = 1 ∧ (d = 2 ∨ d = 1)) := by
      intro o d hd
      cases o with
      | math o => cases o <;> simp_all [Bin.documented, Bin.rule]
      | bit o => cases o <;> simp_all [Bin.documented, Bin.rule]
      | cmp o => cases o <;> simp_all [Bin.documented, Bin.rule]
      | like => simp_all [Bin.documented, Bin.rule]
      | log o => cases o <;> simp_all [Bin.documented, Bin.rule]
    have b1 := bound o₁ d₁ h₁
    have b2 := bound o₂ d₂ h₂
    have h' : o₁.rule ≠ o₂.rule ∨ d₁ = d₂ := h.imp id (fun e => by rw [h₁, h₂] at e; exact Option.some.inj e)
    omega
  by_cases hx : d₂ ≤ d₁
  · simp only [grouped, if_pos hx, if_pos (hiff.2 hx)]
  · simp only [grouped, if_neg hx, if_neg (fun y => hx (hiff.1 y))]

/-- `1 + 2 * 3` is 9, and `1 = 2 < 3` compares a Boolean with 3. -/
example : ∃ e, parse ((int 1).toks ++ [.math .plus] ++ (int 2).toks ++ [.math .star] ++ (int 3).toks) = some e ∧
    ∀ col, (build (P := Toy.prim) col e >>= fun t => evalAs (fun _ => .err) t .boolean) = .ok (.int32 9#32) := by
  obtain ⟨e, he, hd⟩ := C69_grouping (.math .plus) (.math .star) (int 1) (int 2) (int 3) trivial trivial trivial
  refine ⟨e, by simpa [Bin.toks] using he, fun col => ?_⟩
  rw [hd Toy.prim col _ _ _ (int_den 1 (by decide) _) (int_den 2 (by decide) _) (int_den 3 (by decide) _)]
  rfl

/-! ### Suffixes -/

/-- `IS NULL` or `IN` after a predicate. -/
inductive Suffix where
  | isNull (neg : Option Bool)
  | isIn (neg : Option Bool) (exact : Option Exact) (list : L)

/-- Its tokens (g4 L89-90). -/
def Suffix.toks : Suffix → List Tok
  | .isNull neg => .kIs :: (negToks neg ++ [.kNull])
  | .isIn neg exact list => negToks neg ++ .kIn :: (exactToks exact ++ .lparen :: (list.toks ++ [.rparen]))

/-- What it makes of a predicate, given what its list means. -/
def Suffix.apply (args : List (Tree P)) (t : Tree P) : Suffix → Tree P
  | .isNull neg => .op (nullOp neg) t .nil
  | .isIn neg exact _ => .inList t args neg.isSome exact.isSome

/-- The predicate with the suffix. -/
def Suffix.on (q : Q) : Suffix → Q
  | .isNull neg => .isNull q neg
  | .isIn neg exact list => .isIn q neg exact list

/-- The lists of a suffix need no brackets. -/
def Suffix.WF : Suffix → Prop
  | .isNull _ => True
  | .isIn _ _ list => list.WF

/-- What the list of a suffix means. -/
def Suffix.args (col : Str → Res Nat) : Suffix → Res (List (Tree P))
  | .isNull _ => .ok []
  | .isIn _ _ list => list.den col

theorem Suffix.on_toks (q : Q) (s : Suffix) : (s.on q).toks = q.toks ++ s.toks := by
  cases s <;> simp [Suffix.on, Suffix.toks, Q.toks]

theorem Suffix.on_den {q : Q} {s : Suffix} {col : Str → Res Nat} {t : Tree P} {args : List (Tree P)} (hq : q.den col = .ok t)
    (hs : s.args col = .ok args) : (s.on q).den col = .ok (s.apply args t) := by
  cases s with
  | isNull neg => simp only [Suffix.on, Q.den, hq, Res.bind_ok, Suffix.apply]
  | isIn neg exact list =>
    simp only [Suffix.args] at hs
    simp only [Suffix.on, Q.den, hq, hs, Res.bind_ok, Suffix.apply]

theorem Suffix.on_wf {q : Q} {s : Suffix} {p : Nat} (hp : p ≤ 4) (hq : q.WF p) (he : ∀ k, q.edge k) (hs : s.WF) : (s.on q).WF p := by
  cases s with
  | isNull neg => exact ⟨hp, hq, he 4⟩
  | isIn neg exact list => exact ⟨by omega, hq, he 5, hs⟩

/-- **`IS NULL` and `IN` bind more tightly than comparisons and `LIKE`**, though the grammar documents them as binding less tightly: `a = b IS NULL` is
`a = (b IS NULL)`. They apply to the whole of a sum or bitwise operation. -/
theorem C69_suffix (o : Bin) (s : Suffix) (a b : V) (ha : a.Closed) (hb : b.Closed) (hs : s.WF) :
    ∃ e, parse (a.toks ++ (o.toks ++ (b.toks ++ s.toks))) = some e ∧
      ∀ (P : Prim) (col : Str → Res Nat) (ta tb : Tree P) (args : List (Tree P)), a.den col = .ok ta → b.den col = .ok tb → s.args col = .ok args →
        build col e = .ok (if o.rule ≥ 4 then s.apply args (.op o.op ta tb) else .op o.op ta (s.apply args tb)) := by
  have wa := ha.wf
  have wb := hb.wf
  have ea := ha.edge
  have eb := hb.edge
  have na := ha.head
  have nb := hb.head
  suffices h : ∃ e : E, (e.WF 0 ∧ e.toks = a.toks ++ (o.toks ++ (b.toks ++ s.toks))) ∧
      ∀ (P : Prim) (col : Str → Res Nat) (ta tb : Tree P) (args : List (Tree P)), a.den col = .ok ta → b.den col = .ok tb → s.args col = .ok args →
        e.den col = .ok (if o.rule ≥ 4 then s.apply args (.op o.op ta tb) else .op o.op ta (s.apply args tb)) by
    obtain ⟨e, h1, h2⟩ := h
    refine ⟨e, (C70_parse _ _).2 h1, fun P col ta tb args h3 h4 h5 => ?_⟩
    rw [C70_build, h2 P col ta tb args h3 h4 h5]
  have suf : ∀ p, p ≤ 4 → (s.on (.value b)).WF p := fun p hp => Suffix.on_wf hp (wb 0) (fun _ => trivial) hs
  have stoks : (s.on (.value b)).toks = b.toks ++ s.toks := Suffix.on_toks _ _
  cases o with
  | math o =>
    refine ⟨.pred (s.on (.value (.math o a b))), ⟨⟨Suffix.on_wf (by omega) ⟨by omega, wa _, ea _, wb _⟩ (fun _ => trivial) hs, ?_⟩, ?_⟩, ?_⟩
    · intro x
      rw [Suffix.on_toks]
      simp only [Q.toks, V.toks, List.append_assoc]
      exact na _ x
    · simp only [E.toks, Suffix.on_toks, Q.toks, V.toks, Bin.toks, List.append_assoc, List.cons_append, List.nil_append]
    · intro P col ta tb args h1 h2 h3
      simp only [E.den]
      rw [Suffix.on_den (t := .op o.op ta tb) (by simp only [Q.den, V.den, h1, h2, Res.bind_ok]) h3]
      rfl
  | bit o =>
    refine ⟨.pred (s.on (.value (.bit o a b))), ⟨⟨Suffix.on_wf (by omega) ⟨by omega, wa _, ea _, wb _⟩ (fun _ => trivial) hs, ?_⟩, ?_⟩, ?_⟩
    · intro x
      rw [Suffix.on_toks]
      simp only [Q.toks, V.toks, List.append_assoc]
      exact na _ x
    · simp only [E.toks, Suffix.on_toks, Q.toks, V.toks, Bin.toks, List.append_assoc, List.cons_append, List.nil_append]
    · intro P col ta tb args h1 h2 h3
      simp only [E.den]
      rw [Suffix.on_den (t := .op o.op ta tb) (by simp only [Q.den, V.den, h1, h2, Res.bind_ok]) h3]
      rfl
  | cmp o =>
    refine ⟨.pred (.cmp o (.value a) (s.on (.value b))), ⟨⟨⟨by omega, wa 0, trivial, suf 4 (by omega)⟩, ?_⟩, ?_⟩, ?_⟩
    · intro x
      simp only [Q.toks]
      exact na _ x
    · simp only [E.toks, Q.toks, stoks, Bin.toks, List.cons_append, List.nil_append]
    · intro P col ta tb args h1 h2 h3
      simp only [E.den, Q.den, h1, Res.bind_ok]
      rw [Suffix.on_den (t := tb) (by simp only [Q.den, h2]) h3]
      rfl
  | like neg ex =>
    refine ⟨.pred (.like neg ex (.value a) (s.on (.value b))), ⟨⟨⟨by omega, wa 0, trivial, suf 3 (by omega)⟩, ?_⟩, ?_⟩, ?_⟩
    · intro x
      simp only [Q.toks]
      exact na _ x
    · simp only [E.toks, Q.toks, stoks, Bin.toks, List.append_assoc, List.cons_append]
    · intro P col ta tb args h1 h2 h3
      simp only [E.den, Q.den, h1, Res.bind_ok]
      rw [Suffix.on_den (t := tb) (by simp only [Q.den, h2]) h3]
      rfl
  | log o =>
    refine ⟨.log o (.pred (.value a)) (.pred (s.on (.value b))), ⟨⟨by omega, ⟨wa 0, ?_⟩, suf 0 (by omega), ?_⟩, ?_⟩, ?_⟩
    · intro x
      simpa [Q.toks] using na [] x
    · intro x
      rw [stoks]
      exact nb _ x
    · simp only [E.toks, Q.toks, stoks, Bin.toks, List.cons_append, List.nil_append]
    · intro P col ta tb args h1 h2 h3
      simp only [E.den, Q.den, h1, Res.bind_ok]
      rw [Suffix.on_den (t := tb) (by simp only [Q.den, h2]) h3]
      rfl

/-- A suffix after a comparison takes only the right side; the comment has it take the comparison. -/
example : ∃ e, parse ((int 1).toks ++ [.cmp .eq] ++ (int 2).toks ++ [.kIs, .kNull]) = some e ∧
    ∀ col, build (P := P) col e = .ok (.op .equal (.value (.int32 1#32)) (.op .isNull (.value (.int32 2#32)) .nil)) := by
  obtain ⟨e, he, hd⟩ := C69_suffix (.cmp .eq) (.isNull none) (int 1) (int 2) trivial trivial trivial
  refine ⟨e, by simpa [Bin.toks, Suffix.toks, negToks] using he, fun col => ?_⟩
  rw [hd P col _ _ [] (int_den 1 (by decide) _) (int_den 2 (by decide) _) rfl]
  rfl

/-- **A suffix does not apply to a comparison before it**, though the grammar documents it as binding less tightly. -/
theorem C69_suffix_false : ¬ ∀ (a b : V), a.Closed → b.Closed → ∃ e, parse (a.toks ++ (.cmp .eq :: (b.toks ++ [.kIs, .kNull]))) = some e ∧
    ∀ (P : Prim) (col : Str → Res Nat) (ta tb : Tree P), a.den col = .ok ta → b.den col = .ok tb →
      build col e = .ok (.op .isNull (.op .equal ta tb) .nil) := by
  intro h
  obtain ⟨e, he, hd⟩ := h (int 1) (int 2) trivial trivial
  obtain ⟨e', he', hd'⟩ := C69_suffix (.cmp .eq) (.isNull none) (int 1) (int 2) trivial trivial trivial
  have he'' : parse ((int 1).toks ++ (.cmp .eq :: ((int 2).toks ++ [.kIs, .kNull]))) = some e' := by
    simpa [Bin.toks, Suffix.toks, negToks] using he'
  rw [he] at he''
  cases Option.some.inj he''
  have h1 := hd Toy.prim (fun _ => .err) _ _ (int_den 1 (by decide) _) (int_den 2 (by decide) _)
  have h2 := hd' Toy.prim (fun _ => .err) _ _ [] (int_den 1 (by decide) _) (int_den 2 (by decide) _) rfl
  rw [h1] at h2
  exact absurd h2 (by intro h; injection h with h; injection h with h; cases h)

/-- **`NOT` and `!` before an expression** deny all of a sum, bitwise operation, comparison or `LIKE` that follows, and only the left side of
`AND` and `OR`: `!a & b` is `!(a & b)`. -/
theorem C69_not (bang : Bool) (o : Bin) (a b : V) (ha : a.Closed) (hb : b.Closed) :
    ∃ e, parse (.not bang :: (a.toks ++ (o.toks ++ b.toks))) = some e ∧
      ∀ (P : Prim) (col : Str → Res Nat) (ta tb : Tree P), a.den col = .ok ta → b.den col = .ok tb →
        build col e = .ok (if o.rule ≥ 2 then .unary .not (.op o.op ta tb) else .op o.op (.unary .not ta) tb) := by
  have wa := ha.wf
  have wb := hb.wf
  have ea := ha.edge
  have na := ha.head
  have nb := hb.head
  have na' : ∀ x, a.toks.head? ≠ some (.not x) := by simpa using na []
  have nb' : ∀ x, b.toks.head? ≠ some (.not x) := by simpa using nb []
  suffices h : ∃ e : E, (e.WF 0 ∧ e.toks = .not bang :: (a.toks ++ (o.toks ++ b.toks))) ∧
      ∀ (P : Prim) (col : Str → Res Nat) (ta tb : Tree P), a.den col = .ok ta → b.den col = .ok tb →
        e.den col = .ok (if o.rule ≥ 2 then .unary .not (.op o.op ta tb) else .op o.op (.unary .not ta) tb) by
    obtain ⟨e, h1, h2⟩ := h
    refine ⟨e, (C70_parse _ _).2 h1, fun P col ta tb h3 h4 => ?_⟩
    rw [C70_build, h2 P col ta tb h3 h4]
  cases o with
  | math o => exact ⟨.not bang (.pred (.value (.math o a b))), by wf, by
      intro P col ta tb h1 h2; simp only [E.den, Q.den, V.den, h1, h2, Res.bind_ok]; rfl⟩
  | bit o => exact ⟨.not bang (.pred (.value (.bit o a b))), by wf, by
      intro P col ta tb h1 h2; simp only [E.den, Q.den, V.den, h1, h2, Res.bind_ok]; rfl⟩
  | cmp o => exact ⟨.not bang (.pred (.cmp o (.value a) (.value b))), by wf, by
      intro P col ta tb h1 h2; simp only [E.den, Q.den, h1, h2, Res.bind_ok]; rfl⟩
  | like neg ex => exact ⟨.not bang (.pred (.like neg ex (.value a) (.value b))), by wf, by
      intro P col ta tb h1 h2; simp only [E.den, Q.den, h1, h2, Res.bind_ok]; rfl⟩
  | log o => exact ⟨.log o (.not bang (.pred (.value a))) (.pred (.value b)), by wf, by
      intro P col ta tb h1 h2; simp only [E.den, Q.den, h1, h2, Res.bind_ok]; rfl⟩

/-- `!a & b` of columns 0 and 1. -/
example : ∃ e, parse [.not true, .ident [ch 'a'], .bit .amp, .ident [ch 'b']] = some e ∧
    build (P := P) (fun s => .ok (if s = [ch 'a'] then 0 else 1)) e = .ok (.unary .not (.op .bitwiseAnd (.column 0) (.column 1))) := by
  obtain ⟨e, he, hd⟩ := C69_not true (.bit .amp) (.column [ch 'a']) (.column [ch 'b']) trivial trivial
  exact ⟨e, by simpa [Bin.toks, V.toks] using he, by rw [hd P _ (.column 0) (.column 1) rfl rfl]; rfl⟩

/-! ### Brackets -/

/-- A value as an expression. -/
def up (v : V) : E := .pred (.value v)

mutual

/-- The expression with brackets round every operation. -/
def E.box : E → V
  | .not b e => .paren (.not b (up e.box))
  | .log o l r => .paren (.log o (up l.box) (up r.box))
  | .pred q => q.box

/-- The predicate with brackets round every operation. -/
def Q.box : Q → V
  | .isIn q neg exact list => .paren (.pred (.isIn (.value q.box) neg exact list.box))
  | .isNull q neg => .paren (.pred (.isNull (.value q.box) neg))
  | .cmp o l r => .paren (.pred (.cmp o (.value l.box) (.value r.box)))
  | .like neg exact l r => .paren (.pred (.like neg exact (.value l.box) (.value r.box)))
  | .value v => v.box

/-- The value with brackets round every operation. -/
def V.box : V → V
  | .lit l => .lit l
  | .column name => .column name
  | .call0 f => .call0 f
  | .call f args => .call f args.box
  | .unary (.not b) v => .paren (.not b (up v.box))
  | .unary .minus v => .paren (up (.unary .minus v.box))
  | .unary .plus v => .paren (up (.unary .plus v.box))
  | .unary .tilde v => .paren (up (.unary .tilde v.box))
  | .paren e => e.box
  | .math o l r => .paren (up (.math o l.box r.box))
  | .bit o l r => .paren (up (.bit o l.box r.box))

/-- Each expression of the list with brackets round every operation. -/
def L.box : L → L
  | .one e => .one (up e.box)
  | .cons e l => .cons (up e.box) l.box

end

theorem up_wf {v : V} (h : v.Closed) (p : Nat) : (up v).WF p :=
  ⟨h.wf 0, fun b => by simpa [Q.toks] using h.head [] b⟩

theorem up_den (v : V) (col : Str → Res Nat) : (up v).den (P := P) col = v.den col := by simp only [up, E.den, Q.den]

mutual

theorem E.box_closed : ∀ e : E, e.box.Closed
  | .not b e => up_wf (E.box_closed e) 3
  | .log o l r => ⟨by omega, up_wf (E.box_closed l) 0, up_wf (E.box_closed r) 3⟩
  | .pred q => by simp only [E.box]; exact Q.box_closed q

theorem Q.box_closed : ∀ q : Q, q.box.Closed
  | .isIn q neg exact list =>
    ⟨⟨by omega, (Q.box_closed q).wf 0, trivial, L.box_wf list⟩, fun b => by simp only [Q.toks]; exact (Q.box_closed q).head _ b⟩
  | .isNull q neg => ⟨⟨by omega, (Q.box_closed q).wf 0, trivial⟩, fun b => by simp only [Q.toks]; exact (Q.box_closed q).head _ b⟩
  | .cmp o l r =>
    ⟨⟨by omega, (Q.box_closed l).wf 0, trivial, (Q.box_closed r).wf 0⟩, fun b => by simp only [Q.toks]; exact (Q.box_closed l).head _ b⟩
  | .like neg exact l r =>
    ⟨⟨by omega, (Q.box_closed l).wf 0, trivial, (Q.box_closed r).wf 0⟩, fun b => by simp only [Q.toks]; exact (Q.box_closed l).head _ b⟩
  | .value v => by simp only [Q.box]; exact V.box_closed v

theorem V.box_closed : ∀ v : V, v.box.Closed
  | .lit _ => trivial
  | .column _ => trivial
  | .call0 _ => trivial
  | .call _ args => by simp only [V.box, V.Closed]; exact L.box_wf args
  | .unary (.not b) v => by simp only [V.box]; exact up_wf (V.box_closed v) 3
  | .unary .minus v => by
    simp only [V.box]
    exact ⟨(V.box_closed v).wf 4, fun b => by simp [Q.toks, V.toks, Un.tok]⟩
  | .unary .plus v => by
    simp only [V.box]
    exact ⟨(V.box_closed v).wf 4, fun b => by simp [Q.toks, V.toks, Un.tok]⟩
  | .unary .tilde v => by
    simp only [V.box]
    exact ⟨(V.box_closed v).wf 4, fun b => by simp [Q.toks, V.toks, Un.tok]⟩
  | .paren e => by simp only [V.box]; exact E.box_closed e
  | .math o l r => by
    simp only [V.box]
    exact ⟨⟨by omega, (V.box_closed l).wf 0, (V.box_closed l).edge 2, (V.box_closed r).wf 3⟩, fun b => by
      simp only [Q.toks, V.toks]; exact (V.box_closed l).head _ b⟩
  | .bit o l r => by
    simp only [V.box]
    exact ⟨⟨by omega, (V.box_closed l).wf 0, (V.box_closed l).edge 1, (V.box_closed r).wf 2⟩, fun b => by
      simp only [Q.toks, V.toks]; exact (V.box_closed l).head _ b⟩

theorem L.box_wf : ∀ l : L, l.box.WF
  | .one e => up_wf (E.box_closed e) 0
  | .cons e l => ⟨up_wf (E.box_closed e) 0, L.box_wf l⟩

end

mutual

theorem E.box_den (col : Str → Res Nat) : ∀ e : E, e.box.den (P := P) col = e.den col
  | .not b e => by simp only [E.box, V.den, E.den, up_den, E.box_den col e]
  | .log o l r => by simp only [E.box, V.den, E.den, up_den, E.box_den col l, E.box_den col r]
  | .pred q => by simp only [E.box, E.den, Q.box_den col q]

theorem Q.box_den (col : Str → Res Nat) : ∀ q : Q, q.box.den (P := P) col = q.den col
  | .isIn q neg exact list => by simp only [Q.box, V.den, E.den, Q.den, Q.box_den col q, L.box_den col list]
  | .isNull q neg => by simp only [Q.box, V.den, E.den, Q.den, Q.box_den col q]
  | .cmp o l r => by simp only [Q.box, V.den, E.den, Q.den, Q.box_den col l, Q.box_den col r]
  | .like neg exact l r => by simp only [Q.box, V.den, E.den, Q.den, Q.box_den col l, Q.box_den col r]
  | .value v => by simp only [Q.box, Q.den, V.box_den col v]

theorem V.box_den (col : Str → Res Nat) : ∀ v : V, v.box.den (P := P) col = v.den col
  | .lit _ => rfl
  | .column _ => rfl
  | .call0 _ => rfl
  | .call f args => by simp only [V.box, V.den, L.box_den col args]
  | .unary (.not b) v => by simp only [V.box, V.den, E.den, up_den, V.box_den col v, Un.unary]
  | .unary .minus v => by simp only [V.box, V.den, up_den, V.box_den col v]
  | .unary .plus v => by simp only [V.box, V.den, up_den, V.box_den col v]
  | .unary .tilde v => by simp only [V.box, V.den, up_den, V.box_den col v]
  | .paren e => by simp only [V.box, V.den, E.box_den col e]
  | .math o l r => by simp only [V.box, V.den, up_den, V.box_den col l, V.box_den col r]
  | .bit o l r => by simp only [V.box, V.den, up_den, V.box_den col l, V.box_den col r]

theorem L.box_den (col : Str → Res Nat) : ∀ l : L, l.box.den (P := P) col = l.den col
  | .one e => by simp only [L.box, L.den, up_den, E.box_den col e]
  | .cons e l => by simp only [L.box, L.den, up_den, E.box_den col e, L.box_den col l]

end

/-- **With brackets every grouping can be written**: the text of any syntax tree with brackets round its operations is read, and gives the expression
tree of the syntax tree. -/
theorem C70_brackets (e : E) : ∃ e', parse e.box.toks = some e' ∧ ∀ (P : Prim) (col : Str → Res Nat), build (P := P) col e' = build col e := by
  refine ⟨up e.box, (C70_parse _ _).2 ⟨up_wf (E.box_closed e) 0, by simp only [up, E.toks, Q.toks]⟩, fun P col => ?_⟩
  rw [C70_build, C70_build, up_den, E.box_den]

/-- `(1 + (2 * 3))`, which is not how `1 + 2 * 3` is read. -/
example : (E.box (up (.math .plus (int 1) (.math .star (int 2) (int 3))))).toks =
    [.lparen, .integer (Format.decimal 1), .math .plus, .lparen, .integer (Format.decimal 2), .math .star, .integer (Format.decimal 3), .rparen,
      .rparen] := rfl

end Verif.Parse
