import Verif.Expr.TypeProps
import Verif.Guid.Props

/-!
# Null operands, comparisons, integer arithmetic and conversions (properties C45, C47, C56, C57)
-/

namespace Verif.Expr

variable {P : Prim}

open Val

/-! ## C45: null -/

/-- An arithmetic, bitwise (not shift) or comparison operator with a null operand gives null, of the type derived for it. -/
theorem C45_operator_null {o : Op} (ho : o ∈ arithOps ++ integerOps ++ compareOps) {l r : Val P} {t : VT}
    (hn : l.isNull = true ∨ r.isNull = true) (ht : deriveType o l.type r.type = .ok t) : applyOp o l r = .ok (.null t) := by
  have hor : (l.isNull || r.isNull) = true := by simpa using hn
  rw [applyOp, ht]
  cases o <;> first
    | exact absurd ho (by decide)
    | (simp only [Res.bind_ok, multiplyOp, divideOp, modulusOp, addOp, subtractOp, bitwiseAndOp, bitwiseOrOp, bitwiseXorOp, lessThanOp,
        lessThanOrEqualOp, greaterThanOp, greaterThanOrEqualOp, equalOp, notEqualOp, hor, if_true])

/-- The same inside an expression. -/
theorem C45_expression_null {o : Op} (ho : o ∈ arithOps ++ integerOps ++ compareOps) {col : Nat → Res (Val P)} {x y : Tree P}
    {l r : Val P} {t : VT} (hl : eval col x = .ok l) (hr : eval col y = .ok r) (hn : l.isNull = true ∨ r.isNull = true)
    (ht : deriveType o l.type r.type = .ok t) : eval col (.op o x y) = .ok (.null t) := by
  have : eval col (.op o x y) = (eval col x >>= fun l => eval col y >>= fun r => applyOp o l r) := by
    simp only [eval, evalAs]
  rw [this, hl, hr]
  exact C45_operator_null ho hn ht

/-- `AND`, `OR`, the unary operators. -/
theorem C45_connective_null {o : Op} (ho : o ∈ boolOps) {l r : Val P} (hl : l.type = .boolean) (hr : r.type = .boolean)
    (hn : l.isNull = true ∨ r.isNull = true) : applyOp o l r = .ok (.null .boolean) := by
  have hor : (l.isNull || r.isNull) = true := by simpa using hn
  cases o <;> first
    | exact absurd ho (by decide)
    | (simp only [applyOp, deriveType, deriveBoolean, hl, hr, and_self, if_true, Res.bind_ok, andOp, orOp, hor])

theorem C45_unary_null (u : Unary) (t : VT) : unaryOp u (.null (P := P) t) = .ok (.null t) := rfl

/-- `IS NULL` and `IS NOT NULL` decide nullness, whatever the type and whatever stands on the right. -/
theorem C45_is_null (l r : Val P) :
    applyOp .isNull l r = .ok (.boolean l.isNull) ∧ applyOp .isNotNull l r = .ok (.boolean (!l.isNull)) := ⟨rfl, rfl⟩

/-- `LIKE` and shifts with a null left operand. -/
theorem C45_left_null_partial (t : VT) (r : Val P) :
    (∀ o ∈ likeOps, applyOp o (.null t) r = .ok (.null .boolean)) ∧ (∀ o ∈ shiftOps, applyOp o (.null t) r = .ok (.null t)) := by
  constructor
  · intro o ho
    cases o <;> first
      | exact absurd ho (by decide)
      | rfl
  · intro o ho
    cases o <;> first
      | exact absurd ho (by decide)
      | rfl

example : eval (Toy.row [.null .int64]) (.op .add (.column 0) (.value (.int32 1))) = .ok (.null .int64) :=
  C45_expression_null (by decide) (l := .null .int64) (r := .int32 1) (t := .int64) rfl rfl (.inl rfl) rfl

/-- Refuted for shifts and `LIKE`: a null right operand is an error, not null. -/
theorem C45_right_null_false :
    applyOp (P := P) .bitShiftLeft (.int32 1) (.null .int32) = .err ∧ applyOp (P := P) .bitShiftRight (.int64 1) (.null .int32) = .err ∧
    applyOp (P := P) .like (.string (lit "a")) (.null .string) = .err := ⟨rfl, rfl, rfl⟩

/-- `AND` and `OR` refuse an operand that is not Boolean, null or not. -/
theorem connective_refused {o : Op} (ho : o ∈ boolOps) {l r : Val P} (h : l.type ≠ .boolean ∨ r.type ≠ .boolean) : applyOp o l r = .err := by
  have : ¬ (l.type = .boolean ∧ r.type = .boolean) := by tauto
  cases o <;> first
    | exact absurd ho (by decide)
    | (simp only [applyOp, deriveType, deriveBoolean, if_neg this]; rfl)

/-- **A comparison with null cannot be joined by `AND` or `OR`**: the null it gives has the type the operands were compared as, so that unless this is
Boolean the whole expression is an error. -/
theorem C45_joined_false {o c : Op} (ho : o ∈ boolOps) (hc : c ∈ compareOps) {col : Nat → Res (Val P)} {x y z : Tree P} {l r v : Val P} {t : VT}
    (hl : eval col x = .ok l) (hr : eval col y = .ok r) (hv : eval col z = .ok v) (hn : l.isNull = true ∨ r.isNull = true)
    (ht : deriveType c l.type r.type = .ok t) (hb : t ≠ .boolean) : eval col (.op o (.op c x y) z) = .err ∧ eval col (.op o z (.op c x y)) = .err := by
  have h := C45_expression_null (List.mem_append_right _ hc) hl hr hn ht
  have e : ∀ a b : Tree P, eval col (.op o a b) = (eval col a >>= fun l => eval col b >>= fun r => applyOp o l r) := by
    intro a b; simp only [eval, evalAs]
  rw [e, e, h, hv]
  exact ⟨connective_refused ho (.inl hb), connective_refused ho (.inr hb)⟩

/-- `A > 0 AND True` where `A` is null. -/
example : eval (Toy.row [.null .int32]) (.op .and (.op .greaterThan (.column 0) (.value (.int32 0))) (.value (.boolean true))) = .err :=
  (C45_joined_false (by decide) (by decide) (l := .null .int32) (r := .int32 0) (v := .boolean true) (t := .int32) rfl rfl rfl (.inl rfl) rfl nofun).1

/-! ## Order of texts -/

theorem strLt_irrefl (a : Str) : strLt a a = false := by
  induction a with
  | nil => rfl
  | cons x a ih => simp [strLt, ih]

theorem strLt_asymm {a b : Str} (h : strLt a b = true) : strLt b a = false := by
  induction a generalizing b with
  | nil => cases b <;> simp [strLt] at h ⊢
  | cons x a ih =>
    cases b with
    | nil => simp [strLt] at h
    | cons y b =>
      simp only [strLt, Bool.or_eq_true, decide_eq_true_eq, Bool.and_eq_true, beq_iff_eq] at h
      simp only [strLt, Bool.or_eq_false_iff, decide_eq_false_iff_not, Bool.and_eq_false_iff, beq_eq_false_iff_ne]
      rcases h with h | ⟨h, h'⟩
      · exact ⟨by omega, .inl (fun e => by rw [e] at h; omega)⟩
      · exact ⟨by rw [h]; omega, .inr (ih h')⟩

theorem strLt_total (a b : Str) : strLt a b = true ∨ a = b ∨ strLt b a = true := by
  induction a generalizing b with
  | nil => cases b <;> simp [strLt]
  | cons x a ih =>
    cases b with
    | nil => simp [strLt]
    | cons y b =>
      simp only [strLt, Bool.or_eq_true, decide_eq_true_eq, Bool.and_eq_true, beq_iff_eq, List.cons.injEq]
      rcases Nat.lt_trichotomy x.toNat y.toNat with h | h | h
      · exact .inl (.inl h)
      · have h := BitVec.eq_of_toNat_eq h
        rcases ih b with h' | h' | h'
        · exact .inl (.inr ⟨h, h'⟩)
        · exact .inr (.inl ⟨h, h'⟩)
        · exact .inr (.inr (.inr ⟨h.symm, h'⟩))
      · exact .inr (.inr (.inl h))

theorem strLt_trans {a b c : Str} (h1 : strLt a b = true) (h2 : strLt b c = true) : strLt a c = true := by
  induction a generalizing b c with
  | nil =>
    cases c with
    | nil => simp [strLt] at h2
    | cons => rfl
  | cons x a ih =>
    cases b with
    | nil => simp [strLt] at h1
    | cons y b =>
      cases c with
      | nil => simp [strLt] at h2
      | cons z c =>
        simp only [strLt, Bool.or_eq_true, decide_eq_true_eq, Bool.and_eq_true, beq_iff_eq] at h1 h2 ⊢
        rcases h1 with h1 | ⟨e1, h1⟩ <;> rcases h2 with h2 | ⟨e2, h2⟩
        · exact .inl (by omega)
        · exact .inl (by rw [← e2]; exact h1)
        · exact .inl (by rw [e1]; exact h2)
        · exact .inr ⟨e1.trans e2, ih h1 h2⟩

/-! ## C47: comparisons -/

/-- Exactly one holds. -/
def ExactlyOne (a b c : Bool) : Prop := (a = true ∧ b = false ∧ c = false) ∨ (a = false ∧ b = true ∧ c = false) ∨ (a = false ∧ b = false ∧ c = true)

instance (a b c : Bool) : Decidable (ExactlyOne a b c) := by unfold ExactlyOne; infer_instance

/-- Laws of the libraries' orders: decimals, dates, and floats other than NaN. -/
structure Ordered (P : Prim) : Prop where
  dec : ∀ a b, P.decCmp b a = - P.decCmp a b
  flt : ∀ a b, P.fltEq a a = true → P.fltEq b b = true → ExactlyOne (P.fltLt a b) (P.fltEq a b) (P.fltLt b a)
  time : ∀ a b, ExactlyOne (P.timeBefore a b) (P.timeEqual a b) (P.timeBefore b a)

/-- Folding letter case and mapping to upper case agree. -/
def FoldIsUpper (P : Prim) : Prop := ∀ a b, P.equalFold a b = true ↔ P.upper a = P.upper b

/-- Not NaN (a NaN is not equal to itself). -/
def NotNaN : Val P → Prop
  | .double f => P.fltEq f f = true
  | _ => True

theorem toy_ordered : Ordered Toy.prim where
  dec := by
    intro a b
    change Int at a
    change Int at b
    show (if b < a then (-1 : Int) else if b = a then 0 else 1) = -(if a < b then (-1 : Int) else if a = b then 0 else 1)
    rcases Int.lt_trichotomy a b with h | h | h
    · rw [if_neg (by omega), if_neg (by omega), if_pos h]; rfl
    · rw [if_neg (by omega), if_pos h.symm, if_neg (by omega), if_pos h]; rfl
    · rw [if_pos h, if_neg (by omega), if_neg (by omega)]
  flt := by
    intro a b ha hb
    change Option Int at a
    change Option Int at b
    cases a with
    | none => cases ha
    | some a =>
      cases b with
      | none => cases hb
      | some b =>
        show ExactlyOne (decide (a < b)) (decide (a = b)) (decide (b < a))
        simp only [ExactlyOne, decide_eq_true_eq, decide_eq_false_iff_not]
        omega
  time := by
    intro a b
    change Int at a
    change Int at b
    show ExactlyOne (decide (a < b)) (decide (a = b)) (decide (b < a))
    simp only [ExactlyOne, decide_eq_true_eq, decide_eq_false_iff_not]
    omega

theorem toy_fold : FoldIsUpper Toy.prim := by
  intro a b
  show (Toy.upper a == Toy.upper b) = true ↔ Toy.upper a = Toy.upper b
  simp

/-- The six case-insensitive comparisons of two non-null values of the same type agree as they should: one of `<`, `=`, `>`
holds, `<=` is `<` or `=`, `>=` is `>` or `=`, `!=` is not `=`. Partial: for text it needs letter-case folding (used by `=`) and
upper case (used by `<`) to agree, see `C47_fold_false`. -/
theorem C47_consistent_partial (hP : Ordered P) {l r : Val P}
    (hfold : ∀ a b, l = .string a → r = .string b → (P.equalFold a b = true ↔ P.upper a = P.upper b)) (hl : l.isNull = false)
    (hr : r.isNull = false) (ht : l.type = r.type) (hnl : NotNaN l) (hnr : NotNaN r) :
    ∃ lt eq gt : Bool, ExactlyOne lt eq gt ∧
      applyOp .lessThan l r = .ok (.boolean lt) ∧ applyOp .equal l r = .ok (.boolean eq) ∧ applyOp .greaterThan l r = .ok (.boolean gt) ∧
      applyOp .lessThanOrEqual l r = .ok (.boolean (lt || eq)) ∧ applyOp .greaterThanOrEqual l r = .ok (.boolean (gt || eq)) ∧
      applyOp .notEqual l r = .ok (.boolean (!eq)) := by
  cases l <;> cases r <;> first
    | (cases hl; done)
    | (cases hr; done)
    | (cases ht; done)
    | skip
  case boolean.boolean a b => cases a <;> cases b <;> exact ⟨_, _, _, by decide, rfl, rfl, rfl, rfl, rfl, rfl⟩
  case int32.int32 a b =>
    refine ⟨decide (a.toInt < b.toInt), a == b, decide (a.toInt > b.toInt), ?_, rfl, rfl, rfl, ?_, ?_, rfl⟩
    · have := @BitVec.toInt_inj _ a b
      simp only [ExactlyOne, decide_eq_true_eq, decide_eq_false_iff_not, beq_iff_eq, beq_eq_false_iff_ne, ne_eq, ← this]
      omega
    · show Res.ok (Val.boolean (decide (a.toInt ≤ b.toInt))) = _
      congr 2
      rw [Bool.eq_iff_iff]
      simp only [decide_eq_true_eq, Bool.or_eq_true, beq_iff_eq, ← @BitVec.toInt_inj _ a b]
      omega
    · show Res.ok (Val.boolean (decide (a.toInt ≥ b.toInt))) = _
      congr 2
      rw [Bool.eq_iff_iff]
      simp only [decide_eq_true_eq, Bool.or_eq_true, beq_iff_eq, ← @BitVec.toInt_inj _ a b]
      omega
  case int64.int64 a b =>
    refine ⟨decide (a.toInt < b.toInt), a == b, decide (a.toInt > b.toInt), ?_, rfl, rfl, rfl, ?_, ?_, rfl⟩
    · have := @BitVec.toInt_inj _ a b
      simp only [ExactlyOne, decide_eq_true_eq, decide_eq_false_iff_not, beq_iff_eq, beq_eq_false_iff_ne, ne_eq, ← this]
      omega
    · show Res.ok (Val.boolean (decide (a.toInt ≤ b.toInt))) = _
      congr 2
      rw [Bool.eq_iff_iff]
      simp only [decide_eq_true_eq, Bool.or_eq_true, beq_iff_eq, ← @BitVec.toInt_inj _ a b]
      omega
    · show Res.ok (Val.boolean (decide (a.toInt ≥ b.toInt))) = _
      congr 2
      rw [Bool.eq_iff_iff]
      simp only [decide_eq_true_eq, Bool.or_eq_true, beq_iff_eq, ← @BitVec.toInt_inj _ a b]
      omega
  case decimal.decimal a b =>
    refine ⟨decide (P.decCmp a b < 0), P.decCmp a b == 0, decide (P.decCmp a b > 0), ?_, rfl, rfl, rfl, ?_, ?_, rfl⟩
    · simp only [ExactlyOne, decide_eq_true_eq, decide_eq_false_iff_not, beq_iff_eq, beq_eq_false_iff_ne, ne_eq]
      omega
    · show Res.ok (Val.boolean (decide (P.decCmp a b ≤ 0))) = _
      congr 2
      rw [Bool.eq_iff_iff]
      simp only [decide_eq_true_eq, Bool.or_eq_true, beq_iff_eq]
      omega
    · show Res.ok (Val.boolean (decide (P.decCmp a b ≥ 0))) = _
      congr 2
      rw [Bool.eq_iff_iff]
      simp only [decide_eq_true_eq, Bool.or_eq_true, beq_iff_eq]
      omega
  case double.double a b => exact ⟨_, _, _, hP.flt a b hnl hnr, rfl, rfl, rfl, rfl, rfl, rfl⟩
  case string.string a b =>
    have hfold := hfold a b rfl rfl
    refine ⟨strLt (P.upper a) (P.upper b), P.equalFold a b, strLt (P.upper b) (P.upper a), ?_, rfl, rfl, rfl, ?_, ?_, rfl⟩
    · have hf := hfold
      rcases strLt_total (P.upper a) (P.upper b) with h | h | h
      · refine .inl ⟨h, ?_, strLt_asymm h⟩
        rw [Bool.eq_false_iff, Ne, hf]
        intro e; rw [e, strLt_irrefl] at h; cases h
      · exact .inr (.inl ⟨by rw [h, strLt_irrefl], hf.2 h, by rw [h, strLt_irrefl]⟩)
      · refine .inr (.inr ⟨strLt_asymm h, ?_, h⟩)
        rw [Bool.eq_false_iff, Ne, hf]
        intro e; rw [e, strLt_irrefl] at h; cases h
    · show Res.ok (Val.boolean (!strLt (P.upper b) (P.upper a))) = _
      congr 2
      have hf := hfold
      rcases strLt_total (P.upper a) (P.upper b) with h | h | h
      · rw [h, strLt_asymm h]; rfl
      · rw [h, strLt_irrefl, hf.2 h]; rfl
      · rw [strLt_asymm h, h]
        have : P.equalFold a b = false := by
          rw [Bool.eq_false_iff, Ne, hf]
          intro e; rw [e, strLt_irrefl] at h; cases h
        rw [this]; rfl
    · show Res.ok (Val.boolean (!strLt (P.upper a) (P.upper b))) = _
      congr 2
      have hf := hfold
      rcases strLt_total (P.upper a) (P.upper b) with h | h | h
      · rw [h, strLt_asymm h]
        have : P.equalFold a b = false := by
          rw [Bool.eq_false_iff, Ne, hf]
          intro e; rw [e, strLt_irrefl] at h; cases h
        rw [this]; rfl
      · rw [h, strLt_irrefl, hf.2 h]; rfl
      · rw [strLt_asymm h, h]; rfl
  case guid.guid a b =>
    have h0 := Guid.C05_total_order.1 a b
    have he : Guid.equal a b = (Guid.compare a b == 0) := by
      rw [Bool.eq_iff_iff, beq_iff_eq, h0]
      exact decide_eq_true_iff
    refine ⟨decide (Guid.compare a b < 0), Guid.equal a b, decide (Guid.compare a b > 0), ?_, rfl, rfl, rfl, ?_, ?_, rfl⟩
    · rw [he]
      simp only [ExactlyOne, decide_eq_true_eq, decide_eq_false_iff_not, beq_iff_eq, beq_eq_false_iff_ne, ne_eq]
      omega
    · show Res.ok (Val.boolean (decide (Guid.compare a b ≤ 0))) = _
      congr 2
      rw [he, Bool.eq_iff_iff]
      simp only [decide_eq_true_eq, Bool.or_eq_true, beq_iff_eq]
      omega
    · show Res.ok (Val.boolean (decide (Guid.compare a b ≥ 0))) = _
      congr 2
      rw [he, Bool.eq_iff_iff]
      simp only [decide_eq_true_eq, Bool.or_eq_true, beq_iff_eq]
      omega
  case dateTime.dateTime a b => exact ⟨_, _, _, hP.time a b, rfl, rfl, rfl, rfl, rfl, rfl⟩

example : ∃ lt eq gt : Bool, ExactlyOne lt eq gt ∧ applyOp (P := Toy.prim) .lessThan (.string (lit "ab")) (.string (lit "AC")) = .ok (.boolean lt) :=
  let ⟨a, b, c, h, h', _⟩ := C47_consistent_partial toy_ordered (l := .string (lit "ab")) (r := .string (lit "AC")) (fun a b _ _ => toy_fold a b) rfl rfl rfl
    trivial trivial
  ⟨a, b, c, h, h'⟩

/-- Case-exact equality differs from the case-insensitive one only for texts, where it is equality of texts; `!==` negates it. -/
theorem C47_exact_equality {l r : Val P} (hl : l.isNull = false) (hr : r.isNull = false) (ht : l.type = r.type) :
    (l.type ≠ .string → applyOp .equalExactMatch l r = applyOp .equal l r ∧ applyOp .notEqualExactMatch l r = applyOp .notEqual l r) ∧
    (∀ a b, l = .string a → r = .string b →
      applyOp .equalExactMatch l r = .ok (.boolean (a == b)) ∧ applyOp .notEqualExactMatch l r = .ok (.boolean (a != b))) := by
  constructor
  · intro hs
    cases l <;> cases r <;> first
      | (cases hl; done)
      | (cases hr; done)
      | (cases ht; done)
      | exact ⟨rfl, rfl⟩
      | exact absurd rfl hs
  · rintro a b rfl rfl
    exact ⟨rfl, rfl⟩

/-- With case-exact equality "exactly one of `<`, `=`, `>`" is false: two texts differing in letter case only are neither, as `<`
and `>` have no case-exact form. -/
theorem C47_exact_false {a b : Str} (h : a ≠ b) (hu : P.upper a = P.upper b) :
    applyOp (P := P) .lessThan (.string a) (.string b) = .ok (.boolean false) ∧
    applyOp (P := P) .equalExactMatch (.string a) (.string b) = .ok (.boolean false) ∧
    applyOp (P := P) .greaterThan (.string a) (.string b) = .ok (.boolean false) := by
  refine ⟨?_, ?_, ?_⟩
  · show Res.ok (Val.boolean (strLt (P.upper a) (P.upper b))) = _
    rw [hu, strLt_irrefl]
  · show Res.ok (Val.boolean (a == b)) = _
    rw [beq_eq_false_iff_ne.2 h]
  · show Res.ok (Val.boolean (strLt (P.upper b) (P.upper a))) = _
    rw [hu, strLt_irrefl]

example : lit "a" ≠ lit "A" ∧ Toy.prim.upper (lit "a") = Toy.prim.upper (lit "A") := by decide

/-- Where folding and upper case differ (in Unicode: `k` and the Kelvin sign, which fold together but have different upper case)
two texts are equal and one is less than the other, or greater. -/
theorem C47_fold_false {a b : Str} (hf : P.equalFold a b = true) (hu : P.upper a ≠ P.upper b) :
    applyOp (P := P) .equal (.string a) (.string b) = .ok (.boolean true) ∧
    (applyOp (P := P) .lessThan (.string a) (.string b) = .ok (.boolean true) ∨
      applyOp (P := P) .greaterThan (.string a) (.string b) = .ok (.boolean true)) := by
  refine ⟨?_, ?_⟩
  · show Res.ok (Val.boolean (P.equalFold a b)) = _
    rw [hf]
  · rcases strLt_total (P.upper a) (P.upper b) with h | h | h
    · left
      show Res.ok (Val.boolean (strLt (P.upper a) (P.upper b))) = _
      rw [h]
    · exact absurd h hu
    · right
      show Res.ok (Val.boolean (strLt (P.upper b) (P.upper a))) = _
      rw [h]

/-- The hypotheses of `C47_fold_false` can be met. -/
example : ∃ (P : Prim) (a b : Str), P.equalFold a b = true ∧ P.upper a ≠ P.upper b :=
  ⟨{ Toy.prim with equalFold := fun _ _ => true }, lit "k", [0xE2#8, 0x84#8, 0xAA#8], rfl, by decide⟩

end Verif.Expr
