import Verif.Expr.OpProps
import Verif.Guid.Props

/-!
# IIf, Power and the selecting functions (properties C50, C51, C52)
-/

namespace Verif.Expr

variable {P : Prim}

open Val

/-- The call of a function with given argument values. -/
def call (f : Fn) (vs : List (Val P)) : Res (Val P) := applyFn f (vs.map fun v _ => .ok v)

/-- The arguments evaluate to these values, for whatever type they are evaluated. -/
def Evaluates (col : Nat → Res (Val P)) (args : List (Tree P)) (vs : List (Val P)) : Prop :=
  List.Forall₂ (fun a v => ∀ t, evalAs col a t = .ok v) args vs

/-- A call in an expression is the call with the values of its arguments. -/
theorem eval_call {col : Nat → Res (Val P)} {args : List (Tree P)} {vs : List (Val P)} (f : Fn) (h : Evaluates col args vs) :
    eval col (.func f args) = call f vs := by
  unfold eval call
  rw [evalAs, evalArgs_eq]
  congr 1
  induction h with
  | nil => rfl
  | cons ha _ ih =>
    simp only [List.map_cons]
    rw [ih]
    congr 1
    funext t
    exact ha t

example : Evaluates (Toy.row [.int32 5]) [.column 0, .value (.string (lit "x"))] [.int32 5, .string (lit "x")] :=
  .cons (fun _ => rfl) (.cons (fun _ => rfl) .nil)

/-! ## C50: IIf

Full statement: `IIf(c, a, b)` evaluates to `a` when `c` is true and to `b` when `c` is false or null. -/

/-- What the code does: the second argument is tested and the first is never looked at. -/
theorem C50_second_argument_decides {col : Nat → Res (Val P)} (c a b : Tree P) :
    (eval col a = .ok (.boolean true) → eval col (.func .iif [c, a, b]) = .ok (.boolean true)) ∧
    (eval col a = .ok (.boolean false) ∨ eval col a = .ok (.null .boolean) → eval col (.func .iif [c, a, b]) = eval col b) ∧
    (∀ v, eval col a = .ok v → v.type ≠ .boolean → eval col (.func .iif [c, a, b]) = .err) := by
  have h : eval col (.func .iif [c, a, b]) = (evalAs col a .boolean >>= fun t => fnIIf t (fun t => evalAs col a t) fun t => evalAs col b t) := by
    unfold eval
    rw [evalAs]
    simp [evalArgs, applyFn, evalIIf]
  unfold eval at *
  rw [h]
  refine ⟨?_, ?_, ?_⟩
  · intro ha
    rw [ha]
    simp [fnIIf, Val.type, Val.booleanValue, ha]
  · rintro (ha | ha) <;> rw [ha] <;> simp [fnIIf, Val.type, Val.booleanValue]
  · intro v ha ht
    rw [ha]
    simp [fnIIf, ht]

/-- The condition has no influence. -/
theorem C50_condition_ignored {col : Nat → Res (Val P)} (c c' a b : Tree P) :
    eval col (.func .iif [c, a, b]) = eval col (.func .iif [c', a, b]) := by
  unfold eval
  rw [evalAs, evalAs]
  simp [evalArgs, applyFn, evalIIf]

/-- `IIf(True, False, 'b')` gives `'b'` and `IIf(True, 'a', 'b')` is an error. -/
theorem C50_iif_false {col : Nat → Res (Val P)} :
    eval col (.func .iif [.value (.boolean true), .value (.boolean false), .value (.string (lit "b"))]) = .ok (.string (lit "b")) ∧
    eval col (.func .iif [.value (.boolean true), .value (.string (lit "a")), .value (.string (lit "b"))]) = .err :=
  ⟨rfl, rfl⟩

/-- Partial: when the second argument is a Boolean with the value of the condition, the result is the documented one. Missing:
    everything else, see `C50_iif_false`. -/
theorem C50_iif_partial {col : Nat → Res (Val P)} {c a b : Tree P} {x : Bool} (hc : eval col c = .ok (.boolean x))
    (ha : eval col a = .ok (.boolean x)) :
    (eval col c = .ok (.boolean true) → eval col (.func .iif [c, a, b]) = eval col a) ∧
    (eval col c = .ok (.boolean false) → eval col (.func .iif [c, a, b]) = eval col b) := by
  rw [hc]
  constructor
  · intro h
    cases h
    rw [(C50_second_argument_decides c a b).1 ha, ha]
  · intro h
    cases h
    rw [(C50_second_argument_decides c a b).2.1 (.inl ha)]

example : eval (P := P) (fun _ => .err) (.value (.boolean true)) = .ok (.boolean true) := rfl

/-! ## C51: Power

Full statement: `Power(x, n)` is `x` to the `n`-th power in the promoted type. -/

/-- What the code computes for two Int32, two Int64, two Decimals or two Doubles: the first to the power of the first. -/
theorem C51_exponent_ignored (a b : BitVec 32) (c d : BitVec 64) (f g : P.Flt) :
    call (P := P) .power [.int32 a, .int32 b] = .ok (.int32 (P.fltToInt32 (P.fltPow (P.fltOfInt a.toInt) (P.fltOfInt a.toInt)))) ∧
    call (P := P) .power [.int64 c, .int64 d] = .ok (.int64 (P.fltToInt64 (P.fltPow (P.fltOfInt c.toInt) (P.fltOfInt c.toInt)))) ∧
    call (P := P) .power [.double f, .double g] = .ok (.double (P.fltPow f f)) :=
  ⟨rfl, rfl, rfl⟩

theorem C51_exponent_ignored_decimal (a b : P.Dec) {d : P.Dec} (h : P.decPow a a = some d) :
    call (P := P) .power [.decimal a, .decimal b] = .ok (.decimal d) := by
  show (match P.decPow a a with
    | some d => Res.ok (Val.decimal d)
    | none => .panic) = _
  rw [h]

example : Toy.prim.decPow (3 : Int) (3 : Int) = some (27 : Int) := rfl

/-- `Power(2, 3)` is 4 and `Power(2.0, 3.0)` is 4.0. -/
theorem C51_power_false :
    call (P := Toy.prim) .power [.int32 2, .int32 3] = .ok (.int32 4) ∧
    Toy.prim.fltToInt32 (Toy.prim.fltPow (Toy.prim.fltOfInt 2) (Toy.prim.fltOfInt 3)) = (8 : BitVec 32) ∧
    call (P := Toy.prim) .power [.double (some 2 : Option Int), .double (some 3 : Option Int)] = .ok (.double (some 4 : Option Int)) :=
  ⟨rfl, rfl, rfl⟩

/-- Partial: right when the exponent equals the base, and null when either is null. Missing: every other exponent, see
    `C51_power_false`. -/
theorem C51_power_partial (a b : BitVec 32) (c d : BitVec 64) (f g : P.Flt) :
    (a = b → call (P := P) .power [.int32 a, .int32 b] = .ok (.int32 (P.fltToInt32 (P.fltPow (P.fltOfInt a.toInt) (P.fltOfInt b.toInt))))) ∧
    (c = d → call (P := P) .power [.int64 c, .int64 d] = .ok (.int64 (P.fltToInt64 (P.fltPow (P.fltOfInt c.toInt) (P.fltOfInt d.toInt))))) ∧
    (f = g → call (P := P) .power [.double f, .double g] = .ok (.double (P.fltPow f g))) ∧
    (∀ t u, t.isNumeric = true → ∀ v : Val P, v.type = u → u.isNumeric = true →
      call .power [.null t, v] = .ok (.null t) ∧ call .power [v, .null t] = .ok (.null u)) := by
  refine ⟨?_, ?_, ?_, ?_⟩
  · rintro rfl; rfl
  · rintro rfl; rfl
  · rintro rfl; rfl
  · rintro t u ht v rfl hu
    have e : ∀ x y : Val P, call .power [x, y] = fnPower x y := fun _ _ => rfl
    rw [e, e]
    unfold fnPower
    rw [hu]
    simp [Val.type, Val.isNull, ht]

/-! ## C52: Coalesce, IsNull, MaxOf, MinOf -/

theorem coalesceLoop_null {first : Val P} {pre : List (Arg P)} {rest : List (Arg P)} (h : ∀ a ∈ pre, ∃ t, a .boolean = .ok (.null t)) :
    coalesceLoop first (pre ++ rest) = coalesceLoop first rest := by
  induction pre with
  | nil => rfl
  | cons a pre ih =>
    obtain ⟨t, ha⟩ := h a (by simp)
    rw [List.cons_append, coalesceLoop, ha]
    simp only [Res.bind_ok, Val.isNull, Bool.not_true, Bool.false_eq_true, if_false]
    exact ih fun b hb => h b (by simp [hb])

/-- Coalesce gives the first non-null argument. The later ones are not evaluated: they may be anything. -/
theorem C52_coalesce {col : Nat → Res (Val P)} {pre : List (Tree P)} {a : Tree P} {v : Val P} (post : List (Tree P))
    (hpre : ∀ b ∈ pre, ∃ t, eval col b = .ok (.null t)) (ha : eval col a = .ok v) (hv : v.isNull = false)
    (hlen : 2 ≤ (pre ++ a :: post).length) : eval col (.func .coalesce (pre ++ a :: post)) = .ok v := by
  have ha' : evalAs col a .boolean = .ok v := ha
  have hl : ¬ (evalArgs col (pre ++ a :: post)).length < 2 := by
    rw [evalArgs_eq, List.length_map]
    omega
  unfold eval
  rw [evalAs, applyFn, atLeast2, if_neg hl, evalArgs_eq, List.map_append, List.map_cons]
  cases pre with
  | nil =>
    simp only [List.map_nil, List.nil_append, fnCoalesce, ha', Res.bind_ok, hv, Bool.not_false, if_true]
    rfl
  | cons b pre =>
    obtain ⟨t, hb⟩ := hpre b (by simp)
    have hb' : evalAs col b .boolean = .ok (.null t) := hb
    rw [List.map_cons, List.cons_append, fnCoalesce]
    simp only [hb', Res.bind_ok, Val.isNull, Bool.not_true, Bool.false_eq_true, if_false]
    rw [coalesceLoop_null]
    · simp only [coalesceLoop, ha', Res.bind_ok, hv, Bool.not_false, if_true]
      rfl
    · intro x hx
      obtain ⟨y, hy, rfl⟩ := List.mem_map.mp hx
      obtain ⟨u, hu⟩ := hpre y (by simp [hy])
      exact ⟨u, hu⟩

/-- `Coalesce(NULL, 7, Abs())`: the last call is an error by itself. -/
example : eval (Toy.row []) (.func .coalesce [.value (.null .int32), .value (.int32 7), .func .abs []]) = .ok (.int32 7) := rfl

/-- Coalesce of nulls is null. -/
theorem C52_coalesce_null {col : Nat → Res (Val P)} {args : List (Tree P)} (h : ∀ b ∈ args, ∃ t, eval col b = .ok (.null t))
    (hlen : 2 ≤ args.length) : ∃ t, eval col (.func .coalesce args) = .ok (.null t) := by
  have hl : ¬ (evalArgs col args).length < 2 := by
    rw [evalArgs_eq, List.length_map]
    omega
  cases args with
  | nil => simp at hlen
  | cons b args =>
    obtain ⟨t, hb⟩ := h b (by simp)
    have hb' : evalAs col b .boolean = .ok (.null t) := hb
    refine ⟨t, ?_⟩
    unfold eval
    rw [evalAs, applyFn, atLeast2, if_neg hl, evalArgs_eq, List.map_cons, fnCoalesce]
    simp only [hb', Res.bind_ok, Val.isNull, Bool.not_true, Bool.false_eq_true, if_false]
    rw [← List.append_nil (List.map _ args), coalesceLoop_null]
    · rfl
    · intro x hx
      obtain ⟨y, hy, rfl⟩ := List.mem_map.mp hx
      obtain ⟨u, hu⟩ := h y (by simp [hy])
      exact ⟨u, hu⟩

example : eval (Toy.row []) (.func .coalesce [.value (.null .int32), .value (.null .string)]) = .ok (.null .int32) := rfl

/-- Partial: with a default that is not null, IsNull replaces a null test value by it and keeps any other. Missing: a null
    default, see the next theorem. -/
theorem C52_is_null_partial (test default : Val P) (hd : default.isNull = false) :
    call .isNull [test, default] = .ok (if test.isNull then default else test) := by
  show fnIsNull test default = _
  unfold fnIsNull
  rw [hd]
  cases test.isNull <;> rfl

example : call (P := P) .isNull [.null .int32, .int32 4] = .ok (.int32 4) := rfl

/-- With a null default even a test value that is not null is refused. -/
theorem C52_is_null_false (test : Val P) (t : VT) : call .isNull [test, .null t] = .err := rfl

/-- The libraries' orders are strict: nothing is less than itself, and they are transitive. -/
structure Strict (P : Prim) : Prop where
  decGt : ∀ a b c, P.decCmp a b > 0 → P.decCmp b c > 0 → P.decCmp a c > 0
  decLt : ∀ a b c, P.decCmp a b < 0 → P.decCmp b c < 0 → P.decCmp a c < 0
  flt : ∀ a b c, P.fltLt a b = true → P.fltLt b c = true → P.fltLt a c = true
  time : ∀ a b c, P.timeBefore a b = true → P.timeBefore b c = true → P.timeBefore a c = true
  decSelf : ∀ a, P.decCmp a a = 0
  fltSelf : ∀ a, P.fltLt a a = false
  timeSelf : ∀ a, P.timeBefore a a = false

theorem toy_strict : Strict Toy.prim where
  decGt := by
    intro a b c h1 h2
    change Int at a
    change Int at b
    change Int at c
    change (if a < b then (-1 : Int) else if a = b then 0 else 1) > 0 at h1
    change (if b < c then (-1 : Int) else if b = c then 0 else 1) > 0 at h2
    show (if a < c then (-1 : Int) else if a = c then 0 else 1) > 0
    split at h1 <;> split at h2 <;> split <;> omega
  decLt := by
    intro a b c h1 h2
    change Int at a
    change Int at b
    change Int at c
    change (if a < b then (-1 : Int) else if a = b then 0 else 1) < 0 at h1
    change (if b < c then (-1 : Int) else if b = c then 0 else 1) < 0 at h2
    show (if a < c then (-1 : Int) else if a = c then 0 else 1) < 0
    have h1' : a < b := by
      by_contra h
      rw [if_neg h] at h1
      split at h1 <;> omega
    have h2' : b < c := by
      by_contra h
      rw [if_neg h] at h2
      split at h2 <;> omega
    rw [if_pos (by omega)]
    decide
  flt := by
    intro a b c h1 h2
    change Option Int at a
    change Option Int at b
    change Option Int at c
    cases a with
    | none => cases h1
    | some a =>
      cases b with
      | none => cases h1
      | some b =>
        cases c with
        | none => cases h2
        | some c =>
          change decide (a < b) = true at h1
          change decide (b < c) = true at h2
          show decide (a < c) = true
          simp only [decide_eq_true_eq] at *
          omega
  time := by
    intro a b c h1 h2
    change Int at a
    change Int at b
    change Int at c
    change decide (a < b) = true at h1
    change decide (b < c) = true at h2
    show decide (a < c) = true
    simp only [decide_eq_true_eq] at *
    omega

  decSelf := by
    intro a
    change Int at a
    show (if a < a then (-1 : Int) else if a = a then 0 else 1) = 0
    simp
  fltSelf := by
    intro a
    change Option Int at a
    cases a with
    | none => rfl
    | some a =>
      show decide (a < a) = false
      simp
  timeSelf := by
    intro a
    change Int at a
    show decide (a < a) = false
    simp

/-- One value is greater (less) than another, by the operator of the language. -/
def Greater (a b : Val P) : Prop := applyOp .greaterThan a b = .ok (.boolean true)
def Less (a b : Val P) : Prop := applyOp .lessThan a b = .ok (.boolean true)

/-- Comparing two non-null values of one type decides. -/
theorem compare_decides {a b : Val P} (ha : a.isNull = false) (hb : b.isNull = false) (ht : a.type = b.type) :
    (∃ x, applyOp .greaterThan a b = .ok (.boolean x)) ∧ ∃ x, applyOp .lessThan a b = .ok (.boolean x) := by
  cases a <;> first | (cases ha; done) | skip
  all_goals cases b <;> first | (cases hb; done) | (cases ht; done) | exact ⟨⟨_, rfl⟩, ⟨_, rfl⟩⟩

theorem guid_gt_trans {a b c : Guid.Guid} (h1 : Guid.compare a b > 0) (h2 : Guid.compare b c > 0) : Guid.compare a c > 0 := by
  obtain ⟨_, hs, _, ht⟩ := Guid.C05_total_order
  have e1 := hs a b
  have e2 := hs b c
  have e3 := hs a c
  have := ht c b a (by omega) (by omega)
  omega

theorem guid_lt_trans {a b c : Guid.Guid} (h1 : Guid.compare a b < 0) (h2 : Guid.compare b c < 0) : Guid.compare a c < 0 :=
  Guid.C05_total_order.2.2.2 a b c h1 (by omega)

theorem ok_boolean {a b : Bool} : (Res.ok (Val.boolean (P := P) a) = .ok (.boolean b)) ↔ a = b := by simp

theorem greater_trans (T : Strict P) {a b c : Val P} (ha : a.isNull = false) (hb : b.isNull = false) (hc : c.isNull = false)
    (hab : a.type = b.type) (hbc : b.type = c.type) (h1 : Greater a b) (h2 : Greater b c) : Greater a c := by
  unfold Greater at *
  cases a <;> first | (cases ha; done) | skip
  all_goals cases b <;> first | (cases hb; done) | (cases hab; done) | skip
  all_goals cases c <;> first | (cases hc; done) | (cases hbc; done) | skip
  case boolean.boolean.boolean a b c => revert h1 h2; cases a <;> cases b <;> cases c <;> intro h1 h2 <;> first | rfl | (cases h1; done) | (cases h2; done)
  case int32.int32.int32 a b c =>
    have h1 := of_decide_eq_true (ok_boolean.mp h1)
    have h2 := of_decide_eq_true (ok_boolean.mp h2)
    exact ok_boolean.mpr (decide_eq_true (show a.toInt > c.toInt by omega))
  case int64.int64.int64 a b c =>
    have h1 := of_decide_eq_true (ok_boolean.mp h1)
    have h2 := of_decide_eq_true (ok_boolean.mp h2)
    exact ok_boolean.mpr (decide_eq_true (show a.toInt > c.toInt by omega))
  case decimal.decimal.decimal a b c =>
    exact ok_boolean.mpr (decide_eq_true (T.decGt a b c (of_decide_eq_true (ok_boolean.mp h1)) (of_decide_eq_true (ok_boolean.mp h2))))
  case double.double.double a b c => exact ok_boolean.mpr (T.flt c b a (ok_boolean.mp h2) (ok_boolean.mp h1))
  case string.string.string a b c => exact ok_boolean.mpr (strLt_trans (ok_boolean.mp h2) (ok_boolean.mp h1))
  case guid.guid.guid a b c =>
    exact ok_boolean.mpr (decide_eq_true (guid_gt_trans (of_decide_eq_true (ok_boolean.mp h1)) (of_decide_eq_true (ok_boolean.mp h2))))
  case dateTime.dateTime.dateTime a b c => exact ok_boolean.mpr (T.time c b a (ok_boolean.mp h2) (ok_boolean.mp h1))

theorem less_trans (T : Strict P) {a b c : Val P} (ha : a.isNull = false) (hb : b.isNull = false) (hc : c.isNull = false)
    (hab : a.type = b.type) (hbc : b.type = c.type) (h1 : Less a b) (h2 : Less b c) : Less a c := by
  unfold Less at *
  cases a <;> first | (cases ha; done) | skip
  all_goals cases b <;> first | (cases hb; done) | (cases hab; done) | skip
  all_goals cases c <;> first | (cases hc; done) | (cases hbc; done) | skip
  case boolean.boolean.boolean a b c => revert h1 h2; cases a <;> cases b <;> cases c <;> intro h1 h2 <;> first | rfl | (cases h1; done) | (cases h2; done)
  case int32.int32.int32 a b c =>
    have h1 := of_decide_eq_true (ok_boolean.mp h1)
    have h2 := of_decide_eq_true (ok_boolean.mp h2)
    exact ok_boolean.mpr (decide_eq_true (show a.toInt < c.toInt by omega))
  case int64.int64.int64 a b c =>
    have h1 := of_decide_eq_true (ok_boolean.mp h1)
    have h2 := of_decide_eq_true (ok_boolean.mp h2)
    exact ok_boolean.mpr (decide_eq_true (show a.toInt < c.toInt by omega))
  case decimal.decimal.decimal a b c =>
    exact ok_boolean.mpr (decide_eq_true (T.decLt a b c (of_decide_eq_true (ok_boolean.mp h1)) (of_decide_eq_true (ok_boolean.mp h2))))
  case double.double.double a b c => exact ok_boolean.mpr (T.flt a b c (ok_boolean.mp h1) (ok_boolean.mp h2))
  case string.string.string a b c => exact ok_boolean.mpr (strLt_trans (ok_boolean.mp h1) (ok_boolean.mp h2))
  case guid.guid.guid a b c =>
    exact ok_boolean.mpr (decide_eq_true (guid_lt_trans (of_decide_eq_true (ok_boolean.mp h1)) (of_decide_eq_true (ok_boolean.mp h2))))
  case dateTime.dateTime.dateTime a b c => exact ok_boolean.mpr (T.time a b c (ok_boolean.mp h1) (ok_boolean.mp h2))

theorem guid_self (a : Guid.Guid) : Guid.compare a a = 0 := (Guid.C05_total_order.1 a a).mpr rfl

theorem not_greater_self (S : Strict P) (a : Val P) : ¬ Greater a a := by
  unfold Greater
  intro h
  cases a
  case null t => cases t <;> cases h
  case boolean a => cases a <;> cases h
  case int32 a => have := of_decide_eq_true (ok_boolean.mp h); omega
  case int64 a => have := of_decide_eq_true (ok_boolean.mp h); omega
  case decimal a => have := of_decide_eq_true (ok_boolean.mp h); rw [S.decSelf] at this; omega
  case double a => have := (ok_boolean.mp h); rw [S.fltSelf] at this; cases this
  case string a => have := (ok_boolean.mp h); rw [strLt_irrefl] at this; cases this
  case guid a => have := of_decide_eq_true (ok_boolean.mp h); rw [guid_self] at this; omega
  case dateTime a => have := (ok_boolean.mp h); rw [S.timeSelf] at this; cases this

theorem not_less_self (S : Strict P) (a : Val P) : ¬ Less a a := by
  unfold Less
  intro h
  cases a
  case null t => cases t <;> cases h
  case boolean a => cases a <;> cases h
  case int32 a => have := of_decide_eq_true (ok_boolean.mp h); omega
  case int64 a => have := of_decide_eq_true (ok_boolean.mp h); omega
  case decimal a => have := of_decide_eq_true (ok_boolean.mp h); rw [S.decSelf] at this; omega
  case double a => have := (ok_boolean.mp h); rw [S.fltSelf] at this; cases this
  case string a => have := (ok_boolean.mp h); rw [strLt_irrefl] at this; cases this
  case guid a => have := of_decide_eq_true (ok_boolean.mp h); rw [guid_self] at this; omega
  case dateTime a => have := (ok_boolean.mp h); rw [S.timeSelf] at this; cases this

/-- A step of either loop. -/
structure Step (t : VT) (R : Val P → Val P → Prop) (L : Val P → List (Arg P) → Res (Val P)) : Prop where
  nil : ∀ v, L v [] = .ok v
  replace : ∀ test next a as, test.type = t → next.type = t → a .boolean = .ok next →
    (R next test ∨ test.isNull = true ∧ next.isNull = false) → L test (a :: as) = L next as
  keep : ∀ test next a as, test.type = t → next.type = t → a .boolean = .ok next →
    ¬ (R next test ∨ test.isNull = true ∧ next.isNull = false) → L test (a :: as) = L test as
  notNull : ∀ a b, R a b → a.type = t → b.type = t → a.isNull = false ∧ b.isNull = false
  irrefl : ∀ a, ¬ R a a
  trans : ∀ a b c, a.isNull = false → b.isNull = false → c.isNull = false → a.type = t → b.type = t → c.type = t →
    R a b → R b c → R a c

/-- The loop ends with a value no other one beats. -/
theorem Step.best {t : VT} {R : Val P → Val P → Prop} {L : Val P → List (Arg P) → Res (Val P)} (S : Step t R L) {vs : List (Val P)}
    {as : List (Arg P)} (h : List.Forall₂ (fun a v => a .boolean = .ok v) as vs) :
    ∀ test : Val P, test.type = t → (∀ v ∈ vs, v.type = t) →
      ∃ v, L test as = .ok v ∧ v ∈ test :: vs ∧ (∀ w ∈ test :: vs, w.isNull = false → v.isNull = false ∧ ¬ R w v) ∧
        (v = test ∨ R v test ∨ test.isNull = true) := by
  induction h with
  | nil =>
    intro test ht _
    refine ⟨test, S.nil test, by simp, ?_, .inl rfl⟩
    intro w hw hn
    simp at hw
    subst hw
    exact ⟨hn, S.irrefl w⟩
  | @cons a next as vs ha _ ih =>
    intro test ht hvs
    have hnt : next.type = t := hvs next (by simp)
    have hvs' : ∀ v ∈ vs, v.type = t := fun v hv => hvs v (by simp [hv])
    by_cases hr : R next test ∨ test.isNull = true ∧ next.isNull = false
    · obtain ⟨v, hv, hmem, hbest, hrel⟩ := ih next hnt hvs'
      have hnn : next.isNull = false := by
        rcases hr with hr | hr
        · exact (S.notNull _ _ hr hnt ht).1
        · exact hr.2
      obtain ⟨hvn, hnv⟩ := hbest next (by simp) hnn
      have hvt : v.type = t := by
        rcases List.mem_cons.mp hmem with rfl | hm
        · exact hnt
        · exact hvs' v hm
      have hrel' : v = next ∨ R v next := by
        rcases hrel with h | h | h
        · exact .inl h
        · exact .inr h
        · rw [hnn] at h; cases h
      refine ⟨v, by rw [S.replace test next a as ht hnt ha hr, hv], List.mem_cons_of_mem _ hmem, ?_, ?_⟩
      · intro w hw hwn
        rcases List.mem_cons.mp hw with rfl | hw
        · refine ⟨hvn, fun hR => ?_⟩
          rcases hr with hr | hr
          · exact hnv (S.trans next w v hnn hwn hvn hnt ht hvt hr hR)
          · rw [hwn] at hr; cases hr.1
        · exact hbest w hw hwn
      · rcases hr with hr | hr
        · right
          left
          rcases hrel' with rfl | h
          · exact hr
          · exact S.trans v next test hvn hnn (S.notNull _ _ hr hnt ht).2 hvt hnt ht h hr
        · exact .inr (.inr hr.1)
    · obtain ⟨v, hv, hmem, hbest, hrel⟩ := ih test ht hvs'
      have hvt : v.type = t := by
        rcases List.mem_cons.mp hmem with rfl | hm
        · exact ht
        · exact hvs' v hm
      refine ⟨v, by rw [S.keep test next a as ht hnt ha hr, hv], ?_, ?_, hrel⟩
      · rcases List.mem_cons.mp hmem with rfl | hm
        · simp
        · simp [hm]
      · intro w hw hwn
        rcases List.mem_cons.mp hw with rfl | hw
        · exact hbest w (by simp) hwn
        · rcases List.mem_cons.mp hw with rfl | hw
          · have htn : test.isNull = false := by
              cases h : test.isNull with
              | false => rfl
              | true => exact absurd (.inr ⟨h, hwn⟩) hr
            obtain ⟨hvn, _⟩ := hbest test (by simp) htn
            refine ⟨hvn, fun hR => ?_⟩
            rcases hrel with rfl | h | h
            · exact hr (.inl hR)
            · exact hr (.inl (S.trans w v test hwn hvn htn hnt hvt ht hR h))
            · rw [htn] at h; cases h
          · exact hbest w (by simp [hw]) hwn

theorem comparison_same {t : VT} (ht : t ≠ .undefined) : deriveComparison t t = .ok t := by
  cases t <;> first | rfl | exact absurd rfl ht

theorem apply_compare {a b : Val P} {t : VT} (h : t ≠ .undefined) (ha : a.type = t) (hb : b.type = t) :
    applyOp .greaterThan a b = greaterThanOp a b t ∧ applyOp .lessThan a b = lessThanOp a b t := by
  have hd : deriveComparison a.type b.type = .ok t := by rw [ha, hb]; exact comparison_same h
  simp [applyOp, deriveType, hd]

/-- The outcome of a comparison read as a Boolean. -/
theorem compare_boolean {a b : Val P} {t : VT} (h : t ≠ .undefined) (ha : a.type = t) (hb : b.type = t) :
    (∃ x, (applyOp .greaterThan a b >>= Val.booleanValue) = .ok x ∧ (x = true ↔ Greater a b)) ∧
    (∃ x, (applyOp .lessThan a b >>= Val.booleanValue) = .ok x ∧ (x = true ↔ Less a b)) ∧
    (a.isNull = true ∨ b.isNull = true → ¬ Greater a b ∧ ¬ Less a b) := by
  have e := apply_compare h ha hb
  by_cases hn : (a.isNull || b.isNull) = true
  · have e1 : greaterThanOp a b t = .ok (.null t) := by unfold greaterThanOp; rw [if_pos hn]
    have e2 : lessThanOp a b t = .ok (.null t) := by unfold lessThanOp; rw [if_pos hn]
    rw [e1, e2] at e
    unfold Greater Less
    rw [e.1, e.2]
    exact ⟨⟨false, rfl, by simp⟩, ⟨false, rfl, by simp⟩, fun _ => by simp⟩
  · have hn' : a.isNull = false ∧ b.isNull = false := by simpa using hn
    obtain ⟨⟨x, hx⟩, ⟨y, hy⟩⟩ := compare_decides hn'.1 hn'.2 (ha.trans hb.symm)
    unfold Greater Less
    rw [hx, hy]
    refine ⟨⟨x, rfl, by simp⟩, ⟨y, rfl, by simp⟩, fun h => ?_⟩
    rw [hn'.1, hn'.2] at h
    simp at h

theorem max_step (S : Strict P) {t : VT} (h : t ≠ .undefined) : Step t (Greater (P := P)) maxLoop where
  nil := fun _ => rfl
  replace := by
    intro test next a as ht hn ha hr
    obtain ⟨⟨x, hx, hg⟩, _, _⟩ := compare_boolean h hn ht
    rw [maxLoop, ha]
    simp only [Res.bind_ok]
    rw [ht, hn, comparison_same h, Res.bind_ok, ← (apply_compare h hn ht).1]
    cases hq : applyOp .greaterThan next test with
    | ok r =>
      rw [hq] at hx
      simp only [Res.bind_ok] at hx ⊢
      rw [hx, Res.bind_ok, if_pos]
      rcases hr with hr | hr
      · simp [hg.mpr hr]
      · simp [hr]
    | err => rw [hq] at hx; cases hx
    | panic => rw [hq] at hx; cases hx
  keep := by
    intro test next a as ht hn ha hr
    obtain ⟨⟨x, hx, hg⟩, _, _⟩ := compare_boolean h hn ht
    rw [maxLoop, ha]
    simp only [Res.bind_ok]
    rw [ht, hn, comparison_same h, Res.bind_ok, ← (apply_compare h hn ht).1]
    cases hq : applyOp .greaterThan next test with
    | ok r =>
      rw [hq] at hx
      simp only [Res.bind_ok] at hx ⊢
      rw [hx, Res.bind_ok, if_neg]
      simp only [Bool.or_eq_true, Bool.and_eq_true, Bool.not_eq_true', hg]
      exact hr
    | err => rw [hq] at hx; cases hx
    | panic => rw [hq] at hx; cases hx
  notNull := by
    intro a b hR ha hb
    have := (compare_boolean h ha hb).2.2
    constructor
    · cases hn : a.isNull with
      | false => rfl
      | true => exact absurd hR (this (.inl hn)).1
    · cases hn : b.isNull with
      | false => rfl
      | true => exact absurd hR (this (.inr hn)).1
  irrefl := not_greater_self S
  trans := fun _ _ _ ha hb hc h1 h2 h3 => greater_trans S ha hb hc (h1.trans h2.symm) (h2.trans h3.symm)

theorem min_step (S : Strict P) {t : VT} (h : t ≠ .undefined) : Step t (Less (P := P)) minLoop where
  nil := fun _ => rfl
  replace := by
    intro test next a as ht hn ha hr
    obtain ⟨_, ⟨x, hx, hg⟩, _⟩ := compare_boolean h hn ht
    rw [minLoop, ha]
    simp only [Res.bind_ok]
    rw [ht, hn, comparison_same h, Res.bind_ok, ← (apply_compare h hn ht).2]
    cases hq : applyOp .lessThan next test with
    | ok r =>
      rw [hq] at hx
      simp only [Res.bind_ok] at hx ⊢
      rw [hx, Res.bind_ok, if_pos]
      rcases hr with hr | hr
      · simp [hg.mpr hr]
      · simp [hr]
    | err => rw [hq] at hx; cases hx
    | panic => rw [hq] at hx; cases hx
  keep := by
    intro test next a as ht hn ha hr
    obtain ⟨_, ⟨x, hx, hg⟩, _⟩ := compare_boolean h hn ht
    rw [minLoop, ha]
    simp only [Res.bind_ok]
    rw [ht, hn, comparison_same h, Res.bind_ok, ← (apply_compare h hn ht).2]
    cases hq : applyOp .lessThan next test with
    | ok r =>
      rw [hq] at hx
      simp only [Res.bind_ok] at hx ⊢
      rw [hx, Res.bind_ok, if_neg]
      simp only [Bool.or_eq_true, Bool.and_eq_true, Bool.not_eq_true', hg]
      exact hr
    | err => rw [hq] at hx; cases hx
    | panic => rw [hq] at hx; cases hx
  notNull := by
    intro a b hR ha hb
    have := (compare_boolean h ha hb).2.2
    constructor
    · cases hn : a.isNull with
      | false => rfl
      | true => exact absurd hR (this (.inl hn)).2
    · cases hn : b.isNull with
      | false => rfl
      | true => exact absurd hR (this (.inr hn)).2
  irrefl := not_less_self S
  trans := fun _ _ _ ha hb hc h1 h2 h3 => less_trans S ha hb hc (h1.trans h2.symm) (h2.trans h3.symm)

theorem evaluates_args {col : Nat → Res (Val P)} {args : List (Tree P)} {vs : List (Val P)}
    (h : List.Forall₂ (fun a v => eval col a = .ok v) args vs) :
    List.Forall₂ (fun (a : Arg P) v => a .boolean = .ok v) (evalArgs col args) vs := by
  induction h with
  | nil => rw [evalArgs]; exact .nil
  | cons ha _ ih => rw [evalArgs]; exact .cons ha ih

theorem forall₂_length {α β : Type _} {R : α → β → Prop} {as : List α} {bs : List β} (h : List.Forall₂ R as bs) : as.length = bs.length := by
  induction h with
  | nil => rfl
  | cons _ _ ih => simp [ih]

/-- MaxOf of two or more arguments of one type is one of their values, not null unless all are, and no non-null argument is
    greater than it. -/
theorem C52_max_of (S : Strict P) {t : VT} (ht : t ≠ .undefined) {col : Nat → Res (Val P)} {args : List (Tree P)} {vs : List (Val P)}
    (h : List.Forall₂ (fun a v => eval col a = .ok v) args vs) (hvs : ∀ v ∈ vs, v.type = t) (hlen : 2 ≤ vs.length) :
    ∃ v, eval col (.func .maxOf args) = .ok v ∧ v ∈ vs ∧ ∀ w ∈ vs, w.isNull = false → v.isNull = false ∧ ¬ Greater w v := by
  have h' := evaluates_args h
  have hl := forall₂_length h'
  unfold eval
  rw [evalAs, applyFn, atLeast2, if_neg (by omega)]
  generalize evalArgs col args = as at h'
  cases h' with
  | nil => simp at hlen
  | @cons a test as ws ha hrest =>
    obtain ⟨v, hv, hm, hb, _⟩ := (max_step S ht).best hrest test (hvs test (by simp)) fun v hv => hvs v (by simp [hv])
    refine ⟨v, ?_, hm, hb⟩
    rw [fnMaxOf, ha]
    exact hv

example : eval (Toy.row []) (.func .maxOf [.value (.null .int32), .value (.int32 4), .value (.int32 9), .value (.int32 5)]) = .ok (.int32 9) := rfl

/-- MinOf, likewise. -/
theorem C52_min_of (S : Strict P) {t : VT} (ht : t ≠ .undefined) {col : Nat → Res (Val P)} {args : List (Tree P)} {vs : List (Val P)}
    (h : List.Forall₂ (fun a v => eval col a = .ok v) args vs) (hvs : ∀ v ∈ vs, v.type = t) (hlen : 2 ≤ vs.length) :
    ∃ v, eval col (.func .minOf args) = .ok v ∧ v ∈ vs ∧ ∀ w ∈ vs, w.isNull = false → v.isNull = false ∧ ¬ Less w v := by
  have h' := evaluates_args h
  have hl := forall₂_length h'
  unfold eval
  rw [evalAs, applyFn, atLeast2, if_neg (by omega)]
  generalize evalArgs col args = as at h'
  cases h' with
  | nil => simp at hlen
  | @cons a test as ws ha hrest =>
    obtain ⟨v, hv, hm, hb, _⟩ := (min_step S ht).best hrest test (hvs test (by simp)) fun v hv => hvs v (by simp [hv])
    refine ⟨v, ?_, hm, hb⟩
    rw [fnMinOf, ha]
    exact hv

example : ∃ v, eval (Toy.row []) (.func .minOf [.value (.int32 4), .value (.int32 2)]) = .ok v ∧ v ∈ [Val.int32 4, Val.int32 2] ∧
    ∀ w ∈ [Val.int32 4, Val.int32 2], w.isNull = false → v.isNull = false ∧ ¬ Less w v :=
  C52_min_of toy_strict (t := .int32) (by decide) (.cons rfl (.cons rfl .nil)) (by simp [Val.type]) (by decide)

end Verif.Expr
