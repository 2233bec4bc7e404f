import Verif.Lib.NumberProps

/-!
# Comparing numbers of different types (property C103)
-/

namespace Verif.Lib

open Verif.Expr

variable {R : Rest}

/-- The comparison operators say of `l` and `r` what holds of the numbers `x` and `y`. -/
structure ComparesAs (l r : Val (go R)) (x y : ℚ) : Prop where
  lt : applyOp .lessThan l r = .ok (.boolean (decide (x < y)))
  le : applyOp .lessThanOrEqual l r = .ok (.boolean (decide (x ≤ y)))
  gt : applyOp .greaterThan l r = .ok (.boolean (decide (x > y)))
  ge : applyOp .greaterThanOrEqual l r = .ok (.boolean (decide (x ≥ y)))
  eq : applyOp .equal l r = .ok (.boolean (decide (x = y)))
  ne : applyOp .notEqual l r = .ok (.boolean (decide (x ≠ y)))
  exact_ : applyOp .equalExactMatch l r = .ok (.boolean (decide (x = y)))
  notExact : applyOp .notEqualExactMatch l r = .ok (.boolean (decide (x ≠ y)))

/-- A comparison in the type `t`, with the operands converted. -/
theorem applyOp_in {l r l' r' : Val (go R)} {t : VT} (nl : l.isNull = false) (nr : r.isNull = false)
    (hd : deriveComparison l.type r.type = .ok t) (hl : l.convert t = .ok l') (hr : r.convert t = .ok r')
    (nl' : l'.isNull = false) (nr' : r'.isNull = false) (hll : l'.convert t = .ok l') (hrr : r'.convert t = .ok r')
    (hd' : deriveComparison l'.type r'.type = .ok t) :
    (applyOp .lessThan l r = applyOp .lessThan l' r') ∧ (applyOp .lessThanOrEqual l r = applyOp .lessThanOrEqual l' r') ∧
    (applyOp .greaterThan l r = applyOp .greaterThan l' r') ∧ (applyOp .greaterThanOrEqual l r = applyOp .greaterThanOrEqual l' r') ∧
    (applyOp .equal l r = applyOp .equal l' r') ∧ (applyOp .notEqual l r = applyOp .notEqual l' r') ∧
    (applyOp .equalExactMatch l r = applyOp .equalExactMatch l' r') ∧ (applyOp .notEqualExactMatch l r = applyOp .notEqualExactMatch l' r') := by
  have h1 : (l.isNull || r.isNull) = false := by rw [nl, nr]; rfl
  have h2 : (l'.isNull || r'.isNull) = false := by rw [nl', nr']; rfl
  refine ⟨?_, ?_, ?_, ?_, ?_, ?_, ?_, ?_⟩ <;>
    simp only [applyOp, deriveType, hd, hd', Res.bind_ok, lessThanOp, lessThanOrEqualOp, greaterThanOp, greaterThanOrEqualOp, equalOp, notEqualOp,
      h1, h2, convertOperands, hl, hr, hll, hrr]

theorem ComparesAs.of_eq {l r l' r' : Val (go R)} {x y : ℚ} (h : ComparesAs l' r' x y)
    (e : (applyOp .lessThan l r = applyOp .lessThan l' r') ∧ (applyOp .lessThanOrEqual l r = applyOp .lessThanOrEqual l' r') ∧
      (applyOp .greaterThan l r = applyOp .greaterThan l' r') ∧ (applyOp .greaterThanOrEqual l r = applyOp .greaterThanOrEqual l' r') ∧
      (applyOp .equal l r = applyOp .equal l' r') ∧ (applyOp .notEqual l r = applyOp .notEqual l' r') ∧
      (applyOp .equalExactMatch l r = applyOp .equalExactMatch l' r') ∧ (applyOp .notEqualExactMatch l r = applyOp .notEqualExactMatch l' r')) :
    ComparesAs l r x y := by
  obtain ⟨e1, e2, e3, e4, e5, e6, e7, e8⟩ := e
  exact ⟨e1.trans h.lt, e2.trans h.le, e3.trans h.gt, e4.trans h.ge, e5.trans h.eq, e6.trans h.ne, e7.trans h.exact_, e8.trans h.notExact⟩

theorem ok_bool {a b : Bool} (h : a = b) : Res.ok (Val.boolean (P := go R) a) = .ok (.boolean b) := by rw [h]

theorem beq_toInt {w : Nat} (a b : BitVec w) : (a == b) = decide ((a.toInt : ℚ) = b.toInt) := by
  rw [Bool.eq_iff_iff, beq_iff_eq, decide_eq_true_eq, Int.cast_inj]
  exact BitVec.toInt_inj.symm

theorem bne_toInt {w : Nat} (a b : BitVec w) : (a != b) = decide ((a.toInt : ℚ) ≠ b.toInt) := by
  have := beq_toInt a b
  unfold bne
  rw [this, decide_not]

theorem compares_int32 (a b : BitVec 32) : ComparesAs (R := R) (.int32 a) (.int32 b) a.toInt b.toInt where
  lt := ok_bool (by simp)
  le := ok_bool (by simp)
  gt := ok_bool (by simp)
  ge := ok_bool (by simp)
  eq := ok_bool (beq_toInt a b)
  ne := ok_bool (bne_toInt a b)
  exact_ := ok_bool (beq_toInt a b)
  notExact := ok_bool (bne_toInt a b)

theorem compares_int64 (a b : BitVec 64) : ComparesAs (R := R) (.int64 a) (.int64 b) a.toInt b.toInt where
  lt := ok_bool (by simp)
  le := ok_bool (by simp)
  gt := ok_bool (by simp)
  ge := ok_bool (by simp)
  eq := ok_bool (beq_toInt a b)
  ne := ok_bool (bne_toInt a b)
  exact_ := ok_bool (beq_toInt a b)
  notExact := ok_bool (bne_toInt a b)

theorem compares_boolean (a b : Bool) : ComparesAs (R := R) (.boolean a) (.boolean b) (if a then 1 else 0) (if b then 1 else 0) := by
  constructor <;> cases a <;> cases b <;> exact ok_bool (by simp <;> decide)

theorem decide_iff {p q : Prop} [Decidable p] [Decidable q] (h : p ↔ q) : decide p = decide q := by simp [h]

theorem compares_decimal (a b : Decimal) : ComparesAs (R := R) (.decimal a) (.decimal b) a.val b.val := by
  have heq : (Decimal.cmp a b == 0) = decide (a.val = b.val) := by
    rw [Bool.eq_iff_iff, beq_iff_eq, decide_eq_true_eq]
    exact (Decimal.cmp_spec a b).2.1
  have hne : (Decimal.cmp a b != 0) = decide (a.val ≠ b.val) := by
    unfold bne
    rw [heq, decide_not]
  exact {
    lt := ok_bool (decide_iff (Decimal.cmp_neg a b))
    le := ok_bool (decide_iff (Decimal.cmp_le a b))
    gt := ok_bool (decide_iff (Decimal.cmp_pos a b))
    ge := ok_bool (decide_iff (by
      show Decimal.cmp a b ≥ 0 ↔ b.val ≤ a.val
      rw [ge_iff_le, ← not_lt, ← not_lt, Decimal.cmp_neg]))
    eq := ok_bool heq
    ne := ok_bool hne
    exact_ := ok_bool heq
    notExact := ok_bool hne }

theorem compares_double {f g : Double} (hf : ¬ f.IsNaN) (hg : ¬ g.IsNaN) : ComparesAs (R := R) (.double f) (.double g) f.val g.val := by
  have hlt : Bin.lt_ f g = decide (f.val < g.val) := by
    rw [Bool.eq_iff_iff, lt_iff, decide_eq_true_eq, Bin.key_lt_iff]
    tauto
  have hgt : Bin.lt_ g f = decide (f.val > g.val) := by
    rw [Bool.eq_iff_iff, lt_iff, decide_eq_true_eq, Bin.key_lt_iff]
    tauto
  have heq : Bin.eq_ f g = decide (f.val = g.val) := by
    unfold Bin.eq_
    rw [decide_eq_false hf, decide_eq_false hg, Bool.not_false, Bool.true_and, Bool.true_and]
    exact decide_iff (Bin.key_eq_iff f g)
  exact {
    lt := ok_bool hlt
    le := ok_bool (by
      show (Bin.lt_ f g || Bin.eq_ f g) = _
      rw [hlt, heq, ← Bool.decide_or]
      exact decide_iff le_iff_lt_or_eq.symm)
    gt := ok_bool hgt
    ge := ok_bool (by
      show (Bin.lt_ g f || Bin.eq_ f g) = _
      rw [hgt, heq, ← Bool.decide_or]
      refine decide_iff ?_
      rw [ge_iff_le, le_iff_lt_or_eq, gt_iff_lt, eq_comm])
    eq := ok_bool heq
    ne := ok_bool (by
      show (!Bin.eq_ f g) = _
      rw [heq, decide_not])
    exact_ := ok_bool heq
    notExact := ok_bool (by
      show (!Bin.eq_ f g) = _
      rw [heq, decide_not]) }

/-- Truth values and Int32 cannot be compared, see `C46_no_panic_false`. -/
def Mismatch (l r : Val (go R)) : Prop := l.type = .boolean ∧ r.type = .int32 ∨ l.type = .int32 ∧ r.type = .boolean

/-- A truth value or Int32 as an Int64. -/
theorem to_int64 {v : Val (go R)} {x : ℚ} (h : number v = some x) (hd : v.type = .boolean ∨ v.type = .int32 ∨ v.type = .int64) :
    v.isNull = false ∧ ∃ a : BitVec 64, v.convert .int64 = .ok (.int64 a) ∧ (a.toInt : ℚ) = x := by
  cases v with
  | boolean b =>
    injection h with h
    refine ⟨rfl, if b then 1 else 0, rfl, ?_⟩
    rw [← h]
    cases b
    · rw [show ((if false = true then (1 : BitVec 64) else 0).toInt) = 0 by decide]; simp
    · rw [show ((if true = true then (1 : BitVec 64) else 0).toInt) = 1 by decide]; simp
  | int32 v =>
    injection h with h
    refine ⟨rfl, v.signExtend 64, rfl, ?_⟩
    rw [← h, BitVec.toInt_signExtend_of_le (by decide)]
  | int64 v => injection h with h; exact ⟨rfl, v, rfl, h⟩
  | decimal d => rcases hd with h | h | h <;> cases h
  | double f => rcases hd with h | h | h <;> cases h
  | null t => cases h
  | string s => cases h
  | guid g => cases h
  | dateTime t => cases h

/-- Numbers of any types other than Double are compared as the numbers they are. -/
theorem C103_exact {l r : Val (go R)} {x y : ℚ} (hl : number l = some x) (hr : number r = some y) (h1 : l.type ≠ .double) (h2 : r.type ≠ .double)
    (hm : ¬ Mismatch l r) : ComparesAs l r x y := by
  have dec : deriveComparison l.type r.type = .ok .decimal → ComparesAs l r x y := by
    intro hd
    obtain ⟨nl, a, ha, hax⟩ := to_decimal hl h1
    obtain ⟨nr, b, hb, hby⟩ := to_decimal hr h2
    have := applyOp_in nl nr hd ha hb rfl rfl rfl rfl rfl
    exact hax ▸ hby ▸ (compares_decimal a b).of_eq this
  have int : (l.type = .boolean ∨ l.type = .int32 ∨ l.type = .int64) → (r.type = .boolean ∨ r.type = .int32 ∨ r.type = .int64) →
      deriveComparison l.type r.type = .ok .int64 → ComparesAs l r x y := by
    intro hl' hr' hd
    obtain ⟨nl, a, ha, hax⟩ := to_int64 hl hl'
    obtain ⟨nr, b, hb, hby⟩ := to_int64 hr hr'
    have := applyOp_in nl nr hd ha hb rfl rfl rfl rfl rfl
    exact hax ▸ hby ▸ (compares_int64 a b).of_eq this
  cases l <;> cases r <;> first
    | (cases hl; done)
    | (cases hr; done)
    | exact absurd rfl h1
    | exact absurd rfl h2
    | exact absurd (Or.inl ⟨rfl, rfl⟩) hm
    | exact absurd (Or.inr ⟨rfl, rfl⟩) hm
    | exact dec rfl
    | exact int (by simp [Val.type]) (by simp [Val.type]) rfl
    | (injection hl with hl; injection hr with hr; rw [← hl, ← hr]; exact compares_boolean _ _)
    | (injection hl with hl; injection hr with hr; rw [← hl, ← hr]; exact compares_int32 _ _)

theorem compare_double {l r : Val (go R)} {x y : ℚ} (hl : number l = some x) (hr : number r = some y) (hx : |x| ≤ maxDouble) (hy : |y| ≤ maxDouble)
    (h3 : l.type = .double ∨ r.type = .double) : ∃ z z' : Bool, ∃ f g : Double, Nearest f x ∧ Nearest g y ∧ f.val = (Bin.ofRat z x : Double).val ∧
      g.val = (Bin.ofRat z' y : Double).val ∧ ComparesAs l r f.val g.val := by
  obtain ⟨nl, f, hf, hfx, z, ez⟩ := to_double' hl hx
  obtain ⟨nr, g, hg, hgy, z', ez'⟩ := to_double' hr hy
  have hd : deriveComparison l.type r.type = .ok .double := by
    cases l <;> cases r <;> first
      | (cases hl; done)
      | (cases hr; done)
      | (rcases h3 with h3 | h3 <;> cases h3; done)
      | rfl
  have := applyOp_in nl nr hd hf hg rfl rfl rfl rfl rfl
  exact ⟨z, z', f, g, hfx, hgy, ez, ez',
    (compares_double ((Bin.finite_iff _).mp hfx.1).1 ((Bin.finite_iff _).mp hgy.1).1).of_eq this⟩

theorem nearest_exact {f g : Double} {x : ℚ} (hf : Nearest f x) (hg : g.Finite) (h : g.val = x) : f.val = x := by
  have := (hf.2 g hg).1
  rw [h, sub_self, abs_zero] at this
  have := abs_nonpos_iff.mp this
  linarith

/-- With a Double among them, numbers that a Double can hold are compared as the numbers they are. -/
theorem C103_double {l r : Val (go R)} {x y : ℚ} (hl : number l = some x) (hr : number r = some y) {f g : Double} (hf : f.Finite) (hg : g.Finite)
    (hfx : f.val = x) (hgy : g.val = y) (h3 : l.type = .double ∨ r.type = .double) : ComparesAs l r x y := by
  obtain ⟨_, _, f', g', hf', hg', _, _, hc⟩ := compare_double hl hr (by rw [← hfx]; exact finite_le hf) (by rw [← hgy]; exact finite_le hg) h3
  rw [nearest_exact hf' hf hfx, nearest_exact hg' hg hgy] at hc
  exact hc

/-- The whole numbers up to 2^53 are among them. -/
theorem C103_whole (i : Int) (h : i.natAbs ≤ 2 ^ 53) : ∃ f : Double, f.Finite ∧ f.val = i := ⟨_, ofInt_val i h⟩

/-- Partial: with a Double among them, a smaller number is never found larger. Missing: it may be found equal, see `C103_equal_false`. -/
theorem C103_order_partial {l r : Val (go R)} {x y : ℚ} (hl : number l = some x) (hr : number r = some y) (hx : |x| ≤ maxDouble)
    (hy : |y| ≤ maxDouble) (h3 : l.type = .double ∨ r.type = .double) (h : x ≤ y) :
    applyOp .greaterThan l r = .ok (.boolean false) ∧ applyOp .lessThanOrEqual l r = .ok (.boolean true) ∧
    applyOp .lessThan r l = .ok (.boolean false) ∧ applyOp .greaterThanOrEqual r l = .ok (.boolean true) := by
  obtain ⟨z1, z2, f, g, _, _, ef, eg, hc⟩ := compare_double hl hr hx hy h3
  obtain ⟨z3, z4, f', g', _, _, ef', eg', hc'⟩ := compare_double hr hl hy hx h3.symm
  have h1 : f.val ≤ g.val := by
    rw [ef, eg, ← Bin.key_le_iff]
    exact Bin.ofRat_mono (by norm_num) _ _ h
  have h2 : g'.val ≤ f'.val := by
    rw [ef', eg', ← Bin.key_le_iff]
    exact Bin.ofRat_mono (by norm_num) _ _ h
  refine ⟨hc.gt.trans (ok_bool (decide_eq_false (not_lt.mpr h1))), hc.le.trans (ok_bool (decide_eq_true h1)),
    hc'.lt.trans (ok_bool (decide_eq_false (not_lt.mpr h2))), hc'.ge.trans (ok_bool (decide_eq_true h2))⟩

/-- The Int64 2^53 + 1 is found equal to the Double 2^53. -/
theorem C103_equal_false : applyOp .equal (.int64 (P := go R) 9007199254740993#64) (.double (Bin.ofInt 9007199254740992)) = .ok (.boolean true) ∧
    (Bin.ofInt 9007199254740992 : Double).val = 9007199254740992 := by
  constructor
  · have e : Bin.eq_ (Bin.ofInt 9007199254740993 : Double) (Bin.ofInt 9007199254740992) = true := by decide +kernel
    have h : ∀ (i : BitVec 64) (f : Double), applyOp .equal (.int64 (P := go R) i) (.double f) = .ok (.boolean (Bin.eq_ (Bin.ofInt i.toInt) f)) :=
      fun _ _ => rfl
    rw [h, show (9007199254740993#64).toInt = 9007199254740993 by decide, e]
  · have := (ofInt_val 9007199254740992 (by norm_num)).2
    rw [this]
    norm_num

/-- 2 and 2.5 -/
example : number (R := R) (.int32 2) = some 2 ∧ number (R := R) (.decimal ⟨25, -1⟩) = some (5 / 2) ∧
    ¬ Mismatch (R := R) (.int32 2) (.decimal ⟨25, -1⟩) := by
  refine ⟨rfl, ?_, ?_⟩
  · show some (Decimal.val ⟨25, -1⟩) = _
    rw [Decimal.val_mk]
    norm_num
  · rintro (⟨h, _⟩ | ⟨_, h⟩) <;> cases h

end Verif.Lib
