import Verif.Lib.TextProps
import Verif.Expr.OpProps

/-!
# What was assumed of the libraries holds of them

Theorems about expressions and tables assume laws of the libraries (`Ordered`, `NumberLaws`, `DurationLaws`, `OrderLaws`, `Clock`). Here the laws are
proved of the libraries as written out in `Verif.Lib.Go`, and the theorems follow without assumption.
-/

namespace Verif.Lib

open Verif.Expr

variable {R : Rest}

/-- Decimals, dates and floats other than NaN are ordered. -/
theorem go_ordered : Ordered (go R) where
  dec := fun a b => by
    show Decimal.cmp b a = -Decimal.cmp a b
    have h1 := Decimal.cmp_spec a b
    have h2 := Decimal.cmp_spec b a
    rcases lt_trichotomy a.val b.val with h | h | h
    · rw [h1.1.mpr h, h2.2.2.mpr h]; rfl
    · rw [h1.2.1.mpr h, h2.2.1.mpr h.symm]; rfl
    · rw [h1.2.2.mpr h, h2.1.mpr h]
  flt := fun a b ha hb => by
    have na : ¬ Bin.IsNaN a := fun h => by
      have : Bin.eq_ a a = true := ha
      unfold Bin.eq_ at this
      rw [decide_eq_true h] at this
      simp at this
    have nb : ¬ Bin.IsNaN b := fun h => by
      have : Bin.eq_ b b = true := hb
      unfold Bin.eq_ at this
      rw [decide_eq_true h] at this
      simp at this
    have e : Bin.eq_ a b = decide (a.val = b.val) := by
      unfold Bin.eq_
      rw [decide_eq_false na, decide_eq_false nb, Bool.not_false, Bool.true_and, Bool.true_and]
      exact decide_iff (Bin.key_eq_iff a b)
    have l1 : Bin.lt_ a b = decide (a.val < b.val) := by
      rw [Bool.eq_iff_iff, lt_iff, decide_eq_true_eq, Bin.key_lt_iff]
      exact ⟨fun h => h.2.2, fun h => ⟨na, nb, h⟩⟩
    have l2 : Bin.lt_ b a = decide (b.val < a.val) := by
      rw [Bool.eq_iff_iff, lt_iff, decide_eq_true_eq, Bin.key_lt_iff]
      exact ⟨fun h => h.2.2, fun h => ⟨nb, na, h⟩⟩
    show ExactlyOne (Bin.lt_ a b) (Bin.eq_ a b) (Bin.lt_ b a)
    rw [e, l1, l2]
    unfold ExactlyOne
    simp only [decide_eq_true_eq, decide_eq_false_iff_not]
    rcases lt_trichotomy a.val b.val with h | h | h
    · exact .inl ⟨h, ne_of_lt h, not_lt.mpr (le_of_lt h)⟩
    · exact .inr (.inl ⟨by rw [h]; exact lt_irrefl _, h, by rw [h]; exact lt_irrefl _⟩)
    · exact .inr (.inr ⟨not_lt.mpr (le_of_lt h), ne_of_gt h, h⟩)
  time := fun a b => by
    change Int at a
    change Int at b
    show ExactlyOne (decide (a < b)) (decide (a = b)) (decide (b < a))
    simp only [ExactlyOne, decide_eq_true_eq, decide_eq_false_iff_not]
    omega

/-- C47 for values other than texts, without assumption. -/
theorem C47_consistent_go {l r : Val (go R)} (hs : l.type ≠ .string) (hl : l.isNull = false) (hr : r.isNull = false) (ht : l.type = r.type)
    (hnl : ∀ f, l = .double f → ¬ Bin.IsNaN f) (hnr : ∀ f, r = .double f → ¬ Bin.IsNaN f) :
    ∃ lt eq gt : Bool, ExactlyOne lt eq gt ∧
      applyOp .lessThan l r = .ok (.boolean lt) ∧ applyOp .equal l r = .ok (.boolean eq) ∧ applyOp .greaterThan l r = .ok (.boolean gt) ∧
      applyOp .lessThanOrEqual l r = .ok (.boolean (lt || eq)) ∧ applyOp .greaterThanOrEqual l r = .ok (.boolean (gt || eq)) ∧
      applyOp .notEqual l r = .ok (.boolean (!eq)) := by
  have self : ∀ v : Val (go R), (∀ f, v = .double f → ¬ Bin.IsNaN f) → NotNaN v := by
    intro v h
    cases v with
    | double f =>
      show Bin.eq_ f f = true
      unfold Bin.eq_
      rw [decide_eq_false (h f rfl), decide_eq_true rfl]
      rfl
    | _ => trivial
  exact C47_consistent_partial go_ordered (fun a b h _ => absurd (by rw [h]; rfl) hs) hl hr ht (self l hnl) (self r hnr)

example : ∃ lt eq gt : Bool, ExactlyOne lt eq gt ∧ applyOp (P := go R) .lessThan (.decimal ⟨25, -1⟩) (.decimal ⟨3, 0⟩) = .ok (.boolean lt) :=
  let ⟨a, b, c, h, h', _⟩ := C47_consistent_go (R := R) (l := .decimal ⟨25, -1⟩) (r := .decimal ⟨3, 0⟩) (fun h => by cases h) rfl rfl rfl (fun _ h => by cases h)
    (fun _ h => by cases h)
  ⟨a, b, c, h, h'⟩

/-- C57: integers and truth values through Decimal and through Double, without assumption. -/
theorem C57_round_trips_go (a : BitVec 32) (b : Bool) (c : BitVec 64) :
    (Val.convert (P := go R) (.int32 a) .decimal >>= fun w => w.convert .int32) = .ok (.int32 a) ∧
    (Val.convert (P := go R) (.int64 c) .decimal >>= fun w => w.convert .int64) = .ok (.int64 c) ∧
    (Val.convert (P := go R) (.int32 a) .double >>= fun w => w.convert .int32) = .ok (.int32 a) ∧
    (Val.convert (P := go R) (.boolean b) .double >>= fun w => w.convert .boolean) = .ok (.boolean b) ∧
    (-2 ^ 53 ≤ c.toInt → c.toInt ≤ 2 ^ 53 → (Val.convert (P := go R) (.int64 c) .double >>= fun w => w.convert .int64) = .ok (.int64 c)) := by
  obtain ⟨h1, _, h3⟩ := C57_decimal_round_trip (go_numbers R) a b c
  obtain ⟨h4, h5, _⟩ := C57_double_round_trip_partial (go_numbers R) a b 0 (by decide) (by decide)
  exact ⟨h1, h3, h4, h5, fun h h' => (C57_double_round_trip_partial (go_numbers R) a b c h h').2.2⟩

/-- The Int64 2^53 + 1 does not survive the trip through Double. -/
theorem C57_double_go_false :
    (Val.convert (P := go R) (.int64 9007199254740993#64) .double >>= fun w => w.convert .int64) = .ok (.int64 9007199254740992#64) := by
  have h : ∀ c : BitVec 64, (Val.convert (P := go R) (.int64 c) .double >>= fun w => w.convert .int64) = .ok (.int64 (toSigned R 64 (Bin.ofInt c.toInt))) :=
    fun _ => rfl
  have e : (Bin.ofInt 9007199254740993 : Double) = Bin.ofInt 9007199254740992 := by decide +kernel
  rw [h, show (9007199254740993#64).toInt = 9007199254740993 by decide, e]
  have h2 : ∀ i : Int, -2 ^ 53 ≤ i → i ≤ 2 ^ 53 → toSigned R 64 (Bin.ofInt i) = BitVec.ofInt 64 i := (go_numbers R).flt64
  rw [h2 _ (by decide) (by decide), show BitVec.ofInt 64 9007199254740992 = 9007199254740992#64 by decide]

end Verif.Lib
