import Verif.Expr.Toy
import Verif.Expr.TypeProps

/-!
# C48: IN is a disjunction of equalities
-/

namespace Verif.Expr

variable {P : Prim}

open Val

/-- The expression `e = a`, or the one for the exact match. -/
def equality (exact : Bool) (e a : Tree P) : Tree P := .op (if exact then .equalExactMatch else .equal) e a

/-- The equality `e = a` is decided and does not hold: it gives false, or null for a null `a`. -/
def Misses (col : Nat → Res (Val P)) (exact : Bool) (e a : Tree P) : Prop :=
  eval col (equality exact e a) = .ok (.boolean false) ∨ ∃ t, eval col (equality exact e a) = .ok (.null t)

/-- The equality `e = a` holds. -/
def Matches (col : Nat → Res (Val P)) (exact : Bool) (e a : Tree P) : Prop :=
  eval col (equality exact e a) = .ok (.boolean true)

theorem eval_equality {col : Nat → Res (Val P)} {exact : Bool} {e a : Tree P} {v : Val P} (he : eval col e = .ok v) :
    eval col (equality exact e a) = (do
      let arg ← evalAs col a .boolean
      let t ← deriveComparison v.type arg.type
      equalOp v arg t exact) := by
  have he' : evalAs col e .boolean = .ok v := he
  unfold equality eval
  rw [evalAs, he']
  simp only [Res.bind_ok]
  cases exact <;> simp [applyOp, deriveType]

theorem eval_inList {col : Nat → Res (Val P)} {exact not : Bool} {e : Tree P} {args : List (Tree P)} {v : Val P} (he : eval col e = .ok v)
    (hv : v.isNull = false) : eval col (.inList e args not exact) = inListLoop v not exact (evalArgs col args) := by
  have he' : evalAs col e .boolean = .ok v := he
  unfold eval
  rw [evalAs, he']
  simp [applyInList, hv]

/-- One step: the first argument decides, or the rest does. -/
theorem eval_inList_cons {col : Nat → Res (Val P)} {exact not : Bool} {e a : Tree P} {args : List (Tree P)} {v : Val P}
    (he : eval col e = .ok v) (hv : v.isNull = false) :
    eval col (.inList e (a :: args) not exact) = (do
      let r ← eval col (equality exact e a)
      if ← r.booleanValue then return .boolean (!not)
      eval col (.inList e args not exact)) := by
  rw [eval_inList he hv, eval_inList he hv, eval_equality he, evalArgs, inListLoop]
  cases evalAs col a .boolean with
  | ok w =>
    simp only [Res.bind_ok]
    cases deriveComparison v.type w.type <;> simp
  | err => simp
  | panic => simp

theorem eval_inList_miss {col : Nat → Res (Val P)} {exact not : Bool} {e a : Tree P} {args : List (Tree P)} {v : Val P}
    (he : eval col e = .ok v) (hv : v.isNull = false) (hm : Misses col exact e a) :
    eval col (.inList e (a :: args) not exact) = eval col (.inList e args not exact) := by
  rw [eval_inList_cons he hv]
  rcases hm with h | ⟨t, h⟩ <;> rw [h] <;> simp [Val.booleanValue]

theorem eval_inList_misses {col : Nat → Res (Val P)} {exact not : Bool} {e : Tree P} {pre rest : List (Tree P)} {v : Val P}
    (he : eval col e = .ok v) (hv : v.isNull = false) (hm : ∀ a ∈ pre, Misses col exact e a) :
    eval col (.inList e (pre ++ rest) not exact) = eval col (.inList e rest not exact) := by
  induction pre with
  | nil => rfl
  | cons a pre ih =>
    rw [List.cons_append, eval_inList_miss he hv (hm a (by simp)), ih fun b hb => hm b (by simp [hb])]

/-- A match decides, whatever the later arguments are: they are not evaluated. -/
theorem C48_stops_at_first_match {col : Nat → Res (Val P)} {exact : Bool} (not : Bool) {e a : Tree P} {pre : List (Tree P)}
    (post : List (Tree P)) {v : Val P} (he : eval col e = .ok v) (hv : v.isNull = false) (hpre : ∀ b ∈ pre, Misses col exact e b)
    (ha : Matches col exact e a) : eval col (.inList e (pre ++ a :: post) not exact) = .ok (.boolean (!not)) := by
  rw [eval_inList_misses he hv hpre, eval_inList_cons he hv, show eval col (equality exact e a) = _ from ha]
  simp [Val.booleanValue]

/-- `5 IN (NULL, 5, 1 + 'x' / 0 …)`: the last argument is an error by itself. -/
example : eval (Toy.row []) (.inList (.value (.int32 5)) [.value (.null .int32), .value (.int32 5), .func .abs []] false false) =
    .ok (.boolean true) :=
  C48_stops_at_first_match (exact := false) false (pre := [.value (.null .int32)]) (a := .value (.int32 5)) [.func .abs []]
    (v := .int32 5) rfl rfl (by intro b hb; simp at hb; subst hb; exact Or.inr ⟨_, rfl⟩) rfl
example : eval (Toy.row []) (.func .abs []) = .err := rfl

/-- An argument whose comparison fails before any match makes the whole fail. -/
theorem C48_failure {col : Nat → Res (Val P)} {exact : Bool} (not : Bool) {e a : Tree P} {pre : List (Tree P)}
    (post : List (Tree P)) {v : Val P} (he : eval col e = .ok v) (hv : v.isNull = false) (hpre : ∀ b ∈ pre, Misses col exact e b)
    (ha : eval col (equality exact e a) = .err) : eval col (.inList e (pre ++ a :: post) not exact) = .err := by
  rw [eval_inList_misses he hv hpre, eval_inList_cons he hv, ha]
  rfl

example : eval (Toy.row []) (.inList (.value (.int32 5)) [.value (.int32 4), .value (.guid Guid.empty)] false false) = .err := rfl

/-- `x IN (a1 … an)` is true exactly when some `x = ai` is, false otherwise; NOT IN is the negation. For every list whose
    equalities are decided. -/
theorem C48_in_iff {col : Nat → Res (Val P)} {exact : Bool} {e : Tree P} {args : List (Tree P)} {v : Val P}
    (he : eval col e = .ok v) (hv : v.isNull = false) (hall : ∀ a ∈ args, Misses col exact e a ∨ Matches col exact e a) :
    ∃ b : Bool, (b = true ↔ ∃ a ∈ args, Matches col exact e a) ∧
      eval col (.inList e args false exact) = .ok (.boolean b) ∧ eval col (.inList e args true exact) = .ok (.boolean (!b)) := by
  induction args with
  | nil => exact ⟨false, by simp, by rw [eval_inList he hv]; rfl, by rw [eval_inList he hv]; rfl⟩
  | cons a args ih =>
    rcases hall a (by simp) with hm | hm
    · obtain ⟨b, hb, h1, h2⟩ := ih fun c hc => hall c (by simp [hc])
      refine ⟨b, ?_, by rw [eval_inList_miss he hv hm, h1], by rw [eval_inList_miss he hv hm, h2]⟩
      rw [hb]
      constructor
      · rintro ⟨c, hc, hcm⟩
        exact ⟨c, by simp [hc], hcm⟩
      · rintro ⟨c, hc, hcm⟩
        rcases List.mem_cons.mp hc with rfl | hc
        · exfalso
          unfold Matches at hcm
          rcases hm with h | ⟨t, h⟩ <;> rw [h] at hcm <;> simp at hcm
        · exact ⟨c, hc, hcm⟩
    · exact ⟨true, by simp [hm], C48_stops_at_first_match (pre := []) false args he hv (by simp) hm,
        C48_stops_at_first_match (pre := []) true args he hv (by simp) hm⟩

example : ∃ b : Bool, (b = true ↔ ∃ a ∈ [Tree.value (.int32 4), .value (.null .string)], Matches (Toy.row []) false (.value (.int32 5)) a) ∧
      eval (Toy.row []) (.inList (.value (.int32 5)) [.value (.int32 4), .value (.null .string)] false false) = .ok (.boolean b) ∧
      eval (Toy.row []) (.inList (.value (.int32 5)) [.value (.int32 4), .value (.null .string)] true false) = .ok (.boolean (!b)) :=
  C48_in_iff (v := .int32 5) rfl rfl (by
    intro a ha
    simp at ha
    rcases ha with rfl | rfl
    · exact .inl (.inl rfl)
    · exact .inl (.inr ⟨_, rfl⟩))

/-- IN and NOT IN of a null are null; the list is not looked at. -/
theorem C48_null {col : Nat → Res (Val P)} {exact not : Bool} {e : Tree P} {args : List (Tree P)} {t : VT}
    (he : eval col e = .ok (.null t)) : eval col (.inList e args not exact) = .ok (.null t) := by
  have he' : evalAs col e .boolean = .ok (.null t) := he
  unfold eval
  rw [evalAs, he']
  rfl

example : eval (Toy.row [.null .string]) (.inList (.column 0) [.func .abs []] true false) = .ok (.null .string) := rfl

/-- The converse of `C48_stops_at_first_match`: IN is true only when some argument matches and all before it were decided. -/
theorem C48_true_only {col : Nat → Res (Val P)} {exact : Bool} {e : Tree P} {args : List (Tree P)} {v : Val P}
    (he : eval col e = .ok v) (hv : v.isNull = false) (h : eval col (.inList e args false exact) = .ok (.boolean true)) :
    ∃ pre a post, args = pre ++ a :: post ∧ Matches col exact e a ∧ ∀ b ∈ pre, ¬ Matches col exact e b := by
  induction args with
  | nil => rw [eval_inList he hv] at h; simp [evalArgs, inListLoop] at h
  | cons a args ih =>
    by_cases hm : Matches col exact e a
    · exact ⟨[], a, args, rfl, hm, by simp⟩
    · rw [eval_inList_cons he hv] at h
      have h' : eval col (.inList e args false exact) = .ok (.boolean true) := by
        cases hq : eval col (equality exact e a) with
        | err => rw [hq] at h; cases h
        | panic => rw [hq] at h; cases h
        | ok r =>
          rw [hq] at h
          simp only [Res.bind_ok] at h
          cases hr : r.booleanValue with
          | err => rw [hr] at h; cases h
          | panic => rw [hr] at h; cases h
          | ok b =>
            rw [hr] at h
            simp only [Res.bind_ok] at h
            cases b with
            | false => simpa using h
            | true =>
              exfalso
              apply hm
              unfold Matches
              rw [hq]
              cases r <;> simp [Val.booleanValue] at hr
              rw [hr]
      obtain ⟨pre, b, post, rfl, hb, hpre⟩ := ih h'
      refine ⟨a :: pre, b, post, rfl, hb, ?_⟩
      intro c hc
      rcases List.mem_cons.mp hc with rfl | hc
      · exact hm
      · exact hpre c hc

end Verif.Expr
