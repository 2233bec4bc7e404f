import Verif.Expr.Toy

/-!
# Operand types, results and panics of the operators (property C46)
-/

namespace Verif.Expr

variable {P : Prim}

open Val

/-! ## Groups of operators -/

def arithOps : List Op := [.multiply, .divide, .add, .subtract]
def integerOps : List Op := [.modulus, .bitwiseAnd, .bitwiseOr, .bitwiseXor]
def shiftOps : List Op := [.bitShiftLeft, .bitShiftRight]
def orderOps : List Op := [.lessThan, .lessThanOrEqual, .greaterThan, .greaterThanOrEqual]
def equalOps : List Op := [.equal, .equalExactMatch, .notEqual, .notEqualExactMatch]
def compareOps : List Op := orderOps ++ equalOps
def boolOps : List Op := [.and, .or]
def nullOps : List Op := [.isNull, .isNotNull]
def likeOps : List Op := [.like, .likeExactMatch, .notLike, .notLikeExactMatch]
def allOps : List Op := arithOps ++ integerOps ++ shiftOps ++ compareOps ++ boolOps ++ nullOps ++ likeOps

theorem mem_allOps (o : Op) : o ∈ allOps := by cases o <;> decide

theorem mem_allTypes (t : VT) : t ∈ VT.all := by cases t <;> decide

/-- Place of a numeric type from narrow to wide. -/
def VT.rank : VT → Nat
  | .boolean => 0
  | .int32 => 1
  | .int64 => 2
  | .decimal => 3
  | .double => 4
  | _ => 5

/-- The wider of two numeric types. -/
def wider (a b : VT) : VT := if a.rank ≤ b.rank then b else a

/-- Operands whose types the operator takes. -/
def Supported (o : Op) (a b : VT) : Prop :=
  (o ∈ arithOps ∧ (a.isNumeric ∧ b.isNumeric ∨ o = .add ∧ (a = .string ∨ a.isNumeric ∧ b = .string))) ∨
  (o ∈ integerOps ∧ a.isInteger ∧ b.isInteger) ∨
  (o ∈ compareOps ∧ (a = .string ∨ a.isNumeric ∧ (b.isNumeric ∨ b = .string) ∨
    a = .guid ∧ (b = .guid ∨ b = .string) ∨ a = .dateTime ∧ (b = .dateTime ∨ b = .string))) ∨
  (o ∈ boolOps ∧ a = .boolean ∧ b = .boolean) ∨
  o ∈ shiftOps ++ nullOps ++ likeOps

instance (o : Op) (a b : VT) : Decidable (Supported o a b) := by unfold Supported; infer_instance

theorem table {p : Op → VT → VT → Prop} (h : ∀ o ∈ allOps, ∀ a ∈ VT.all, ∀ b ∈ VT.all, p o a b) (o : Op) (a b : VT) :
    p o a b := h o (mem_allOps o) a (mem_allTypes a) b (mem_allTypes b)

/-- A type is derived exactly for the supported combinations; nothing panics. -/
theorem C46_derive_total (o : Op) (a b : VT) :
    ((∃ t, deriveType o a b = .ok t) ↔ Supported o a b) ∧ (deriveType o a b = .err ↔ ¬ Supported o a b) := by
  have h : ∀ o ∈ allOps, ∀ a ∈ VT.all, ∀ b ∈ VT.all,
      (Supported o a b ∧ ∃ t ∈ VT.all, deriveType o a b = .ok t) ∨ (¬ Supported o a b ∧ deriveType o a b = .err) := by
    decide +kernel
  rcases table h o a b with ⟨h1, t, _, h2⟩ | ⟨h1, h2⟩
  · exact ⟨⟨fun _ => h1, fun _ => ⟨t, h2⟩⟩, ⟨fun e => (by rw [h2] at e; cases e), fun e => absurd h1 e⟩⟩
  · exact ⟨⟨fun ⟨t, e⟩ => (by rw [h2] at e; cases e), fun e => absurd e h1⟩, ⟨fun _ => h1, fun _ => h2⟩⟩

/-- Two numeric operands meet at the wider type, in either order. -/
theorem C46_promotion (o : Op) (a b : VT) (ho : o ∈ arithOps ++ compareOps ∨ o ∈ integerOps ∧ a.isInteger ∧ b.isInteger)
    (ha : a.isNumeric = true) (hb : b.isNumeric = true) : deriveType o a b = .ok (wider a b) := by
  have h : ∀ o ∈ allOps, ∀ a ∈ VT.all, ∀ b ∈ VT.all, (o ∈ arithOps ++ compareOps ∨ o ∈ integerOps ∧ a.isInteger ∧ b.isInteger) →
      a.isNumeric = true → b.isNumeric = true → deriveType o a b = .ok (wider a b) := by
    decide +kernel
  exact table h o a b ho ha hb

example : deriveType .multiply .int32 .double = .ok .double := rfl
example : deriveType .modulus .int64 .boolean = .ok .int64 := rfl

/-- The derived type does not depend on the operand order, except with text: `+` takes text on the left with anything but on the
right only with numbers, and a comparison with text on one side uses the type of the left operand's rule. -/
theorem C46_symmetric_partial (o : Op) (a b : VT) (ho : o ∈ arithOps ++ integerOps ++ compareOps ++ boolOps) :
    deriveType o a b = deriveType o b a ↔
      ¬ ((o = .add ∧ (a = .string ∧ b ∈ [.guid, .dateTime, .undefined] ∨ b = .string ∧ a ∈ [.guid, .dateTime, .undefined])) ∨
        (o ∈ compareOps ∧ (a = .string ∧ b ≠ .string ∨ b = .string ∧ a ≠ .string))) := by
  have h : ∀ o ∈ allOps, ∀ a ∈ VT.all, ∀ b ∈ VT.all, o ∈ arithOps ++ integerOps ++ compareOps ++ boolOps →
      (deriveType o a b = deriveType o b a ↔
      ¬ ((o = .add ∧ (a = .string ∧ b ∈ [.guid, .dateTime, .undefined] ∨ b = .string ∧ a ∈ [.guid, .dateTime, .undefined])) ∨
        (o ∈ compareOps ∧ (a = .string ∧ b ≠ .string ∨ b = .string ∧ a ≠ .string)))) := by
    decide +kernel
  exact table h o a b ho

example : deriveType .equal .int32 .decimal = deriveType .equal .decimal .int32 := rfl

/-- Full statement refuted: the operand order changes the type a comparison is made in, and with it its result. In the library of
`Toy` (which agrees with Go on these values) `1 = '01'` compares numbers, `'01' = 1` compares texts. -/
theorem C46_symmetric_false :
    deriveType .equal .int32 .string = .ok .decimal ∧ deriveType .equal .string .int32 = .ok .string ∧
    applyOp (P := Toy.prim) .equal (.int32 1) (.string (lit "01")) = .ok (.boolean true) ∧
    applyOp (P := Toy.prim) .equal (.string (lit "01")) (.int32 1) = .ok (.boolean false) := by
  refine ⟨rfl, rfl, rfl, ?_⟩
  rfl

/-! ## Result types -/

/-- The operand conversion and the getters taken apart. -/
macro "op_type" h:ident : tactic => `(tactic| (
  split at $h:ident
  · cases $h:ident; rfl
  · obtain ⟨p, hp, $h⟩ := Res.bind_eq_ok.1 $h
    dsimp only at $h:ident
    split at $h:ident <;> first
      | cases $h:ident; done
      | (obtain ⟨a, ha, $h⟩ := Res.bind_eq_ok.1 $h
         obtain ⟨b, hb, $h⟩ := Res.bind_eq_ok.1 $h
         first
           | (cases $h:ident; rfl)
           | (split at $h:ident <;> cases $h:ident; rfl))))

theorem multiplyOp_type {l r v : Val P} {t : VT} (h : multiplyOp l r t = .ok v) : v.type = t := by
  unfold multiplyOp at h
  op_type h
theorem divideOp_type {l r v : Val P} {t : VT} (h : divideOp l r t = .ok v) : v.type = t := by
  unfold divideOp at h
  op_type h
theorem modulusOp_type {l r v : Val P} {t : VT} (h : modulusOp l r t = .ok v) : v.type = t := by
  unfold modulusOp at h
  op_type h
theorem addOp_type {l r v : Val P} {t : VT} (h : addOp l r t = .ok v) : v.type = t := by
  unfold addOp at h
  op_type h
theorem subtractOp_type {l r v : Val P} {t : VT} (h : subtractOp l r t = .ok v) : v.type = t := by
  unfold subtractOp at h
  op_type h
theorem bitwiseAndOp_type {l r v : Val P} {t : VT} (h : bitwiseAndOp l r t = .ok v) : v.type = t := by
  unfold bitwiseAndOp at h
  op_type h
theorem bitwiseOrOp_type {l r v : Val P} {t : VT} (h : bitwiseOrOp l r t = .ok v) : v.type = t := by
  unfold bitwiseOrOp at h
  op_type h
theorem bitwiseXorOp_type {l r v : Val P} {t : VT} (h : bitwiseXorOp l r t = .ok v) : v.type = t := by
  unfold bitwiseXorOp at h
  op_type h

/-- As `op_type`, for a Boolean result. -/
macro "op_bool" h:ident hv:ident : tactic => `(tactic| (
  split at $h:ident
  · cases $h:ident; cases $hv:ident
  · obtain ⟨p, hp, $h⟩ := Res.bind_eq_ok.1 $h
    dsimp only at $h:ident
    split at $h:ident <;> first
      | cases $h:ident; done
      | (obtain ⟨a, ha, $h⟩ := Res.bind_eq_ok.1 $h
         obtain ⟨b, hb, $h⟩ := Res.bind_eq_ok.1 $h
         cases $h:ident; rfl)))

theorem lessThanOp_bool {l r v : Val P} {t : VT} (h : lessThanOp l r t = .ok v) (hv : v.isNull = false) : v.type = .boolean := by
  unfold lessThanOp at h
  op_bool h hv
theorem lessThanOrEqualOp_bool {l r v : Val P} {t : VT} (h : lessThanOrEqualOp l r t = .ok v) (hv : v.isNull = false) :
    v.type = .boolean := by
  unfold lessThanOrEqualOp at h
  op_bool h hv
theorem greaterThanOp_bool {l r v : Val P} {t : VT} (h : greaterThanOp l r t = .ok v) (hv : v.isNull = false) :
    v.type = .boolean := by
  unfold greaterThanOp at h
  op_bool h hv
theorem greaterThanOrEqualOp_bool {l r v : Val P} {t : VT} (h : greaterThanOrEqualOp l r t = .ok v) (hv : v.isNull = false) :
    v.type = .boolean := by
  unfold greaterThanOrEqualOp at h
  op_bool h hv
theorem equalOp_bool {l r v : Val P} {t : VT} {e : Bool} (h : equalOp l r t e = .ok v) (hv : v.isNull = false) :
    v.type = .boolean := by
  unfold equalOp at h
  op_bool h hv
theorem notEqualOp_bool {l r v : Val P} {t : VT} {e : Bool} (h : notEqualOp l r t e = .ok v) (hv : v.isNull = false) :
    v.type = .boolean := by
  unfold notEqualOp at h
  op_bool h hv

theorem shiftLeft_type {l r v : Val P} (h : bitShiftLeftOp l r = .ok v) : v.type = l.type := by
  unfold bitShiftLeftOp at h
  split at h
  · cases h; rfl
  split at h
  · cases h
  split at h
  · cases h
  obtain ⟨s, hs, h⟩ := Res.bind_eq_ok.1 h
  split at h <;> first
    | cases h; done
    | (obtain ⟨a, ha, h⟩ := Res.bind_eq_ok.1 h
       cases h; simp_all [Val.type])

theorem shiftRight_type {l r v : Val P} (h : bitShiftRightOp l r = .ok v) : v.type = l.type := by
  unfold bitShiftRightOp at h
  split at h
  · cases h; rfl
  split at h
  · cases h
  split at h
  · cases h
  obtain ⟨s, hs, h⟩ := Res.bind_eq_ok.1 h
  split at h <;> first
    | cases h; done
    | (obtain ⟨a, ha, h⟩ := Res.bind_eq_ok.1 h
       cases h; simp_all [Val.type])

theorem likeOp_type {l r v : Val P} {e : Bool} (h : likeOp l r e = .ok v) : v.type = .boolean := by
  unfold likeOp at h
  split at h
  · cases h; rfl
  split at h
  · cases h
  split at h
  · cases h
  obtain ⟨a, ha, h⟩ := Res.bind_eq_ok.1 h
  obtain ⟨b, hb, h⟩ := Res.bind_eq_ok.1 h
  obtain ⟨c, hc, h⟩ := Res.bind_eq_ok.1 h
  cases h; rfl

theorem notLikeOp_type {l r v : Val P} {e : Bool} (h : notLikeOp l r e = .ok v) : v.type = .boolean := by
  unfold notLikeOp at h
  split at h
  · cases h; rfl
  obtain ⟨a, ha, h⟩ := Res.bind_eq_ok.1 h
  obtain ⟨b, hb, h⟩ := Res.bind_eq_ok.1 h
  split at h <;> (cases h; rfl)

theorem andOp_type {l r v : Val P} (h : andOp l r = .ok v) : v.type = .boolean := by
  unfold andOp at h
  split at h
  · cases h; rfl
  split at h
  · cases h
  obtain ⟨a, ha, h⟩ := Res.bind_eq_ok.1 h
  obtain ⟨b, hb, h⟩ := Res.bind_eq_ok.1 h
  cases h; rfl

theorem orOp_type {l r v : Val P} (h : orOp l r = .ok v) : v.type = .boolean := by
  unfold orOp at h
  split at h
  · cases h; rfl
  split at h
  · cases h
  obtain ⟨a, ha, h⟩ := Res.bind_eq_ok.1 h
  obtain ⟨b, hb, h⟩ := Res.bind_eq_ok.1 h
  cases h; rfl

/-- The type of a result. -/
def resultType (o : Op) (l r : VT) : Res VT :=
  if o ∈ compareOps ++ boolOps ++ nullOps ++ likeOps then .ok .boolean
  else if o ∈ shiftOps then .ok l
  else deriveType o l r

/-- A non-null result has the type the operation was derived for; comparisons, tests and connectives give a Boolean. -/
theorem C46_result_type (o : Op) (l r v : Val P) (h : applyOp o l r = .ok v) (hv : v.isNull = false) :
    resultType o l.type r.type = .ok v.type := by
  obtain ⟨t, ht, h⟩ := Res.bind_eq_ok.1 h
  have hnot : ∀ o, o ∉ compareOps ++ boolOps ++ nullOps ++ likeOps → o ∉ shiftOps → deriveType o l.type r.type = .ok t → v.type = t →
      resultType o l.type r.type = .ok v.type := by
    intro o h1 h2 h3 h4
    rw [resultType, if_neg h1, if_neg h2, h3, h4]
  have hshift : ∀ o, o ∈ shiftOps → v.type = l.type → resultType o l.type r.type = .ok v.type := by
    intro o h1 h2
    rw [resultType, if_neg (by cases o <;> revert h1 <;> decide), if_pos h1, h2]
  have hbool : ∀ o, o ∈ compareOps ++ boolOps ++ nullOps ++ likeOps → v.type = .boolean →
      resultType o l.type r.type = .ok v.type := by
    intro o h1 h2
    rw [resultType, if_pos h1, h2]
  cases o
  · exact hnot _ (by decide) (by decide) ht (multiplyOp_type h)
  · exact hnot _ (by decide) (by decide) ht (divideOp_type h)
  · exact hnot _ (by decide) (by decide) ht (modulusOp_type h)
  · exact hnot _ (by decide) (by decide) ht (addOp_type h)
  · exact hnot _ (by decide) (by decide) ht (subtractOp_type h)
  · exact hshift _ (by decide) (shiftLeft_type h)
  · exact hshift _ (by decide) (shiftRight_type h)
  · exact hnot _ (by decide) (by decide) ht (bitwiseAndOp_type h)
  · exact hnot _ (by decide) (by decide) ht (bitwiseOrOp_type h)
  · exact hnot _ (by decide) (by decide) ht (bitwiseXorOp_type h)
  · exact hbool _ (by decide) (lessThanOp_bool h hv)
  · exact hbool _ (by decide) (lessThanOrEqualOp_bool h hv)
  · exact hbool _ (by decide) (greaterThanOp_bool h hv)
  · exact hbool _ (by decide) (greaterThanOrEqualOp_bool h hv)
  · exact hbool _ (by decide) (equalOp_bool h hv)
  · exact hbool _ (by decide) (equalOp_bool h hv)
  · exact hbool _ (by decide) (notEqualOp_bool h hv)
  · exact hbool _ (by decide) (notEqualOp_bool h hv)
  · exact hbool _ (by decide) (by cases h; rfl)
  · exact hbool _ (by decide) (by cases h; rfl)
  · exact hbool _ (by decide) (likeOp_type h)
  · exact hbool _ (by decide) (likeOp_type h)
  · exact hbool _ (by decide) (notLikeOp_type h)
  · exact hbool _ (by decide) (notLikeOp_type h)
  · exact hbool _ (by decide) (andOp_type h)
  · exact hbool _ (by decide) (orOp_type h)

example : applyOp (P := Toy.prim) .add (.int32 1) (.int64 2) = .ok (.int64 3) ∧ resultType .add .int32 .int64 = .ok .int64 :=
  ⟨rfl, rfl⟩

/-! ## Panics -/

/-- A Boolean meets an Int32: it is converted to Int32, and `newValueExpression` panics. -/
def BooleanMeetsInt32 (l r : Val P) : Prop := l.type = .boolean ∧ r.type = .int32 ∨ l.type = .int32 ∧ r.type = .boolean

/-- The right operand, as a value of type `t`, is a whole number or decimal equal to zero. -/
def ZeroOf (t : VT) (r : Val P) : Prop :=
  r.convert t = .ok (.int32 0) ∨ r.convert t = .ok (.int64 0) ∨
  ∃ d, r.convert t = .ok (.decimal d) ∧ P.decCmp d (P.decOfInt 0) = 0

theorem deriveType_no_panic (o : Op) (a b : VT) : deriveType o a b ≠ .panic := by
  have h : ∀ o ∈ allOps, ∀ a ∈ VT.all, ∀ b ∈ VT.all, deriveType o a b ≠ .panic := by decide +kernel
  exact table h o a b

theorem bind_eq_panic {α β : Type} {x : Res α} {f : α → Res β} : (x >>= f) = .panic ↔ x = .panic ∨ ∃ a, x = .ok a ∧ f a = .panic := by
  cases x <;> simp

theorem likeText_no_panic (e : Bool) (a b : Str) : likeText P e a b ≠ .panic := by
  unfold likeText
  intro h
  dsimp only at h
  split at h
  · cases h
  split at h <;> cases h

theorem likeOp_no_panic (l r : Val P) (e : Bool) : likeOp l r e ≠ .panic := by
  unfold likeOp
  cases l <;> cases r <;> simp [Val.isNull, Val.type, Val.stringValue, bind_eq_panic, likeText_no_panic]

theorem notLikeOp_no_panic (l r : Val P) (e : Bool) : notLikeOp l r e ≠ .panic := by
  unfold notLikeOp
  intro h
  split at h
  · cases h
  rcases bind_eq_panic.1 h with h | ⟨a, ha, h⟩
  · exact likeOp_no_panic _ _ _ h
  have := likeOp_type ha
  cases a <;> simp [Val.type] at this <;> simp [Val.booleanValue] at h
  split at h <;> cases h

theorem shiftLeft_no_panic (l r : Val P) : bitShiftLeftOp l r ≠ .panic := by
  unfold bitShiftLeftOp
  cases l <;> cases r <;> simp [Val.isNull, Val.type, VT.isInteger, Val.integerValue, Val.booleanValueAsInt, Val.booleanValue,
    Val.int32Value, Val.int64Value]

theorem shiftRight_no_panic (l r : Val P) : bitShiftRightOp l r ≠ .panic := by
  unfold bitShiftRightOp
  cases l <;> cases r <;> simp [Val.isNull, Val.type, VT.isInteger, Val.integerValue, Val.booleanValueAsInt, Val.booleanValue,
    Val.int32Value, Val.int64Value]

/-- What becomes of the operands: both are converted to the type, or a Boolean meets an Int32. -/
def Meets (l r : Val P) (t : VT) : Prop :=
  (BooleanMeetsInt32 l r ∧ convertOperands l r t = .panic) ∨
  (¬ BooleanMeetsInt32 l r ∧ ∃ l' r', l.convert t = .ok l' ∧ r.convert t = .ok r' ∧ l'.type = t ∧ r'.type = t ∧
    l'.isNull = false ∧ r'.isNull = false)

macro "meets" : tactic => `(tactic| first
  | exact .inl ⟨.inl ⟨rfl, rfl⟩, rfl⟩
  | exact .inl ⟨.inr ⟨rfl, rfl⟩, rfl⟩
  | exact .inr ⟨(by rintro (⟨h, h'⟩ | ⟨h, h'⟩) <;> first | (cases h; done) | (cases h'; done)), _, _, rfl, rfl, rfl, rfl, rfl, rfl⟩)

theorem meets_arith {o : Op} {l r : Val P} {t : VT} (hl : l.isNull = false) (hr : r.isNull = false)
    (h : deriveArithmetic o l.type r.type = .ok t) : Meets l r t := by
  cases l <;> cases hl <;> cases r <;> cases hr <;>
    simp only [Val.type, deriveArithmetic, arithFromBoolean, arithFromInt32, arithFromInt64, arithFromDecimal, arithFromDouble] at h <;>
    first
      | (cases h; done)
      | (cases h; meets)
      | (split at h <;> cases h; meets)

theorem meets_integer {l r : Val P} {t : VT} (hl : l.isNull = false) (hr : r.isNull = false)
    (h : deriveInteger l.type r.type = .ok t) : Meets l r t := by
  cases l <;> cases hl <;> cases r <;> cases hr <;>
    simp only [Val.type, deriveInteger, integerFromBoolean, integerFromInt32, integerFromInt64] at h <;>
    cases h <;> meets

theorem meets_compare {l r : Val P} {t : VT} (hl : l.isNull = false) (hr : r.isNull = false)
    (h : deriveComparison l.type r.type = .ok t) : Meets l r t := by
  cases l <;> cases hl <;> cases r <;> cases hr <;>
    simp only [Val.type, deriveComparison, compareFromBoolean, compareFromInt32, compareFromInt64, compareFromDecimal,
      compareFromDouble, compareFromGuid, compareFromDateTime] at h <;>
    cases h <;> meets

/-- Two non-null values of the same type. -/
macro "same_type" a:ident b:ident ha:ident hb:ident hna:ident hnb:ident : tactic => `(tactic| (
  subst $ha:ident
  cases $a:ident <;> cases $b:ident <;> first
    | (cases $hna:ident; done)
    | (cases $hnb:ident; done)
    | (cases $hb:ident; done)
    | (exact nofun)))

/-- The operands are converted, then the operation is done on two values of the same type. -/
theorem op_panic {f : Val P × Val P → Res (Val P)} {l r : Val P} {t : VT} (hm : Meets l r t)
    (hf : ∀ a b, a.type = t → b.type = t → a.isNull = false → b.isNull = false → f (a, b) ≠ .panic) :
    (convertOperands l r t >>= f) = .panic ↔ BooleanMeetsInt32 l r := by
  rcases hm with ⟨h, hc⟩ | ⟨h, l', r', h1, h2, h3, h4, h5, h6⟩
  · rw [hc]; simp [h]
  · have hc : convertOperands l r t = .ok (l', r') := by rw [convertOperands, h1, h2]; rfl
    rw [hc]
    exact iff_of_false (hf l' r' h3 h4 h5 h6) h

theorem multiplyOp_panic {l r : Val P} {t : VT} (hl : l.isNull = false) (hr : r.isNull = false) (hm : Meets l r t) :
    multiplyOp l r t = .panic ↔ BooleanMeetsInt32 l r := by
  rw [multiplyOp, if_neg (by rw [hl, hr]; decide)]
  refine op_panic hm fun a b ha hb hna hnb => ?_
  same_type a b ha hb hna hnb

theorem addOp_panic {l r : Val P} {t : VT} (hl : l.isNull = false) (hr : r.isNull = false) (hm : Meets l r t) :
    addOp l r t = .panic ↔ BooleanMeetsInt32 l r := by
  rw [addOp, if_neg (by rw [hl, hr]; decide)]
  refine op_panic hm fun a b ha hb hna hnb => ?_
  same_type a b ha hb hna hnb

theorem subtractOp_panic {l r : Val P} {t : VT} (hl : l.isNull = false) (hr : r.isNull = false) (hm : Meets l r t) :
    subtractOp l r t = .panic ↔ BooleanMeetsInt32 l r := by
  rw [subtractOp, if_neg (by rw [hl, hr]; decide)]
  refine op_panic hm fun a b ha hb hna hnb => ?_
  same_type a b ha hb hna hnb

theorem bitwiseAndOp_panic {l r : Val P} {t : VT} (hl : l.isNull = false) (hr : r.isNull = false) (hm : Meets l r t) :
    bitwiseAndOp l r t = .panic ↔ BooleanMeetsInt32 l r := by
  rw [bitwiseAndOp, if_neg (by rw [hl, hr]; decide)]
  refine op_panic hm fun a b ha hb hna hnb => ?_
  same_type a b ha hb hna hnb

theorem bitwiseOrOp_panic {l r : Val P} {t : VT} (hl : l.isNull = false) (hr : r.isNull = false) (hm : Meets l r t) :
    bitwiseOrOp l r t = .panic ↔ BooleanMeetsInt32 l r := by
  rw [bitwiseOrOp, if_neg (by rw [hl, hr]; decide)]
  refine op_panic hm fun a b ha hb hna hnb => ?_
  same_type a b ha hb hna hnb

theorem bitwiseXorOp_panic {l r : Val P} {t : VT} (hl : l.isNull = false) (hr : r.isNull = false) (hm : Meets l r t) :
    bitwiseXorOp l r t = .panic ↔ BooleanMeetsInt32 l r := by
  rw [bitwiseXorOp, if_neg (by rw [hl, hr]; decide)]
  refine op_panic hm fun a b ha hb hna hnb => ?_
  same_type a b ha hb hna hnb

theorem lessThanOp_panic {l r : Val P} {t : VT} (hl : l.isNull = false) (hr : r.isNull = false) (hm : Meets l r t) :
    lessThanOp l r t = .panic ↔ BooleanMeetsInt32 l r := by
  rw [lessThanOp, if_neg (by rw [hl, hr]; decide)]
  refine op_panic hm fun a b ha hb hna hnb => ?_
  same_type a b ha hb hna hnb

theorem lessThanOrEqualOp_panic {l r : Val P} {t : VT} (hl : l.isNull = false) (hr : r.isNull = false) (hm : Meets l r t) :
    lessThanOrEqualOp l r t = .panic ↔ BooleanMeetsInt32 l r := by
  rw [lessThanOrEqualOp, if_neg (by rw [hl, hr]; decide)]
  refine op_panic hm fun a b ha hb hna hnb => ?_
  same_type a b ha hb hna hnb

theorem greaterThanOp_panic {l r : Val P} {t : VT} (hl : l.isNull = false) (hr : r.isNull = false) (hm : Meets l r t) :
    greaterThanOp l r t = .panic ↔ BooleanMeetsInt32 l r := by
  rw [greaterThanOp, if_neg (by rw [hl, hr]; decide)]
  refine op_panic hm fun a b ha hb hna hnb => ?_
  same_type a b ha hb hna hnb

theorem greaterThanOrEqualOp_panic {l r : Val P} {t : VT} (hl : l.isNull = false) (hr : r.isNull = false) (hm : Meets l r t) :
    greaterThanOrEqualOp l r t = .panic ↔ BooleanMeetsInt32 l r := by
  rw [greaterThanOrEqualOp, if_neg (by rw [hl, hr]; decide)]
  refine op_panic hm fun a b ha hb hna hnb => ?_
  same_type a b ha hb hna hnb

theorem equalOp_panic {l r : Val P} {t : VT} {e : Bool} (hl : l.isNull = false) (hr : r.isNull = false) (hm : Meets l r t) :
    equalOp l r t e = .panic ↔ BooleanMeetsInt32 l r := by
  rw [equalOp, if_neg (by rw [hl, hr]; decide)]
  refine op_panic hm fun a b ha hb hna hnb => ?_
  same_type a b ha hb hna hnb

theorem notEqualOp_panic {l r : Val P} {t : VT} {e : Bool} (hl : l.isNull = false) (hr : r.isNull = false) (hm : Meets l r t) :
    notEqualOp l r t e = .panic ↔ BooleanMeetsInt32 l r := by
  rw [notEqualOp, if_neg (by rw [hl, hr]; decide)]
  refine op_panic hm fun a b ha hb hna hnb => ?_
  same_type a b ha hb hna hnb

/-- Division and remainder: besides, a zero divisor. -/
theorem div_panic {f : Val P × Val P → Res (Val P)} {l r : Val P} {t : VT} (hm : Meets l r t)
    (hf : ∀ a b : Val P, a.type = t → b.type = t → a.isNull = false → b.isNull = false →
      (f (a, b) = .panic ↔ b = .int32 0 ∨ b = .int64 0 ∨ ∃ d, b = .decimal d ∧ P.decCmp d (P.decOfInt 0) = 0)) :
    (convertOperands l r t >>= f) = .panic ↔ BooleanMeetsInt32 l r ∨ ZeroOf t r := by
  rcases hm with ⟨h, hc⟩ | ⟨h, l', r', h1, h2, h3, h4, h5, h6⟩
  · rw [hc]; simp [h]
  · have hc : convertOperands l r t = .ok (l', r') := by rw [convertOperands, h1, h2]; rfl
    rw [hc]
    simp only [Res.bind_ok, hf l' r' h3 h4 h5 h6, h, false_or, ZeroOf, h2, Res.ok.injEq]

macro "same_type_div" a:ident b:ident ha:ident hb:ident hna:ident hnb:ident : tactic => `(tactic| (
  subst $ha:ident
  cases $a:ident <;> cases $b:ident <;> first
    | (cases $hna:ident; done)
    | (cases $hnb:ident; done)
    | (cases $hb:ident; done)
    | (simp [Val.type, Val.int32Value, Val.int64Value, Val.decimalValue, Val.doubleValue]; done)
    | (simp [Val.type, Val.int32Value, Val.int64Value, Val.decimalValue, decZero])))

theorem divideOp_panic {l r : Val P} {t : VT} (hl : l.isNull = false) (hr : r.isNull = false) (hm : Meets l r t) :
    divideOp l r t = .panic ↔ BooleanMeetsInt32 l r ∨ ZeroOf t r := by
  rw [divideOp, if_neg (by rw [hl, hr]; decide)]
  refine div_panic hm fun a b ha hb hna hnb => ?_
  same_type_div a b ha hb hna hnb

theorem modulusOp_panic {l r : Val P} {t : VT} (hl : l.isNull = false) (hr : r.isNull = false) (hm : Meets l r t) :
    modulusOp l r t = .panic ↔ BooleanMeetsInt32 l r ∨ ZeroOf t r := by
  rw [modulusOp, if_neg (by rw [hl, hr]; decide)]
  refine div_panic hm fun a b ha hb hna hnb => ?_
  same_type_div a b ha hb hna hnb

theorem andOp_no_panic (l r : Val P) : andOp l r ≠ .panic := by
  unfold andOp
  cases l <;> cases r <;> simp [Val.isNull, Val.type, Val.booleanValue]

theorem orOp_no_panic (l r : Val P) : orOp l r ≠ .panic := by
  unfold orOp
  cases l <;> cases r <;> simp [Val.isNull, Val.type, Val.booleanValue]

/-- A null operand never panics. -/
theorem null_no_panic (o : Op) (l r : Val P) (h : l.isNull = true ∨ r.isNull = true) : applyOp o l r ≠ .panic := by
  intro hp
  rw [applyOp] at hp
  rcases bind_eq_panic.1 hp with hp | ⟨t, ht, hp⟩
  · exact deriveType_no_panic o _ _ hp
  have hor : (l.isNull || r.isNull) = true := by simpa using h
  cases o <;> dsimp only at hp <;> first
    | exact shiftLeft_no_panic _ _ hp
    | exact shiftRight_no_panic _ _ hp
    | exact likeOp_no_panic _ _ _ hp
    | exact notLikeOp_no_panic _ _ _ hp
    | exact andOp_no_panic _ _ hp
    | exact orOp_no_panic _ _ hp
    | (cases hp; done)
    | (simp only [multiplyOp, divideOp, modulusOp, addOp, subtractOp, bitwiseAndOp, bitwiseOrOp, bitwiseXorOp, lessThanOp,
        lessThanOrEqualOp, greaterThanOp, greaterThanOrEqualOp, equalOp, notEqualOp, hor, if_true, reduceCtorEq] at hp)

/-- The full claim "evaluation never panics" is false; this is exactly when an operator panics: a Boolean meets an Int32 in an
arithmetic, bitwise or comparison operator, or a division or remainder of whole numbers or decimals has a zero divisor. -/
theorem C46_panic_iff_partial (o : Op) (l r : Val P) :
    applyOp o l r = .panic ↔
      l.isNull = false ∧ r.isNull = false ∧
      ((o ∈ arithOps ++ integerOps ++ compareOps ∧ BooleanMeetsInt32 l r) ∨
        ((o = .divide ∨ o = .modulus) ∧ ∃ t, deriveType o l.type r.type = .ok t ∧ ZeroOf t r)) := by
  cases hl : l.isNull with
  | true => simp [null_no_panic o l r (.inl hl)]
  | false =>
  cases hr : r.isNull with
  | true => simp [null_no_panic o l r (.inr hr)]
  | false =>
  have hno : ∀ o : Op, o ∉ arithOps ++ integerOps ++ compareOps → o ≠ .divide → o ≠ .modulus → ∀ x : Res (Val P), x ≠ .panic →
      (x = .panic ↔ false = false ∧ false = false ∧
      ((o ∈ arithOps ++ integerOps ++ compareOps ∧ BooleanMeetsInt32 l r) ∨
        ((o = .divide ∨ o = .modulus) ∧ ∃ t, deriveType o l.type r.type = .ok t ∧ ZeroOf t r))) := by
    intro o h1 h2 h3 x hx
    refine iff_of_false hx ?_
    rintro ⟨_, _, ⟨h, _⟩ | ⟨h | h, _⟩⟩
    · exact h1 h
    · exact h2 h
    · exact h3 h
  have hsup : ∀ o ∈ arithOps ++ integerOps ++ compareOps, BooleanMeetsInt32 l r → ∃ t, deriveType o l.type r.type = .ok t := by
    intro o ho hb
    rw [(C46_derive_total o _ _).1]
    rcases hb with ⟨h1, h2⟩ | ⟨h1, h2⟩ <;> rw [h1, h2] <;> revert ho <;> revert o <;> decide
  have hmeets : ∀ o ∈ arithOps ++ integerOps ++ compareOps, ∀ t, deriveType o l.type r.type = .ok t → Meets l r t := by
    intro o ho t h
    cases o <;> first
      | exact meets_arith hl hr h
      | exact meets_integer hl hr h
      | exact meets_compare hl hr h
      | exact absurd ho (by decide)
  -- an operator whose only panic is the conversion
  have hconv : ∀ (o : Op) (f : VT → Res (Val P)), o ∈ arithOps ++ integerOps ++ compareOps → o ≠ .divide → o ≠ .modulus →
      (∀ t, Meets l r t → (f t = .panic ↔ BooleanMeetsInt32 l r)) →
      ((deriveType o l.type r.type >>= f) = .panic ↔ false = false ∧ false = false ∧
      ((o ∈ arithOps ++ integerOps ++ compareOps ∧ BooleanMeetsInt32 l r) ∨
        ((o = .divide ∨ o = .modulus) ∧ ∃ t, deriveType o l.type r.type = .ok t ∧ ZeroOf t r))) := by
    intro o f h1 h2 h3 hf
    simp only [h1, h2, h3, true_and, false_or, false_and, or_false]
    rw [bind_eq_panic]
    constructor
    · rintro (h | ⟨t, ht, h⟩)
      · exact absurd h (deriveType_no_panic o _ _)
      · exact (hf t (hmeets o h1 t ht)).1 h
    · intro h
      obtain ⟨t, ht⟩ := hsup o h1 h
      exact .inr ⟨t, ht, (hf t (hmeets o h1 t ht)).2 h⟩
  have hdiv : ∀ (o : Op) (f : VT → Res (Val P)), (o = .divide ∨ o = .modulus) →
      (∀ t, Meets l r t → (f t = .panic ↔ BooleanMeetsInt32 l r ∨ ZeroOf t r)) →
      ((deriveType o l.type r.type >>= f) = .panic ↔ false = false ∧ false = false ∧
      ((o ∈ arithOps ++ integerOps ++ compareOps ∧ BooleanMeetsInt32 l r) ∨
        ((o = .divide ∨ o = .modulus) ∧ ∃ t, deriveType o l.type r.type = .ok t ∧ ZeroOf t r))) := by
    intro o f h1 hf
    have h2 : o ∈ arithOps ++ integerOps ++ compareOps := by rcases h1 with h1 | h1 <;> rw [h1] <;> decide
    simp only [h1, h2, true_and]
    rw [bind_eq_panic]
    constructor
    · rintro (h | ⟨t, ht, h⟩)
      · exact absurd h (deriveType_no_panic o _ _)
      · rcases (hf t (hmeets o h2 t ht)).1 h with h | h
        · exact .inl h
        · exact .inr ⟨t, ht, h⟩
    · rintro (h | ⟨t, ht, h⟩)
      · obtain ⟨t, ht⟩ := hsup o h2 h
        exact .inr ⟨t, ht, (hf t (hmeets o h2 t ht)).2 (.inl h)⟩
      · exact .inr ⟨t, ht, (hf t (hmeets o h2 t ht)).2 (.inr h)⟩
  cases o
  · exact hconv _ _ (by decide) (by decide) (by decide) fun t h => multiplyOp_panic hl hr h
  · exact hdiv _ _ (by decide) fun t h => divideOp_panic hl hr h
  · exact hdiv _ _ (by decide) fun t h => modulusOp_panic hl hr h
  · exact hconv _ _ (by decide) (by decide) (by decide) fun t h => addOp_panic hl hr h
  · exact hconv _ _ (by decide) (by decide) (by decide) fun t h => subtractOp_panic hl hr h
  · exact hno _ (by decide) (by decide) (by decide) _ (shiftLeft_no_panic l r)
  · exact hno _ (by decide) (by decide) (by decide) _ (shiftRight_no_panic l r)
  · exact hconv _ _ (by decide) (by decide) (by decide) fun t h => bitwiseAndOp_panic hl hr h
  · exact hconv _ _ (by decide) (by decide) (by decide) fun t h => bitwiseOrOp_panic hl hr h
  · exact hconv _ _ (by decide) (by decide) (by decide) fun t h => bitwiseXorOp_panic hl hr h
  · exact hconv _ _ (by decide) (by decide) (by decide) fun t h => lessThanOp_panic hl hr h
  · exact hconv _ _ (by decide) (by decide) (by decide) fun t h => lessThanOrEqualOp_panic hl hr h
  · exact hconv _ _ (by decide) (by decide) (by decide) fun t h => greaterThanOp_panic hl hr h
  · exact hconv _ _ (by decide) (by decide) (by decide) fun t h => greaterThanOrEqualOp_panic hl hr h
  · exact hconv _ _ (by decide) (by decide) (by decide) fun t h => equalOp_panic hl hr h
  · exact hconv _ _ (by decide) (by decide) (by decide) fun t h => equalOp_panic hl hr h
  · exact hconv _ _ (by decide) (by decide) (by decide) fun t h => notEqualOp_panic hl hr h
  · exact hconv _ _ (by decide) (by decide) (by decide) fun t h => notEqualOp_panic hl hr h
  · exact hno _ (by decide) (by decide) (by decide) _ nofun
  · exact hno _ (by decide) (by decide) (by decide) _ nofun
  · exact hno _ (by decide) (by decide) (by decide) _ (likeOp_no_panic l r false)
  · exact hno _ (by decide) (by decide) (by decide) _ (likeOp_no_panic l r true)
  · exact hno _ (by decide) (by decide) (by decide) _ (notLikeOp_no_panic l r false)
  · exact hno _ (by decide) (by decide) (by decide) _ (notLikeOp_no_panic l r true)
  · refine hno .and (by decide) (by decide) (by decide) (applyOp .and l r) ?_
    intro h
    rcases bind_eq_panic.1 h with h | ⟨t, _, h⟩
    · exact deriveType_no_panic _ _ _ h
    · exact andOp_no_panic l r h
  · refine hno .or (by decide) (by decide) (by decide) (applyOp .or l r) ?_
    intro h
    rcases bind_eq_panic.1 h with h | ⟨t, _, h⟩
    · exact deriveType_no_panic _ _ _ h
    · exact orOp_no_panic l r h

/-- "Evaluation never panics" refuted: `1 / 0`, `1 % 0` and `True = 1`, whatever the library functions. -/
theorem C46_no_panic_false :
    applyOp (P := P) .divide (.int32 1) (.int32 0) = .panic ∧ applyOp (P := P) .modulus (.int64 7) (.int32 0) = .panic ∧
    applyOp (P := P) .equal (.boolean true) (.int32 1) = .panic := ⟨rfl, rfl, rfl⟩

/-- Non-zero divisors of whole numbers do not panic, nor does a float division. -/
example : applyOp (P := Toy.prim) .divide (.int32 7) (.int32 2) = .ok (.int32 3) ∧
    applyOp (P := Toy.prim) .divide (.double (some 1)) (.int32 0) = .ok (.double none) := ⟨rfl, rfl⟩

end Verif.Expr
