import Verif.Expr.Value

/-!
# C119: values are read as the type they were made with

`NewValueExpression` (data/ValueExpression.go L47-95) with a value of any Go type, `NullValue` (L162-183) and the eight public readers (L206-372).
-/

namespace Verif.Expr

variable {P : Prim}

/-- An `interface{}` given to `NewValueExpression` (ValueExpression.go L47), by its dynamic type. -/
inductive Dyn (P : Prim) where
  | bool (b : Bool)
  | int32 (v : BitVec 32)
  | int64 (v : BitVec 64)
  | decimal (d : P.Dec)
  | float64 (f : P.Flt)
  | string (s : Str)
  | guid (g : Guid.Guid)
  | time (t : P.Time)
  /-- any other type, `int` for one -/
  | other

/-- `NewValueExpression` (ValueExpression.go L47-95, `debug` is on): the type assertions. -/
def newValue (t : VT) (value : Option (Dyn P)) : Res (Val P) :=
  match value with
  | none => .ok (.null t)
  | some x =>
    match t with
    | .boolean => match x with
      | .bool b => .ok (.boolean b)
      | _ => .panic
    | .int32 => match x with
      | .int32 v => .ok (.int32 v)
      | _ => .panic
    | .int64 => match x with
      | .int64 v => .ok (.int64 v)
      | _ => .panic
    | .decimal => match x with
      | .decimal d => .ok (.decimal d)
      | _ => .panic
    | .double => match x with
      | .float64 f => .ok (.double f)
      | _ => .panic
    | .string => match x with
      | .string s => .ok (.string s)
      | _ => .panic
    | .guid => match x with
      | .guid g => .ok (.guid g)
      | _ => .panic
    | .dateTime => match x with
      | .time d => .ok (.dateTime d)
      | _ => .panic
    | .undefined => .panic

/-- `NullValue` (ValueExpression.go L162-183). -/
def nullValue : VT → Res (Val P)
  | .boolean => newValue .boolean none
  | .int32 => newValue .int32 none
  | .int64 => newValue .int64 none
  | .decimal => newValue .decimal none
  | .double => newValue .double none
  | .string => newValue .string none
  | .guid => newValue .guid none
  | .dateTime => newValue .dateTime none
  | .undefined => newValue .undefined none

/-- `validateValueType` (ValueExpression.go L198-204). -/
def Val.validate (v : Val P) (t : VT) : Res Unit := if t ≠ v.type then .err else .ok ()

/-- The public reader of a type (ValueExpression.go L206-216, L234-244, L254-264, L274-284, L294-304, L314-324, L334-344, L354-364); there is none for
`Undefined`. -/
def Val.read (v : Val P) : VT → Res (Dyn P)
  | .boolean => do v.validate .boolean; return .bool (← v.booleanValue)
  | .int32 => do v.validate .int32; return .int32 (← v.int32Value)
  | .int64 => do v.validate .int64; return .int64 (← v.int64Value)
  | .decimal => do v.validate .decimal; return .decimal (← v.decimalValue)
  | .double => do v.validate .double; return .float64 (← v.doubleValue)
  | .string => do v.validate .string; return .string (← v.stringValue)
  | .guid => do v.validate .guid; return .guid (← v.guidValue)
  | .dateTime => do v.validate .dateTime; return .time (← v.dateTimeValue)
  | .undefined => .err

/-- `Value` (ValueExpression.go L114-116). -/
def Val.value : Val P → Option (Dyn P)
  | .null _ => none
  | .boolean b => some (.bool b)
  | .int32 v => some (.int32 v)
  | .int64 v => some (.int64 v)
  | .decimal d => some (.decimal d)
  | .double f => some (.float64 f)
  | .string s => some (.string s)
  | .guid g => some (.guid g)
  | .dateTime t => some (.time t)

/-- The type a Go value is meant to have in expressions. -/
def Dyn.type : Dyn P → VT
  | .bool _ => .boolean
  | .int32 _ => .int32
  | .int64 _ => .int64
  | .decimal _ => .decimal
  | .float64 _ => .double
  | .string _ => .string
  | .guid _ => .guid
  | .time _ => .dateTime
  | .other => .undefined

/-- The zero value of a type: false, 0, the empty text, the Guid of sixteen zero bytes, 1 January of year 1. -/
def zeroOf (P : Prim) : VT → Dyn P
  | .boolean => .bool false
  | .int32 => .int32 0
  | .int64 => .int64 0
  | .decimal => .decimal (P.decOfInt 0)
  | .double => .float64 (P.fltOfInt 0)
  | .string => .string []
  | .guid => .guid Guid.empty
  | .dateTime => .time P.timeZero
  | .undefined => .other

/-- **C119.** A value can be made with a type exactly if it is of that type, or is nil; it then has that type, is null exactly if it was nil, and is the
value given. -/
theorem C119_made (t : VT) (x : Option (Dyn P)) :
    ((∃ v, newValue t x = .ok v) ↔ ∀ d, x = some d → d.type = t ∧ t ≠ .undefined) ∧
    (∀ v, newValue t x = .ok v → v.type = t ∧ (v.isNull = true ↔ x = none) ∧ v.value = x) ∧ newValue t x ≠ .err := by
  cases x with
  | none => exact ⟨⟨fun _ d h => (by cases h), fun _ => ⟨_, rfl⟩⟩, fun v h => by cases h; exact ⟨rfl, by simp [Val.isNull], rfl⟩, by simp [newValue]⟩
  | some d =>
    cases t <;> cases d <;>
      simp [newValue, Dyn.type, Val.type, Val.isNull, Val.value]

example : newValue (P := P) .int32 (some (.int32 7)) = .ok (.int32 7) ∧ newValue (P := P) .int32 (some .other) = .panic ∧
    newValue (P := P) .int64 (some (.int32 7)) = .panic := ⟨rfl, rfl, rfl⟩

/-- **C119.** Of the eight readers the one of the value's type gives the value, or the zero value for null, and every other gives an error; none
panics. -/
theorem C119_read (v : Val P) (t : VT) (ht : t ≠ .undefined) :
    v.read t = if t = v.type then .ok (v.value.getD (zeroOf P t)) else .err := by
  cases v with
  | null u => cases t <;> cases u <;> first | rfl | exact absurd rfl ht
  | _ => cases t <;> first | rfl | exact absurd rfl ht

example : (Val.int32 (P := P) 7).read .int32 = .ok (.int32 7) ∧ (Val.int32 (P := P) 7).read .int64 = .err ∧
    (Val.null (P := P) .string).read .string = .ok (.string []) := ⟨rfl, rfl, rfl⟩

/-- The unexported reader of a type (ValueExpression.go L218-224, L246-252, L266-272, L286-292, L306-312, L326-332, L346-352, L366-372), which the
evaluator calls without a check; there is none for `Undefined`. -/
def Val.unchecked (v : Val P) : VT → Res (Dyn P)
  | .boolean => do return .bool (← v.booleanValue)
  | .int32 => do return .int32 (← v.int32Value)
  | .int64 => do return .int64 (← v.int64Value)
  | .decimal => do return .decimal (← v.decimalValue)
  | .double => do return .float64 (← v.doubleValue)
  | .string => do return .string (← v.stringValue)
  | .guid => do return .guid (← v.guidValue)
  | .dateTime => do return .time (← v.dateTimeValue)
  | .undefined => .err

/-- **C119.** The unchecked readers give the value where it is of their type, the zero value for a null of any type, and panic on every other value:
where they are called with the wrong type it is the end of the program, never an error. -/
theorem C119_unchecked (v : Val P) (t : VT) (ht : t ≠ .undefined) :
    v.unchecked t = match v.value with
      | none => .ok (zeroOf P t)
      | some d => if d.type = t then .ok d else .panic := by
  cases v <;> cases t <;> first | rfl | exact absurd rfl ht

example : (Val.int32 (P := P) 7).unchecked .boolean = .panic ∧ (Val.null (P := P) .string).unchecked .boolean = .ok (.bool false) ∧
    (Val.int32 (P := P) 7).unchecked .int32 = .ok (.int32 7) := ⟨rfl, rfl, rfl⟩

/-- **C119.** `NullValue` is the null of the type asked for. -/
theorem C119_null (t : VT) : nullValue (P := P) t = .ok (.null t) := by cases t <;> rfl

example : nullValue (P := P) .guid = .ok (.null .guid) := rfl

end Verif.Expr
