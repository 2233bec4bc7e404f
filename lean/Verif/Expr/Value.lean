import Verif.Expr.Prim

/-!
# Expression values and their conversion (data/ValueExpression.go, data/Constants.go)
-/

namespace Verif.Expr

/-- `ExpressionValueType` (Constants.go L86-115). -/
inductive VT where
  | boolean | int32 | int64 | decimal | double | string | guid | dateTime | undefined
  deriving DecidableEq, Repr

namespace VT

/-- `ExpressionValueTypeLen` and the order of the enumeration (Constants.go L121-123). -/
def all : List VT := [.boolean, .int32, .int64, .decimal, .double, .string, .guid, .dateTime, .undefined]

/-- `String` (Constants.go L126-149). -/
def name : VT → String
  | .boolean => "Boolean"
  | .int32 => "Int32"
  | .int64 => "Int64"
  | .decimal => "Decimal"
  | .double => "Double"
  | .string => "String"
  | .guid => "Guid"
  | .dateTime => "DateTime"
  | .undefined => "Undefined"

/-- `IsIntegerType` (Constants.go L152-163). -/
def isInteger : VT → Bool
  | .boolean | .int32 | .int64 => true
  | _ => false

/-- `IsNumericType` (Constants.go L166-181). -/
def isNumeric : VT → Bool
  | .boolean | .int32 | .int64 | .decimal | .double => true
  | _ => false

end VT

/-- `ValueExpression` (ValueExpression.go L37-40): a value of its type, or null of a type. `NewValueExpression` (L47-95)
panics when the two do not agree, so no other combination exists. -/
inductive Val (P : Prim) where
  | null (t : VT)
  | boolean (b : Bool)
  | int32 (v : BitVec 32)
  | int64 (v : BitVec 64)
  | decimal (d : P.Dec)
  | double (f : P.Flt)
  | string (s : Str)
  | guid (g : Guid.Guid)
  | dateTime (t : P.Time)

variable {P : Prim}

namespace Val

/-- `ValueType` (L119-121). -/
def type : Val P → VT
  | .null t => t
  | .boolean _ => .boolean
  | .int32 _ => .int32
  | .int64 _ => .int64
  | .decimal _ => .decimal
  | .double _ => .double
  | .string _ => .string
  | .guid _ => .guid
  | .dateTime _ => .dateTime

/-- `IsNull` (L148-150). -/
def isNull : Val P → Bool
  | .null _ => true
  | _ => false

/-- `booleanValue` (L218-224): null reads as the zero value; the type assertion panics on another type. -/
def booleanValue : Val P → Res Bool
  | .null _ => .ok false
  | .boolean b => .ok b
  | _ => .panic

/-- `booleanValueAsInt` (L226-232). -/
def booleanValueAsInt (v : Val P) : Res (BitVec 64) := do
  let b ← v.booleanValue
  return if b then 1 else 0

/-- `int32Value` (L246-252). -/
def int32Value : Val P → Res (BitVec 32)
  | .null _ => .ok 0
  | .int32 v => .ok v
  | _ => .panic

/-- `int64Value` (L266-272). -/
def int64Value : Val P → Res (BitVec 64)
  | .null _ => .ok 0
  | .int64 v => .ok v
  | _ => .panic

/-- `decimalValue` (L286-292). -/
def decimalValue : Val P → Res P.Dec
  | .null _ => .ok (P.decOfInt 0)
  | .decimal d => .ok d
  | _ => .panic

/-- `doubleValue` (L306-312). -/
def doubleValue : Val P → Res P.Flt
  | .null _ => .ok (P.fltOfInt 0)
  | .double f => .ok f
  | _ => .panic

/-- `stringValue` (L326-332). -/
def stringValue : Val P → Res Str
  | .null _ => .ok []
  | .string s => .ok s
  | _ => .panic

/-- `guidValue` (L346-352). -/
def guidValue : Val P → Res Guid.Guid
  | .null _ => .ok Guid.empty
  | .guid g => .ok g
  | _ => .panic

/-- `dateTimeValue` (L366-372). -/
def dateTimeValue : Val P → Res P.Time
  | .null _ => .ok P.timeZero
  | .dateTime t => .ok t
  | _ => .panic

/-- `integerValue` (L185-196). -/
def integerValue (v : Val P) (defaultValue : BitVec 64) : Res (BitVec 64) :=
  match v.type with
  | .boolean => v.booleanValueAsInt
  | .int32 => do return (← v.int32Value).signExtend 64
  | .int64 => v.int64Value
  | _ => .ok defaultValue

/-- Decimal text of an integer (`strconv.FormatInt`). (data/ValueExpression.go L129-131) -/
def intStr (i : Int) : Str := lit (toString i)

/-- `String` (L124-145). -/
def str : Val P → Str
  | .null t =>
    match t with
    | .boolean => lit "false"
    | .int32 => lit "0"
    | .int64 => lit "0"
    | .decimal => P.decStr (P.decOfInt 0)
    | .double => P.fltStr (P.fltOfInt 0)
    | .string => []
    | .guid => P.guidStr Guid.empty
    | .dateTime => P.timeStr P.timeZero
    | .undefined => []
  | .boolean b => lit (if b then "true" else "false")
  | .int32 v => intStr v.toInt
  | .int64 v => intStr v.toInt
  | .decimal d => P.decStr d
  | .double f => P.fltStr f
  | .string s => s
  | .guid g => P.guidStr g
  | .dateTime t => P.timeStr t

/-- `convertFromBoolean` (L406-429). `Int32` is built from a Go `int`, which `newValueExpression` refuses by a panic. -/
def convertFromBoolean (b : Bool) : VT → Res (Val P)
  | .boolean => .ok (.boolean b)
  | .int32 => .panic
  | .int64 => .ok (.int64 (if b then 1 else 0))
  | .decimal => .ok (.decimal (P.decOfInt (if b then 1 else 0)))
  | .double => .ok (.double (P.fltOfInt (if b then 1 else 0)))
  | .string => .ok (.string (Val.boolean (P := P) b).str)
  | _ => .err

/-- `convertFromInt32` (L431-454). -/
def convertFromInt32 (v : BitVec 32) : VT → Res (Val P)
  | .boolean => .ok (.boolean (v != 0))
  | .int32 => .ok (.int32 v)
  | .int64 => .ok (.int64 (v.signExtend 64))
  | .decimal => .ok (.decimal (P.decOfInt v.toInt))
  | .double => .ok (.double (P.fltOfInt v.toInt))
  | .string => .ok (.string (Val.int32 (P := P) v).str)
  | _ => .err

/-- `convertFromInt64` (L456-479). -/
def convertFromInt64 (v : BitVec 64) : VT → Res (Val P)
  | .boolean => .ok (.boolean (v != 0))
  | .int32 => .ok (.int32 (v.truncate 32))
  | .int64 => .ok (.int64 v)
  | .decimal => .ok (.decimal (P.decOfInt v.toInt))
  | .double => .ok (.double (P.fltOfInt v.toInt))
  | .string => .ok (.string (Val.int64 (P := P) v).str)
  | _ => .err

/-- `convertFromDecimal` (L481-505). -/
def convertFromDecimal (d : P.Dec) : VT → Res (Val P)
  | .boolean => .ok (.boolean (P.decCmp d (P.decOfInt 0) != 0))
  | .int32 => .ok (.int32 ((P.decIntPart d).truncate 32))
  | .int64 => .ok (.int64 (P.decIntPart d))
  | .decimal => .ok (.decimal d)
  | .double => .ok (.double (P.decToFlt d))
  | .string => .ok (.string (Val.decimal d).str)
  | _ => .err

/-- `convertFromDouble` (L507-530). -/
def convertFromDouble (f : P.Flt) : VT → Res (Val P)
  | .boolean => .ok (.boolean (!P.fltEq f (P.fltOfInt 0)))
  | .int32 => .ok (.int32 (P.fltToInt32 f))
  | .int64 => .ok (.int64 (P.fltToInt64 f))
  | .decimal => match P.decOfFlt f with
    | some d => .ok (.decimal d)
    | none => .panic
  | .double => .ok (.double f)
  | .string => .ok (.string (Val.double f).str)
  | _ => .err

/-- `convertFromString` (L532-565): errors of the parsers are ignored. -/
def convertFromString (s : Str) : VT → Res (Val P)
  | .boolean => .ok (.boolean (P.boolParse s))
  | .int32 => .ok (.int32 ((P.decIntPart ((P.decParse s).getD (P.decOfInt 0))).truncate 32))
  | .int64 => .ok (.int64 (P.decIntPart ((P.decParse s).getD (P.decOfInt 0))))
  | .decimal => .ok (.decimal ((P.decParse s).getD (P.decOfInt 0)))
  | .double => .ok (.double (P.fltParse s).1)
  | .string => .ok (.string s)
  | .guid => .ok (.guid (P.guidParse s).1)
  | .dateTime => .ok (.dateTime (P.timeParse s).1)
  | .undefined => .err

/-- `convertFromGuid` (L567-588). -/
def convertFromGuid (g : Guid.Guid) : VT → Res (Val P)
  | .string => .ok (.string (Val.guid (P := P) g).str)
  | .guid => .ok (.guid g)
  | _ => .err

/-- `convertFromDateTime` (L590-614). -/
def convertFromDateTime (t : P.Time) : VT → Res (Val P)
  | .boolean => .ok (.boolean (P.timeUnix t != 0))
  | .int32 => .ok (.int32 ((P.timeUnix t).truncate 32))
  | .int64 => .ok (.int64 (P.timeUnix t))
  | .decimal => .ok (.decimal (P.decOfInt (P.timeUnix t).toInt))
  | .double => .ok (.double (P.fltOfInt (P.timeUnix t).toInt))
  | .string => .ok (.string (Val.dateTime t).str)
  | .dateTime => .ok (.dateTime t)
  | _ => .err

/-- `Convert` (L375-404). -/
def convert (v : Val P) (t : VT) : Res (Val P) :=
  match v with
  | .null _ => .ok (.null t)
  | .boolean b => convertFromBoolean b t
  | .int32 v => convertFromInt32 v t
  | .int64 v => convertFromInt64 v t
  | .decimal d => convertFromDecimal d t
  | .double f => convertFromDouble f t
  | .string s => convertFromString s t
  | .guid g => convertFromGuid g t
  | .dateTime x => convertFromDateTime x t

end Val

end Verif.Expr
