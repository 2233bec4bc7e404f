import Verif.Expr.Eval

/-!
# Column types, stored values and the conversion of computed values (data/DataType.go, data/DataRow.go L152-473)
-/

namespace Verif.Table

open Verif.Expr

variable {P : Prim}

/-- `DataType` (DataType.go L32-81); `undefined` is any other number. -/
inductive DT where
  | string | boolean | dateTime | single | double | decimal | guid | int8 | int16 | int32 | int64 | uint8 | uint16 | uint32 | uint64
  | undefined
  deriving DecidableEq, Repr

/-- The dynamic types of `interface{}` values a row can hold (DataRow.go L41: `values []interface{}`). `tree` is the
`*ExpressionTree` a computed column keeps in its place; `other` is any other Go type. `nil` is `none` of `Option (Cell P)`. -/
inductive Cell (P : Prim) where
  | string (s : Str)
  | boolean (b : Bool)
  | dateTime (t : P.Time)
  | single (f : P.Sgl)
  | double (f : P.Flt)
  | decimal (d : P.Dec)
  | guid (g : Guid.Guid)
  | int8 (v : BitVec 8)
  | int16 (v : BitVec 16)
  | int32 (v : BitVec 32)
  | int64 (v : BitVec 64)
  | uint8 (v : BitVec 8)
  | uint16 (v : BitVec 16)
  | uint32 (v : BitVec 32)
  | uint64 (v : BitVec 64)
  | tree (e : Tree P)
  | other

/-- The column type a Go value belongs to. (data/DataRow.go L755-1440) -/
def Cell.type : Cell P → DT
  | .string _ => .string
  | .boolean _ => .boolean
  | .dateTime _ => .dateTime
  | .single _ => .single
  | .double _ => .double
  | .decimal _ => .decimal
  | .guid _ => .guid
  | .int8 _ => .int8
  | .int16 _ => .int16
  | .int32 _ => .int32
  | .int64 _ => .int64
  | .uint8 _ => .uint8
  | .uint16 _ => .uint16
  | .uint32 _ => .uint32
  | .uint64 _ => .uint64
  | .tree _ => .undefined
  | .other => .undefined

/-- An error, or the value beside a nil error. (data/DataRow.go L755-1440) -/
def orErr {α : Type} (o : Option α) (f : α → Cell P) : Res (Cell P) :=
  match o with
  | some a => .ok (f a)
  | none => .err

/-- `convertFromBoolean` (DataRow.go L152-193). -/
def convertFromBoolean (b : Bool) : DT → Res (Cell P)
  | .string => .ok (.string (lit (if b then "true" else "false")))
  | .boolean => .ok (.boolean b)
  | .single => .ok (.single (P.sglOfInt (if b then 1 else 0)))
  | .double => .ok (.double (P.fltOfInt (if b then 1 else 0)))
  | .decimal => .ok (.decimal (P.decOfInt (if b then 1 else 0)))
  | .int8 => .ok (.int8 (if b then 1 else 0))
  | .int16 => .ok (.int16 (if b then 1 else 0))
  | .int32 => .ok (.int32 (if b then 1 else 0))
  | .int64 => .ok (.int64 (if b then 1 else 0))
  | .uint8 => .ok (.uint8 (if b then 1 else 0))
  | .uint16 => .ok (.uint16 (if b then 1 else 0))
  | .uint32 => .ok (.uint32 (if b then 1 else 0))
  | .uint64 => .ok (.uint64 (if b then 1 else 0))
  | .dateTime | .guid | .undefined => .err

/-- `convertFromInt32` (DataRow.go L196-231). -/
def convertFromInt32 (v : BitVec 32) : DT → Res (Cell P)
  | .string => .ok (.string (Val.intStr v.toInt))
  | .boolean => .ok (.boolean (v != 0))
  | .single => .ok (.single (P.sglOfInt v.toInt))
  | .double => .ok (.double (P.fltOfInt v.toInt))
  | .decimal => .ok (.decimal (P.decOfInt v.toInt))
  | .int8 => .ok (.int8 (v.truncate 8))
  | .int16 => .ok (.int16 (v.truncate 16))
  | .int32 => .ok (.int32 v)
  | .int64 => .ok (.int64 (v.signExtend 64))
  | .uint8 => .ok (.uint8 (v.truncate 8))
  | .uint16 => .ok (.uint16 (v.truncate 16))
  | .uint32 => .ok (.uint32 v)
  | .uint64 => .ok (.uint64 (v.signExtend 64))
  | .dateTime | .guid | .undefined => .err

/-- `convertFromInt64` (DataRow.go L234-269). -/
def convertFromInt64 (v : BitVec 64) : DT → Res (Cell P)
  | .string => .ok (.string (Val.intStr v.toInt))
  | .boolean => .ok (.boolean (v != 0))
  | .single => .ok (.single (P.sglOfInt v.toInt))
  | .double => .ok (.double (P.fltOfInt v.toInt))
  | .decimal => .ok (.decimal (P.decOfInt v.toInt))
  | .int8 => .ok (.int8 (v.truncate 8))
  | .int16 => .ok (.int16 (v.truncate 16))
  | .int32 => .ok (.int32 (v.truncate 32))
  | .int64 => .ok (.int64 v)
  | .uint8 => .ok (.uint8 (v.truncate 8))
  | .uint16 => .ok (.uint16 (v.truncate 16))
  | .uint32 => .ok (.uint32 (v.truncate 32))
  | .uint64 => .ok (.uint64 v)
  | .dateTime | .guid | .undefined => .err

/-- `convertFromDecimal` (DataRow.go L272-309). -/
def convertFromDecimal (d : P.Dec) : DT → Res (Cell P)
  | .string => .ok (.string (P.decStr d))
  | .boolean => .ok (.boolean (P.decCmp d (P.decOfInt 0) != 0))
  | .single => .ok (.single (P.sglOfFlt (P.decToFlt d)))
  | .double => .ok (.double (P.decToFlt d))
  | .decimal => .ok (.decimal d)
  | .int8 => .ok (.int8 ((P.decIntPart d).truncate 8))
  | .int16 => .ok (.int16 ((P.decIntPart d).truncate 16))
  | .int32 => .ok (.int32 ((P.decIntPart d).truncate 32))
  | .int64 => .ok (.int64 (P.decIntPart d))
  | .uint8 => .ok (.uint8 ((P.decIntPart d).truncate 8))
  | .uint16 => .ok (.uint16 ((P.decIntPart d).truncate 16))
  | .uint32 => .ok (.uint32 ((P.decIntPart d).truncate 32))
  | .uint64 => .ok (.uint64 (P.decIntPart d))
  | .dateTime | .guid | .undefined => .err

/-- `convertFromDouble` (DataRow.go L312-347). `decimal.NewFromFloat` panics on NaN and infinities. -/
def convertFromDouble (f : P.Flt) : DT → Res (Cell P)
  | .string => .ok (.string (P.fltStr f))
  | .boolean => .ok (.boolean (!P.fltEq f (P.fltOfInt 0)))
  | .single => .ok (.single (P.sglOfFlt f))
  | .double => .ok (.double f)
  | .decimal => match P.decOfFlt f with
    | some d => .ok (.decimal d)
    | none => .panic
  | .int8 => .ok (.int8 (P.fltToSInt 8 f))
  | .int16 => .ok (.int16 (P.fltToSInt 16 f))
  | .int32 => .ok (.int32 (P.fltToInt32 f))
  | .int64 => .ok (.int64 (P.fltToInt64 f))
  | .uint8 => .ok (.uint8 (P.fltToUInt 8 f))
  | .uint16 => .ok (.uint16 (P.fltToUInt 16 f))
  | .uint32 => .ok (.uint32 (P.fltToUInt 32 f))
  | .uint64 => .ok (.uint64 (P.fltToUInt 64 f))
  | .dateTime | .guid | .undefined => .err

/-- `convertFromString` (DataRow.go L350-395). The values some parsers return beside an error are not kept: no caller but `CloneRow` looks at them, see `orBeside` in Table/Copy. -/
def convertFromString (s : Str) : DT → Res (Cell P)
  | .string => .ok (.string s)
  | .boolean => if P.isBool s then .ok (.boolean (P.boolParse s)) else .err
  | .dateTime => if (P.timeParse s).2 then .ok (.dateTime (P.timeParse s).1) else .err
  | .single => if (P.fltParse s).2 then .ok (.single (P.sglOfFlt (P.fltParse s).1)) else .err
  | .double => if (P.fltParse s).2 then .ok (.double (P.fltParse s).1) else .err
  | .decimal => orErr (P.decParse s) .decimal
  | .guid => if (P.guidParse s).2 then .ok (.guid (P.guidParse s).1) else .err
  | .int8 => orErr (P.intParse 8 s) .int8
  | .int16 => orErr (P.intParse 16 s) .int16
  | .int32 => orErr (P.intParse 32 s) .int32
  | .int64 => orErr (P.intParse 64 s) .int64
  | .uint8 => orErr (P.uintParse 8 s) .uint8
  | .uint16 => orErr (P.uintParse 16 s) .uint16
  | .uint32 => orErr (P.uintParse 32 s) .uint32
  | .uint64 => orErr (P.uintParse 64 s) .uint64
  | .undefined => .err

/-- `convertFromGuid` (DataRow.go L398-433). -/
def convertFromGuid (g : Guid.Guid) : DT → Res (Cell P)
  | .string => .ok (.string (P.guidStr g))
  | .guid => .ok (.guid g)
  | _ => .err

/-- `convertFromDateTime` (DataRow.go L436-473). -/
def convertFromDateTime (t : P.Time) : DT → Res (Cell P)
  | .string => .ok (.string (P.timeStr t))
  | .boolean => .ok (.boolean (P.timeUnix t == 0))
  | .dateTime => .ok (.dateTime t)
  | .single => .ok (.single (P.sglOfInt (P.timeUnix t).toInt))
  | .double => .ok (.double (P.fltOfInt (P.timeUnix t).toInt))
  | .decimal => .ok (.decimal (P.decOfInt (P.timeUnix t).toInt))
  | .int8 => .ok (.int8 ((P.timeUnix t).truncate 8))
  | .int16 => .ok (.int16 ((P.timeUnix t).truncate 16))
  | .int32 => .ok (.int32 ((P.timeUnix t).truncate 32))
  | .int64 => .ok (.int64 (P.timeUnix t))
  | .uint8 => .ok (.uint8 ((P.timeUnix t).truncate 8))
  | .uint16 => .ok (.uint16 ((P.timeUnix t).truncate 16))
  | .uint32 => .ok (.uint32 ((P.timeUnix t).truncate 32))
  | .uint64 => .ok (.uint64 (P.timeUnix t))
  | .guid | .undefined => .err

/-- The switch of `getComputedValue` (DataRow.go L129-148): the readers give null the zero value of its type. -/
def convertResult (v : Val P) (t : DT) : Res (Cell P) :=
  match v.type with
  | .boolean => do convertFromBoolean (← v.booleanValue) t
  | .int32 => do convertFromInt32 (← v.int32Value) t
  | .int64 => do convertFromInt64 (← v.int64Value) t
  | .decimal => do convertFromDecimal (← v.decimalValue) t
  | .double => do convertFromDouble (← v.doubleValue) t
  | .string => do convertFromString (← v.stringValue) t
  | .guid => do convertFromGuid (← v.guidValue) t
  | .dateTime => do convertFromDateTime (← v.dateTimeValue) t
  | .undefined => .err

/-- The expression type of a column type (`evaluateColumn`, ExpressionTree.go L268-333). A `UInt64` is an `Int64` unless its value
is too large for one, see `Cell.toVal`. -/
def DT.exprType : DT → VT
  | .string => .string
  | .boolean => .boolean
  | .dateTime => .dateTime
  | .single => .double
  | .double => .double
  | .decimal => .decimal
  | .guid => .guid
  | .int8 => .int32
  | .int16 => .int32
  | .int32 => .int32
  | .int64 => .int64
  | .uint8 => .int32
  | .uint16 => .int32
  | .uint32 => .int64
  | .uint64 => .int64
  | .undefined => .undefined

/-- The expression value of a column's value (`evaluateColumn`, ExpressionTree.go L268-333). The last case does not arise: the typed
readers return values of the column's type. -/
def Cell.toVal : Cell P → Res (Val P)
  | .string s => .ok (.string s)
  | .boolean b => .ok (.boolean b)
  | .dateTime t => .ok (.dateTime t)
  | .single f => .ok (.double (P.sglToFlt f))
  | .double f => .ok (.double f)
  | .decimal d => .ok (.decimal d)
  | .guid g => .ok (.guid g)
  | .int8 v => .ok (.int32 (v.signExtend 32))
  | .int16 v => .ok (.int32 (v.signExtend 32))
  | .int32 v => .ok (.int32 v)
  | .int64 v => .ok (.int64 v)
  | .uint8 v => .ok (.int32 (v.zeroExtend 32))
  | .uint16 v => .ok (.int32 (v.zeroExtend 32))
  | .uint32 v => .ok (.int64 (v.zeroExtend 64))
  | .uint64 v => .ok (if v.toNat > 2 ^ 63 - 1 then .double (P.fltOfInt v.toNat) else .int64 v)
  | .tree _ | .other => .panic

end Verif.Table
