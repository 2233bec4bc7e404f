import Verif.Expr.Derive
import Verif.Expr.Text

/-!
# Operators (data/ExpressionTree.go L2583-3319, data/UnaryExpression.go L60-136)
-/

namespace Verif.Expr

variable {P : Prim}

open Val

/-- `ExpressionUnaryType` (Constants.go L187-198). -/
inductive Unary where
  | plus | minus | not
  deriving DecidableEq, Repr

/-- The five `unary…` functions (UnaryExpression.go L60-136) and the switch of `evaluateUnary` (ExpressionTree.go L217-244).
-/
def unaryOp (u : Unary) (v : Val P) : Res (Val P) :=
  match v with
  | .null t => .ok (.null t)
  | .boolean b => match u with
    | .not => .ok (.boolean (!b))
    | .plus => .err
    | .minus => .err
  | .int32 v => match u with
    | .plus => .ok (.int32 v)
    | .minus => .ok (.int32 (-v))
    | .not => .ok (.int32 (~~~v))
  | .int64 v => match u with
    | .plus => .ok (.int64 v)
    | .minus => .ok (.int64 (-v))
    | .not => .ok (.int64 (~~~v))
  | .decimal d => match u with
    | .plus => .ok (.decimal d)
    | .minus => .ok (.decimal (P.decMul d (P.decOfInt (-1))))
    | .not => .err
  | .double f => match u with
    | .plus => .ok (.double f)
    | .minus => .ok (.double (P.fltNeg f))
    | .not => .err
  | .string _ => .err
  | .guid _ => .err
  | .dateTime _ => .err

/-- `convertOperands` (L2590-2602). -/
def convertOperands (l r : Val P) (t : VT) : Res (Val P × Val P) := do
  let l ← l.convert t
  let r ← r.convert t
  return (l, r)

/-- The divisor is zero: `Div` and `Mod` of `decimal.Decimal` panic. (data/ExpressionTree.go L2654, L2688) -/
def decZero (d : P.Dec) : Bool := P.decCmp d (P.decOfInt 0) == 0

/-- `multiplyOp` (L2604-2636). -/
def multiplyOp (l r : Val P) (t : VT) : Res (Val P) :=
  if l.isNull || r.isNull then .ok (.null t) else do
    let (l, r) ← convertOperands l r t
    match t with
    | .int32 => return .int32 ((← l.int32Value) * (← r.int32Value))
    | .int64 => return .int64 ((← l.int64Value) * (← r.int64Value))
    | .decimal => return .decimal (P.decMul (← l.decimalValue) (← r.decimalValue))
    | .double => return .double (P.fltMul (← l.doubleValue) (← r.doubleValue))
    | _ => .err

/-- `divideOp` (L2638-2670): an integer or decimal division by zero panics. -/
def divideOp (l r : Val P) (t : VT) : Res (Val P) :=
  if l.isNull || r.isNull then .ok (.null t) else do
    let (l, r) ← convertOperands l r t
    match t with
    | .int32 => do
      let a ← l.int32Value
      let b ← r.int32Value
      if b = 0 then .panic else return .int32 (a.sdiv b)
    | .int64 => do
      let a ← l.int64Value
      let b ← r.int64Value
      if b = 0 then .panic else return .int64 (a.sdiv b)
    | .decimal => do
      let a ← l.decimalValue
      let b ← r.decimalValue
      if decZero b then .panic else return .decimal (P.decDiv a b)
    | .double => return .double (P.fltDiv (← l.doubleValue) (← r.doubleValue))
    | _ => .err

/-- `modulusOp` (L2672-2704). -/
def modulusOp (l r : Val P) (t : VT) : Res (Val P) :=
  if l.isNull || r.isNull then .ok (.null t) else do
    let (l, r) ← convertOperands l r t
    match t with
    | .int32 => do
      let a ← l.int32Value
      let b ← r.int32Value
      if b = 0 then .panic else return .int32 (a.srem b)
    | .int64 => do
      let a ← l.int64Value
      let b ← r.int64Value
      if b = 0 then .panic else return .int64 (a.srem b)
    | .decimal => do
      let a ← l.decimalValue
      let b ← r.decimalValue
      if decZero b then .panic else return .decimal (P.decMod a b)
    | .double => return .double (P.fltMod (← l.doubleValue) (← r.doubleValue))
    | _ => .err

/-- `addOp` (L2706-2738). -/
def addOp (l r : Val P) (t : VT) : Res (Val P) :=
  if l.isNull || r.isNull then .ok (.null t) else do
    let (l, r) ← convertOperands l r t
    match t with
    | .boolean => return .boolean ((← l.booleanValueAsInt) + (← r.booleanValueAsInt) != 0)
    | .int32 => return .int32 ((← l.int32Value) + (← r.int32Value))
    | .int64 => return .int64 ((← l.int64Value) + (← r.int64Value))
    | .decimal => return .decimal (P.decAdd (← l.decimalValue) (← r.decimalValue))
    | .double => return .double (P.fltAdd (← l.doubleValue) (← r.doubleValue))
    | .string => return .string ((← l.stringValue) ++ (← r.stringValue))
    | _ => .err

/-- `subtractOp` (L2740-2772). -/
def subtractOp (l r : Val P) (t : VT) : Res (Val P) :=
  if l.isNull || r.isNull then .ok (.null t) else do
    let (l, r) ← convertOperands l r t
    match t with
    | .boolean => return .boolean ((← l.booleanValueAsInt) - (← r.booleanValueAsInt) != 0)
    | .int32 => return .int32 ((← l.int32Value) - (← r.int32Value))
    | .int64 => return .int64 ((← l.int64Value) - (← r.int64Value))
    | .decimal => return .decimal (P.decSub (← l.decimalValue) (← r.decimalValue))
    | .double => return .double (P.fltSub (← l.doubleValue) (← r.doubleValue))
    | _ => .err

/-- `abs` (L1374-1379) of a Go `int`. -/
def abs (v : BitVec 64) : BitVec 64 := if v.toInt < 0 then -v else v

/-- The shift amount of an operand `n` bits wide: a negative one becomes `n - (abs(shiftAmount) % n)`; it is never negative
afterwards, so the shift itself does not panic. (data/ExpressionTree.go L2775-2870) -/
def shiftAmount (s : BitVec 64) (n : Nat) : Nat :=
  if s.toInt < 0 then (BitVec.ofNat 64 n - (abs s).srem (BitVec.ofNat 64 n)).toNat else s.toNat

/-- `bitShiftLeftOp` (L2775-2822). -/
def bitShiftLeftOp (l r : Val P) : Res (Val P) :=
  if l.isNull then .ok l
  else if !r.type.isInteger then .err
  else if r.isNull then .err
  else do
    let s ← r.integerValue 0
    match l.type with
    | .boolean => return .boolean ((← l.booleanValueAsInt) <<< shiftAmount s 64 != 0)
    | .int32 => return .int32 ((((← l.int32Value).signExtend 64) <<< shiftAmount s 32).truncate 32)
    | .int64 => return .int64 ((← l.int64Value) <<< shiftAmount s 64)
    | _ => .err

/-- `bitShiftRightOp` (L2825-2872): an `Int64` is shifted as an unsigned number. -/
def bitShiftRightOp (l r : Val P) : Res (Val P) :=
  if l.isNull then .ok l
  else if !r.type.isInteger then .err
  else if r.isNull then .err
  else do
    let s ← r.integerValue 0
    match l.type with
    | .boolean => return .boolean ((← l.booleanValueAsInt).sshiftRight (shiftAmount s 64) != 0)
    | .int32 => return .int32 ((((← l.int32Value).signExtend 64).sshiftRight (shiftAmount s 32)).truncate 32)
    | .int64 => return .int64 ((← l.int64Value) >>> shiftAmount s 64)
    | _ => .err

/-- `bitwiseAndOp` (L2874-2906). -/
def bitwiseAndOp (l r : Val P) (t : VT) : Res (Val P) :=
  if l.isNull || r.isNull then .ok (.null t) else do
    let (l, r) ← convertOperands l r t
    match t with
    | .boolean => return .boolean ((← l.booleanValueAsInt) &&& (← r.booleanValueAsInt) != 0)
    | .int32 => return .int32 ((← l.int32Value) &&& (← r.int32Value))
    | .int64 => return .int64 ((← l.int64Value) &&& (← r.int64Value))
    | _ => .err

/-- `bitwiseOrOp` (L2908-2940). -/
def bitwiseOrOp (l r : Val P) (t : VT) : Res (Val P) :=
  if l.isNull || r.isNull then .ok (.null t) else do
    let (l, r) ← convertOperands l r t
    match t with
    | .boolean => return .boolean ((← l.booleanValueAsInt) ||| (← r.booleanValueAsInt) != 0)
    | .int32 => return .int32 ((← l.int32Value) ||| (← r.int32Value))
    | .int64 => return .int64 ((← l.int64Value) ||| (← r.int64Value))
    | _ => .err

/-- `bitwiseXorOp` (L2942-2974). -/
def bitwiseXorOp (l r : Val P) (t : VT) : Res (Val P) :=
  if l.isNull || r.isNull then .ok (.null t) else do
    let (l, r) ← convertOperands l r t
    match t with
    | .boolean => return .boolean ((← l.booleanValueAsInt) ^^^ (← r.booleanValueAsInt) != 0)
    | .int32 => return .int32 ((← l.int32Value) ^^^ (← r.int32Value))
    | .int64 => return .int64 ((← l.int64Value) ^^^ (← r.int64Value))
    | _ => .err

/-- `lessThanOp` (L2976-3008). -/
def lessThanOp (l r : Val P) (t : VT) : Res (Val P) :=
  if l.isNull || r.isNull then .ok (.null t) else do
    let (l, r) ← convertOperands l r t
    match t with
    | .boolean => return .boolean (decide ((← l.booleanValueAsInt).toInt < (← r.booleanValueAsInt).toInt))
    | .int32 => return .boolean (decide ((← l.int32Value).toInt < (← r.int32Value).toInt))
    | .int64 => return .boolean (decide ((← l.int64Value).toInt < (← r.int64Value).toInt))
    | .decimal => return .boolean (decide (P.decCmp (← l.decimalValue) (← r.decimalValue) < 0))
    | .double => return .boolean (P.fltLt (← l.doubleValue) (← r.doubleValue))
    | .string => return .boolean (strLt (P.upper (← l.stringValue)) (P.upper (← r.stringValue)))
    | .guid => return .boolean (decide (Guid.compare (← l.guidValue) (← r.guidValue) < 0))
    | .dateTime => return .boolean (P.timeBefore (← l.dateTimeValue) (← r.dateTimeValue))
    | .undefined => .err

/-- `lessThanOrEqualOp` (L3010-3044). -/
def lessThanOrEqualOp (l r : Val P) (t : VT) : Res (Val P) :=
  if l.isNull || r.isNull then .ok (.null t) else do
    let (l, r) ← convertOperands l r t
    match t with
    | .boolean => return .boolean (decide ((← l.booleanValueAsInt).toInt ≤ (← r.booleanValueAsInt).toInt))
    | .int32 => return .boolean (decide ((← l.int32Value).toInt ≤ (← r.int32Value).toInt))
    | .int64 => return .boolean (decide ((← l.int64Value).toInt ≤ (← r.int64Value).toInt))
    | .decimal => return .boolean (decide (P.decCmp (← l.decimalValue) (← r.decimalValue) ≤ 0))
    | .double => do
      let a ← l.doubleValue
      let b ← r.doubleValue
      return .boolean (P.fltLt a b || P.fltEq a b)
    | .string => return .boolean (!strLt (P.upper (← r.stringValue)) (P.upper (← l.stringValue)))
    | .guid => return .boolean (decide (Guid.compare (← l.guidValue) (← r.guidValue) ≤ 0))
    | .dateTime => do
      let a ← l.dateTimeValue
      let b ← r.dateTimeValue
      return .boolean (P.timeBefore a b || P.timeEqual a b)
    | .undefined => .err

/-- `greaterThanOp` (L3046-3078). -/
def greaterThanOp (l r : Val P) (t : VT) : Res (Val P) :=
  if l.isNull || r.isNull then .ok (.null t) else do
    let (l, r) ← convertOperands l r t
    match t with
    | .boolean => return .boolean (decide ((← l.booleanValueAsInt).toInt > (← r.booleanValueAsInt).toInt))
    | .int32 => return .boolean (decide ((← l.int32Value).toInt > (← r.int32Value).toInt))
    | .int64 => return .boolean (decide ((← l.int64Value).toInt > (← r.int64Value).toInt))
    | .decimal => return .boolean (decide (P.decCmp (← l.decimalValue) (← r.decimalValue) > 0))
    | .double => do
      let a ← l.doubleValue
      let b ← r.doubleValue
      return .boolean (P.fltLt b a)
    | .string => do
      let a ← l.stringValue
      let b ← r.stringValue
      return .boolean (strLt (P.upper b) (P.upper a))
    | .guid => return .boolean (decide (Guid.compare (← l.guidValue) (← r.guidValue) > 0))
    | .dateTime => do
      let a ← l.dateTimeValue
      let b ← r.dateTimeValue
      return .boolean (P.timeBefore b a)
    | .undefined => .err

/-- `greaterThanOrEqualOp` (L3080-3114). -/
def greaterThanOrEqualOp (l r : Val P) (t : VT) : Res (Val P) :=
  if l.isNull || r.isNull then .ok (.null t) else do
    let (l, r) ← convertOperands l r t
    match t with
    | .boolean => return .boolean (decide ((← l.booleanValueAsInt).toInt ≥ (← r.booleanValueAsInt).toInt))
    | .int32 => return .boolean (decide ((← l.int32Value).toInt ≥ (← r.int32Value).toInt))
    | .int64 => return .boolean (decide ((← l.int64Value).toInt ≥ (← r.int64Value).toInt))
    | .decimal => return .boolean (decide (P.decCmp (← l.decimalValue) (← r.decimalValue) ≥ 0))
    | .double => do
      let a ← l.doubleValue
      let b ← r.doubleValue
      return .boolean (P.fltLt b a || P.fltEq a b)
    | .string => do
      let a ← l.stringValue
      let b ← r.stringValue
      return .boolean (!strLt (P.upper a) (P.upper b))
    | .guid => return .boolean (decide (Guid.compare (← l.guidValue) (← r.guidValue) ≥ 0))
    | .dateTime => do
      let a ← l.dateTimeValue
      let b ← r.dateTimeValue
      return .boolean (P.timeBefore b a || P.timeEqual a b)
    | .undefined => .err

/-- `equalOp` (L3116-3151). -/
def equalOp (l r : Val P) (t : VT) (exactMatch : Bool) : Res (Val P) :=
  if l.isNull || r.isNull then .ok (.null t) else do
    let (l, r) ← convertOperands l r t
    match t with
    | .boolean => return .boolean ((← l.booleanValueAsInt) == (← r.booleanValueAsInt))
    | .int32 => return .boolean ((← l.int32Value) == (← r.int32Value))
    | .int64 => return .boolean ((← l.int64Value) == (← r.int64Value))
    | .decimal => return .boolean (P.decCmp (← l.decimalValue) (← r.decimalValue) == 0)
    | .double => return .boolean (P.fltEq (← l.doubleValue) (← r.doubleValue))
    | .string => do
      let a ← l.stringValue
      let b ← r.stringValue
      return .boolean (if exactMatch then a == b else P.equalFold a b)
    | .guid => return .boolean (Guid.equal (← l.guidValue) (← r.guidValue))
    | .dateTime => return .boolean (P.timeEqual (← l.dateTimeValue) (← r.dateTimeValue))
    | .undefined => .err

/-- `notEqualOp` (L3153-3188). -/
def notEqualOp (l r : Val P) (t : VT) (exactMatch : Bool) : Res (Val P) :=
  if l.isNull || r.isNull then .ok (.null t) else do
    let (l, r) ← convertOperands l r t
    match t with
    | .boolean => return .boolean ((← l.booleanValueAsInt) != (← r.booleanValueAsInt))
    | .int32 => return .boolean ((← l.int32Value) != (← r.int32Value))
    | .int64 => return .boolean ((← l.int64Value) != (← r.int64Value))
    | .decimal => return .boolean (P.decCmp (← l.decimalValue) (← r.decimalValue) != 0)
    | .double => return .boolean (!P.fltEq (← l.doubleValue) (← r.doubleValue))
    | .string => do
      let a ← l.stringValue
      let b ← r.stringValue
      return .boolean (if exactMatch then a != b else !P.equalFold a b)
    | .guid => return .boolean (!Guid.equal (← l.guidValue) (← r.guidValue))
    | .dateTime => return .boolean (!P.timeEqual (← l.dateTimeValue) (← r.dateTimeValue))
    | .undefined => .err

/-- `isNullOp` (L3190-3192). -/
def isNullOp (l : Val P) : Val P := .boolean l.isNull

/-- `isNotNullOp` (L3194-3196). -/
def isNotNullOp (l : Val P) : Val P := .boolean (!l.isNull)

/-- `*` and `%`. (data/ExpressionTree.go L3215) -/
def star : Byte := 42#8
/-- data/ExpressionTree.go L3215 -/
def percent : Byte := 37#8

/-- The tests of a `LIKE` once the pattern has been taken apart (L3238-3273). -/
def likeTests (P : Prim) (exactMatch startsWild endsWild : Bool) (left test : Str) : Bool :=
  if startsWild && (if exactMatch then hasSuffix left test else hasSuffix (P.upper left) (P.upper test)) then true
  else if endsWild && (if exactMatch then hasPrefix left test else hasPrefix (P.upper left) (P.upper test)) then true
  else if startsWild && endsWild &&
    (if exactMatch then containsStr left test else containsStr (P.upper left) (P.upper test)) then true
  else false

/-- The pattern without its wildcards (L3222-3230). -/
def likeCore (test : Str) : Str :=
  let core := if hasPrefix test [star] then test.drop 1 else test
  if hasSuffix test [star] && core.length > 0 then core.take (core.length - 1) else core

/-- The match itself (L3217-3273). -/
def likeText (P : Prim) (exactMatch : Bool) (left right : Str) : Res Bool :=
  let test := replaceAll right [percent] [star]
  if (likeCore test).length = 0 then .ok true
  else if (likeCore test).contains star then .err
  else .ok (likeTests P exactMatch (hasPrefix test [star]) (hasSuffix test [star]) left (likeCore test))

/-- `likeOp` (L3199-3274). -/
def likeOp (l r : Val P) (exactMatch : Bool) : Res (Val P) :=
  if l.isNull then .ok (.null .boolean)
  else if l.type ≠ .string ∨ r.type ≠ .string then .err
  else if r.isNull then .err
  else return .boolean (← likeText P exactMatch (← l.stringValue) (← r.stringValue))

/-- `notLikeOp` (L3276-3293). -/
def notLikeOp (l r : Val P) (exactMatch : Bool) : Res (Val P) :=
  if l.isNull then .ok (.null .boolean)
  else do
    let result ← likeOp l r exactMatch
    if ← result.booleanValue then return .boolean false else return .boolean true

/-- `andOp` (L3295-3306). -/
def andOp (l r : Val P) : Res (Val P) :=
  if l.isNull || r.isNull then .ok (.null .boolean)
  else if l.type ≠ .boolean ∨ r.type ≠ .boolean then .err
  else return .boolean ((← l.booleanValue) && (← r.booleanValue))

/-- `orOp` (L3308-3319). -/
def orOp (l r : Val P) : Res (Val P) :=
  if l.isNull || r.isNull then .ok (.null .boolean)
  else if l.type ≠ .boolean ∨ r.type ≠ .boolean then .err
  else return .boolean ((← l.booleanValue) || (← r.booleanValue))

/-- The switch of `evaluateOperator` (L1296-1358), operands evaluated. -/
def applyOp (o : Op) (l r : Val P) : Res (Val P) := do
  let t ← deriveType o l.type r.type
  match o with
  | .multiply => multiplyOp l r t
  | .divide => divideOp l r t
  | .modulus => modulusOp l r t
  | .add => addOp l r t
  | .subtract => subtractOp l r t
  | .bitShiftLeft => bitShiftLeftOp l r
  | .bitShiftRight => bitShiftRightOp l r
  | .bitwiseAnd => bitwiseAndOp l r t
  | .bitwiseOr => bitwiseOrOp l r t
  | .bitwiseXor => bitwiseXorOp l r t
  | .lessThan => lessThanOp l r t
  | .lessThanOrEqual => lessThanOrEqualOp l r t
  | .greaterThan => greaterThanOp l r t
  | .greaterThanOrEqual => greaterThanOrEqualOp l r t
  | .equal => equalOp l r t false
  | .equalExactMatch => equalOp l r t true
  | .notEqual => notEqualOp l r t false
  | .notEqualExactMatch => notEqualOp l r t true
  | .isNull => return isNullOp l
  | .isNotNull => return isNotNullOp l
  | .like => likeOp l r false
  | .likeExactMatch => likeOp l r true
  | .notLike => notLikeOp l r false
  | .notLikeExactMatch => notLikeOp l r true
  | .and => andOp l r
  | .or => orOp l r

end Verif.Expr
