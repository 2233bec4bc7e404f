import Verif.Expr.Value

/-!
# Operation value types (data/Constants.go L440-515 and L654-1151)

Every `default` branch ("unexpected expression value type") is reached exactly by `Undefined`.
-/

namespace Verif.Expr

/-- `ExpressionOperatorType` (L440-520). -/
inductive Op where
  | multiply | divide | modulus | add | subtract
  | bitShiftLeft | bitShiftRight | bitwiseAnd | bitwiseOr | bitwiseXor
  | lessThan | lessThanOrEqual | greaterThan | greaterThanOrEqual
  | equal | equalExactMatch | notEqual | notEqualExactMatch
  | isNull | isNotNull | like | likeExactMatch | notLike | notLikeExactMatch
  | and | or
  deriving DecidableEq, Repr

/-- `deriveArithmeticOperationValueTypeFromBoolean` (L739-763). -/
def arithFromBoolean (o : Op) : VT → Res VT
  | .boolean => .ok .boolean
  | .int32 => .ok .int32
  | .int64 => .ok .int64
  | .decimal => .ok .decimal
  | .double => .ok .double
  | .string => if o = .add then .ok .string else .err
  | .guid => .err
  | .dateTime => .err
  | .undefined => .err

/-- `deriveArithmeticOperationValueTypeFromInt32` (L765-789). -/
def arithFromInt32 (o : Op) : VT → Res VT
  | .boolean => .ok .int32
  | .int32 => .ok .int32
  | .int64 => .ok .int64
  | .decimal => .ok .decimal
  | .double => .ok .double
  | .string => if o = .add then .ok .string else .err
  | .guid => .err
  | .dateTime => .err
  | .undefined => .err

/-- `deriveArithmeticOperationValueTypeFromInt64` (L791-815). -/
def arithFromInt64 (o : Op) : VT → Res VT
  | .boolean => .ok .int64
  | .int32 => .ok .int64
  | .int64 => .ok .int64
  | .decimal => .ok .decimal
  | .double => .ok .double
  | .string => if o = .add then .ok .string else .err
  | .guid => .err
  | .dateTime => .err
  | .undefined => .err

/-- `deriveArithmeticOperationValueTypeFromDecimal` (L817-841). -/
def arithFromDecimal (o : Op) : VT → Res VT
  | .boolean => .ok .decimal
  | .int32 => .ok .decimal
  | .int64 => .ok .decimal
  | .decimal => .ok .decimal
  | .double => .ok .double
  | .string => if o = .add then .ok .string else .err
  | .guid => .err
  | .dateTime => .err
  | .undefined => .err

/-- `deriveArithmeticOperationValueTypeFromDouble` (L843-867). -/
def arithFromDouble (o : Op) : VT → Res VT
  | .boolean => .ok .double
  | .int32 => .ok .double
  | .int64 => .ok .double
  | .decimal => .ok .double
  | .double => .ok .double
  | .string => if o = .add then .ok .string else .err
  | .guid => .err
  | .dateTime => .err
  | .undefined => .err

/-- `deriveArithmeticOperationValueType` (L713-737): a `String` on the left of `+` takes anything on the right. -/
def deriveArithmetic (o : Op) (left right : VT) : Res VT :=
  match left with
  | .boolean => arithFromBoolean o right
  | .int32 => arithFromInt32 o right
  | .int64 => arithFromInt64 o right
  | .decimal => arithFromDecimal o right
  | .double => arithFromDouble o right
  | .string => if o = .add then .ok .string else .err
  | .guid => .err
  | .dateTime => .err
  | .undefined => .err

/-- `deriveIntegerOperationValueTypeFromBoolean` (L892-913). -/
def integerFromBoolean : VT → Res VT
  | .boolean => .ok .boolean
  | .int32 => .ok .int32
  | .int64 => .ok .int64
  | _ => .err

/-- `deriveIntegerOperationValueTypeFromInt32` (L915-936). -/
def integerFromInt32 : VT → Res VT
  | .boolean => .ok .int32
  | .int32 => .ok .int32
  | .int64 => .ok .int64
  | _ => .err

/-- `deriveIntegerOperationValueTypeFromInt64` (L938-959). -/
def integerFromInt64 : VT → Res VT
  | .boolean => .ok .int64
  | .int32 => .ok .int64
  | .int64 => .ok .int64
  | _ => .err

/-- `deriveIntegerOperationValueType` (L869-890). -/
def deriveInteger (left right : VT) : Res VT :=
  match left with
  | .boolean => integerFromBoolean right
  | .int32 => integerFromInt32 right
  | .int64 => integerFromInt64 right
  | _ => .err

/-- `deriveComparisonOperationValueTypeFromBoolean` (L984-1005). -/
def compareFromBoolean : VT → Res VT
  | .boolean => .ok .boolean
  | .string => .ok .boolean
  | .int32 => .ok .int32
  | .int64 => .ok .int64
  | .decimal => .ok .decimal
  | .double => .ok .double
  | .guid => .err
  | .dateTime => .err
  | .undefined => .err

/-- `deriveComparisonOperationValueTypeFromInt32` (L1007-1028). -/
def compareFromInt32 : VT → Res VT
  | .boolean => .ok .int32
  | .int32 => .ok .int32
  | .string => .ok .decimal
  | .int64 => .ok .int64
  | .decimal => .ok .decimal
  | .double => .ok .double
  | .guid => .err
  | .dateTime => .err
  | .undefined => .err

/-- `deriveComparisonOperationValueTypeFromInt64` (L1030-1051). -/
def compareFromInt64 : VT → Res VT
  | .boolean => .ok .int64
  | .int32 => .ok .int64
  | .int64 => .ok .int64
  | .string => .ok .decimal
  | .decimal => .ok .decimal
  | .double => .ok .double
  | .guid => .err
  | .dateTime => .err
  | .undefined => .err

/-- `deriveComparisonOperationValueTypeFromDecimal` (L1053-1074). -/
def compareFromDecimal : VT → Res VT
  | .boolean => .ok .decimal
  | .int32 => .ok .decimal
  | .int64 => .ok .decimal
  | .decimal => .ok .decimal
  | .string => .ok .decimal
  | .double => .ok .double
  | .guid => .err
  | .dateTime => .err
  | .undefined => .err

/-- `deriveComparisonOperationValueTypeFromDouble` (L1076-1097). -/
def compareFromDouble : VT → Res VT
  | .boolean => .ok .double
  | .int32 => .ok .double
  | .int64 => .ok .double
  | .decimal => .ok .double
  | .double => .ok .double
  | .string => .ok .double
  | .guid => .err
  | .dateTime => .err
  | .undefined => .err

/-- `deriveComparisonOperationValueTypeFromGuid` (L1099-1120). -/
def compareFromGuid : VT → Res VT
  | .guid => .ok .guid
  | .string => .ok .guid
  | _ => .err

/-- `deriveComparisonOperationValueTypeFromDateTime` (L1122-1143). -/
def compareFromDateTime : VT → Res VT
  | .dateTime => .ok .dateTime
  | .string => .ok .dateTime
  | _ => .err

/-- `deriveComparisonOperationValueType` (L961-982): a `String` on the left takes anything on the right. -/
def deriveComparison (left right : VT) : Res VT :=
  match left with
  | .boolean => compareFromBoolean right
  | .int32 => compareFromInt32 right
  | .int64 => compareFromInt64 right
  | .decimal => compareFromDecimal right
  | .double => compareFromDouble right
  | .string => .ok .string
  | .guid => compareFromGuid right
  | .dateTime => compareFromDateTime right
  | .undefined => .err

/-- `deriveBooleanOperationValueType` (L1145-1151). -/
def deriveBoolean (left right : VT) : Res VT :=
  if left = .boolean ∧ right = .boolean then .ok .boolean else .err

/-- `deriveOperationValueType` (L654-711). -/
def deriveType (o : Op) (left right : VT) : Res VT :=
  match o with
  | .multiply => deriveArithmetic o left right
  | .divide => deriveArithmetic o left right
  | .add => deriveArithmetic o left right
  | .subtract => deriveArithmetic o left right
  | .modulus => deriveInteger left right
  | .bitwiseAnd => deriveInteger left right
  | .bitwiseOr => deriveInteger left right
  | .bitwiseXor => deriveInteger left right
  | .lessThan => deriveComparison left right
  | .lessThanOrEqual => deriveComparison left right
  | .greaterThan => deriveComparison left right
  | .greaterThanOrEqual => deriveComparison left right
  | .equal => deriveComparison left right
  | .equalExactMatch => deriveComparison left right
  | .notEqual => deriveComparison left right
  | .notEqualExactMatch => deriveComparison left right
  | .and => deriveBoolean left right
  | .or => deriveBoolean left right
  | .bitShiftLeft => .ok left
  | .bitShiftRight => .ok left
  | .isNull => .ok left
  | .isNotNull => .ok left
  | .like => .ok left
  | .likeExactMatch => .ok left
  | .notLike => .ok left
  | .notLikeExactMatch => .ok left

end Verif.Expr
