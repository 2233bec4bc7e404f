import Verif.Lex.Meaning

/-!
# C116: the texts of enumeration values (data/Constants.go, transport/Constants.go, transport/SignalKind.go)

Commands, responses, functions and operators appear in messages by the texts of their `String` methods.
-/

namespace Verif.Lex.Names

open Verif.Expr Verif.Parse

/-- A digit of `strconv.FormatInt(i, 16)` (data/Constants.go L75). -/
def hexDigit (n : Nat) : Byte := if n < 10 then BitVec.ofNat 8 (48 + n) else BitVec.ofNat 8 (87 + n)

/-- The digits of `strconv.FormatInt(i, 16)` (data/Constants.go L75). -/
def hexNat (n : Nat) : Str :=
  if n < 16 then [hexDigit n] else hexNat (n / 16) ++ [hexDigit (n % 16)]

/-- `strconv.FormatInt(i, 16)` (data/Constants.go L75) -/
def hexInt (i : Int) : Str := if i < 0 then 45#8 :: hexNat i.natAbs else hexNat i.natAbs

/-- An enumeration with its `String`: the values of its identifiers, and the texts by identifiers in the order of the switch (data/Constants.go L50-77). -/
structure Enum where
  values : List (String × Int)
  cases : List (String × String)

/-- The `String` methods (data/Constants.go L60-77 and those below): the first case whose identifier has the value, otherwise the number in hexadecimal. -/
def Enum.text (T : Enum) (i : Int) : Str :=
  match T.cases.find? fun c => T.values.lookup c.1 == some i with
  | some c => lit c.2
  | none => lit "0x" ++ hexInt i

/-- `ExpressionType` and its `String` (data/Constants.go L50-57, L60-77). -/
def expressionTypes : Enum where
  values :=
    [("Value", 0), ("Unary", 1), ("Column", 2), ("InList", 3), ("Function", 4), ("Operator", 5)]
  cases :=
    [("Value", "Value"), ("Unary", "Unary"), ("Column", "Column"), ("InList", "InList"), ("Function", "Function"), ("Operator", "Operator")]

/-- `ExpressionValueType` and its `String` (data/Constants.go L105-115, L126-149). -/
def valueTypes : Enum where
  values :=
    [("Boolean", 0), ("Int32", 1), ("Int64", 2), ("Decimal", 3), ("Double", 4), ("String", 5), ("Guid", 6), ("DateTime", 7), ("Undefined", 8)]
  cases :=
    [("Boolean", "Boolean"), ("Int32", "Int32"), ("Int64", "Int64"), ("Decimal", "Decimal"), ("Double", "Double"), ("String", "String"),
     ("Guid", "Guid"), ("DateTime", "DateTime"), ("Undefined", "Undefined")]

/-- `ExpressionUnaryType` and its `String` (data/Constants.go L194-198, L201-212). -/
def unaries : Enum where
  values :=
    [("Plus", 0), ("Minus", 1), ("Not", 2)]
  cases :=
    [("Plus", "+"), ("Minus", "-"), ("Not", "~")]

/-- `ExpressionFunctionType` and its `String` (data/Constants.go L301-343, L347-434). -/
def functions : Enum where
  values :=
    [("Abs", 0), ("Ceiling", 1), ("Coalesce", 2), ("Convert", 3), ("Contains", 4), ("DateAdd", 5), ("DateDiff", 6), ("DatePart", 7), ("EndsWith", 8),
     ("Floor", 9), ("IIf", 10), ("IndexOf", 11), ("IsDate", 12), ("IsInteger", 13), ("IsGuid", 14), ("IsNull", 15), ("IsNumeric", 16),
     ("LastIndexOf", 17), ("Len", 18), ("Lower", 19), ("MaxOf", 20), ("MinOf", 21), ("Now", 22), ("NthIndexOf", 23), ("Power", 24),
     ("RegExMatch", 25), ("RegExVal", 26), ("Replace", 27), ("Reverse", 28), ("Round", 29), ("Split", 30), ("Sqrt", 31), ("StartsWith", 32),
     ("StrCount", 33), ("StrCmp", 34), ("SubStr", 35), ("Trim", 36), ("TrimLeft", 37), ("TrimRight", 38), ("Upper", 39), ("UtcNow", 40)]
  cases :=
    [("Abs", "Abs"), ("Ceiling", "Ceiling"), ("Coalesce", "Coalesce"), ("Convert", "Convert"), ("Contains", "Contains"), ("DateAdd", "DateAdd"),
     ("DateDiff", "DateDiff"), ("DatePart", "DatePart"), ("EndsWith", "EndsWith"), ("Floor", "Floor"), ("IIf", "IIf"), ("IndexOf", "IndexOf"),
     ("IsDate", "IsDate"), ("IsInteger", "IsInteger"), ("IsGuid", "IsGuid"), ("IsNull", "IsNull"), ("IsNumeric", "IsNumeric"),
     ("LastIndexOf", "LastIndexOf"), ("Len", "Len"), ("Lower", "Lower"), ("MaxOf", "MaxOf"), ("MinOf", "MinOf"), ("Now", "Now"),
     ("NthIndexOf", "NthIndexOf"), ("Power", "Power"), ("RegExMatch", "RegExMatch"), ("RegExVal", "RegExVal"), ("Replace", "Replace"),
     ("Reverse", "Reverse"), ("Round", "Round"), ("Split", "Split"), ("Sqrt", "Sqrt"), ("StartsWith", "StartsWith"), ("StrCount", "StrCount"),
     ("StrCmp", "StrCmp"), ("SubStr", "SubStr"), ("Trim", "Trim"), ("TrimLeft", "TrimLeft"), ("TrimRight", "TrimRight"), ("Upper", "Upper"),
     ("UtcNow", "UtcNow")]

/-- `ExpressionOperatorType` and its `String` (data/Constants.go L493-520, L524-581). -/
def operators : Enum where
  values :=
    [("Multiply", 0), ("Divide", 1), ("Modulus", 2), ("Add", 3), ("Subtract", 4), ("BitShiftLeft", 5), ("BitShiftRight", 6), ("BitwiseAnd", 7),
     ("BitwiseOr", 8), ("BitwiseXor", 9), ("LessThan", 10), ("LessThanOrEqual", 11), ("GreaterThan", 12), ("GreaterThanOrEqual", 13), ("Equal", 14),
     ("EqualExactMatch", 15), ("NotEqual", 16), ("NotEqualExactMatch", 17), ("IsNull", 18), ("IsNotNull", 19), ("Like", 20), ("LikeExactMatch", 21),
     ("NotLike", 22), ("NotLikeExactMatch", 23), ("And", 24), ("Or", 25)]
  cases :=
    [("Multiply", "*"), ("Divide", "/"), ("Modulus", "%"), ("Add", "+"), ("Subtract", "-"), ("BitShiftLeft", "<<"), ("BitShiftRight", ">>"),
     ("BitwiseAnd", "&"), ("BitwiseOr", "|"), ("BitwiseXor", "^"), ("LessThan", "<"), ("LessThanOrEqual", "<="), ("GreaterThan", ">"),
     ("GreaterThanOrEqual", ">="), ("Equal", "="), ("EqualExactMatch", "==="), ("NotEqual", "<>"), ("NotEqualExactMatch", "!=="),
     ("IsNull", "IS NULL"), ("IsNotNull", "IS NOT NULL"), ("Like", "LIKE"), ("LikeExactMatch", "LIKE BINARY"), ("NotLike", "NOT LIKE"),
     ("NotLikeExactMatch", "NOT LIKE BINARY"), ("And", "AND"), ("Or", "OR")]

/-- `ServerCommand` and its `String` (transport/Constants.go L306-344, L349-412). -/
def commands : Enum where
  values :=
    [("Connect", 0), ("MetadataRefresh", 1), ("Subscribe", 2), ("Unsubscribe", 3), ("RotateCipherKeys", 4), ("UpdateProcessingInterval", 5),
     ("DefineOperationalModes", 6), ("ConfirmNotification", 7), ("ConfirmBufferBlock", 8), ("ConfirmUpdateBaseTimes", 9),
     ("ConfirmUpdateSignalIndexCache", 10), ("ConfirmUpdateCipherKeys", 11), ("GetPrimaryMetadataSchema", 12), ("GetSignalSelectionSchema", 13),
     ("UserCommand00", 208), ("UserCommand01", 209), ("UserCommand02", 210), ("UserCommand03", 211), ("UserCommand04", 212), ("UserCommand05", 213),
     ("UserCommand06", 214), ("UserCommand07", 215), ("UserCommand08", 216), ("UserCommand09", 217), ("UserCommand10", 218), ("UserCommand11", 219),
     ("UserCommand12", 220), ("UserCommand13", 221), ("UserCommand14", 222), ("UserCommand15", 223)]
  cases :=
    [("Connect", "Connect"), ("MetadataRefresh", "MetadataRefresh"), ("Subscribe", "Subscribe"), ("Unsubscribe", "Unsubscribe"),
     ("RotateCipherKeys", "RotateCipherKeys"), ("UpdateProcessingInterval", "UpdateProcessingInterval"),
     ("DefineOperationalModes", "DefineOperationalModes"), ("ConfirmNotification", "ConfirmNotification"),
     ("ConfirmBufferBlock", "ConfirmBufferBlock"), ("ConfirmUpdateSignalIndexCache", "ConfirmUpdateSignalIndexCache"),
     ("ConfirmUpdateCipherKeys", "ConfirmUpdateCipherKeys"), ("GetPrimaryMetadataSchema", "GetPrimaryMetadataSchema"),
     ("GetSignalSelectionSchema", "GetSignalSelectionSchema"), ("UserCommand00", "UserCommand00"), ("UserCommand01", "UserCommand01"),
     ("UserCommand02", "UserCommand02"), ("UserCommand03", "UserCommand03"), ("UserCommand04", "UserCommand04"), ("UserCommand05", "UserCommand05"),
     ("UserCommand06", "UserCommand06"), ("UserCommand07", "UserCommand07"), ("UserCommand08", "UserCommand08"), ("UserCommand09", "UserCommand09"),
     ("UserCommand10", "UserCommand10"), ("UserCommand11", "UserCommand11"), ("UserCommand12", "UserCommand12"), ("UserCommand13", "UserCommand13"),
     ("UserCommand14", "UserCommand14"), ("UserCommand15", "UserCommand15")]

/-- `ServerResponse` and its `String` (transport/Constants.go L488-521, L526-587). -/
def responses : Enum where
  values :=
    [("Succeeded", 128), ("Failed", 129), ("DataPacket", 130), ("UpdateSignalIndexCache", 131), ("UpdateBaseTimes", 132), ("UpdateCipherKeys", 133),
     ("DataStartTime", 134), ("ProcessingComplete", 135), ("BufferBlock", 136), ("Notify", 137), ("ConfigurationChanged", 138),
     ("UserResponse00", 224), ("UserResponse01", 225), ("UserResponse02", 226), ("UserResponse03", 227), ("UserResponse04", 228),
     ("UserResponse05", 229), ("UserResponse06", 230), ("UserResponse07", 231), ("UserResponse08", 232), ("UserResponse09", 233),
     ("UserResponse10", 234), ("UserResponse11", 235), ("UserResponse12", 236), ("UserResponse13", 237), ("UserResponse14", 238),
     ("UserResponse15", 239), ("NoOP", 255)]
  cases :=
    [("Succeeded", "Succeeded"), ("Failed", "Failed"), ("DataPacket", "DataPacket"), ("UpdateSignalIndexCache", "UpdateSignalIndexCache"),
     ("UpdateBaseTimes", "UpdateBaseTimes"), ("UpdateCipherKeys", "UpdateCipherKeys"), ("DataStartTime", "DataStartTime"),
     ("ProcessingComplete", "ProcessingComplete"), ("BufferBlock", "BufferBlock"), ("Notify", "Notify"),
     ("ConfigurationChanged", "ConfigurationChanged"), ("UserResponse00", "UserResponse00"), ("UserResponse01", "UserResponse01"),
     ("UserResponse02", "UserResponse02"), ("UserResponse03", "UserResponse03"), ("UserResponse04", "UserResponse04"),
     ("UserResponse05", "UserResponse05"), ("UserResponse06", "UserResponse06"), ("UserResponse07", "UserResponse07"),
     ("UserResponse08", "UserResponse08"), ("UserResponse09", "UserResponse09"), ("UserResponse10", "UserResponse10"),
     ("UserResponse11", "UserResponse11"), ("UserResponse12", "UserResponse12"), ("UserResponse13", "UserResponse13"),
     ("UserResponse14", "UserResponse14"), ("UserResponse15", "UserResponse15"), ("NoOP", "NoOP")]

/-- `SignalKind` and its `String` (transport/SignalKind.go L61-74, L77-106). -/
def kinds : Enum where
  values :=
    [("Angle", 0), ("Magnitude", 1), ("Frequency", 2), ("DfDt", 3), ("Status", 4), ("Digital", 5), ("Analog", 6), ("Calculation", 7),
     ("Statistic", 8), ("Alarm", 9), ("Quality", 10), ("Unknown", 11)]
  cases :=
    [("Angle", "Angle"), ("Magnitude", "Magnitude"), ("Frequency", "Frequency"), ("DfDt", "DfDt"), ("Status", "Status"), ("Digital", "Digital"),
     ("Analog", "Analog"), ("Calculation", "Calculation"), ("Statistic", "Statistic"), ("Alarm", "Alarm"), ("Quality", "Quality"),
     ("Unknown", "Unknown")]

/-- The enumerations that have texts (data/Constants.go, transport/Constants.go, transport/SignalKind.go; `DataType` is in `Verif.Table.Image`). -/
def enumerations : List Enum := [expressionTypes, valueTypes, unaries, functions, operators, commands, responses, kinds]

/-- The identifier of a function (data/Constants.go L218-299). -/
def functionIdent : Fn → String
  | .abs => "Abs"
  | .ceiling => "Ceiling"
  | .coalesce => "Coalesce"
  | .convert => "Convert"
  | .contains => "Contains"
  | .dateAdd => "DateAdd"
  | .dateDiff => "DateDiff"
  | .datePart => "DatePart"
  | .endsWith => "EndsWith"
  | .floor => "Floor"
  | .iif => "IIf"
  | .indexOf => "IndexOf"
  | .isDate => "IsDate"
  | .isInteger => "IsInteger"
  | .isGuid => "IsGuid"
  | .isNull => "IsNull"
  | .isNumeric => "IsNumeric"
  | .lastIndexOf => "LastIndexOf"
  | .len => "Len"
  | .lower => "Lower"
  | .maxOf => "MaxOf"
  | .minOf => "MinOf"
  | .now => "Now"
  | .nthIndexOf => "NthIndexOf"
  | .power => "Power"
  | .regExMatch => "RegExMatch"
  | .regExVal => "RegExVal"
  | .replace => "Replace"
  | .reverse => "Reverse"
  | .round => "Round"
  | .split => "Split"
  | .sqrt => "Sqrt"
  | .startsWith => "StartsWith"
  | .strCount => "StrCount"
  | .strCmp => "StrCmp"
  | .subStr => "SubStr"
  | .trim => "Trim"
  | .trimLeft => "TrimLeft"
  | .trimRight => "TrimRight"
  | .upper => "Upper"
  | .utcNow => "UtcNow"

/-- The identifier of an operator (data/Constants.go L440-492). -/
def operatorIdent : Op → String
  | .multiply => "Multiply"
  | .divide => "Divide"
  | .modulus => "Modulus"
  | .add => "Add"
  | .subtract => "Subtract"
  | .bitShiftLeft => "BitShiftLeft"
  | .bitShiftRight => "BitShiftRight"
  | .bitwiseAnd => "BitwiseAnd"
  | .bitwiseOr => "BitwiseOr"
  | .bitwiseXor => "BitwiseXor"
  | .lessThan => "LessThan"
  | .lessThanOrEqual => "LessThanOrEqual"
  | .greaterThan => "GreaterThan"
  | .greaterThanOrEqual => "GreaterThanOrEqual"
  | .equal => "Equal"
  | .equalExactMatch => "EqualExactMatch"
  | .notEqual => "NotEqual"
  | .notEqualExactMatch => "NotEqualExactMatch"
  | .isNull => "IsNull"
  | .isNotNull => "IsNotNull"
  | .like => "Like"
  | .likeExactMatch => "LikeExactMatch"
  | .notLike => "NotLike"
  | .notLikeExactMatch => "NotLikeExactMatch"
  | .and => "And"
  | .or => "Or"

/-- The identifier of a unary operator (data/Constants.go L187-193). -/
def unaryIdent : Unary → String
  | .plus => "Plus"
  | .minus => "Minus"
  | .not => "Not"

/-- The text shown for an identifier: `String` of its value (data/Constants.go L60-77). -/
def Enum.shown (T : Enum) (ident : String) : Option Str := (T.values.lookup ident).map T.text

end Verif.Lex.Names
