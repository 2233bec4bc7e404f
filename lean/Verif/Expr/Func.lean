import Verif.Expr.Ops

/-!
# Functions (data/ExpressionTree.go L490-1275 and L1359-2586)

An argument is given as what evaluating it for a target type yields, so that it shows which arguments a function evaluates, in
what order and how often.
-/

namespace Verif.Expr

variable {P : Prim}

open Val

/-- `ExpressionFunctionType` (Constants.go L218-344). -/
inductive Fn where
  | abs | ceiling | coalesce | convert | contains | dateAdd | dateDiff | datePart | endsWith | floor | iif | indexOf | isDate
  | isInteger | isGuid | isNull | isNumeric | lastIndexOf | len | lower | maxOf | minOf | now | nthIndexOf | power | regExMatch
  | regExVal | replace | reverse | round | split | sqrt | startsWith | strCount | strCmp | subStr | trim | trimLeft | trimRight
  | upper | utcNow
  deriving DecidableEq, Repr

/-- `abs32`, `abs64` (L1359-1371): the smallest number is its own absolute value. -/
def absBits {n : Nat} (v : BitVec n) : BitVec n := if v.toInt < 0 then -v else v

/-- `abs` (L1380-1404). -/
def fnAbs (s : Val P) : Res (Val P) :=
  if !s.type.isNumeric then .err
  else if s.isNull then .ok (.null s.type)
  else match s.type with
    | .boolean => return .boolean (← s.booleanValue)
    | .int32 => return .int32 (absBits (← s.int32Value))
    | .int64 => return .int64 (absBits (← s.int64Value))
    | .decimal => return .decimal (P.decAbs (← s.decimalValue))
    | .double => return .double (P.fltAbs (← s.doubleValue))
    | _ => .err

/-- `ceiling` (L1406-1428). -/
def fnCeiling (s : Val P) : Res (Val P) :=
  if !s.type.isNumeric then .err
  else if s.isNull then .ok (.null s.type)
  else if s.type.isInteger then .ok s
  else match s.type with
    | .decimal => return .decimal (P.decCeil (← s.decimalValue))
    | .double => return .double (P.fltCeil (← s.doubleValue))
    | _ => .err

/-- `floor` (L1783-1805). -/
def fnFloor (s : Val P) : Res (Val P) :=
  if !s.type.isNumeric then .err
  else if s.isNull then .ok (.null s.type)
  else if s.type.isInteger then .ok s
  else match s.type with
    | .decimal => return .decimal (P.decFloor (← s.decimalValue))
    | .double => return .double (P.fltFloor (← s.doubleValue))
    | _ => .err

/-- `round` (L2289-2311). -/
def fnRound (s : Val P) : Res (Val P) :=
  if !s.type.isNumeric then .err
  else if s.isNull then .ok (.null s.type)
  else if s.type.isInteger then .ok s
  else match s.type with
    | .decimal => return .decimal (P.decRound (← s.decimalValue))
    | .double => return .double (P.fltRound (← s.doubleValue))
    | _ => .err

/-- `sqrt` (L2361-2386). -/
def fnSqrt (s : Val P) : Res (Val P) :=
  if !s.type.isNumeric then .err
  else if s.isNull then .ok (.null s.type)
  else match s.type with
    | .boolean => return .double (P.fltSqrt (P.fltOfInt (← s.booleanValueAsInt).toInt))
    | .int32 => return .double (P.fltSqrt (P.fltOfInt (← s.int32Value).toInt))
    | .int64 => return .double (P.fltSqrt (P.fltOfInt (← s.int64Value).toInt))
    | .decimal => return .double (P.fltSqrt (P.decToFlt (← s.decimalValue)))
    | .double => return .double (P.fltSqrt (← s.doubleValue))
    | _ => .err

/-- What evaluating an argument for a target type yields. (data/ExpressionTree.go L171-203) -/
abbrev Arg (P : Prim) := VT → Res (Val P)

/-- The loop of `coalesce` (L1441-1451). -/
def coalesceLoop (first : Val P) : List (Arg P) → Res (Val P)
  | [] => .ok first
  | a :: as => do
    let v ← a .boolean
    if !v.isNull then return v
    coalesceLoop first as

/-- `coalesce` (L1430-1454). -/
def fnCoalesce : List (Arg P) → Res (Val P)
  | [] => .panic
  | a :: as => do
    let v ← a .boolean
    if !v.isNull then return v
    coalesceLoop v as

/-- The target type named by the (upper case) second argument of `Convert` (L1468-1503). -/
def convertTarget (P : Prim) (name : Str) : Option VT :=
  let name := if hasPrefix name (lit "SYSTEM.") && name.length > 7 then name.drop 7 else name
  match VT.all.find? fun t => name == P.upper (lit t.name) with
  | some t => some t
  | none =>
    if name = lit "SINGLE" || hasPrefix name (lit "FLOAT") then some .double
    else if name = lit "BOOL" then some .boolean
    else if hasPrefix name (lit "INT") || hasPrefix name (lit "UINT") then some .int64
    else if name = lit "DATE" || name = lit "TIME" then some .dateTime
    else if name = lit "UUID" then some .guid
    else none

/-- `convert` (L1457-1512). -/
def fnConvert (s target : Val P) : Res (Val P) :=
  if target.type ≠ .string then .err
  else if target.isNull then .err
  else do
    let name ← target.stringValue
    match convertTarget P (P.upper name) with
    | none => .err
    | some .undefined => .err
    | some t => s.convert t

/-- The shape shared by `contains` (L1514-1543), `endsWith` (L1752-1781) and `startsWith` (L2388-2417). -/
def textTest (test : Str → Str → Bool) (s t ignoreCase : Val P) : Res (Val P) :=
  if s.type ≠ .string then .err
  else if t.type ≠ .string then .err
  else if s.isNull then .ok (.null .boolean)
  else if t.isNull then .ok (.boolean false)
  else do
    let ignoreCase ← ignoreCase.convert .boolean
    if ← ignoreCase.booleanValue then return .boolean (test (P.upper (← s.stringValue)) (P.upper (← t.stringValue)))
    return .boolean (test (← s.stringValue) (← t.stringValue))

/-- The shape shared by `indexOf` (L1835-1864) and `lastIndexOf` (L1955-1984). -/
def textIndex (find : Str → Str → Option Nat) (s t ignoreCase : Val P) : Res (Val P) :=
  if s.type ≠ .string then .err
  else if t.type ≠ .string then .err
  else if t.isNull then .err
  else if s.isNull then .ok (.null .int32)
  else do
    let ignoreCase ← ignoreCase.convert .boolean
    if ← ignoreCase.booleanValue then
      return .int32 (BitVec.ofInt 32 (position (find (P.upper (← s.stringValue)) (P.upper (← t.stringValue)))))
    return .int32 (BitVec.ofInt 32 (position (find (← s.stringValue) (← t.stringValue))))

/-- `ParseTimeInterval` (Constants.go L622-649). -/
def parseInterval (P : Prim) (name : Str) : Res Interval :=
  let name := P.upper (Utf8.trimSpace name)
  if name = lit "YEAR" then .ok .year
  else if name = lit "MONTH" then .ok .month
  else if name = lit "DAYOFYEAR" then .ok .dayOfYear
  else if name = lit "DAY" then .ok .day
  else if name = lit "WEEK" then .ok .week
  else if name = lit "WEEKDAY" then .ok .weekDay
  else if name = lit "HOUR" then .ok .hour
  else if name = lit "MINUTE" then .ok .minute
  else if name = lit "SECOND" then .ok .second
  else if name = lit "MILLISECOND" then .ok .millisecond
  else .err

/-- A date argument is a `DateTime` or a `String`. (data/ExpressionTree.go L577-760) -/
def VT.isDate : VT → Bool
  | .dateTime | .string => true
  | _ => false

/-- The switch of `dateAdd` (L1585-1610). -/
def timeAdd (t : P.Time) (value : BitVec 64) : Interval → P.Time
  | .year => P.timeAddDate t value.toInt 0 0
  | .month => P.timeAddDate t 0 value.toInt 0
  | .dayOfYear => P.timeAddDate t 0 0 value.toInt
  | .day => P.timeAddDate t 0 0 value.toInt
  | .weekDay => P.timeAddDate t 0 0 value.toInt
  | .week => P.timeAddDate t 0 0 (value * 7).toInt
  | .hour => P.timeAddDur t (3600000000000#64 * value)
  | .minute => P.timeAddDur t (60000000000#64 * value)
  | .second => P.timeAddDur t (1000000000#64 * value)
  | .millisecond => P.timeAddDur t (1000000#64 * value)

/-- The two switches of `dateDiff` (L1650-1690). -/
def timeDiff (left right : P.Time) : Interval → BitVec 32
  | .year => BitVec.ofInt 32 (P.timeYear right - P.timeYear left)
  | .month => BitVec.ofInt 32 ((P.timeYear right - P.timeYear left) * 12 + (P.timeMonth right - P.timeMonth left))
  | .dayOfYear => P.fltToInt32 (P.fltDiv (P.durHours (P.timeSub right left)) (P.fltOfInt 24))
  | .day => P.fltToInt32 (P.fltDiv (P.durHours (P.timeSub right left)) (P.fltOfInt 24))
  | .weekDay => P.fltToInt32 (P.fltDiv (P.durHours (P.timeSub right left)) (P.fltOfInt 24))
  | .week => P.fltToInt32 (P.fltDiv (P.fltDiv (P.durHours (P.timeSub right left)) (P.fltOfInt 24)) (P.fltOfInt 7))
  | .hour => P.fltToInt32 (P.durHours (P.timeSub right left))
  | .minute => P.fltToInt32 (P.durMinutes (P.timeSub right left))
  | .second => P.fltToInt32 (P.durSeconds (P.timeSub right left))
  | .millisecond => ((P.timeSub right left).sdiv 1000000#64).truncate 32

/-- The switch of `datePart` (L1723-1749). -/
def timePart (t : P.Time) : Interval → BitVec 32
  | .year => BitVec.ofInt 32 (P.timeYear t)
  | .month => BitVec.ofInt 32 (P.timeMonth t)
  | .dayOfYear => BitVec.ofInt 32 (P.timeYearDay t)
  | .day => BitVec.ofInt 32 (P.timeDay t)
  | .weekDay => BitVec.ofInt 32 (P.timeWeekday t + 1)
  | .week => BitVec.ofInt 32 (P.timeISOWeek t)
  | .hour => BitVec.ofInt 32 (P.timeHour t)
  | .minute => BitVec.ofInt 32 (P.timeMinute t)
  | .second => BitVec.ofInt 32 (P.timeSecond t)
  | .millisecond => BitVec.ofInt 32 (P.timeNano t / 1000000)

/-- `dateAdd` (L1546-1611). -/
def fnDateAdd (s add interval : Val P) : Res (Val P) :=
  if !s.type.isDate then .err
  else if !add.type.isInteger then .err
  else if interval.type ≠ .string then .err
  else if add.isNull then .err
  else if interval.isNull then .err
  else if s.isNull then .ok s
  else do
    let s ← s.convert .dateTime
    let i ← parseInterval P (← interval.stringValue)
    let value ← add.integerValue 0
    return .dateTime (timeAdd (← s.dateTimeValue) value i)

/-- `dateDiff` (L1614-1691). -/
def fnDateDiff (l r interval : Val P) : Res (Val P) :=
  if !l.type.isDate then .err
  else if !r.type.isDate then .err
  else if interval.type ≠ .string then .err
  else if interval.isNull then .err
  else if l.isNull || r.isNull then .ok (.null .int32)
  else do
    let l ← l.convert .dateTime
    let r ← r.convert .dateTime
    let i ← parseInterval P (← interval.stringValue)
    return .int32 (timeDiff (← l.dateTimeValue) (← r.dateTimeValue) i)

/-- `datePart` (L1694-1750). -/
def fnDatePart (s interval : Val P) : Res (Val P) :=
  if !s.type.isDate then .err
  else if interval.type ≠ .string then .err
  else if interval.isNull then .err
  else if s.isNull then .ok (.null .int32)
  else do
    let s ← s.convert .dateTime
    let i ← parseInterval P (← interval.stringValue)
    return .int32 (timePart (← s.dateTimeValue) i)

/-- `iif` (L1807-1833). -/
def fnIIf (test : Val P) (left right : Arg P) : Res (Val P) :=
  if test.type ≠ .boolean then .err
  else do if ← test.booleanValue then left .boolean else right .boolean

/-- `isDate` (L1866-1882). -/
def fnIsDate (v : Val P) : Res (Val P) :=
  if v.isNull then .ok (.boolean false)
  else if v.type = .dateTime then .ok (.boolean true)
  else if v.type = .string then do return .boolean (P.timeParse (← v.stringValue)).2
  else .ok (.boolean false)

/-- `isInteger` (L1884-1900). -/
def fnIsInteger (v : Val P) : Res (Val P) :=
  if v.isNull then .ok (.boolean false)
  else if v.type.isInteger then .ok (.boolean true)
  else if v.type = .string then do return .boolean (P.isInt (← v.stringValue))
  else .ok (.boolean false)

/-- `isGuid` (L1902-1918). -/
def fnIsGuid (v : Val P) : Res (Val P) :=
  if v.isNull then .ok (.boolean false)
  else if v.type = .guid then .ok (.boolean true)
  else if v.type = .string then do return .boolean (P.guidParse (← v.stringValue)).2
  else .ok (.boolean false)

/-- `isNull` (L1920-1930). -/
def fnIsNull (test default : Val P) : Res (Val P) :=
  if default.isNull then .err
  else if test.isNull then .ok default
  else .ok test

/-- `isNumeric` (L1932-1953). -/
def fnIsNumeric (v : Val P) : Res (Val P) :=
  if v.isNull then .ok (.boolean false)
  else if v.type.isNumeric then .ok (.boolean true)
  else if v.type = .string then do
    let s ← v.stringValue
    return .boolean ((P.fltParse s).2 || (P.decParse s).isSome)
  else .ok (.boolean false)

/-- `len` (L1986-1997): the number of bytes. -/
def fnLen (s : Val P) : Res (Val P) :=
  if s.type ≠ .string then .err
  else if s.isNull then .ok (.null .int32)
  else return .int32 (BitVec.ofInt 32 ((← s.stringValue).length : Int))

/-- The shape shared by `lower` (L1999-2010), `reverse` (L2270-2287), `trim` (L2532-2543), `trimLeft` (L2545-2556),
`trimRight` (L2558-2569) and `upper` (L2571-2582). -/
def textMap (f : Str → Str) (s : Val P) : Res (Val P) :=
  if s.type ≠ .string then .err
  else if s.isNull then .ok (.null .string)
  else return .string (f (← s.stringValue))

/-- A rune of the text is among those of `whitespace` (L41). The two bytes at the end of that Go string, `\x85` and `\xA0`, are no UTF-8:
they read as U+FFFD, and so does every such byte of the text. -/
def inWhitespace (r : Nat) : Bool := (9 ≤ r && r ≤ 13) || r == 0x20 || r == Utf8.runeError

/-- The loop of `reverse` (L2280-2286): the runes back to front. -/
def reverseRunes (s : Str) : Str := Utf8.text (Utf8.runes s).reverse

/-- The loop of `maxOf` (L2019-2041). -/
def maxLoop (test : Val P) : List (Arg P) → Res (Val P)
  | [] => .ok test
  | a :: as => do
    let next ← a .boolean
    let t ← deriveComparison test.type next.type
    let result ← greaterThanOp next test t
    if (← result.booleanValue) || (test.isNull && !next.isNull) then maxLoop next as else maxLoop test as

/-- `maxOf` (L2012-2044). -/
def fnMaxOf : List (Arg P) → Res (Val P)
  | [] => .panic
  | a :: as => do maxLoop (← a .boolean) as

/-- The loop of `minOf` (L2053-2075). -/
def minLoop (test : Val P) : List (Arg P) → Res (Val P)
  | [] => .ok test
  | a :: as => do
    let next ← a .boolean
    let t ← deriveComparison test.type next.type
    let result ← lessThanOp next test t
    if (← result.booleanValue) || (test.isNull && !next.isNull) then minLoop next as else minLoop test as

/-- `minOf` (L2046-2078). -/
def fnMinOf : List (Arg P) → Res (Val P)
  | [] => .panic
  | a :: as => do minLoop (← a .boolean) as

/-- `nthIndexOf` (L2084-2127). -/
def fnNthIndexOf (s t index ignoreCase : Val P) : Res (Val P) :=
  if s.type ≠ .string then .err
  else if t.type ≠ .string then .err
  else if !index.type.isInteger then .err
  else if t.isNull then .err
  else if index.isNull then .err
  else if s.isNull then .ok (.null .int32)
  else do
    let ignoreCase ← ignoreCase.convert .boolean
    let fold ← ignoreCase.booleanValue
    let source ← s.stringValue
    let test ← t.stringValue
    let found ← if fold then findNthIndex (P.upper source) (P.upper test) (← index.integerValue (-1))
      else findNthIndex source test (← index.integerValue (-1))
    return .int32 (BitVec.ofInt 32 found)

/-- `power` (L2129-2171). The exponent is the source value converted a second time (L2153), not the second argument. -/
def fnPower (s e : Val P) : Res (Val P) :=
  if !s.type.isNumeric then .err
  else if !e.type.isNumeric then .err
  else if s.isNull || e.isNull then .ok (.null s.type)
  else do
    let t ← deriveArithmetic .multiply s.type e.type
    let s ← s.convert t
    let e ← s.convert t
    match s.type with
    | .boolean => do
      let x := P.fltPow (P.fltOfInt (← s.booleanValueAsInt).toInt) (P.fltOfInt (← e.booleanValueAsInt).toInt)
      return .boolean (!P.fltEq x (P.fltOfInt 0))
    | .int32 => return .int32 (P.fltToInt32 (P.fltPow (P.fltOfInt (← s.int32Value).toInt) (P.fltOfInt (← e.int32Value).toInt)))
    | .int64 => return .int64 (P.fltToInt64 (P.fltPow (P.fltOfInt (← s.int64Value).toInt) (P.fltOfInt (← e.int64Value).toInt)))
    | .decimal => do
      match P.decPow (← s.decimalValue) (← e.decimalValue) with
      | some d => return .decimal d
      | none => .panic
    | .double => return .double (P.fltPow (← s.doubleValue) (← e.doubleValue))
    | _ => .err

/-- `evaluateRegEx` (L2181-2223). -/
def fnRegEx (regex test : Val P) (returnMatchedValue : Bool) : Res (Val P) :=
  if regex.type ≠ .string then .err
  else if test.type ≠ .string then .err
  else if regex.isNull || test.isNull then .ok (.null (if returnMatchedValue then .string else .boolean))
  else do
    let text ← test.stringValue
    match P.regexFind (← regex.stringValue) text with
    | none => .err
    | some result =>
      if returnMatchedValue then
        match result with
        | none => return .string []
        | some (a, b) => return .string (← slice text a b)
      else return .boolean result.isSome

/-- A letter, a digit or an underscore at the start of a text: its width. (data/ExpressionTree.go L2258-2264, `ReplaceAllString`) -/
def wordChar (P : Prim) (s : Str) : Option Nat :=
  match s with
  | [] => none
  | b :: _ =>
    let x := b.toNat
    if x < 128 then
      if 48 ≤ x ∧ x ≤ 57 ∨ 65 ≤ x ∧ x ≤ 90 ∨ 97 ≤ x ∧ x ≤ 122 ∨ x = 95 then some 1 else none
    else P.wordRune s

/-- The length of the name at the start of a text, `n` runes at most. (data/ExpressionTree.go L2258-2264, `ReplaceAllString`) -/
def wordLen (P : Prim) : Nat → Str → Nat
  | 0, _ => 0
  | n + 1, s =>
    match wordChar P s with
    | some w => w + wordLen P n (s.drop w)
    | none => 0

/-- The number a name spells, if it does: digits, no zero in front of others, at most nine (`extract` of Go's `regexp`).
(data/ExpressionTree.go L2258-2264, `ReplaceAllString`) -/
def groupNumber (name : Str) : Option Nat :=
  if name.length > 1 ∧ name.head? = some 48#8 then none
  else if name.length > 9 then none
  else if name.all fun b => decide (48 ≤ b.toNat ∧ b.toNat ≤ 57) then some (name.foldl (fun a b => a * 10 + (b.toNat - 48)) 0)
  else none

/-- `extract` of Go's `regexp`: the name after a dollar sign, bare or in braces, and what follows it; `none` when there is none.
(data/ExpressionTree.go L2258-2264, `ReplaceAllString`) -/
def extract (P : Prim) (s : Str) : Option (Str × Str) :=
  match s with
  | [] => none
  | b :: t =>
    if b = 123#8 then
      let i := wordLen P t.length t
      if i = 0 then none
      else if t[i]? = some 125#8 then some (t.take i, t.drop (i + 1)) else none
    else
      let i := wordLen P s.length s
      if i = 0 then none else some (s.take i, s.drop i)

/-- `Regexp.expand` of Go's library for an expression without groups: in the template `$$` is a dollar sign, `$0` the text
matched, any other name nothing. `n` bounds the dollar signs. (data/ExpressionTree.go L2258-2264, `ReplaceAllString`) -/
def expand (P : Prim) (matched : Str) : Nat → Str → Str
  | 0, template => template
  | n + 1, template =>
    match index? template [36#8] with
    | none => template
    | some i =>
      let rest := template.drop (i + 1)
      template.take i ++
        (if rest.head? = some 36#8 then 36#8 :: expand P matched n (rest.drop 1)
        else match extract P rest with
          | none => 36#8 :: expand P matched n rest
          | some (name, rest) => (if groupNumber name = some 0 then matched else []) ++ expand P matched n rest)

/-- What stands between the matches, and the template expanded for each of them. (data/ExpressionTree.go L2258-2264, `ReplaceAllString`) -/
def splice (P : Prim) (s template : Str) (pos : Nat) : List (Nat × Nat) → Str
  | [] => s.drop pos
  | (a, b) :: ms =>
    (s.take a).drop pos ++ expand P ((s.take b).drop a) template.length template ++ splice P s template b ms

/-- `regexp.Compile` of `(?i)` and the quoted text (L2258-2262), then `regex.ReplaceAllString` (L2264): the replacement is a template. -/
def replaceFold (P : Prim) (s t r : Str) : Res Str :=
  match P.foldMatches s t with
  | none => .err
  | some ms => .ok (splice P s r 0 ms)

/-- `replace` (L2225-2268). -/
def fnReplace (s t r ignoreCase : Val P) : Res (Val P) :=
  if s.type ≠ .string then .err
  else if t.type ≠ .string then .err
  else if r.type ≠ .string then .err
  else if t.isNull then .err
  else if r.isNull then .err
  else if s.isNull then .ok s
  else do
    let ignoreCase ← ignoreCase.convert .boolean
    if ← ignoreCase.booleanValue then
      return .string (← replaceFold P (← s.stringValue) (← t.stringValue) (← r.stringValue))
    return .string (replaceAll (← s.stringValue) (← t.stringValue) (← r.stringValue))

/-- `split` (L2313-2359). -/
def fnSplit (s d index ignoreCase : Val P) : Res (Val P) :=
  if s.type ≠ .string then .err
  else if d.type ≠ .string then .err
  else if !index.type.isInteger then .err
  else if d.isNull then .err
  else if index.isNull then .err
  else if s.isNull then .ok s
  else do
    let ignoreCase ← ignoreCase.convert .boolean
    let i ← index.integerValue (-1)
    let fold ← ignoreCase.booleanValue
    let source ← s.stringValue
    let delimiter ← d.stringValue
    let result ← if fold then splitNthIndex (P.upper source) (P.upper delimiter) i else splitNthIndex source delimiter i
    match result with
    | none => return .string []
    | some (a, b) => return .string (← slice source a b)

/-- `strCount` (L2419-2449). -/
def fnStrCount (s t ignoreCase : Val P) : Res (Val P) :=
  if s.type ≠ .string then .err
  else if t.type ≠ .string then .err
  else if s.isNull || t.isNull then .ok (.int32 0)
  else do
    let find ← t.stringValue
    if find.length = 0 then return .int32 0
    let ignoreCase ← ignoreCase.convert .boolean
    if ← ignoreCase.booleanValue then
      return .int32 (BitVec.ofInt 32 (countStr (P.upper (← s.stringValue)) (P.upper find) : Int))
    return .int32 (BitVec.ofInt 32 (countStr (← s.stringValue) find : Int))

/-- `strCmp` (L2451-2486). -/
def fnStrCmp (l r ignoreCase : Val P) : Res (Val P) :=
  if l.type ≠ .string then .err
  else if r.type ≠ .string then .err
  else if l.isNull && r.isNull then .ok (.int32 0)
  else if l.isNull then .ok (.int32 1)
  else if r.isNull then .ok (.int32 (-1))
  else do
    let ignoreCase ← ignoreCase.convert .boolean
    if ← ignoreCase.booleanValue then
      return .int32 (BitVec.ofInt 32 (strCompare (P.upper (← l.stringValue)) (P.upper (← r.stringValue))))
    return .int32 (BitVec.ofInt 32 (strCompare (← l.stringValue) (← r.stringValue)))

/-- `subStr` (L2488-2530). -/
def fnSubStr (s index length : Val P) : Res (Val P) :=
  if s.type ≠ .string then .err
  else if !index.type.isInteger then .err
  else if !length.type.isInteger then .err
  else if index.isNull then .err
  else if s.isNull then .ok s
  else do
    let text ← s.stringValue
    let i ← index.integerValue 0
    if i.toInt < 0 ∨ i.toInt ≥ text.length then return .string []
    if length.isNull then return .string (text.drop i.toNat)
    let n ← length.integerValue 0
    if n.toInt ≤ 0 then return .string []
    if (i + n).toInt < text.length then return .string (← slice text i.toInt (i + n).toInt)
    return .string (text.drop i.toNat)

/-- A function of one argument (`evaluateAbs` L490-503 and others of this shape). -/
def arity1 (t : VT) (f : Val P → Res (Val P)) : List (Arg P) → Res (Val P)
  | [a] => do f (← a t)
  | _ => .err

/-- A function of two arguments. (data/ExpressionTree.go L548-575) -/
def arity2 (t u : VT) (f : Val P → Val P → Res (Val P)) : List (Arg P) → Res (Val P)
  | [a, b] => do f (← a t) (← b u)
  | _ => .err

/-- A function of three arguments. (data/ExpressionTree.go L577-620) -/
def arity3 (t u w : VT) (f : Val P → Val P → Val P → Res (Val P)) : List (Arg P) → Res (Val P)
  | [a, b, c] => do f (← a t) (← b u) (← c w)
  | _ => .err

/-- A function of two arguments and an optional one, null when left out. (data/ExpressionTree.go L548-575) -/
def arity23 (t u w : VT) (f : Val P → Val P → Val P → Res (Val P)) : List (Arg P) → Res (Val P)
  | [a, b] => do f (← a t) (← b u) (.null w)
  | [a, b, c] => do f (← a t) (← b u) (← c w)
  | _ => .err

/-- A function of three arguments and an optional one, null when left out. (data/ExpressionTree.go L577-620) -/
def arity34 (t u w x : VT) (f : Val P → Val P → Val P → Val P → Res (Val P)) : List (Arg P) → Res (Val P)
  | [a, b, c] => do f (← a t) (← b u) (← c w) (.null x)
  | [a, b, c, d] => do f (← a t) (← b u) (← c w) (← d x)
  | _ => .err

/-- At least two arguments. (data/ExpressionTree.go L520-527) -/
def atLeast2 (f : List (Arg P) → Res (Val P)) (args : List (Arg P)) : Res (Val P) := if args.length < 2 then .err else f args

/-- `evaluateIIf` (L686-700): it evaluates the second argument as the test. -/
def evalIIf : List (Arg P) → Res (Val P)
  | [_, b, c] => do fnIIf (← b .boolean) b c
  | _ => .err

/-- `evaluateFunction` (L398-487) with the `evaluate…` functions (L490-1275). -/
def applyFn (f : Fn) (args : List (Arg P)) : Res (Val P) :=
  match f with
  | .abs => arity1 .double fnAbs args
  | .ceiling => arity1 .double fnCeiling args
  | .coalesce => atLeast2 fnCoalesce args
  | .convert => arity2 .boolean .string fnConvert args
  | .contains => arity23 .string .string .boolean (textTest containsStr) args
  | .dateAdd => arity3 .dateTime .int32 .string fnDateAdd args
  | .dateDiff => arity3 .dateTime .dateTime .string fnDateDiff args
  | .datePart => arity2 .dateTime .string fnDatePart args
  | .endsWith => arity23 .string .string .boolean (textTest hasSuffix) args
  | .floor => arity1 .double fnFloor args
  | .iif => evalIIf args
  | .indexOf => arity23 .string .string .boolean (textIndex index?) args
  | .isDate => arity1 .boolean fnIsDate args
  | .isInteger => arity1 .boolean fnIsInteger args
  | .isGuid => arity1 .boolean fnIsGuid args
  | .isNull => arity2 .string .string fnIsNull args
  | .isNumeric => arity1 .boolean fnIsNumeric args
  | .lastIndexOf => arity23 .string .string .boolean (textIndex lastIndex?) args
  | .len => arity1 .string fnLen args
  | .lower => arity1 .string (textMap P.lower) args
  | .maxOf => atLeast2 fnMaxOf args
  | .minOf => atLeast2 fnMinOf args
  | .now => if args.length > 0 then .err else .ok (.dateTime P.now)
  | .nthIndexOf => arity34 .string .string .int32 .boolean fnNthIndexOf args
  | .power => arity2 .double .int32 fnPower args
  | .regExMatch => arity2 .string .string (fun r t => fnRegEx r t false) args
  | .regExVal => arity2 .string .string (fun r t => fnRegEx r t true) args
  | .replace => arity34 .string .string .string .boolean fnReplace args
  | .reverse => arity1 .string (textMap reverseRunes) args
  | .round => arity1 .double fnRound args
  | .split => arity34 .string .string .int32 .boolean fnSplit args
  | .sqrt => arity1 .double fnSqrt args
  | .startsWith => arity23 .string .string .boolean (textTest hasPrefix) args
  | .strCount => arity23 .string .string .boolean fnStrCount args
  | .strCmp => arity23 .string .string .boolean fnStrCmp args
  | .subStr => arity23 .string .int32 .int32 fnSubStr args
  | .trim => arity1 .string (textMap Utf8.trimSpace) args
  | .trimLeft => arity1 .string (textMap (Utf8.trimLeft inWhitespace)) args
  | .trimRight => arity1 .string (textMap (Utf8.trimRight inWhitespace)) args
  | .upper => arity1 .string (textMap P.upper) args
  | .utcNow => if args.length > 0 then .err else .ok (.dateTime P.utcNow)

end Verif.Expr
