import Verif.Expr.Eval
import Verif.Common.Calendar

/-!
# A concrete choice of the library functions, for examples and counterexamples

Decimals and floats are whole numbers (with a NaN), dates are whole numbers, letter case is ASCII. It is not Go's arithmetic; it
shows that hypotheses about `Prim` can be met and lets examples be computed. Counterexamples in the properties only use values on
which it agrees with Go.
-/

namespace Verif.Expr.Toy

/-- ASCII upper case. -/
def upperByte (b : Byte) : Byte := if 97 ≤ b.toNat ∧ b.toNat ≤ 122 then b - 32#8 else b
def lowerByte (b : Byte) : Byte := if 65 ≤ b.toNat ∧ b.toNat ≤ 90 then b + 32#8 else b
def upper (s : Str) : Str := s.map upperByte
def lower (s : Str) : Str := s.map lowerByte

def isSpace (b : Byte) : Bool := b == 32#8 || (9 ≤ b.toNat && b.toNat ≤ 13)
def trimL (s : Str) : Str := s.dropWhile isSpace
def trimR (s : Str) : Str := (s.reverse.dropWhile isSpace).reverse

/-- Digits only. -/
def parseNat (s : Str) : Option Nat :=
  if s = [] then none
  else s.foldl (fun a b => a.bind fun n => if 48 ≤ b.toNat ∧ b.toNat ≤ 57 then some (n * 10 + (b.toNat - 48)) else none) (some 0)

/-- An optional minus sign and digits. -/
def parseInt (s : Str) : Option Int :=
  match s with
  | b :: t => if b = 45#8 then (parseNat t).map fun n => -(n : Int) else (parseNat s).map fun n => (n : Int)
  | [] => none

def lift2 (f : Int → Int → Int) (a b : Option Int) : Option Int := a.bind fun x => b.map fun y => f x y

/-- A number bounded by those of a `time.Duration`. -/
def clamp (i : Int) : Int := max (-9223372036854775808) (min 9223372036854775807 i)

/-- The occurrences of a non-empty text. -/
def matches_ (s t : Str) : Nat → Nat → List (Nat × Nat)
  | 0, _ => []
  | n + 1, i =>
    if t = [] then []
    else if hasPrefix (s.drop i) t then (i, i + t.length) :: matches_ s t n (i + t.length)
    else matches_ s t n (i + 1)

def prim : Prim where
  Dec := Int
  Flt := Option Int
  Sgl := Option Int
  Time := Int
  decOfInt := id
  decAdd := (· + ·)
  decSub := (· - ·)
  decMul := (· * ·)
  decDiv := Int.tdiv
  decMod := Int.tmod
  decPow := fun a b => if b < 0 then none else some (a ^ b.toNat)
  decCmp := fun a b => if a < b then -1 else if a = b then 0 else 1
  decAbs := fun a => if a < 0 then -a else a
  decCeil := id
  decFloor := id
  decRound := id
  decIntPart := fun a => BitVec.ofInt 64 a
  decToFlt := fun a => some a
  decOfFlt := id
  decStr := Val.intStr
  decParse := parseInt
  fltOfInt := fun i => some i
  fltAdd := lift2 (· + ·)
  fltSub := lift2 (· - ·)
  fltMul := lift2 (· * ·)
  fltDiv := fun a b => if b = some 0 then none else lift2 Int.tdiv a b
  fltMod := fun a b => if b = some 0 then none else lift2 Int.tmod a b
  fltPow := lift2 fun a b => if b < 0 then 0 else a ^ b.toNat
  fltNeg := Option.map fun a => -a
  fltAbs := Option.map fun a => if a < 0 then -a else a
  fltCeil := id
  fltFloor := id
  fltRound := id
  fltSqrt := fun a => a.bind fun x => if x < 0 then none else some (Nat.sqrt x.toNat : Nat)
  fltLt := fun a b => match a, b with
    | some x, some y => decide (x < y)
    | _, _ => false
  fltEq := fun a b => match a, b with
    | some x, some y => decide (x = y)
    | _, _ => false
  fltToInt32 := fun a => BitVec.ofInt 32 (a.getD 0)
  fltToInt64 := fun a => BitVec.ofInt 64 (a.getD 0)
  fltStr := fun a => match a with
    | some x => Val.intStr x
    | none => lit "NaN"
  fltParse := fun s => (some ((parseInt s).getD 0), (parseInt s).isSome)
  fltToSInt := fun w a => BitVec.ofInt w (a.getD 0)
  fltToUInt := fun w a => BitVec.ofInt w (a.getD 0)
  sglOfInt := fun i => some i
  sglOfFlt := id
  sglToFlt := id
  sglLt := fun a b => match a, b with
    | some x, some y => decide (x < y)
    | _, _ => false
  sglEq := fun a b => match a, b with
    | some x, some y => decide (x = y)
    | _, _ => false
  sglStr := fun a => match a with
    | some x => Val.intStr x
    | none => lit "NaN"
  timeBefore := fun a b => decide (a < b)
  timeEqual := fun a b => decide (a = b)
  timeUnix := fun a => BitVec.ofInt 64 a
  timeZero := 0
  timeStr := Val.intStr
  timeParse := fun s => ((parseInt s).getD 0, (parseInt s).isSome)
  timeAddDate := fun t y m d => Calendar.dayNumber (Calendar.yearOf (t / Calendar.day) + y) (Calendar.monthOf (t / Calendar.day) + m)
    (Calendar.dayOf (t / Calendar.day) + d) * Calendar.day + t % Calendar.day
  timeAddDur := fun t d => t + d.toInt
  timeSub := fun a b => BitVec.ofInt 64 (clamp (a - b))
  timeYear := fun t => Calendar.yearOf (t / Calendar.day)
  timeMonth := fun t => Calendar.monthOf (t / Calendar.day)
  timeYearDay := fun t => Calendar.yearDay (t / Calendar.day) + 1
  timeDay := fun t => Calendar.dayOf (t / Calendar.day)
  timeWeekday := fun t => Calendar.weekday (t / Calendar.day)
  timeISOWeek := fun t => Calendar.isoWeek (t / Calendar.day)
  timeHour := fun t => t % Calendar.day / Calendar.hour
  timeMinute := fun t => t % Calendar.hour / Calendar.minute
  timeSecond := fun t => t % Calendar.minute / Calendar.second
  timeNano := fun t => t % Calendar.second
  durHours := fun d => some (d.toInt.tdiv Calendar.hour)
  durMinutes := fun d => some (d.toInt.tdiv Calendar.minute)
  durSeconds := fun d => some (d.toInt.tdiv Calendar.second)
  now := 20000
  utcNow := 20000
  upper := upper
  lower := lower
  equalFold := fun a b => upper a == upper b
  boolParse := fun s => upper s == lit "TRUE"
  isBool := fun s => upper s == lit "TRUE" || upper s == lit "FALSE"
  intParse := fun w s => (parseInt s).bind fun i => if -2 ^ w ≤ 2 * i ∧ 2 * i < 2 ^ w then some (BitVec.ofInt w i) else none
  uintParse := fun w s => (parseNat s).bind fun n => if n < 2 ^ w then some (BitVec.ofNat w n) else none
  isInt := fun s => (parseInt s).isSome
  guidParse := fun _ => (Guid.empty, false)
  guidStr := fun _ => lit "00000000-0000-0000-0000-000000000000"
  regexFind := fun r t => some ((index? t r).map fun i => (i, i + r.length))
  foldMatches := fun s t => if t.all (·.toNat < 128) then some (matches_ (upper s) (upper t) s.length 0) else none
  wordRune := fun _ => none

/-- A row of one value per column. -/
def row (vs : List (Val prim)) (c : Nat) : Res (Val prim) :=
  match vs[c]? with
  | some v => .ok v
  | none => .err

/-- `1 + 2 * 3` -/
example : eval (row []) (.op .add (.value (.int32 1)) (.op .multiply (.value (.int32 2)) (.value (.int32 3)))) = .ok (.int32 7) := rfl

/-- `Column0 IN (3, 5)` for a row holding 5 -/
example : eval (row [.int32 5]) (.inList (.column 0) [.value (.int32 3), .value (.int32 5)] false false) = .ok (.boolean true) := rfl

/-- `Len('abc') > 2` -/
example : eval (row []) (.op .greaterThan (.func .len [.value (.string (lit "abc"))]) (.value (.int32 2))) = .ok (.boolean true) := rfl

end Verif.Expr.Toy
