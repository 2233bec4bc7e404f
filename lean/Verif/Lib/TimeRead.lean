import Verif.Format.Props
import Verif.Common.Calendar

/-!
# `time.Parse(DateTimeFormat, s)`

Written from the source of package time of Go 1.22 (go.mod L3) for the one layout it is called with, `2006-01-02T15:04:05.99-07:00` (data/DataSet.go L46,
L298). An instant is a number of nanoseconds since 1 January of year 1; the zone of the result is left out. `none` is an error.
-/

namespace Verif.Lib.TimeRead

open Verif.Calendar Verif.Format

/-- `isDigit` (time/format.go, data/DataSet.go L298) -/
def isDigit (b : Byte) : Bool := decide (48 ≤ b.toNat) && decide (b.toNat ≤ 57)

/-- `getnum(s, true)`: two digits (time/format.go, data/DataSet.go L298). -/
def two : List Byte → Option (Nat × List Byte)
  | a :: b :: s => if isDigit a && isDigit b then some (readDecimal [a, b], s) else none
  | _ => none

/-- `getnum(s, false)`: two digits, or one (time/format.go, data/DataSet.go L298). -/
def oneOrTwo : List Byte → Option (Nat × List Byte)
  | a :: b :: s => if isDigit a then (if isDigit b then some (readDecimal [a, b], s) else some (readDecimal [a], b :: s)) else none
  | [a] => if isDigit a then some (readDecimal [a], []) else none
  | [] => none

/-- The year: four digits (time/format.go, data/DataSet.go L298). -/
def four : List Byte → Option (Nat × List Byte)
  | a :: b :: c :: d :: s => if isDigit a && isDigit b && isDigit c && isDigit d then some (readDecimal [a, b, c, d], s) else none
  | _ => none

/-- `skip` of one character of the layout (time/format.go, data/DataSet.go L298). -/
def skip (c : Byte) : List Byte → Option (List Byte)
  | b :: s => if b = c then some s else none
  | [] => none

/-- The fraction: a point or comma and any digits, of which nine count (time/format.go, `parseNanoseconds`; data/DataSet.go L298). -/
def places (s : List Byte) : Nat × List Byte :=
  match s with
  | p :: b :: r =>
    if (p = 46#8 ∨ p = 44#8) ∧ isDigit b then
      let ds := (b :: r).takeWhile isDigit
      (readDecimal (ds.take 9) * 10 ^ (9 - (ds.take 9).length), (b :: r).dropWhile isDigit)
    else (0, s)
  | _ => (0, s)

/-- A number within bounds (time/format.go, data/DataSet.go L298). -/
def within (lo hi n : Nat) : Option Unit := if lo ≤ n ∧ n ≤ hi then some () else none

/-- The seconds of the zone, and nothing after it (time/format.go, data/DataSet.go L298). -/
def zone : List Byte → Option Int
  | g :: s => do
    let (h, s) ← two s
    let s ← skip 58#8 s
    let (m, s) ← two s
    within 0 24 h
    within 0 60 m
    if s ≠ [] then none
    else if g = 43#8 then some (3600 * h + 60 * m) else if g = 45#8 then some (-(3600 * h + 60 * m)) else none
  | [] => none

/-- The day number of a date, and what follows (time/format.go, data/DataSet.go L298). -/
def day? (s : List Byte) : Option (Int × List Byte) := do
  let (y, s) ← four s
  let s ← skip 45#8 s
  let (m, s) ← two s
  within 1 12 m
  let s ← skip 45#8 s
  let (d, s) ← two s
  if IsDate y m d then some (dayNumber y m d, s) else none

/-- The seconds of a time of day, and what follows (time/format.go, data/DataSet.go L298). -/
def clock? (s : List Byte) : Option (Int × List Byte) := do
  let (h, s) ← oneOrTwo s
  within 0 23 h
  let s ← skip 58#8 s
  let (m, s) ← two s
  within 0 59 m
  let s ← skip 58#8 s
  let (x, s) ← two s
  within 0 59 x
  some (3600 * h + 60 * m + x, s)

/-- `time.Parse(DateTimeFormat, s)` (data/DataSet.go L298) -/
def instant (s : List Byte) : Option Int := do
  let (n, s) ← day? s
  let s ← skip 84#8 s
  let (c, s) ← clock? s
  let z ← zone (places s).2
  some (n * day + c * second + (places s).1 - z * second)

end Verif.Lib.TimeRead
