import Verif.Common.Basic

/-!
# Model of `sttp/format` (Common.go, Int.go, UInt.go, Float.go)

`strconv.FormatInt`/`FormatUint` are library functions; their decimal text is `decimal` below.
The float formatter takes the text of `strconv.FormatFloat` as an argument; `Verif.Format.Float` has that text.
-/

namespace Verif.Format

/-- Byte write `out[p] = b` where `jj = p + 1`; `jj = 0` is index -1. Out of range panics. (format/Common.go L27-41) -/
def setAt (out : List Byte) (jj : Nat) (b : Byte) : Res (List Byte) :=
  match jj with
  | 0 => .panic
  | p + 1 => if p < out.length then .ok (out.set p b) else .panic

/-- format/Common.go L28-39. The Go index `j` is kept as `jj = j + 1`, so that `jj = 0` is the index
-1; `i` only decreases to 0, where the loop returns. -/
def formatLoop (inp : List Byte) (s : Byte) : Nat → Nat → Nat → List Byte → Res (List Byte)
  | i, jj, k, out => do
    let b ← (match inp[i]? with | some b => .ok b | none => Res.panic)
    let out ← setAt out jj b
    match i with
    | 0 => .ok out
    | i' + 1 =>
      if k + 1 = 3 then do
        let out ← setAt out (jj - 1) s
        formatLoop inp s i' (jj - 1 - 1) 0 out
      else formatLoop inp s i' (jj - 1) (k + 1) out

/-- format/Common.go L27-40. With an empty `in`, `i` starts at -1 and the first access panics. -/
def formatNumber (inp out : List Byte) (s : Byte) : Res (List Byte) :=
  match inp.length with
  | 0 => .panic
  | n + 1 => formatLoop inp s n out.length 0 out

/-- Decimal digits of a natural number as ASCII text (`strconv.FormatUint(n, 10)`). (format/UInt.go L48) -/
def decimal (n : Nat) : List Byte :=
  if n < 10 then [BitVec.ofNat 8 (48 + n)]
  else decimal (n / 10) ++ [BitVec.ofNat 8 (48 + n % 10)]

/-- `strconv.FormatInt(i, 10)` (format/Int.go L48) -/
def formatInt (i : Int) : List Byte :=
  if i < 0 then 45#8 :: decimal i.natAbs else decimal i.natAbs

/-- format/UInt.go L47-54. Sizes are `int` in Go and far from overflow. -/
def uint64With (n : BitVec 64) (group : Byte) : Res (List Byte) :=
  let inp := decimal n.toNat
  let digits := inp.length
  let commas := (digits - 1) / 3
  formatNumber inp (List.replicate (inp.length + commas) 0#8) group

/-- format/Int.go L47-63 -/
def int64With (i : BitVec 64) (group : Byte) : Res (List Byte) :=
  let inp := formatInt i.toInt
  let digits := if i.toInt < 0 then inp.length - 1 else inp.length
  let commas := (digits - 1) / 3
  let out := List.replicate (inp.length + commas) 0#8
  if i.toInt < 0 then do
    let out ← setAt out 1 45#8
    formatNumber (inp.drop 1) out group
  else formatNumber inp out group

end Verif.Format
