import Verif.Expr.Prim
import Verif.Common.Utf8

/-!
# Byte string functions of Go's `strings` package, and the two search functions of ExpressionTree.go (L3321-3359)
-/

namespace Verif.Expr

/-- `strings.HasPrefix(s, t)`. (data/ExpressionTree.go L2413-2416) -/
def hasPrefix (s t : Str) : Bool := t.isPrefixOf s

/-- `strings.HasSuffix(s, t)`. (data/ExpressionTree.go L1777-1780) -/
def hasSuffix (s t : Str) : Bool := t.isSuffixOf s

/-- `strings.Index`: the first position where `t` occurs in `s`, `none` for -1. (data/ExpressionTree.go L1860-1863, L3326) -/
def index? : Str → Str → Option Nat
  | [], t => if hasPrefix [] t then some 0 else none
  | b :: s, t => if hasPrefix (b :: s) t then some 0 else (index? s t).map (· + 1)

/-- `strings.LastIndex`: the last position where `t` occurs in `s`, `none` for -1. (data/ExpressionTree.go L1980-1983) -/
def lastIndex? : Str → Str → Option Nat
  | [], t => if hasPrefix [] t then some 0 else none
  | b :: s, t =>
    match lastIndex? s t with
    | some i => some (i + 1)
    | none => if hasPrefix (b :: s) t then some 0 else none

/-- `strings.Contains`. (data/ExpressionTree.go L1539-1542) -/
def containsStr (s t : Str) : Bool := (index? s t).isSome

/-- The non-overlapping occurrences of a non-empty `t` in `s`, counted from the left. (data/ExpressionTree.go L2445-2448) -/
def countFrom (s t : Str) : Nat :=
  match s with
  | [] => 0
  | b :: s => if hasPrefix (b :: s) t then 1 + countFrom (s.drop (t.length - 1)) t else countFrom s t
termination_by s.length
decreasing_by
  all_goals simp_wf
  all_goals omega

/-- `strings.Count`. (data/ExpressionTree.go L2445-2448) -/
def countStr (s t : Str) : Nat := if t = [] then (Utf8.runes s).length + 1 else countFrom s t

/-- Replacing the non-overlapping occurrences of a non-empty `t`. (data/ExpressionTree.go L2267) -/
def replaceFrom (s t r : Str) : Str :=
  match s with
  | [] => []
  | b :: s => if hasPrefix (b :: s) t then r ++ replaceFrom (s.drop (t.length - 1)) t r else b :: replaceFrom s t r
termination_by s.length
decreasing_by
  all_goals simp_wf
  all_goals omega

/-- `r` after every rune of `s`, `n` runes at most. (data/ExpressionTree.go L2267) -/
def afterRunes (r : Str) : Nat → Str → Str
  | 0, s => s
  | n + 1, s => if s = [] then [] else s.take (Utf8.decode s).2 ++ r ++ afterRunes r n (s.drop (Utf8.decode s).2)

/-- `strings.ReplaceAll`: an empty `t` is found before the first rune and after every one. (data/ExpressionTree.go L2267) -/
def replaceAll (s t r : Str) : Str := if t = [] then r ++ afterRunes r s.length s else replaceFrom s t r

/-- Go's `<` on strings: byte by byte. (data/ExpressionTree.go L2995-3102) -/
def strLt : Str → Str → Bool
  | _, [] => false
  | [], _ :: _ => true
  | a :: s, b :: t => a.toNat < b.toNat || (a == b && strLt s t)

/-- `strings.Compare`. (data/ExpressionTree.go L2482-2485) -/
def strCompare (s t : Str) : Int := if s = t then 0 else if strLt s t then -1 else 1

/-- Go's `s[a:b]`. (data/ExpressionTree.go L2488-2533) -/
def slice (s : Str) (a b : Int) : Res Str :=
  if 0 ≤ a ∧ a ≤ b ∧ b ≤ s.length then .ok ((s.take b.toNat).drop a.toNat) else .panic

/-- -1 for not found. (data/ExpressionTree.go L1863, L1983) -/
def position : Option Nat → Int
  | some i => i
  | none => -1

/-- The loop of `findNthIndex` (L3325-3337), `n` rounds to go. -/
def findLoop (test : Str) : Nat → Nat → Str → Res Int
  | 0, result, _ => .ok ((result : Int) - 1)
  | n + 1, result, source =>
    match index? source test with
    | none => .ok (-1)
    | some l => if l + 1 ≤ source.length then findLoop test n (result + (l + 1)) (source.drop (l + 1)) else .panic

/-- `findNthIndex` (L3322-3340). -/
def findNthIndex (source test : Str) (index : BitVec 64) : Res Int := findLoop test (index + 1).toInt.toNat 0 source

/-- `splitNthIndex` (L3343-3359). -/
def splitNthIndex (source test : Str) (index : BitVec 64) : Res (Option (Int × Int)) := do
  let firstIndex ← findNthIndex source test (index - 1)
  let secondIndex ← findNthIndex source test index
  if firstIndex ≤ 0 ∧ secondIndex ≤ 0 then return none
  if firstIndex ≤ 0 then return some (0, secondIndex)
  if secondIndex ≤ 0 then return some (firstIndex + test.length, (source.length : Int))
  return some (firstIndex + test.length, secondIndex)

end Verif.Expr
