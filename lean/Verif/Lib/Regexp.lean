import Verif.Lib.Case
import Mathlib.Logic.Relation

/-!
# C140: regular expressions

What `RegExMatch` and `RegExVal` get from Go's `regexp` (data/ExpressionTree.go L2173-2223), written out: `Compile` for the patterns made of characters,
`.`, classes in brackets, `\d \s \w \D \S \W`, `^ $ \A \z \b \B`, groups, `|` and `* + ?` with or without a `?` after them, and `FindStringIndex` with
the order of preference of a backtracking search. Left open, that is, given by the parameter: patterns of more than 1000 bytes (the library's limits on size and depth
are beyond that), with U+FFFD, or with counted repetition, octal and hexadecimal escapes, `\p`, `\Q`, flags, named groups or POSIX classes.

Positions are byte offsets. A byte that is no UTF-8 is read as U+FFFD.
-/

namespace Verif.Regexp

open Verif.Expr

/-- A regular expression: sets of characters given by ranges, or by what they leave out; the places `^`, `$`, `\b`; sequence, choice, repetition, greedy or
not. A group is what is in it. (`syntax.Regexp`, within data/ExpressionTree.go L2199) -/
inductive Rx where
  | eps
  | set (neg : Bool) (ranges : List (Nat × Nat))
  | first
  | last
  | word (neg : Bool)
  | cat (a b : Rx)
  | alt (a b : Rx)
  | star (greedy : Bool) (a : Rx)
  | plus (greedy : Bool) (a : Rx)
  | opt (greedy : Bool) (a : Rx)
  deriving DecidableEq

/-- Whether a character is in a set. (`Inst.MatchRunePos`, within data/ExpressionTree.go L2206) -/
def inSet (neg : Bool) (ranges : List (Nat × Nat)) (c : Nat) : Bool := neg != ranges.any fun r => r.1 ≤ c && c ≤ r.2

/-- A letter, a digit or an underscore of ASCII. (`syntax.IsWordChar`, within data/ExpressionTree.go L2206) -/
def wordByte (b : Byte) : Bool :=
  (48 ≤ b.toNat && b.toNat ≤ 57) || (65 ≤ b.toNat && b.toNat ≤ 90) || (97 ≤ b.toNat && b.toNat ≤ 122) || b.toNat == 95

/-- Whether there is a letter, a digit or an underscore at a position. (`syntax.EmptyOpContext`, within data/ExpressionTree.go L2206) -/
def wordAt (t : Str) (i : Nat) : Bool := (t[i]?).any wordByte

/-- Whether a word begins or ends at a position. (`syntax.EmptyOpContext`, within data/ExpressionTree.go L2206) -/
def atWord (t : Str) (i : Nat) : Bool := (0 < i && wordAt t (i - 1)) != wordAt t i

/-- The ends of the ways to repeat once or more, in the order they are tried; a round that takes nothing is the last one. (the loop of `syntax.Compile`, within
data/ExpressionTree.go L2206) -/
def loop (greedy : Bool) (x : Nat → List Nat) : Nat → Nat → List Nat
  | 0, _ => []
  | n + 1, i => (x i).flatMap fun j => if i < j then (if greedy then loop greedy x n j ++ [j] else j :: loop greedy x n j) else [j]

/-- The ends of the matches from a position, in the order a backtracking search finds them. (`Regexp.doExecute`, within data/ExpressionTree.go L2206) -/
def ends (t : Str) : Rx → Nat → List Nat
  | .eps, i => [i]
  | .set neg rs, i => if i < t.length ∧ inSet neg rs (Utf8.decode (t.drop i)).1 = true then [i + (Utf8.decode (t.drop i)).2] else []
  | .first, i => if i = 0 then [i] else []
  | .last, i => if i = t.length then [i] else []
  | .word neg, i => if atWord t i = !neg then [i] else []
  | .cat a b, i => (ends t a i).flatMap (ends t b)
  | .alt a b, i => ends t a i ++ ends t b i
  | .star greedy a, i =>
    if greedy then loop greedy (ends t a) (t.length + 1 - i) i ++ [i] else i :: loop greedy (ends t a) (t.length + 1 - i) i
  | .plus greedy a, i => loop greedy (ends t a) (t.length + 1 - i) i
  | .opt greedy a, i => if greedy then ends t a i ++ [i] else i :: ends t a i

/-- The first match from a position or a character after it. (`Regexp.doExecute`, within data/ExpressionTree.go L2206) -/
def search (t : Str) (r : Rx) : Nat → Nat → Option (Nat × Nat)
  | 0, _ => none
  | n + 1, i =>
    match ends t r i with
    | j :: _ => some (i, j)
    | [] => if i < t.length then search t r n (i + (Utf8.decode (t.drop i)).2) else none

/-- `Regexp.FindStringIndex` (data/ExpressionTree.go L2206). -/
def find (t : Str) (r : Rx) : Option (Nat × Nat) := search t r (t.length + 1) 0

/-! ## Reading a pattern -/

/-- What reading comes to: something, an error, or a construct that is left open. (`regexp.Compile`, data/ExpressionTree.go L2199) -/
inductive Read (α : Type) where
  | ok (a : α)
  | bad
  | open_
  deriving DecidableEq

/-- The parts of a pattern. (`syntax.parse`, within data/ExpressionTree.go L2199) -/
inductive Tok where
  | atom (r : Rx)
  | lparen
  | rparen
  | bar
  | rep (kind : Nat) (greedy : Bool)
  deriving DecidableEq

/-- A letter or a digit of ASCII. (`isalnum` of `syntax.parser.parseEscape`, within data/ExpressionTree.go L2199) -/
def alnum (c : Nat) : Bool := (48 ≤ c && c ≤ 57) || (65 ≤ c && c ≤ 90) || (97 ≤ c && c ≤ 122)

/-- `syntax.parser.parseEscape` (within data/ExpressionTree.go L2199): the character that stands for itself or a control character after a backslash. -/
def escape (c : Nat) : Read Nat :=
  if c < 128 ∧ alnum c = false then .ok c
  else if c = 97 then .ok 7
  else if c = 102 then .ok 12
  else if c = 110 then .ok 10
  else if c = 114 then .ok 13
  else if c = 116 then .ok 9
  else if c = 118 then .ok 11
  else if (48 ≤ c ∧ c ≤ 55) ∨ c = 120 then .open_
  else .bad

/-- `syntax.perlGroup` (within data/ExpressionTree.go L2199): the sets of `\d \s \w` and of their capitals. -/
def perlClass (c : Nat) : Option (List (Nat × Nat)) :=
  if c = 100 then some [(48, 57)]
  else if c = 115 then some [(9, 10), (12, 13), (32, 32)]
  else if c = 119 then some [(48, 57), (65, 90), (95, 95), (97, 122)]
  else if c = 68 then some [(0, 47), (58, 0x10FFFF)]
  else if c = 83 then some [(0, 8), (11, 11), (14, 31), (33, 0x10FFFF)]
  else if c = 87 then some [(0, 47), (58, 64), (91, 94), (96, 96), (123, 0x10FFFF)]
  else none

/-- What a character after a backslash means outside brackets. (`syntax.parse`, within data/ExpressionTree.go L2199) -/
def escaped (c : Nat) : Read Rx :=
  if c = 65 then .ok .first
  else if c = 122 then .ok .last
  else if c = 98 then .ok (.word false)
  else if c = 66 then .ok (.word true)
  else if c = 80 ∨ c = 112 ∨ c = 81 ∨ c = 69 then .open_
  else match perlClass c with
    | some rs => .ok (.set false rs)
    | none => match escape c with
      | .ok c => .ok (.set false [(c, c)])
      | .bad => .bad
      | .open_ => .open_

/-- `syntax.parser.parseClassChar` (within data/ExpressionTree.go L2199): a character of a class and what follows it. -/
def classChar : List Nat → Read (Nat × List Nat)
  | [] => .bad
  | 92 :: [] => .bad
  | 92 :: c :: s => match escape c with
    | .ok c => .ok (c, s)
    | .bad => .bad
    | .open_ => .open_
  | c :: s => .ok (c, s)

/-- The set that a class escape in brackets stands for, if there is one at the start. (`syntax.parser.parsePerlClassEscape`, within data/ExpressionTree.go L2199) -/
def classEscape : List Nat → Option (List (Nat × Nat) × List Nat)
  | 92 :: c :: s => (perlClass c).map fun rs => (rs, s)
  | _ => none

/-- The upper end of a range after its lower end, if there is one: a hyphen before the closing bracket is no range. (`syntax.parser.parseClass`, within
data/ExpressionTree.go L2199) -/
def rangeEnd (lo : Nat) : List Nat → Read (Nat × List Nat)
  | 45 :: c :: s => if c = 93 then .ok (lo, 45 :: c :: s) else match classChar (c :: s) with
    | .ok (hi, s) => if hi < lo then .bad else .ok (hi, s)
    | .bad => .bad
    | .open_ => .open_
  | s => .ok (lo, s)

/-- A class in brackets or a range in one that is left open: `[:`, `\p`, `\P`. (`syntax.parser.parseClass`, within data/ExpressionTree.go L2199) -/
def classOpen : List Nat → Bool
  | 91 :: 58 :: _ => true
  | 92 :: c :: _ => c = 112 ∨ c = 80
  | _ => false

/-- The ranges of a class up to the closing bracket, and what follows it. (`syntax.parser.parseClass`, within data/ExpressionTree.go L2199) -/
def classRanges : Nat → Bool → List (Nat × Nat) → List Nat → Read (List (Nat × Nat) × List Nat)
  | 0, _, _, _ => .bad
  | n + 1, start, acc, s =>
    if s.head? = some 93 ∧ start = false then .ok (acc, s.tail)
    else if classOpen s then .open_
    else match classEscape s with
      | some (rs, s) => classRanges n false (acc ++ rs) s
      | none => match classChar s with
        | .bad => .bad
        | .open_ => .open_
        | .ok (lo, s) => match rangeEnd lo s with
          | .bad => .bad
          | .open_ => .open_
          | .ok (hi, s) => classRanges n false (acc ++ [(lo, hi)]) s

/-- `syntax.parser.parseClass` after the opening bracket (within data/ExpressionTree.go L2199). -/
def classRest : List Nat → Read (Rx × List Nat)
  | 94 :: s => match classRanges (s.length + 1) true [] s with
    | .ok (rs, s) => .ok (.set true rs, s)
    | .bad => .bad
    | .open_ => .open_
  | s => match classRanges (s.length + 1) true [] s with
    | .ok (rs, s) => .ok (.set false rs, s)
    | .bad => .bad
    | .open_ => .open_

/-- A repetition sign, with the question mark after it that makes it not greedy. (`syntax.parser.repeat`, within data/ExpressionTree.go L2199) -/
def repeated (kind : Nat) : List Nat → Tok × List Nat
  | 63 :: s => (.rep kind false, s)
  | s => (.rep kind true, s)

/-- The first part of a pattern and what follows it. (`syntax.parse`, within data/ExpressionTree.go L2199) -/
def next (c : Nat) (s : List Nat) : Read (Tok × List Nat) :=
  if c = 40 then (if s.head? = some 63 then .open_ else .ok (.lparen, s))
  else if c = 41 then .ok (.rparen, s)
  else if c = 124 then .ok (.bar, s)
  else if c = 42 ∨ c = 43 ∨ c = 63 then .ok (repeated c s)
  else if c = 123 then .open_
  else if c = 94 then .ok (.atom .first, s)
  else if c = 36 then .ok (.atom .last, s)
  else if c = 46 then .ok (.atom (.set true [(10, 10)]), s)
  else if c = 91 then match classRest s with
    | .ok (r, s) => .ok (.atom r, s)
    | .bad => .bad
    | .open_ => .open_
  else if c = 92 then match s with
    | [] => .bad
    | d :: s => match escaped d with
      | .ok r => .ok (.atom r, s)
      | .bad => .bad
      | .open_ => .open_
  else .ok (.atom (.set false [(c, c)]), s)

/-- The parts of a pattern. (`syntax.parse`, within data/ExpressionTree.go L2199) -/
def toks : Nat → List Nat → Read (List Tok)
  | _, [] => .ok []
  | 0, _ :: _ => .bad
  | n + 1, c :: s => match next c s with
    | .bad => .bad
    | .open_ => .open_
    | .ok (k, s) => match toks n s with
      | .ok ks => .ok (k :: ks)
      | .bad => .bad
      | .open_ => .open_

/-- What is on the stack of the parser between two left parentheses: the alternatives so far and the parts of the present one, latest first. (`syntax.parser.stack`,
within data/ExpressionTree.go L2199) -/
structure Frame where
  alts : List Rx
  items : List Rx
  deriving DecidableEq

/-- `syntax.parser.concat` (within data/ExpressionTree.go L2199). -/
def concat (items : List Rx) : Rx := items.foldl (fun r x => .cat x r) .eps

/-- `syntax.parser.alternate` (within data/ExpressionTree.go L2199). -/
def alternate (f : Frame) : Rx := f.alts.foldl (fun r x => .alt x r) (concat f.items)

/-- What a repetition sign makes of what is before it. (`syntax.parser.repeat`, within data/ExpressionTree.go L2199) -/
def repeatOf (kind : Nat) (greedy : Bool) (r : Rx) : Rx := if kind = 42 then .star greedy r else if kind = 43 then .plus greedy r else .opt greedy r

/-- The parser over the parts of a pattern: `outer` are the frames of open groups, `f` the present one, `rep` says that a repetition sign came last. Repeating
nothing, or repeating again, is an error, as is a parenthesis without its partner. (`syntax.parse`, within data/ExpressionTree.go L2199) -/
def build : List Tok → List Frame → Frame → Bool → Option Rx
  | [], [], f, _ => some (alternate f)
  | [], _ :: _, _, _ => none
  | .atom r :: ks, outer, f, _ => build ks outer { f with items := r :: f.items } false
  | .lparen :: ks, outer, f, _ => build ks (f :: outer) ⟨[], []⟩ false
  | .rparen :: _, [], _, _ => none
  | .rparen :: ks, g :: outer, f, _ => build ks outer { g with items := alternate f :: g.items } false
  | .bar :: ks, outer, f, _ => build ks outer ⟨concat f.items :: f.alts, []⟩ false
  | .rep _ _ :: _, _, _, true => none
  | .rep _ _ :: _, _, ⟨_, []⟩, false => none
  | .rep kind greedy :: ks, outer, ⟨alts, r :: items⟩, false => build ks outer ⟨alts, repeatOf kind greedy r :: items⟩ true

/-- `syntax.Parse` of the characters of a pattern (within data/ExpressionTree.go L2199). -/
def parse (s : List Nat) : Read Rx :=
  match toks s.length s with
  | .bad => .bad
  | .open_ => .open_
  | .ok ks => match build ks [] ⟨[], []⟩ false with
    | some r => .ok r
    | none => .bad

/-- `regexp.Compile` (data/ExpressionTree.go L2199). -/
def compile (p : Str) : Read Rx :=
  if Utf8.text (Utf8.runes p) ≠ p then .bad
  else if p.length > 1000 ∨ 0xFFFD ∈ Utf8.runes p then .open_
  else parse (Utf8.runes p)

/-- `regexp.Compile` and `FindStringIndex` (data/ExpressionTree.go L2199-2206). -/
def regexFind (R : Lib.Rest) (p t : Str) : Option (Option (Nat × Nat)) :=
  match compile p with
  | .ok r => some (find t r)
  | .bad => none
  | .open_ => R.regexFind p t

end Verif.Regexp

namespace Verif.Lib

/-- The libraries with regular expressions written out. (data/ExpressionTree.go L2173-2223) -/
def Rest.withRegexp (R : Rest) : Rest := { R with regexFind := Regexp.regexFind R }

end Verif.Lib
