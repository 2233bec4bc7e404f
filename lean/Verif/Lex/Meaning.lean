import Verif.Lex.Written
import Verif.Parse.LiteralProps
import Verif.Expr.NumProps

/-!
# C92: what the operator signs and words denote

The operators are those of the language's documentation (FilterExpressionSyntax.g4 L111-142 and the comments of ValueExpression.go), given here by
their spelling.
-/

namespace Verif.Lex

open Verif.Expr Verif.Parse

variable {P : Prim}

/-- The operator applied to what the operands mean. -/
def applied (op : Op) (l r : Res (Tree P)) : Res (Tree P) := do
  let l ← l
  let r ← r
  .ok (.op op l r)

/-- Each comparison sign denotes its comparison. -/
theorem C92_comparison {s : String} {op : Op}
    (h : (s, op) ∈ [("<", Op.lessThan), ("<=", .lessThanOrEqual), (">", .greaterThan), (">=", .greaterThanOrEqual), ("=", .equal), ("==", .equal),
      ("===", .equalExactMatch), ("!=", .notEqual), ("<>", .notEqual), ("!==", .notEqualExactMatch)]) :
    ∃ o : Cmp, Writes (.cmp o) (codes s) ∧ ∀ (col : Str → Res Nat) (l r : Q), (Q.cmp o l r).den (P := P) col = applied op (l.den col) (r.den col) := by
  simp only [List.mem_cons, Prod.mk.injEq, List.not_mem_nil, or_false] at h
  rcases h with ⟨rfl, rfl⟩ | ⟨rfl, rfl⟩ | ⟨rfl, rfl⟩ | ⟨rfl, rfl⟩ | ⟨rfl, rfl⟩ | ⟨rfl, rfl⟩ | ⟨rfl, rfl⟩ | ⟨rfl, rfl⟩ | ⟨rfl, rfl⟩ | ⟨rfl, rfl⟩
  · exact ⟨.lt, op_writes (codes "<", .cmp .lt) (by decide), fun _ _ _ => rfl⟩
  · exact ⟨.le, op_writes (codes "<=", .cmp .le) (by decide), fun _ _ _ => rfl⟩
  · exact ⟨.gt, op_writes (codes ">", .cmp .gt) (by decide), fun _ _ _ => rfl⟩
  · exact ⟨.ge, op_writes (codes ">=", .cmp .ge) (by decide), fun _ _ _ => rfl⟩
  · exact ⟨.eq, op_writes (codes "=", .cmp .eq) (by decide), fun _ _ _ => rfl⟩
  · exact ⟨.eqEq, op_writes (codes "==", .cmp .eqEq) (by decide), fun _ _ _ => rfl⟩
  · exact ⟨.eqEqEq, op_writes (codes "===", .cmp .eqEqEq) (by decide), fun _ _ _ => rfl⟩
  · exact ⟨.bangEq, op_writes (codes "!=", .cmp .bangEq) (by decide), fun _ _ _ => rfl⟩
  · exact ⟨.ltGt, op_writes (codes "<>", .cmp .ltGt) (by decide), fun _ _ _ => rfl⟩
  · exact ⟨.bangEqEq, op_writes (codes "!==", .cmp .bangEqEq) (by decide), fun _ _ _ => rfl⟩

/-- Each arithmetic sign denotes its operation. -/
theorem C92_arithmetic {s : String} {op : Op}
    (h : (s, op) ∈ [("*", Op.multiply), ("/", .divide), ("%", .modulus), ("+", .add), ("-", .subtract)]) :
    ∃ o : Math, Writes (.math o) (codes s) ∧ ∀ (col : Str → Res Nat) (l r : V), (V.math o l r).den (P := P) col = applied op (l.den col) (r.den col) := by
  simp only [List.mem_cons, Prod.mk.injEq, List.not_mem_nil, or_false] at h
  rcases h with ⟨rfl, rfl⟩ | ⟨rfl, rfl⟩ | ⟨rfl, rfl⟩ | ⟨rfl, rfl⟩ | ⟨rfl, rfl⟩
  · exact ⟨.star, op_writes (codes "*", .math .star) (by decide), fun _ _ _ => rfl⟩
  · exact ⟨.slash, op_writes (codes "/", .math .slash) (by decide), fun _ _ _ => rfl⟩
  · exact ⟨.percent, op_writes (codes "%", .math .percent) (by decide), fun _ _ _ => rfl⟩
  · exact ⟨.plus, op_writes (codes "+", .math .plus) (by decide), fun _ _ _ => rfl⟩
  · exact ⟨.minus, op_writes (codes "-", .math .minus) (by decide), fun _ _ _ => rfl⟩

/-- Each bitwise sign denotes its operation, as does the word `XOR` in any letter case. -/
theorem C92_bitwise {w : List Nat} {op : Op}
    (h : (w, op) ∈ [(codes "<<", Op.bitShiftLeft), (codes ">>", .bitShiftRight), (codes "&", .bitwiseAnd), (codes "|", .bitwiseOr),
      (codes "^", .bitwiseXor)] ∨ SameWord (codes "XOR") w ∧ op = .bitwiseXor) :
    ∃ o : Bit, Writes (.bit o) w ∧ ∀ (col : Str → Res Nat) (l r : V), (V.bit o l r).den (P := P) col = applied op (l.den col) (r.den col) := by
  rcases h with h | ⟨h, rfl⟩
  · simp only [List.mem_cons, Prod.mk.injEq, List.not_mem_nil, or_false] at h
    rcases h with ⟨rfl, rfl⟩ | ⟨rfl, rfl⟩ | ⟨rfl, rfl⟩ | ⟨rfl, rfl⟩ | ⟨rfl, rfl⟩
    · exact ⟨.shl, op_writes (codes "<<", .bit .shl) (by decide), fun _ _ _ => rfl⟩
    · exact ⟨.shr, op_writes (codes ">>", .bit .shr) (by decide), fun _ _ _ => rfl⟩
    · exact ⟨.amp, op_writes (codes "&", .bit .amp) (by decide), fun _ _ _ => rfl⟩
    · exact ⟨.bar, op_writes (codes "|", .bit .bar) (by decide), fun _ _ _ => rfl⟩
    · exact ⟨.caret, op_writes (codes "^", .bit .caret) (by decide), fun _ _ _ => rfl⟩
  · exact ⟨.kXor, key_writes (x := (codes "XOR", .bit .kXor)) (by decide) h, fun _ _ _ => rfl⟩

/-- `AND` and `&&`, `OR` and `||`. -/
theorem C92_logical {w : List Nat} {op : Op}
    (h : (SameWord (codes "AND") w ∨ w = codes "&&") ∧ op = .and ∨ (SameWord (codes "OR") w ∨ w = codes "||") ∧ op = .or) :
    ∃ o : Log, Writes (.log o) w ∧ ∀ (col : Str → Res Nat) (l r : E), (E.log o l r).den (P := P) col = applied op (l.den col) (r.den col) := by
  rcases h with ⟨h | rfl, rfl⟩ | ⟨h | rfl, rfl⟩
  · exact ⟨.kAnd, key_writes (x := (codes "AND", .log .kAnd)) (by decide) h, fun _ _ _ => rfl⟩
  · exact ⟨.ampAmp, op_writes (codes "&&", .log .ampAmp) (by decide), fun _ _ _ => rfl⟩
  · exact ⟨.kOr, key_writes (x := (codes "OR", .log .kOr)) (by decide) h, fun _ _ _ => rfl⟩
  · exact ⟨.barBar, op_writes (codes "||", .log .barBar) (by decide), fun _ _ _ => rfl⟩

/-- The unary signs: `+`, `-`, and `~`, `!` and `NOT` before a value. -/
theorem C92_unary {w : List Nat} {u : Unary}
    (h : (w, u) ∈ [(codes "+", Unary.plus), (codes "-", .minus), (codes "~", .not), (codes "!", .not)] ∨ SameWord (codes "NOT") w ∧ u = .not) :
    ∃ o : Un, Writes o.tok w ∧ ∀ (col : Str → Res Nat) (v : V),
      (V.unary o v).den (P := P) col = (do .ok (.unary u (← v.den col))) := by
  rcases h with h | ⟨h, rfl⟩
  · simp only [List.mem_cons, Prod.mk.injEq, List.not_mem_nil, or_false] at h
    rcases h with ⟨rfl, rfl⟩ | ⟨rfl, rfl⟩ | ⟨rfl, rfl⟩ | ⟨rfl, rfl⟩
    · exact ⟨.plus, op_writes (codes "+", .math .plus) (by decide), fun _ _ => rfl⟩
    · exact ⟨.minus, op_writes (codes "-", .math .minus) (by decide), fun _ _ => rfl⟩
    · exact ⟨.tilde, op_writes (codes "~", .tilde) (by decide), fun _ _ => rfl⟩
    · exact ⟨.not true, op_writes (codes "!", .not true) (by decide), fun _ _ => rfl⟩
  · exact ⟨.not false, key_writes (x := (codes "NOT", .not false)) (by decide) h, fun _ _ => rfl⟩

/-- `!` or `NOT` before an expression negates it. -/
theorem C92_not {w : List Nat} (h : w = codes "!" ∨ SameWord (codes "NOT") w) :
    ∃ b : Bool, Writes (.not b) w ∧ ∀ (col : Str → Res Nat) (e : E), (E.not b e).den (P := P) col = (do .ok (.unary .not (← e.den col))) := by
  rcases h with rfl | h
  · exact ⟨true, op_writes (codes "!", .not true) (by decide), fun _ _ => rfl⟩
  · exact ⟨false, key_writes (x := (codes "NOT", .not false)) (by decide) h, fun _ _ => rfl⟩

/-- `LIKE`, `LIKE BINARY` (or `LIKE ===`), `NOT LIKE` and `NOT LIKE BINARY`, whichever spelling the modifiers have. -/
theorem C92_like (col : Str → Res Nat) (l r : Q) (b : Bool) (x : Exact) :
    (Q.like none none l r).den (P := P) col = applied .like (l.den col) (r.den col) ∧
    (Q.like (some b) none l r).den (P := P) col = applied .notLike (l.den col) (r.den col) ∧
    (Q.like none (some x) l r).den (P := P) col = applied .likeExactMatch (l.den col) (r.den col) ∧
    (Q.like (some b) (some x) l r).den (P := P) col = applied .notLikeExactMatch (l.den col) (r.den col) := ⟨rfl, rfl, rfl, rfl⟩

/-- `IS NULL` and `IS NOT NULL`. -/
theorem C92_null (col : Str → Res Nat) (q : Q) (b : Bool) :
    (Q.isNull q none).den (P := P) col = applied .isNull (q.den col) (.ok .nil) ∧
    (Q.isNull q (some b)).den (P := P) col = applied .isNotNull (q.den col) (.ok .nil) := by
  constructor <;>
  · simp only [Q.den, applied]
    cases q.den (P := P) col <;> rfl

/-- `IN`, `NOT IN` and `IN BINARY`: the value is looked for among the items of the list. -/
theorem C92_in (col : Str → Res Nat) (q : Q) (neg : Option Bool) (exact : Option Exact) (l : L) {v : Tree P} {vs : List (Tree P)}
    (hv : q.den col = .ok v) (hl : l.den col = .ok vs) :
    (Q.isIn q neg exact l).den (P := P) col = .ok (.inList v vs (decide (neg ≠ none)) (decide (exact ≠ none))) := by
  simp only [Q.den, hv, hl, Res.bind_ok]
  cases neg <;> cases exact <;> rfl

/-- All of it together on one text. -/
example : (parse (tokens (Utf8.text (codes "A<=-B AnD NOT (A not Like === C || B <> 5 xor ~A)")))).map (E.den (P := Toy.prim) fun s => .ok (s.length + s.head!.toNat)) =
    some (.ok (.op .and (.op .lessThanOrEqual (.column 66) (.unary .minus (.column 67)))
      (.unary .not (.op .or (.op .notLikeExactMatch (.column 66) (.column 68))
        (.op .notEqual (.column 67) (.op .bitwiseXor (.value (.int32 5)) (.unary .not (.column 66)))))))) := by
  have : tokens (Utf8.text (codes "A<=-B AnD NOT (A not Like === C || B <> 5 xor ~A)")) = [.ident [65#8], .cmp .le, .math .minus, .ident [66#8], .log .kAnd,
      .not false, .lparen, .ident [65#8], .not false, .kLike, .cmp .eqEqEq, .ident [67#8], .log .barBar, .ident [66#8], .cmp .ltGt, .integer [53#8],
      .bit .kXor, .tilde, .ident [65#8], .rparen] := by decide +kernel
  rw [this]
  rfl

theorem text_ascii {w : List Nat} (h : ∀ c ∈ w, c < 128) : Utf8.text w = w.map (BitVec.ofNat 8) := by
  induction w with
  | nil => rfl
  | cons c w ih =>
    have hc := h c (by simp)
    have : Utf8.text [c] = [BitVec.ofNat 8 c] := by
      simp only [Utf8.text, List.flatMap_cons, List.flatMap_nil, List.append_nil]
      unfold Utf8.encode
      rw [if_pos (by omega)]
      rfl
    rw [show c :: w = [c] ++ w from rfl, Utf8.text_append, this, ih fun c hc => h c (by simp [hc])]
    rfl

theorem capital_upper : ∀ c < 128, BitVec.ofNat 8 (capital c) = Toy.upperByte (BitVec.ofNat 8 c) := by decide +kernel

theorem word_upper (hu : UpperAscii P) {s : List Nat} {w : List Nat} (h : SameWord s w) (hw : ∀ c ∈ w, c < 128) :
    P.upper (Utf8.text w) = s.map (BitVec.ofNat 8) := by
  rw [text_ascii hw, hu _ (by
    intro b hb
    obtain ⟨c, hc, rfl⟩ := List.mem_map.1 hb
    have := hw c hc
    rw [BitVec.toNat_ofNat]
    omega), ← h, List.map_map, List.map_map]
  exact List.map_congr_left fun c hc => (capital_upper c (hw c hc)).symm

/-- The words `true` and `false`, in any letter case, are the two truth values; `NULL` is no value at all. -/
theorem C92_boolean (hu : UpperAscii P) {w : List Nat} :
    (SameWord (codes "TRUE") w → Writes (.boolean (Utf8.text w)) w ∧ literal (P := P) (.boolean (Utf8.text w)) = .ok (.boolean true)) ∧
    (SameWord (codes "FALSE") w → Writes (.boolean (Utf8.text w)) w ∧ literal (P := P) (.boolean (Utf8.text w)) = .ok (.boolean false)) ∧
    literal (P := P) .null = .ok (.null .undefined) := by
  have hlt : ∀ {s : List Nat}, (∀ c ∈ s, 65 ≤ c ∧ c ≤ 90) → SameWord s w → ∀ c ∈ w, c < 128 := by
    intro s hs h c hc
    have := h.letters hs c hc
    simp only [isLetter, Bool.or_eq_true, Bool.and_eq_true, decide_eq_true_eq] at this
    omega
  refine ⟨fun h => ?_, fun h => ?_, rfl⟩
  · have hw := hlt (by decide) h
    refine ⟨spelled_writes (valid_ascii hw) rfl (.inl h), ?_⟩
    simp only [literal, word_upper hu h hw]
    rfl
  · have hw := hlt (by decide) h
    refine ⟨spelled_writes (valid_ascii hw) rfl (.inr h), ?_⟩
    simp only [literal, word_upper hu h hw]
    rfl

/-- The functions by the names they have in the language's documentation (FilterExpressionSyntax.g4 L145-187), in capitals. -/
def functionName : Fn → List Nat
  | .abs => codes "ABS"
  | .ceiling => codes "CEILING"
  | .coalesce => codes "COALESCE"
  | .convert => codes "CONVERT"
  | .contains => codes "CONTAINS"
  | .dateAdd => codes "DATEADD"
  | .dateDiff => codes "DATEDIFF"
  | .datePart => codes "DATEPART"
  | .endsWith => codes "ENDSWITH"
  | .floor => codes "FLOOR"
  | .iif => codes "IIF"
  | .indexOf => codes "INDEXOF"
  | .isDate => codes "ISDATE"
  | .isInteger => codes "ISINTEGER"
  | .isGuid => codes "ISGUID"
  | .isNull => codes "ISNULL"
  | .isNumeric => codes "ISNUMERIC"
  | .lastIndexOf => codes "LASTINDEXOF"
  | .len => codes "LEN"
  | .lower => codes "LOWER"
  | .maxOf => codes "MAXOF"
  | .minOf => codes "MINOF"
  | .now => codes "NOW"
  | .nthIndexOf => codes "NTHINDEXOF"
  | .power => codes "POWER"
  | .regExMatch => codes "REGEXMATCH"
  | .regExVal => codes "REGEXVAL"
  | .replace => codes "REPLACE"
  | .reverse => codes "REVERSE"
  | .round => codes "ROUND"
  | .split => codes "SPLIT"
  | .sqrt => codes "SQRT"
  | .startsWith => codes "STARTSWITH"
  | .strCount => codes "STRCOUNT"
  | .strCmp => codes "STRCMP"
  | .subStr => codes "SUBSTR"
  | .trim => codes "TRIM"
  | .trimLeft => codes "TRIMLEFT"
  | .trimRight => codes "TRIMRIGHT"
  | .upper => codes "UPPER"
  | .utcNow => codes "UTCNOW"

/-- Each function is called by its name, in any letter case, with the arguments in the order written. -/
theorem C92_function (f : Fn) {w : List Nat} (h : SameWord (functionName f) w) :
    Writes (.fn f) w ∧ (V.call0 f).toks = [.fn f, .lparen, .rparen] ∧ (∀ l : L, (V.call f l).toks = .fn f :: .lparen :: (l.toks ++ [.rparen])) ∧
      ∀ col : Str → Res Nat, (V.call0 f).den (P := P) col = .ok (.func f []) ∧
        ∀ (l : L) (vs : List (Tree P)), l.den col = .ok vs → (V.call f l).den col = .ok (.func f vs) := by
  refine ⟨key_writes (x := (functionName f, .fn f)) (by cases f <;> decide) h, rfl, fun l => by simp [V.toks], fun col => ⟨rfl, fun l vs hl => ?_⟩⟩
  simp only [V.den, hl, Res.bind_ok]

/-- No two functions share a name. -/
theorem C92_function_names {f g : Fn} (h : functionName f = functionName g) : f = g := by
  revert h
  cases f <;> cases g <;> decide

example : SameWord (functionName .trimLeft) (codes "TrimLeft") := by decide

end Verif.Lex
