import Verif.Lex.Names
import Verif.Parse.Precedence

/-!
# C116: texts of enumeration values tell which value it is
-/

set_option linter.unusedSimpArgs false

namespace Verif.Lex.Names

open Verif.Expr Verif.Parse

/-- What a hexadecimal digit is worth. -/
def worth (b : Byte) : Nat := if b.toNat < 58 then b.toNat - 48 else b.toNat - 87

/-- What a row of hexadecimal digits is worth. -/
def worths (l : Str) : Nat := l.foldl (fun n b => n * 16 + worth b) 0

/-- The digits `0` to `9` and `a` to `f`. -/
def IsDigit (b : Byte) : Prop := 48 ≤ b.toNat ∧ b.toNat ≤ 57 ∨ 97 ≤ b.toNat ∧ b.toNat ≤ 102

theorem digit_worth : ∀ n < 16, worth (hexDigit n) = n ∧ IsDigit (hexDigit n) := by unfold IsDigit; decide

theorem nonzero : ∀ n < 16, n ≠ 0 → hexDigit n ≠ 48#8 := by decide

theorem worths_append (l : Str) (b : Byte) : worths (l ++ [b]) = worths l * 16 + worth b := by simp [worths]

theorem hexNat_spec (n : Nat) : worths (hexNat n) = n ∧ (∀ b ∈ hexNat n, IsDigit b) ∧ hexNat n ≠ [] ∧ (n ≠ 0 → (hexNat n).head? ≠ some 48#8) := by
  induction n using Nat.strongRecOn with
  | _ n ih =>
    rw [hexNat]
    by_cases h : n < 16
    · rw [if_pos h]
      obtain ⟨h1, h2⟩ := digit_worth n h
      refine ⟨by simpa [worths] using h1, by simpa using h2, by simp, fun h0 => ?_⟩
      simp only [List.head?_cons, ne_eq, Option.some.injEq]
      exact nonzero n h h0
    · rw [if_neg h]
      obtain ⟨a1, a2, a3, a4⟩ := ih (n / 16) (by omega)
      obtain ⟨h1, h2⟩ := digit_worth (n % 16) (Nat.mod_lt _ (by decide))
      refine ⟨by rw [worths_append, a1, h1]; omega, ?_, by simp, fun _ => ?_⟩
      · intro b hb
        rcases List.mem_append.1 hb with hb | hb
        · exact a2 b hb
        · rw [List.mem_singleton.1 hb]; exact h2
      · rw [List.head?_append_of_ne_nil _ a3]
        exact a4 (by omega)

theorem hexInt_inj {i j : Int} (h : hexInt i = hexInt j) : i = j := by
  have key : ∀ k : Int, ¬ (hexNat k.natAbs).head? = some 45#8 := by
    intro k hk
    have := (hexNat_spec k.natAbs).2.1 45#8 (List.mem_of_mem_head? hk)
    revert this; unfold IsDigit; decide
  unfold hexInt at h
  have e : ∀ a b : Nat, hexNat a = hexNat b → a = b := fun a b e => by rw [← (hexNat_spec a).1, ← (hexNat_spec b).1, e]
  split at h <;> split at h
  · have := e _ _ (List.cons.inj h).2
    omega
  · exact absurd (by rw [← h]; rfl) (key j)
  · exact absurd (by rw [h]; rfl) (key i)
  · have := e _ _ h
    omega

/-- A value is a defined one with a text of its own. -/
def Enum.Has (T : Enum) (i : Int) : Prop := ∃ c ∈ T.cases, T.values.lookup c.1 = some i

theorem text_some {T : Enum} {i : Int} (h : T.Has i) : ∃ c ∈ T.cases, T.values.lookup c.1 = some i ∧ T.text i = lit c.2 := by
  obtain ⟨c, hc, hl⟩ := h
  unfold Enum.text
  cases e : T.cases.find? fun c => T.values.lookup c.1 == some i with
  | none => exact absurd hl (by simpa using List.find?_eq_none.1 e c hc)
  | some d => exact ⟨d, List.mem_of_find?_eq_some e, by simpa using List.find?_some e, rfl⟩

theorem text_none {T : Enum} {i : Int} (h : ¬ T.Has i) : T.text i = lit "0x" ++ hexInt i := by
  unfold Enum.text
  cases e : T.cases.find? fun c => T.values.lookup c.1 == some i with
  | none => rfl
  | some d => exact absurd ⟨d, List.mem_of_find?_eq_some e, by simpa using List.find?_some e⟩ h

/-- The texts of the cases differ from one another and from those of numbers. -/
theorem tables : ∀ T ∈ enumerations, (∀ c ∈ T.cases, ∀ d ∈ T.cases, lit c.2 = lit d.2 → c.1 = d.1) ∧
    (∀ c ∈ T.cases, (lit c.2).take 2 ≠ lit "0x") ∧ ∀ c ∈ T.cases, (T.values.lookup c.1).isSome := by decide +kernel

/-- **C116 (apart)**: for each of the enumerations, two values have the same text only if they are the same, be they defined or not. -/
theorem C116_apart {T : Enum} (hT : T ∈ enumerations) {i j : Int} (h : T.text i = T.text j) : i = j := by
  obtain ⟨t1, t2, t3⟩ := tables T hT
  by_cases hi : T.Has i <;> by_cases hj : T.Has j
  · obtain ⟨c, hc, hl, ht⟩ := text_some hi
    obtain ⟨d, hd, hl', ht'⟩ := text_some hj
    have := t1 c hc d hd (by rw [← ht, ← ht', h])
    rw [this, hl'] at hl
    injection hl with hl
    exact hl.symm
  · obtain ⟨c, hc, hl, ht⟩ := text_some hi
    rw [text_none hj] at h
    exact absurd (by rw [← ht, h]; rfl) (t2 c hc)
  · obtain ⟨c, hc, hl, ht⟩ := text_some hj
    rw [text_none hi] at h
    exact absurd (by rw [← ht, ← h]; rfl) (t2 c hc)
  · rw [text_none hi, text_none hj] at h
    exact hexInt_inj (List.append_cancel_left h)

/-- **C116 (number)**: a value that is none of the defined ones with a text is shown as `0x` and its number in hexadecimal without leading zeros, with a
minus sign after the `0x` if it is negative. -/
theorem C116_number {T : Enum} {i : Int} (h : ¬ T.Has i) :
    ∃ ds, T.text i = lit "0x" ++ (if i < 0 then lit "-" else []) ++ ds ∧ ds ≠ [] ∧ (∀ b ∈ ds, IsDigit b) ∧ worths ds = i.natAbs ∧
      (i ≠ 0 → ds.head? ≠ some 48#8) := by
  obtain ⟨h1, h2, h3, h4⟩ := hexNat_spec i.natAbs
  refine ⟨hexNat i.natAbs, ?_, h3, h2, h1, fun h0 => h4 (by omega)⟩
  rw [text_none h]
  unfold hexInt
  split <;> rfl

/-- **C116 (defined)**: every response, function, kind of signal, type of expression or value has its identifier as text, and so has every command but one. -/
theorem C116_defined_partial : ∀ T ∈ [expressionTypes, valueTypes, functions, responses, kinds, commands], ∀ v ∈ T.values,
    v.1 ≠ "ConfirmUpdateBaseTimes" → T.text v.2 = lit v.1 := by decide +kernel

/-- **C116 (defined) is false of one command**: the command for confirming base times has no case (transport/Constants.go L349-412). -/
theorem C116_defined_false : ("ConfirmUpdateBaseTimes", 9) ∈ commands.values ∧ commands.text 9 = lit "0x9" := by decide +kernel

/-- **C116 (functions)**: the text of a function, put into an expression, calls the function. -/
theorem C116_functions (f : Fn) : ∃ s, functions.shown (functionIdent f) = some (s.map (BitVec.ofNat 8)) ∧ Writes (.fn f) s := by
  refine ⟨codes (functionIdent f), by cases f <;> decide +kernel, (C92_function (P := Toy.prim) f (by cases f <;> decide)).1⟩

/-- Checks that an expression of closed operands needs no brackets and has its tokens. -/
local macro "parsed" hl:ident hr:ident : tactic => `(tactic| (
  have wl := ($hl).wf
  have wr := ($hr).wf
  have el := ($hl).edge
  have nl := ($hl).head
  have nl' := fun b => (List.append_nil _ ▸ ($hl).head [] b)
  have nr' := fun b => (List.append_nil _ ▸ ($hr).head [] b)
  refine (C70_parse _ _).2 ⟨?_, ?_⟩
  · simp only [E.WF, Q.WF, V.WF, V.edge_math, V.edge_bit, Q.edge_cmp, Q.edge_like, Q.edge_value, E.toks, Q.toks, V.toks, List.append_assoc,
      List.cons_append, Nat.zero_le, Nat.le_refl, Nat.reduceLeDiff, ne_eq, not_false_eq_true, implies_true, and_true, *]
  · simp [E.toks, Q.toks, V.toks, negToks, exactToks, Exact.tok]))

/-- **C116 (operators)**: the text of an operator, put between the texts of two values (literals, columns, calls or expressions in brackets), is parsed and
applies that operator to them; `IS NULL` and `IS NOT NULL` come after one. -/
theorem C116_operators {P : Prim} (o : Op) : ∃ s, operators.shown (operatorIdent o) = some s ∧ ∀ l r : V, l.Closed → r.Closed →
    ((o = .isNull ∨ o = .isNotNull) → ∃ e, parse (l.toks ++ tokens s) = some e ∧
      ∀ (col : Str → Res Nat) (tl : Tree P), l.den col = .ok tl → build col e = .ok (.op o tl .nil)) ∧
    (o ≠ .isNull → o ≠ .isNotNull → ∃ e, parse (l.toks ++ tokens s ++ r.toks) = some e ∧
      ∀ (col : Str → Res Nat) (tl tr : Tree P), l.den col = .ok tl → r.den col = .ok tr → build col e = .ok (.op o tl tr)) := by
  cases o with
  | multiply =>
    refine ⟨lit "*", by decide +kernel, fun l r hl hr => ⟨by simp, fun _ _ => ⟨.pred (.value (.math .star l r)), ?_, fun col tl tr h1 h2 => by rw [C70_build]; simp only [E.den, Q.den, V.den, h1, h2]; rfl⟩⟩⟩
    rw [show tokens (lit "*") = [.math .star] by decide +kernel]
    parsed hl hr
  | divide =>
    refine ⟨lit "/", by decide +kernel, fun l r hl hr => ⟨by simp, fun _ _ => ⟨.pred (.value (.math .slash l r)), ?_, fun col tl tr h1 h2 => by rw [C70_build]; simp only [E.den, Q.den, V.den, h1, h2]; rfl⟩⟩⟩
    rw [show tokens (lit "/") = [.math .slash] by decide +kernel]
    parsed hl hr
  | modulus =>
    refine ⟨lit "%", by decide +kernel, fun l r hl hr => ⟨by simp, fun _ _ => ⟨.pred (.value (.math .percent l r)), ?_, fun col tl tr h1 h2 => by rw [C70_build]; simp only [E.den, Q.den, V.den, h1, h2]; rfl⟩⟩⟩
    rw [show tokens (lit "%") = [.math .percent] by decide +kernel]
    parsed hl hr
  | add =>
    refine ⟨lit "+", by decide +kernel, fun l r hl hr => ⟨by simp, fun _ _ => ⟨.pred (.value (.math .plus l r)), ?_, fun col tl tr h1 h2 => by rw [C70_build]; simp only [E.den, Q.den, V.den, h1, h2]; rfl⟩⟩⟩
    rw [show tokens (lit "+") = [.math .plus] by decide +kernel]
    parsed hl hr
  | subtract =>
    refine ⟨lit "-", by decide +kernel, fun l r hl hr => ⟨by simp, fun _ _ => ⟨.pred (.value (.math .minus l r)), ?_, fun col tl tr h1 h2 => by rw [C70_build]; simp only [E.den, Q.den, V.den, h1, h2]; rfl⟩⟩⟩
    rw [show tokens (lit "-") = [.math .minus] by decide +kernel]
    parsed hl hr
  | bitShiftLeft =>
    refine ⟨lit "<<", by decide +kernel, fun l r hl hr => ⟨by simp, fun _ _ => ⟨.pred (.value (.bit .shl l r)), ?_, fun col tl tr h1 h2 => by rw [C70_build]; simp only [E.den, Q.den, V.den, h1, h2]; rfl⟩⟩⟩
    rw [show tokens (lit "<<") = [.bit .shl] by decide +kernel]
    parsed hl hr
  | bitShiftRight =>
    refine ⟨lit ">>", by decide +kernel, fun l r hl hr => ⟨by simp, fun _ _ => ⟨.pred (.value (.bit .shr l r)), ?_, fun col tl tr h1 h2 => by rw [C70_build]; simp only [E.den, Q.den, V.den, h1, h2]; rfl⟩⟩⟩
    rw [show tokens (lit ">>") = [.bit .shr] by decide +kernel]
    parsed hl hr
  | bitwiseAnd =>
    refine ⟨lit "&", by decide +kernel, fun l r hl hr => ⟨by simp, fun _ _ => ⟨.pred (.value (.bit .amp l r)), ?_, fun col tl tr h1 h2 => by rw [C70_build]; simp only [E.den, Q.den, V.den, h1, h2]; rfl⟩⟩⟩
    rw [show tokens (lit "&") = [.bit .amp] by decide +kernel]
    parsed hl hr
  | bitwiseOr =>
    refine ⟨lit "|", by decide +kernel, fun l r hl hr => ⟨by simp, fun _ _ => ⟨.pred (.value (.bit .bar l r)), ?_, fun col tl tr h1 h2 => by rw [C70_build]; simp only [E.den, Q.den, V.den, h1, h2]; rfl⟩⟩⟩
    rw [show tokens (lit "|") = [.bit .bar] by decide +kernel]
    parsed hl hr
  | bitwiseXor =>
    refine ⟨lit "^", by decide +kernel, fun l r hl hr => ⟨by simp, fun _ _ => ⟨.pred (.value (.bit .caret l r)), ?_, fun col tl tr h1 h2 => by rw [C70_build]; simp only [E.den, Q.den, V.den, h1, h2]; rfl⟩⟩⟩
    rw [show tokens (lit "^") = [.bit .caret] by decide +kernel]
    parsed hl hr
  | lessThan =>
    refine ⟨lit "<", by decide +kernel, fun l r hl hr => ⟨by simp, fun _ _ => ⟨.pred (.cmp .lt (.value l) (.value r)), ?_, fun col tl tr h1 h2 => by rw [C70_build]; simp only [E.den, Q.den, V.den, h1, h2]; rfl⟩⟩⟩
    rw [show tokens (lit "<") = [.cmp .lt] by decide +kernel]
    parsed hl hr
  | lessThanOrEqual =>
    refine ⟨lit "<=", by decide +kernel, fun l r hl hr => ⟨by simp, fun _ _ => ⟨.pred (.cmp .le (.value l) (.value r)), ?_, fun col tl tr h1 h2 => by rw [C70_build]; simp only [E.den, Q.den, V.den, h1, h2]; rfl⟩⟩⟩
    rw [show tokens (lit "<=") = [.cmp .le] by decide +kernel]
    parsed hl hr
  | greaterThan =>
    refine ⟨lit ">", by decide +kernel, fun l r hl hr => ⟨by simp, fun _ _ => ⟨.pred (.cmp .gt (.value l) (.value r)), ?_, fun col tl tr h1 h2 => by rw [C70_build]; simp only [E.den, Q.den, V.den, h1, h2]; rfl⟩⟩⟩
    rw [show tokens (lit ">") = [.cmp .gt] by decide +kernel]
    parsed hl hr
  | greaterThanOrEqual =>
    refine ⟨lit ">=", by decide +kernel, fun l r hl hr => ⟨by simp, fun _ _ => ⟨.pred (.cmp .ge (.value l) (.value r)), ?_, fun col tl tr h1 h2 => by rw [C70_build]; simp only [E.den, Q.den, V.den, h1, h2]; rfl⟩⟩⟩
    rw [show tokens (lit ">=") = [.cmp .ge] by decide +kernel]
    parsed hl hr
  | equal =>
    refine ⟨lit "=", by decide +kernel, fun l r hl hr => ⟨by simp, fun _ _ => ⟨.pred (.cmp .eq (.value l) (.value r)), ?_, fun col tl tr h1 h2 => by rw [C70_build]; simp only [E.den, Q.den, V.den, h1, h2]; rfl⟩⟩⟩
    rw [show tokens (lit "=") = [.cmp .eq] by decide +kernel]
    parsed hl hr
  | equalExactMatch =>
    refine ⟨lit "===", by decide +kernel, fun l r hl hr => ⟨by simp, fun _ _ => ⟨.pred (.cmp .eqEqEq (.value l) (.value r)), ?_, fun col tl tr h1 h2 => by rw [C70_build]; simp only [E.den, Q.den, V.den, h1, h2]; rfl⟩⟩⟩
    rw [show tokens (lit "===") = [.cmp .eqEqEq] by decide +kernel]
    parsed hl hr
  | notEqual =>
    refine ⟨lit "<>", by decide +kernel, fun l r hl hr => ⟨by simp, fun _ _ => ⟨.pred (.cmp .ltGt (.value l) (.value r)), ?_, fun col tl tr h1 h2 => by rw [C70_build]; simp only [E.den, Q.den, V.den, h1, h2]; rfl⟩⟩⟩
    rw [show tokens (lit "<>") = [.cmp .ltGt] by decide +kernel]
    parsed hl hr
  | notEqualExactMatch =>
    refine ⟨lit "!==", by decide +kernel, fun l r hl hr => ⟨by simp, fun _ _ => ⟨.pred (.cmp .bangEqEq (.value l) (.value r)), ?_, fun col tl tr h1 h2 => by rw [C70_build]; simp only [E.den, Q.den, V.den, h1, h2]; rfl⟩⟩⟩
    rw [show tokens (lit "!==") = [.cmp .bangEqEq] by decide +kernel]
    parsed hl hr
  | isNull =>
    refine ⟨lit "IS NULL", by decide +kernel, fun l r hl hr => ⟨fun _ => ⟨.pred (.isNull (.value l) none), ?_, fun col tl h1 => by rw [C70_build]; simp only [E.den, Q.den, h1]; rfl⟩, by simp⟩⟩
    rw [show tokens (lit "IS NULL") = [.kIs, .kNull] by decide +kernel]
    parsed hl hr
  | isNotNull =>
    refine ⟨lit "IS NOT NULL", by decide +kernel, fun l r hl hr => ⟨fun _ => ⟨.pred (.isNull (.value l) (some false)), ?_, fun col tl h1 => by rw [C70_build]; simp only [E.den, Q.den, h1]; rfl⟩, by simp⟩⟩
    rw [show tokens (lit "IS NOT NULL") = [.kIs, .not false, .kNull] by decide +kernel]
    parsed hl hr
  | like =>
    refine ⟨lit "LIKE", by decide +kernel, fun l r hl hr => ⟨by simp, fun _ _ => ⟨.pred (.like none none (.value l) (.value r)), ?_, fun col tl tr h1 h2 => by rw [C70_build]; simp only [E.den, Q.den, V.den, h1, h2]; rfl⟩⟩⟩
    rw [show tokens (lit "LIKE") = [.kLike] by decide +kernel]
    parsed hl hr
  | likeExactMatch =>
    refine ⟨lit "LIKE BINARY", by decide +kernel, fun l r hl hr => ⟨by simp, fun _ _ => ⟨.pred (.like none (some .binary) (.value l) (.value r)), ?_, fun col tl tr h1 h2 => by rw [C70_build]; simp only [E.den, Q.den, V.den, h1, h2]; rfl⟩⟩⟩
    rw [show tokens (lit "LIKE BINARY") = [.kLike, .kBinary] by decide +kernel]
    parsed hl hr
  | notLike =>
    refine ⟨lit "NOT LIKE", by decide +kernel, fun l r hl hr => ⟨by simp, fun _ _ => ⟨.pred (.like (some false) none (.value l) (.value r)), ?_, fun col tl tr h1 h2 => by rw [C70_build]; simp only [E.den, Q.den, V.den, h1, h2]; rfl⟩⟩⟩
    rw [show tokens (lit "NOT LIKE") = [.not false, .kLike] by decide +kernel]
    parsed hl hr
  | notLikeExactMatch =>
    refine ⟨lit "NOT LIKE BINARY", by decide +kernel, fun l r hl hr => ⟨by simp, fun _ _ => ⟨.pred (.like (some false) (some .binary) (.value l) (.value r)), ?_, fun col tl tr h1 h2 => by rw [C70_build]; simp only [E.den, Q.den, V.den, h1, h2]; rfl⟩⟩⟩
    rw [show tokens (lit "NOT LIKE BINARY") = [.not false, .kLike, .kBinary] by decide +kernel]
    parsed hl hr
  | and =>
    refine ⟨lit "AND", by decide +kernel, fun l r hl hr => ⟨by simp, fun _ _ => ⟨.log .kAnd (.pred (.value l)) (.pred (.value r)), ?_, fun col tl tr h1 h2 => by rw [C70_build]; simp only [E.den, Q.den, V.den, h1, h2]; rfl⟩⟩⟩
    rw [show tokens (lit "AND") = [.log .kAnd] by decide +kernel]
    parsed hl hr
  | or =>
    refine ⟨lit "OR", by decide +kernel, fun l r hl hr => ⟨by simp, fun _ _ => ⟨.log .kOr (.pred (.value l)) (.pred (.value r)), ?_, fun col tl tr h1 h2 => by rw [C70_build]; simp only [E.den, Q.den, V.den, h1, h2]; rfl⟩⟩⟩
    rw [show tokens (lit "OR") = [.log .kOr] by decide +kernel]
    parsed hl hr

/-- **C116 (unary operators)**: the text of a unary operator before a value is parsed and applies it. -/
theorem C116_unaries {P : Prim} (u : Unary) : ∃ s, unaries.shown (unaryIdent u) = some s ∧ ∀ v : V, v.Closed →
    ∃ e, parse (tokens s ++ v.toks) = some e ∧ ∀ (col : Str → Res Nat) (tv : Tree P), v.den col = .ok tv → build col e = .ok (.unary u tv) := by
  cases u with
  | plus =>
    refine ⟨lit "+", by decide +kernel, fun v hv => ⟨.pred (.value (.unary .plus v)), (C70_parse _ _).2 ⟨?_, ?_⟩, fun col tv h => by rw [C70_build]; simp only [E.den, Q.den, V.den, h]; rfl⟩⟩
    · simp [E.WF, Q.WF, V.WF, hv.wf, Q.toks, V.toks, Un.tok]
    · rw [show tokens (lit "+") = [.math .plus] by decide +kernel]
      simp [E.toks, Q.toks, V.toks, Un.tok]
  | minus =>
    refine ⟨lit "-", by decide +kernel, fun v hv => ⟨.pred (.value (.unary .minus v)), (C70_parse _ _).2 ⟨?_, ?_⟩, fun col tv h => by rw [C70_build]; simp only [E.den, Q.den, V.den, h]; rfl⟩⟩
    · simp [E.WF, Q.WF, V.WF, hv.wf, Q.toks, V.toks, Un.tok]
    · rw [show tokens (lit "-") = [.math .minus] by decide +kernel]
      simp [E.toks, Q.toks, V.toks, Un.tok]
  | not =>
    refine ⟨lit "~", by decide +kernel, fun v hv => ⟨.pred (.value (.unary .tilde v)), (C70_parse _ _).2 ⟨?_, ?_⟩, fun col tv h => by rw [C70_build]; simp only [E.den, Q.den, V.den, h]; rfl⟩⟩
    · simp [E.WF, Q.WF, V.WF, hv.wf, Q.toks, V.toks, Un.tok]
    · rw [show tokens (lit "~") = [.tilde] by decide +kernel]
      simp [E.toks, Q.toks, V.toks, Un.tok]

/-- `C116_number` for a command code that is not defined, and for a negative value. -/
example : commands.text 0xA5 = lit "0xa5" ∧ expressionTypes.text (-17) = lit "0x-11" := by decide +kernel

example : ¬ commands.Has 0xA5 := by unfold Enum.Has; decide +kernel

/-- Codes of commands and responses are different numbers, so are the texts. -/
example : commands.text 2 = lit "Subscribe" ∧ responses.text 2 = lit "0x2" ∧ responses.text 0x82 = lit "DataPacket" := by decide +kernel

end Verif.Lex.Names
