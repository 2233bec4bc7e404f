import Verif.Examples.ShowProps
import Verif.Table.TextSelect
import Verif.Lib.Case

/-!
# C141: what the filter expressions of `SimpleResubscribe` select

`getFilterExpression` (examples/SimpleResubscribe/SimpleResubscribe.go L72-80) read by the filter expression parser of the library, with lexer, parser,
listener, evaluation and letter case written out.
-/

namespace Verif.Examples

open Verif.Expr Verif.Parse Verif.Table Verif.Lib Verif.Lex

variable {P : Prim}

/-- `SignalType <> 'STAT'` as the grammar has it. -/
def notStat : E := .pred (.cmp .ltGt (.value (.column (lit "SignalType"))) (.value (.lit (.string (lit "'STAT'")))))

theorem filterExpression_codes {n : Nat} (h : 0 < n) :
    filterExpression n = Utf8.text (selectCodes (codes "ActiveMeasurements") (codes "SignalType <> 'STAT'") none n) := by
  rw [← selectText_codes (by decide) none (by simp)]
  unfold selectText
  have h1 : Format.formatInt (n : Int) = Format.decimal n := by
    rw [Format.formatInt, if_neg (by omega), Int.natAbs_natCast]
  simp only [h1]
  rw [if_neg (by decide), if_pos (by omega), if_neg (by decide)]
  unfold filterExpression
  simp only [List.append_assoc]
  rfl

theorem filterExpression_tokens {n : Nat} (h : 0 < n) :
    tokens (filterExpression n) = (S.filter (some ⟨none, Format.decimal n⟩) (lit "ActiveMeasurements") notStat []).toks := by
  rw [filterExpression_codes h]
  have := selectCodes_tokens (name := codes "ActiveMeasurements") (filter := codes "SignalType <> 'STAT'") (sortOrder := none) n (e := notStat) (terms := [])
    (spelled_writes (by decide) rfl (.inl ⟨⟨_, _, rfl, by decide, by decide⟩, by decide +kernel, by decide, by decide⟩)) (by decide) (by simp) (by decide +kernel) rfl
  rw [this, topOfLimit, if_pos (by omega), Int.toNat_natCast]
  rfl

theorem notStat_build {t : Table P} {c : Column} (hc : t.columnByName (lit "SignalType") = some c) :
    build (P := P) (columnOf t) notStat = .ok (.op .notEqual (.column c.index.toNat) (.value (.string (lit "STAT")))) := by
  rw [C70_build]
  have : columnOf t (lit "SignalType") = .ok c.index.toNat := by simp [columnOf, hc]
  simp only [notStat, E.den, Q.den, V.den, this, Res.bind_ok]
  rfl

/-- What a row has in a String column: a text or null. -/
def cell (x : Option Str) : Val P :=
  match x with
  | some s => .string s
  | none => .null .string

theorem equalText_iff (U : Runes) (s : Str) :
    equalText U s (lit "STAT") = true ↔ List.Forall₂ (Lib.Matches FoldBeyond) (Utf8.runes s) (lit "STAT") := by
  have ht : ∀ b ∈ lit "STAT", b.toNat < 128 := by decide
  unfold equalText
  rw [beq_iff_eq, runes_ascii ht]
  exact map_forall₂ _ _ fun r b hb => same_iff U (ht b hb)

/-- **The expression of `SimpleResubscribe` selects the first `n` active measurements that are no statistics**: of the rows of the table called
`ActiveMeasurements` with the String column `SignalType`, the first `n` whose signal type is there and is not STAT, letter case aside. A row without a signal
type is left out, as is one with a long s for the S. -/
theorem C141_filter (R : Lib.Rest) (U : Runes) {tables : Str → Option (Str × Table (go (R.withCase U)))} (sort : Sorter (go (R.withCase U))) (depth : Nat)
    {own : Str} {t : Table (go (R.withCase U))} (htab : tables (lit "ActiveMeasurements") = some (own, t)) {c : Column}
    (hc : t.columnByName (lit "SignalType") = some c) {type : Row (go (R.withCase U)) → Option Str}
    (ht : ∀ r ∈ present? t.rows, r.column t depth c.index.toNat = .ok (cell (type r))) {n : Nat} (h0 : 0 < n) (hn : n < 2 ^ 63) (primary : Str)
    (fields : Option IDFields) :
    ∃ keep : Row (go (R.withCase U)) → Bool,
      selectDataRows tables sort depth (filterExpression n) primary fields = some (.ok (((present? t.rows).filter keep).take n)) ∧
      ∀ r ∈ present? t.rows, keep r = true ↔ ∃ s, type r = some s ∧ ¬ List.Forall₂ (Matches FoldBeyond) (Utf8.runes s) (lit "STAT") := by
  have hroot := notStat_build (P := go (R.withCase U)) hc
  have hev : ∀ r ∈ present? t.rows, eval (r.column t depth) (.op .notEqual (.column c.index.toNat) (.value (.string (lit "STAT")))) =
      .ok (match type r with
        | some s => .boolean (!equalText U s (lit "STAT"))
        | none => .null .string) := by
    intro r hr
    simp only [eval, evalAs, ht r hr, Res.bind_ok]
    cases type r <;> rfl
  refine ⟨fun r => Table.isTrue (eval (r.column t depth) (.op .notEqual (.column c.index.toNat) (.value (.string (lit "STAT"))))), ?_, ?_⟩
  · rw [C88_filter_rows tables sort depth (top := some ⟨none, Format.decimal n⟩) (e := notStat) (by simp [notStat, E.WF, Q.WF, V.WF, Q.edge, Q.toks, V.toks])
      (filterExpression_tokens h0) (by decide) htab hroot (fun r hr => ⟨_, hev r hr⟩), (C88_top n hn).1]
    simp only [Parser.topOf, cut, matching]
    rw [if_neg (by omega), Int.toNat_natCast]
  · intro r hr
    beta_reduce
    rw [hev r hr]
    cases h : type r with
    | none => simp [Table.isTrue]
    | some s =>
      simp only [Option.some.injEq, exists_eq_left', ← equalText_iff U]
      cases equalText U s (lit "STAT") <;> simp [Table.isTrue]

/-- Signals with the given types. -/
def signals (P : Prim) (vs : List (Option Str)) : Table P where
  columnIndexes := fun n => if n = lit "SIGNALTYPE" then some 0 else none
  columns := [{ name := lit "SignalType", type := .string, expression := [], index := 0 }]
  rows := none :: vs.mapIdx fun i v => some { id := i, values := [v.map fun v => .string v] }
  parse := fun _ => none

/-- Of five signals, one without a type and one a statistic in small letters, the second expression selects the first and the fourth. -/
example (R : Lib.Rest) (U : Runes) (sort : Sorter (go (R.withCase U))) (primary : Str) (fields : Option IDFields) :
    ∃ rows, selectDataRows (fun n => if n = lit "ActiveMeasurements" then
        some (n, signals (go (R.withCase U)) [some (lit "FREQ"), none, some (lit "stat"), some (lit "VPHM"), some (lit "IPHM")]) else none)
      sort 1 (filterExpression 2) primary fields = some (.ok rows) ∧ rows.map Row.id = [0, 3] := by
  obtain ⟨keep, h1, h2⟩ := C141_filter R U (tables := fun n => if n = lit "ActiveMeasurements" then
        some (n, signals (go (R.withCase U)) [some (lit "FREQ"), none, some (lit "stat"), some (lit "VPHM"), some (lit "IPHM")]) else none) sort 1
    (own := lit "ActiveMeasurements") (t := signals (go (R.withCase U)) [some (lit "FREQ"), none, some (lit "stat"), some (lit "VPHM"), some (lit "IPHM")])
    (if_pos rfl) (c := { name := lit "SignalType", type := .string, expression := [], index := 0 }) rfl
    (type := fun r => match r.values with
      | [some (.string s)] => some s
      | _ => none) (by
        intro r hr
        rcases List.mem_cons.1 hr with rfl | hr
        · rfl
        rcases List.mem_cons.1 hr with rfl | hr
        · rfl
        rcases List.mem_cons.1 hr with rfl | hr
        · rfl
        rcases List.mem_cons.1 hr with rfl | hr
        · rfl
        rcases List.mem_cons.1 hr with rfl | hr
        · rfl
        cases hr) (n := 2) (by decide) (by decide) primary fields
  refine ⟨_, h1, ?_⟩
  have hp : present? (signals (go (R.withCase U)) [some (lit "FREQ"), none, some (lit "stat"), some (lit "VPHM"), some (lit "IPHM")]).rows =
      [⟨0, [some (.string (lit "FREQ"))]⟩, ⟨1, [none]⟩, ⟨2, [some (.string (lit "stat"))]⟩, ⟨3, [some (.string (lit "VPHM"))]⟩,
        ⟨4, [some (.string (lit "IPHM"))]⟩] := rfl
  have f1 : equalText U (lit "FREQ") (lit "STAT") = false := rfl
  have f2 : equalText U (lit "stat") (lit "STAT") = true := rfl
  have f3 : equalText U (lit "VPHM") (lit "STAT") = false := rfl
  have f4 : equalText U (lit "IPHM") (lit "STAT") = false := rfl
  rw [hp] at h2 ⊢
  simp only [← equalText_iff U, List.forall_mem_cons, Option.some.injEq, exists_eq_left', f1, f2, f3, f4] at h2
  obtain ⟨k0, k1, k2, k3, k4, -⟩ := h2
  simp at k0 k1 k2 k3 k4
  simp [k0, k1, k2, k3, k4]

end Verif.Examples
