import Verif.Table.TextValue
import Verif.Table.TextIds
import Verif.Lex.KeyTokens
import Verif.Lex.Meaning
import Verif.Guid.TextProps
import Verif.Lib.Go

/-!
# C144: which Guid a GUID literal is (data/FilterExpressionParser.go L491-506, L1085-1092, L1490-1504)

The grammar takes 32 hexadecimal digits for a GUID literal, with or without a dash at each of four places, bare, in quotes or in braces
(`Lex.GuidText`). `guid.Parse` takes fewer.
-/

set_option linter.dupNamespace false

namespace Verif.Lib.GuidText

open Verif Verif.Expr Verif.Parse Verif.Lex
open Verif.Guid (Digit Pairs Grouped)

variable {R : Rest}

/-- The Guid of the hexadecimal digits of a text, whatever else stands in it. -/
def DigitsOf (t : List Nat) (g : Guid.Guid) : Prop := Pairs (Utf8.text (t.filter isHex)) g.bytes

/-! ## Digits -/

theorem hex_digit {c : Nat} (h : isHex c = true) : c < 128 ∧ ∃ x, Digit (BitVec.ofNat 8 c) x := by
  have hc : c < 128 := by
    simp only [isHex, Lex.isDigit, Bool.or_eq_true, Bool.and_eq_true, decide_eq_true_eq] at h
    omega
  refine ⟨hc, (Guid.xvalue (BitVec.ofNat 8 c)).toNat, (Guid.digit_iff _ _).2 ⟨?_, rfl⟩⟩
  have key : ∀ c < 128, isHex c = true → Guid.xvalue (BitVec.ofNat 8 c) ≠ 255#8 := by decide +kernel
  exact key c hc h

/-- Hexadecimal digits, an even number, are the digits of bytes. -/
theorem hex_pairs : ∀ (n : Nat) {t : List Nat}, HexDigits (2 * n) t → ∃ l : List Byte, l.length = n ∧ Pairs (t.map (BitVec.ofNat 8)) l
  | 0, t, h => by
    have : t = [] := List.length_eq_zero_iff.1 h.1
    subst this
    exact ⟨[], rfl, .nil⟩
  | n + 1, t, h => by
    obtain ⟨hl, hh⟩ := h
    match t, hl, hh with
    | a :: b :: t, hl, hh =>
      obtain ⟨l, h1, h2⟩ := hex_pairs n (t := t) ⟨by simp at hl; omega, fun c hc => hh c (by simp [hc])⟩
      obtain ⟨-, x, hx⟩ := hex_digit (hh a (by simp))
      obtain ⟨-, y, hy⟩ := hex_digit (hh b (by simp))
      exact ⟨_ :: l, by simp [h1], .cons hx hy h2⟩

theorem filter_hex {n : Nat} {t : List Nat} (h : HexDigits n t) : t.filter isHex = t := List.filter_eq_self.2 h.2

theorem filter_dash {t : List Nat} (h : Dash t) : t.filter isHex = [] := by
  rcases h with rfl | rfl <;> rfl

theorem dash_count {t : List Nat} (h : Dash t) : t.count 45 = t.length := by
  rcases h with rfl | rfl <;> rfl

theorem hex_count {n : Nat} {t : List Nat} (h : HexDigits n t) : t.count 45 = 0 :=
  List.count_eq_zero.2 fun hm => absurd (h.2 _ hm) (by decide)

theorem small {t : List Nat} (h : Lex.GuidText t) : ∀ c ∈ t, c < 128 := fun c hc => by
  rcases h.runes c hc with h | rfl
  · exact (hex_digit h).1
  · decide

/-- So many dashes, so long. -/
theorem length_eq {t : List Nat} (h : Lex.GuidText t) : t.length = 32 + t.count 45 ∧ t.count 45 ≤ 4 := by
  obtain ⟨a, d₁, b, d₂, c, d₃, d, d₄, e, rfl, ha, h1, hb, h2, hc, h3, hd, h4, he⟩ := h
  simp only [List.count_append, List.length_append, hex_count ha, hex_count hb, hex_count hc, hex_count hd, hex_count he, dash_count h1,
    dash_count h2, dash_count h3, dash_count h4, ha.1, hb.1, hc.1, hd.1, he.1]
  have hle : ∀ {t : List Nat}, Dash t → t.length ≤ 1 := fun h => by rcases h with rfl | rfl <;> simp
  have := hle h1
  have := hle h2
  have := hle h3
  have := hle h4
  omega

/-- The bytes of the five groups, and what the text is with all dashes and with none. -/
theorem groups {t : List Nat} (h : Lex.GuidText t) : ∃ g : Guid.Guid, DigitsOf t g ∧
    (t.count 45 = 4 → Grouped (Utf8.text t) g) ∧ (t.count 45 = 0 → Pairs (Utf8.text t) g.bytes) := by
  have hsm := small h
  rw [show Utf8.text t = t.map (BitVec.ofNat 8) from text_ascii hsm]
  have hf : Utf8.text (t.filter isHex) = (t.filter isHex).map (BitVec.ofNat 8) := text_ascii fun c hc => hsm c (List.mem_filter.1 hc).1
  unfold DigitsOf
  rw [hf]
  obtain ⟨a, d₁, b, d₂, c, d₃, d, d₄, e, rfl, ha, h1, hb, h2, hc, h3, hd, h4, he⟩ := h
  obtain ⟨la, na, pa⟩ := hex_pairs 4 ha
  obtain ⟨lb, nb, pb⟩ := hex_pairs 2 hb
  obtain ⟨lc, nc, pc⟩ := hex_pairs 2 hc
  obtain ⟨ld, nd, pd⟩ := hex_pairs 2 hd
  obtain ⟨le, ne, pe⟩ := hex_pairs 6 he
  have hall := pa.append (pb.append (pc.append (pd.append pe)))
  have d4 : (la ++ (lb ++ (lc ++ (ld ++ le)))).drop 4 = lb ++ (lc ++ (ld ++ le)) := List.drop_left' na
  have d6 : (la ++ (lb ++ (lc ++ (ld ++ le)))).drop (4 + 2) = lc ++ (ld ++ le) := by rw [← List.drop_drop, d4, List.drop_left' nb]
  have d8 : (la ++ (lb ++ (lc ++ (ld ++ le)))).drop (4 + 2 + 2) = ld ++ le := by rw [← List.drop_drop, d6, List.drop_left' nc]
  have d10 : (la ++ (lb ++ (lc ++ (ld ++ le)))).drop (4 + 2 + 2 + 2) = le := by rw [← List.drop_drop, d8, List.drop_left' nd]
  refine ⟨⟨la ++ (lb ++ (lc ++ (ld ++ le))), by simp [na, nb, nc, nd, ne]⟩, ?_, fun hn => ?_, fun hn => ?_⟩
  · simpa [List.filter_append, filter_hex ha, filter_hex hb, filter_hex hc, filter_hex hd, filter_hex he, filter_dash h1, filter_dash h2,
      filter_dash h3, filter_dash h4] using hall
  · have hne : ∀ {t : List Nat}, Dash t → t.length ≠ 0 → t = [45] := fun h hn => by rcases h with rfl | rfl <;> simp_all
    have hle : ∀ {t : List Nat}, Dash t → t.length ≤ 1 := fun h => by rcases h with rfl | rfl <;> simp
    simp only [List.count_append, hex_count ha, hex_count hb, hex_count hc, hex_count hd, hex_count he, dash_count h1,
      dash_count h2, dash_count h3, dash_count h4] at hn
    have l1 := hle h1
    have l2 := hle h2
    have l3 := hle h3
    have l4 := hle h4
    obtain rfl := hne h1 (by omega)
    obtain rfl := hne h2 (by omega)
    obtain rfl := hne h3 (by omega)
    obtain rfl := hne h4 (by omega)
    refine ⟨a.map (BitVec.ofNat 8), b.map (BitVec.ofNat 8), c.map (BitVec.ofNat 8), d.map (BitVec.ofNat 8), e.map (BitVec.ofNat 8), ?_, ?_, ?_, ?_, ?_, ?_⟩
    · simp [Guid.ascii]
    · change Pairs _ (List.take 4 (la ++ _))
      rw [List.take_left' na]; exact pa
    · change Pairs _ (List.take 2 (List.drop 4 (la ++ _)))
      rw [d4, List.take_left' nb]; exact pb
    · change Pairs _ (List.take 2 (List.drop 6 (la ++ _)))
      rw [d6, List.take_left' nc]; exact pc
    · change Pairs _ (List.take 2 (List.drop 8 (la ++ _)))
      rw [d8, List.take_left' nd]; exact pd
    · change Pairs _ (List.drop 10 (la ++ _))
      rw [d10]; exact pe
  · have hne : ∀ {t : List Nat}, Dash t → t.length = 0 → t = [] := fun _ hn => List.length_eq_zero_iff.1 hn
    simp only [List.count_append, hex_count ha, hex_count hb, hex_count hc, hex_count hd, hex_count he, dash_count h1,
      dash_count h2, dash_count h3, dash_count h4] at hn
    obtain rfl := hne h1 (by omega)
    obtain rfl := hne h2 (by omega)
    obtain rfl := hne h3 (by omega)
    obtain rfl := hne h4 (by omega)
    simpa using hall

/-! ## Parse -/

/-- The bytes that `guid.Parse` accepts have one of four lengths. -/
theorem parse_refuses {s : List Byte} (h1 : s.length ≠ 32) (h2 : s.length = 36 → ∃ b r, s = b :: r ∧ ∀ x, ¬ Digit b x) (h3 : s.length ≠ 38)
    (h4 : s.length ≠ 45) : (Guid.parse s).2 = false := by
  by_contra hc
  have h : Guid.parse s = ((Guid.parse s).1, true) := by
    rw [Bool.not_eq_false] at hc
    exact Prod.ext rfl hc
  rcases (Guid.C99_accepts_partial s _).1 h with hg | ⟨a, b, t, rfl, hg⟩ | ⟨u, t, rfl, hu, hg⟩ | hp
  · obtain ⟨b, r, hb, hd⟩ := h2 hg.length
    obtain ⟨t1, t2, t3, t4, t5, e, p1, -⟩ := hg
    have hl := p1.length
    rw [List.length_take, (Guid.parse s).1.len] at hl
    generalize List.take 4 (Guid.parse s).1.bytes = l at p1
    cases p1 with
    | nil => simp at hl
    | cons ha _ _ =>
      rw [hb] at e
      simp only [List.cons_append, List.cons.injEq] at e
      exact hd _ (e.1 ▸ ha)
  · have := hg.length
    simp at h3
    omega
  · have := hg.length
    have hul : u.length = 9 := by
      have := congrArg List.length hu
      simpa [Guid.ascii] using this
    simp [hul, this] at h4
  · have hl := hp.length
    rw [(Guid.parse s).1.len] at hl
    omega

theorem unquote_quote (s : List Byte) : unquote (ch '\'') (39#8 :: (s ++ [39#8])) = .ok s := by
  change (if (39#8 : Byte) = ch '\'' then inner (39#8 :: (s ++ [39#8])) else .ok (39#8 :: (s ++ [39#8]))) = _
  rw [if_pos (by decide)]
  cases s with
  | nil => rfl
  | cons b t =>
    simp only [List.cons_append, inner]
    rw [← List.cons_append, List.dropLast_concat]

theorem unquote_other {b : Byte} (s : List Byte) (h : b ≠ 39#8) : unquote (ch '\'') (b :: s) = .ok (b :: s) := by
  change (if b = ch '\'' then _ else _) = _
  rw [if_neg (by simpa [ch] using h)]

/-! ## C144 -/

theorem text_quoted (g : List Nat) : Utf8.text (39 :: (g ++ [39])) = 39#8 :: (Utf8.text g ++ [39#8]) := by
  rw [Utf8.text_cons, Utf8.text_append]
  rfl

theorem text_braces (g : List Nat) : Utf8.text (123 :: (g ++ [125])) = 123#8 :: (Utf8.text g ++ [125#8]) := by
  rw [Utf8.text_cons, Utf8.text_append]
  rfl

theorem text_bare {g : List Nat} (h : Lex.GuidText g) : ∃ b r, Utf8.text g = b :: r ∧ b ≠ 39#8 := by
  have hs := small h
  obtain ⟨c, r, rfl, hc⟩ := h.head
  refine ⟨BitVec.ofNat 8 c, r.map (BitVec.ofNat 8), text_ascii hs, fun he => ?_⟩
  have hlt := (hex_digit hc).1
  have := congrArg BitVec.toNat he
  simp only [BitVec.toNat_ofNat] at this
  have h39 : c = 39 := by omega
  subst h39
  exact absurd hc (by decide)

theorem length_text {g : List Nat} (h : Lex.GuidText g) : (Utf8.text g).length = 32 + g.count 45 := by
  rw [show Utf8.text g = _ from text_ascii (small h), List.length_map]
  exact (length_eq h).1

/-- What `parseGuidLiteral` makes of a GUID without its quotes. -/
theorem parse_bare {g : List Nat} (h : Lex.GuidText g) : ∃ v, DigitsOf g v ∧ (g.count 45 = 4 ∨ g.count 45 = 0 → Guid.parse (Utf8.text g) = (v, true)) ∧
    (g.count 45 = 4 → Guid.parse (123#8 :: (Utf8.text g ++ [125#8])) = (v, true)) := by
  obtain ⟨v, h1, h2, h3⟩ := groups h
  refine ⟨v, h1, fun hn => (Guid.C99_accepts_partial _ _).2 ?_, fun hn => (Guid.C99_accepts_partial _ _).2 (.inr (.inl ⟨_, _, _, rfl, h2 hn⟩))⟩
  rcases hn with hn | hn
  · exact .inl (h2 hn)
  · exact .inr (.inr (.inr (h3 hn)))

theorem refuse_bare {g : List Nat} (h : Lex.GuidText g) (h4 : g.count 45 ≠ 4) (h0 : g.count 45 ≠ 0) : (Guid.parse (Utf8.text g)).2 = false := by
  have hl := length_text h
  have := (length_eq h).2
  exact parse_refuses (by omega) (fun _ => by omega) (by omega) (by omega)

theorem refuse_braces {g : List Nat} (h : Lex.GuidText g) (h4 : g.count 45 ≠ 4) : (Guid.parse (123#8 :: (Utf8.text g ++ [125#8]))).2 = false := by
  have hl : (123#8 :: (Utf8.text g ++ [125#8])).length = 34 + g.count 45 := by
    simp only [List.length_cons, List.length_append, List.length_nil, length_text h]
    omega
  have := (length_eq h).2
  refine parse_refuses (by omega) (fun _ => ⟨_, _, rfl, fun x hx => ?_⟩) (by omega) (by omega)
  exact absurd ((Guid.digit_iff _ _).1 hx).1 (by decide)

/-- **C144, what is read**: of the texts that the grammar takes for a GUID, those with all four dashes, in any of the three forms, and those without
a dash, bare or in quotes, are the Guid of their digits. -/
theorem C144_guid_partial {g : List Nat} (h : Lex.GuidText g) : ∃ v, DigitsOf g v ∧
    (g.count 45 = 4 ∨ g.count 45 = 0 → literal (P := go R) (.guid (Utf8.text g)) = .ok (.guid v) ∧
      literal (P := go R) (.guid (Utf8.text (39 :: (g ++ [39])))) = .ok (.guid v)) ∧
    (g.count 45 = 4 → literal (P := go R) (.guid (Utf8.text (123 :: (g ++ [125])))) = .ok (.guid v)) := by
  obtain ⟨v, h1, h2, h3⟩ := parse_bare h
  refine ⟨v, h1, fun hn => ⟨?_, ?_⟩, fun hn => ?_⟩
  · obtain ⟨b, r, hb, hq⟩ := text_bare h
    have hp := h2 hn
    rw [hb] at hp ⊢
    simp only [literal, unquote_other _ hq, Res.bind_ok]
    change (if (Guid.parse _).2 then Res.ok (Val.guid (Guid.parse _).1) else _) = _
    rw [hp]
    rfl
  · rw [text_quoted]
    simp only [literal, unquote_quote, Res.bind_ok]
    rw [h2 hn]
    rfl
  · rw [text_braces]
    simp only [literal, unquote_other _ (show (123#8 : Byte) ≠ 39#8 by decide), Res.bind_ok]
    rw [h3 hn]
    rfl

/-- **C144, false**: all others are refused, though the grammar takes them for a GUID: those with some of the dashes, and those in braces without any. -/
theorem C144_refused_false {g : List Nat} (h : Lex.GuidText g) (h4 : g.count 45 ≠ 4) :
    literal (P := go R) (.guid (Utf8.text (123 :: (g ++ [125])))) = .panic ∧
    (g.count 45 ≠ 0 → literal (P := go R) (.guid (Utf8.text g)) = .panic ∧ literal (P := go R) (.guid (Utf8.text (39 :: (g ++ [39])))) = .panic) := by
  refine ⟨?_, fun h0 => ⟨?_, ?_⟩⟩
  · rw [text_braces]
    simp only [literal, unquote_other _ (show (123#8 : Byte) ≠ 39#8 by decide), Res.bind_ok]
    rw [refuse_braces h h4]
    rfl
  · obtain ⟨b, r, hb, hq⟩ := text_bare h
    have hp := refuse_bare h h4 h0
    rw [hb] at hp ⊢
    simp only [literal, unquote_other _ hq, Res.bind_ok]
    change (if (Guid.parse _).2 then Res.ok (Val.guid (Guid.parse _).1) else _) = _
    rw [hp]
    rfl
  · rw [text_quoted]
    simp only [literal, unquote_quote, Res.bind_ok]
    rw [refuse_bare h h4 h0]
    rfl

/-! ## From the text -/

theorem tokens_quoted {g : List Nat} (h : Lex.GuidText g) : tokens (Utf8.text (39 :: (g ++ [39]))) = [.guid (Utf8.text (39 :: (g ++ [39])))] := by
  have hv : ∀ r ∈ 39 :: (g ++ [39]), Utf8.Valid r := fun r hr => by
    have : r < 128 := by
      simp only [List.mem_cons, List.mem_append, List.not_mem_nil, or_false] at hr
      rcases hr with rfl | hr | rfl
      · decide
      · exact small h r hr
      · decide
    unfold Utf8.Valid
    omega
  unfold tokens
  rw [Utf8.runes_text hv]
  have := C82_guid_quoted (r := []) h (by simp)
  rw [List.append_nil] at this
  rw [this]
  rfl

theorem tokens_braces {g : List Nat} (h : Lex.GuidText g) : tokens (Utf8.text (123 :: (g ++ [125]))) = [.guid (Utf8.text (123 :: (g ++ [125])))] := by
  have hv : ∀ r ∈ 123 :: (g ++ [125]), Utf8.Valid r := fun r hr => by
    have : r < 128 := by
      simp only [List.mem_cons, List.mem_append, List.not_mem_nil, or_false] at hr
      rcases hr with rfl | hr | rfl
      · decide
      · exact small h r hr
      · decide
    unfold Utf8.Valid
    omega
  unfold tokens
  rw [Utf8.runes_text hv]
  have := C82_guid_braces (r := []) h
  rw [List.append_nil] at this
  rw [this]
  rfl

/-- Both ways in which the listener reads a GUID are one. -/
theorem guidLiteral_of (s : Str) : Table.Parser.guidLiteral (P := go R) s = match literal (P := go R) (.guid s) with
    | .ok (.guid v) => .ok v
    | .err => .err
    | _ => .panic := by
  cases hu : unquote (ch '\'') s with
  | ok t =>
    by_cases h : ((go R).guidParse t).2 = true
    · simp only [Table.Parser.guidLiteral, literal, hu, Res.bind_ok, if_pos h]
      rfl
    · simp only [Table.Parser.guidLiteral, literal, hu, Res.bind_ok, if_neg h]
  | err =>
    simp only [Table.Parser.guidLiteral, literal, hu]
    rfl
  | panic =>
    simp only [Table.Parser.guidLiteral, literal, hu]
    rfl

/-- A lone GUID that is not read is an error. -/
theorem lone_refused {text s : Str} (ht : tokens text = [.guid s]) (hv : Table.Parser.guidLiteral (P := go R) s = .panic) :
    (Table.evaluateExpression text : Option (Res (Val (go R)))) = some .err := by
  have hl : Listed [S.guid s] (tokens text) := by rw [ht]; simpa [S.toks] using Listed.one 0 0 (S.guid s)
  unfold Table.evaluateExpression
  rw [if_neg (Table.listed_text hl)]
  unfold Table.Parser.expressionTrees
  rw [Table.read_listed (by simp [S.WF]) hl]
  simp only [Option.map_some, Res.bind_ok, Table.Parser.listenAll, Table.Parser.listen, Table.Parser.statementOf, hv]
  rfl

/-- **C144, from the text**: EvaluateExpression of a GUID in quotes gives the Guid of its digits if it has all dashes or none, in braces if it has
all, and an error if not. -/
theorem C144_text {g : List Nat} (h : Lex.GuidText g) : ∃ v, DigitsOf g v ∧
    (Table.evaluateExpression (Utf8.text (39 :: (g ++ [39]))) : Option (Res (Val (go R)))) =
      some (if g.count 45 = 4 ∨ g.count 45 = 0 then .ok (.guid v) else .err) ∧
    (Table.evaluateExpression (Utf8.text (123 :: (g ++ [125]))) : Option (Res (Val (go R)))) = some (if g.count 45 = 4 then .ok (.guid v) else .err) := by
  obtain ⟨v, h1, h2, h3⟩ := C144_guid_partial (R := R) h
  refine ⟨v, h1, ?_, ?_⟩
  · split
    · next hn => exact Table.C90_guid (tokens_quoted h) (by rw [guidLiteral_of, (h2 hn).2])
    · next hn =>
      rw [not_or] at hn
      exact lone_refused (tokens_quoted h) (by rw [guidLiteral_of, ((C144_refused_false h hn.1).2 hn.2).2])
  · split
    · next hn => exact Table.C90_guid (tokens_braces h) (by rw [guidLiteral_of, h3 hn])
    · next hn => exact lone_refused (tokens_braces h) (by rw [guidLiteral_of, (C144_refused_false h hn).1])

theorem tokens_bare {g : List Nat} (h : Lex.GuidText g) (h2 : 2 ≤ g.count 45) : tokens (Utf8.text g) = [.guid (Utf8.text g)] := by
  have hv : ∀ r ∈ g, Utf8.Valid r := fun r hr => by
    have := small h r hr
    unfold Utf8.Valid
    omega
  unfold tokens
  rw [Utf8.runes_text hv]
  have := C82_guid_dashes_partial (r := []) h h2 fun u hu hl => by
    rw [List.append_nil] at hu
    have := hu.length_le
    omega
  rw [List.append_nil] at this
  rw [this]
  rfl

/-- A lone GUID that is not read selects no signal ID and is an error. -/
theorem ids_refused (tables : Str → Option (Str × Table.Table (go R))) (sort : Table.Sorter (go R)) (depth : Nat) {text s primary : Str}
    {fields : Option Table.IDFields} (ht : tokens text = [.guid s]) (hv : Table.Parser.guidLiteral (P := go R) s = .panic) :
    Table.selectSignalIDSet tables sort depth text primary fields = some .err := by
  have hl : Listed [S.guid s] (tokens text) := by rw [ht]; simpa [S.toks] using Listed.one 0 0 (S.guid s)
  unfold Table.selectSignalIDSet
  rw [if_neg (Table.listed_text hl)]
  unfold Table.Parser.evaluateText
  rw [Table.read_listed (by simp [S.WF]) hl]
  simp only [Option.map_some, Res.bind_ok, Table.Parser.listenAll, Table.Parser.listen, Table.Parser.statementOf, hv]
  rfl

/-- **C144, signal IDs**: SelectSignalIDSet of a GUID as the publisher and the documentation write it, with all dashes, bare, in quotes or in
braces, selects the Guid of its digits unless that is zero; with two or three of the dashes each of the forms is an error. -/
theorem C144_ids {g : List Nat} (h : Lex.GuidText g) (h2 : 2 ≤ g.count 45) (tables : Str → Option (Str × Table.Table (go R)))
    (sort : Table.Sorter (go R)) (depth : Nat) (primary : Str) (fields : Option Table.IDFields) : ∃ v, DigitsOf g v ∧
    ∀ form ∈ [g, 39 :: (g ++ [39]), 123 :: (g ++ [125])],
      (g.count 45 = 4 → ∃ set, Table.selectSignalIDSet tables sort depth (Utf8.text form) primary fields = some (.ok (some set)) ∧
        ∀ k, k ∈ set ↔ k = v ∧ Guid.isZero v = false) ∧
      (g.count 45 ≠ 4 → Table.selectSignalIDSet tables sort depth (Utf8.text form) primary fields = some .err) := by
  obtain ⟨v, h1, hr, hb⟩ := C144_guid_partial (R := R) h
  refine ⟨v, h1, fun form hf => ?_⟩
  simp only [List.mem_cons, List.not_mem_nil, or_false] at hf
  rcases hf with rfl | rfl | rfl
  · exact ⟨fun h4 => Table.C88_guid tables sort depth (tokens_bare h h2) (hr (.inl h4)).1,
      fun h4 => ids_refused tables sort depth (tokens_bare h h2) (by rw [guidLiteral_of, ((C144_refused_false h h4).2 (by omega)).1])⟩
  · exact ⟨fun h4 => Table.C88_guid tables sort depth (tokens_quoted h) (hr (.inl h4)).2,
      fun h4 => ids_refused tables sort depth (tokens_quoted h) (by rw [guidLiteral_of, ((C144_refused_false h h4).2 (by omega)).2])⟩
  · exact ⟨fun h4 => Table.C88_guid tables sort depth (tokens_braces h) (hb h4),
      fun h4 => ids_refused tables sort depth (tokens_braces h) (by rw [guidLiteral_of, (C144_refused_false h h4).1])⟩

/-! ## Examples -/

/-- A GUID with two dashes of four. -/
def twoDashes : List Nat := codes "12345678-9ABC-DEF0123456789abcdef0"

/-- `C144_ids` is not vacuous. -/
example : Lex.GuidText twoDashes ∧ 2 ≤ twoDashes.count 45 ∧ twoDashes.count 45 ≠ 4 :=
  ⟨⟨codes "12345678", [45], codes "9ABC", [45], codes "DEF0", [], codes "1234", [], codes "56789abcdef0", by decide, ⟨by decide, by decide⟩, .inr rfl,
    ⟨by decide, by decide⟩, .inr rfl, ⟨by decide, by decide⟩, .inl rfl, ⟨by decide, by decide⟩, .inl rfl, ⟨by decide, by decide⟩⟩, by decide, by decide⟩

/-- A GUID with one dash of four. -/
def oneDash : List Nat := codes "12345678-9ABCDEF0123456789abcdef0"

theorem oneDash_guid : Lex.GuidText oneDash :=
  ⟨codes "12345678", [45], codes "9ABC", [], codes "DEF0", [], codes "1234", [], codes "56789abcdef0", by decide, ⟨by decide, by decide⟩, .inr rfl,
    ⟨by decide, by decide⟩, .inl rfl, ⟨by decide, by decide⟩, .inl rfl, ⟨by decide, by decide⟩, .inl rfl, ⟨by decide, by decide⟩⟩

/-- The same without dashes. -/
def noDash : List Nat := codes "123456789ABCDEF0123456789abcdef0"

theorem noDash_guid : Lex.GuidText noDash :=
  ⟨codes "12345678", [], codes "9ABC", [], codes "DEF0", [], codes "1234", [], codes "56789abcdef0", by decide, ⟨by decide, by decide⟩, .inl rfl,
    ⟨by decide, by decide⟩, .inl rfl, ⟨by decide, by decide⟩, .inl rfl, ⟨by decide, by decide⟩, .inl rfl, ⟨by decide, by decide⟩⟩

/-- `C144_text`: one dash is an error in quotes and in braces; no dash is a Guid in quotes and an error in braces. -/
example : (Table.evaluateExpression (Utf8.text (39 :: (oneDash ++ [39]))) : Option (Res (Val (go R)))) = some .err ∧
    ∃ v, DigitsOf noDash v ∧ (Table.evaluateExpression (Utf8.text (39 :: (noDash ++ [39]))) : Option (Res (Val (go R)))) = some (.ok (.guid v)) ∧
      (Table.evaluateExpression (Utf8.text (123 :: (noDash ++ [125]))) : Option (Res (Val (go R)))) = some .err := by
  obtain ⟨_, -, h, -⟩ := C144_text (R := R) oneDash_guid
  obtain ⟨v, hd, h1, h2⟩ := C144_text (R := R) noDash_guid
  exact ⟨h.trans (by rw [if_neg (by decide)]), v, hd, h1.trans (by rw [if_pos (by decide)]), h2.trans (by rw [if_neg (by decide)])⟩

/-- `C144_guid_partial` and `C144_refused_false` are not vacuous. -/
example : noDash.count 45 = 0 ∧ oneDash.count 45 = 1 := by decide

end Verif.Lib.GuidText
