import Verif.Lex.LiteralTokens
import Verif.Parse.Precedence

/-!
# Tokens written with blanks between them are read as they were written (data/FilterExpressionSyntax.g4 L26-371)
-/

namespace Verif.Lex

open Verif.Expr Verif.Parse

/-! ## Specification -/

/-- Only blanks. -/
def Blanks (b : List Nat) : Prop := ∀ c ∈ b, isBlank c = true

/-- The given texts, one after the other, with blanks before, between and behind them; between two there is at least one. -/
inductive Spread : List (List Nat) → List Nat → Prop where
  | none {b : List Nat} (hb : Blanks b) : Spread [] b
  | some {b t s : List Nat} {ts : List (List Nat)} (hb : Blanks b) (hs : Spread ts s) (next : ∀ c, s.head? = some c → isBlank c = true) :
      Spread (t :: ts) (b ++ (t ++ s))

/-- A text that is one token of the parser when it stands alone, and is not the start of a comment or a date when more follows. -/
structure Stands (k : Kind) (t : List Nat) : Prop where
  alone : lex t = [(k, t)]
  known : k ≠ .unexpected
  seen : k ≠ .space ∧ k ≠ .lineComment ∧ k ≠ .blockComment
  key : k = .measurementKey → t.head? ≠ some 35 ∧ ¬ [45, 45] <+: t

/-! ## One token -/

theorem lex_ne_nil {s : List Nat} (hs : s ≠ []) : ∃ k t r, lex s = (k, t) :: lex r ∧ s = t ++ r ∧ First k s t := by
  obtain ⟨k, n, -, hn, hf⟩ := best_first hs
  have h := lex_first (k := k) (t := s.take n) (r := s.drop n) (by rw [List.take_append_drop]; exact hf)
  rw [List.take_append_drop] at h
  exact ⟨k, _, _, h, (List.take_append_drop n s).symm, hf⟩

theorem first_of_alone {k : Kind} {t : List Nat} (h : lex t = [(k, t)]) : First k t t := by
  have ht : t ≠ [] := by
    rintro rfl
    rw [lex_nil] at h
    cases h
  obtain ⟨k', t', r, h', -, hf⟩ := lex_ne_nil ht
  rw [h] at h'
  simp only [List.cons.injEq, Prod.mk.injEq] at h'
  obtain ⟨⟨rfl, rfl⟩, -⟩ := h'
  exact hf

theorem blank_acronym {c : Nat} (h : isBlank c = true) : isAcronym c = false ∧ isWordRune c = false ∧ isLetter c = false ∧ isDigit c = false ∧
    isHex c = false ∧ c ≠ 58 ∧ c ≠ 45 ∧ c ≠ 46 ∧ c ≠ 43 ∧ c ≠ 39 ∧ c ≠ 123 ∧ c ≠ 125 ∧ c ≠ 34 ∧ c ≠ 42 ∧ c ≠ 35 := by
  simp only [isBlank, Bool.or_eq_true, beq_iff_eq] at h
  rcases h with (((rfl | rfl) | rfl) | rfl) | rfl <;> decide

/-- A token that ends before a blank. -/
theorem First.blank {k : Kind} {t r : List Nat} (h : First k t t) (hk : k ≠ .unexpected) (hseen : k ≠ .space ∧ k ≠ .lineComment ∧ k ≠ .blockComment)
    (hkey : k = .measurementKey → t.head? ≠ some 35 ∧ ¬ [45, 45] <+: t) (hr : ∀ c, r.head? = some c → isBlank c = true) :
    First k (t ++ r) t := by
  obtain ⟨hmem, htake, hfirst⟩ := h
  have htext := htake.text hseen.2.2
  obtain ⟨d, x, hdx, hst⟩ := htake.starts hmem
  refine First.intro hmem (takes_text hseen.2.2 htext) fun l hl v hv hu => ?_
  by_cases hv0 : v = []
  · subst hv0
    rw [List.append_nil] at hu
    refine ⟨rfl, ?_⟩
    -- the same rule takes the text alone
    have : Takes l t t := by
      refine ⟨List.prefix_refl _, ?_⟩
      have h2 := hu.2
      split at h2
      · rename_i hb
        rw [if_pos hb]
        rcases h2 with h2 | ⟨-, h2⟩
        · exact .inl h2
        · exact .inr ⟨rfl, h2⟩
      · rename_i hb
        rw [if_neg hb]
        exact h2
    rcases hfirst l hl t this with h | ⟨-, h⟩
    · omega
    · exact h
  · exfalso
    obtain ⟨c, w, rfl⟩ := List.exists_cons_of_ne_nil hv0
    have hc := hr c (head_of_prefix hv)
    have hb := blank_acronym hc
    have hin : c ∈ t ++ c :: w := by simp
    by_cases hlb : l = .blockComment
    · have h2 := hu.2
      rw [if_pos hlb] at h2
      obtain ⟨q, hq⟩ : ∃ q, t ++ c :: w = 47 :: 42 :: q := by
        rcases h2 with ⟨q, hq, -⟩ | ⟨-, q, hq, -⟩
        · exact ⟨_, hq⟩
        · exact ⟨_, hq⟩
      rw [hdx] at hq
      simp only [List.cons_append, List.cons.injEq] at hq
      obtain ⟨rfl, hq⟩ := hq
      cases x with
      | nil =>
        simp only [List.nil_append, List.cons.injEq] at hq
        omega
      | cons y x =>
        simp only [List.cons_append, List.cons.injEq] at hq
        obtain ⟨rfl, hq⟩ := hq
        rcases starts_op hmem (x := (codes "/", .math .slash)) (by decide) (c := 47) (by decide) hst with ⟨a, o, rfl⟩ | rfl | rfl | rfl | rfl
        · have hops : ∀ x ∈ ops, x.1.take 2 ≠ [47, 42] := by decide
          have ht : t = a := htext
          exact hops _ (mem_op hmem) (by rw [← ht, hdx]; rfl)
        · cases hst
        · cases hst
        · exact hseen.2.2 rfl
        · exact hk rfl
    · have ht := hu.text hlb
      cases l with
      | op s o =>
        have hops : ∀ x ∈ ops, ∀ c ∈ x.1, isBlank c = false := by decide
        have h2 : t ++ c :: w = s := ht
        have := hops _ (mem_op hl) c (by rw [← h2]; exact hin)
        rw [hc] at this
        cases this
      | key s o =>
        have h2 := SameWord.letters (keys_capital _ (mem_key hl)) ht c hin
        rw [hb.2.2.1] at h2
        cases h2
      | boolean =>
        have h2 : isLetter c = true := by
          rcases ht with ht | ht
          · exact ht.letters (by decide) c hin
          · exact ht.letters (by decide) c hin
        rw [hb.2.2.1] at h2
        cases h2
      | ident =>
        have hend : ∀ {l r : Nat}, (l = 96 ∧ r = 96) ∨ (l = 91 ∧ r = 93) → Enclosed l r (t ++ c :: w) → False := by
          intro l r hlr hen
          obtain ⟨u, hu', -, -⟩ := id hen
          rw [hdx] at hu'
          simp only [List.cons_append, List.cons.injEq] at hu'
          obtain ⟨rfl, hu'⟩ := hu'
          rcases starts_mark hmem (by omega) hst with rfl | rfl
          · rcases htext with he | he | ⟨e, y, he, hw, -⟩
            · obtain ⟨z, hz, -⟩ := he
              have h2 := hdx.symm.trans hz
              simp only [List.cons.injEq] at h2
              rcases hlr with ⟨rfl, rfl⟩ | ⟨rfl, rfl⟩
              · rw [hz] at hen
                cases enclosed_end hen
              · omega
            · obtain ⟨z, hz, -⟩ := he
              have h2 := hdx.symm.trans hz
              simp only [List.cons.injEq] at h2
              rcases hlr with ⟨rfl, rfl⟩ | ⟨rfl, rfl⟩
              · omega
              · rw [hz] at hen
                cases enclosed_end hen
            · have h2 := hdx.symm.trans he
              simp only [List.cons.injEq] at h2
              rw [← h2.1] at hw
              have h96 : isWordStart 96 = false ∧ isWordStart 91 = false := by decide
              rcases hlr with ⟨rfl, rfl⟩ | ⟨rfl, rfl⟩
              · rw [h96.1] at hw; cases hw
              · rw [h96.2] at hw; cases hw
          · exact hk rfl
        rcases ht with he | he | he
        · exact hend (.inl ⟨rfl, rfl⟩) he
        · exact hend (.inr ⟨rfl, rfl⟩) he
        · have h2 := he.runes c hin
          rw [hb.2.1] at h2
          cases h2
      | integer =>
        rcases ht with ⟨-, hd⟩ | ⟨y, z, hyz, hy, -, hz⟩
        · have h2 := hd c hin
          rw [hb.2.2.2.1] at h2
          cases h2
        · rw [hyz] at hin
          simp only [List.mem_cons] at hin
          have h48 : isBlank 48 = false ∧ isBlank 88 = false ∧ isBlank 120 = false := by decide
          rcases hin with rfl | rfl | hin
          · rw [h48.1] at hc; cases hc
          · rcases hy with rfl | rfl
            · rw [h48.2.1] at hc; cases hc
            · rw [h48.2.2] at hc; cases hc
          · have h2 := hz c hin
            rw [hb.2.2.2.2.1] at h2
            cases h2
      | numeric =>
        rcases number_next ht with h2 | h2 | rfl | rfl | ⟨h2, -⟩
        · rw [hb.2.2.2.1] at h2; cases h2
        · exact hb.2.2.2.2.2.2.2.1 h2
        · cases hc
        · cases hc
        · omega
      | guid =>
        have hg : ∀ g, GuidText g → c ∈ g → False := by
          intro g hg hcg
          rcases hg.runes c hcg with h2 | h2
          · rw [hb.2.2.2.2.1] at h2; cases h2
          · exact hb.2.2.2.2.2.2.1 h2
        rcases ht with ⟨g, hg', hgt⟩ | ⟨g, hg', hgt⟩ | hgt
        · rw [hg'] at hin
          simp only [List.mem_cons, List.mem_append, List.not_mem_nil, or_false] at hin
          rcases hin with h2 | h2 | h2
          · omega
          · exact hg g hgt h2
          · omega
        · rw [hg'] at hin
          simp only [List.mem_cons, List.mem_append, List.not_mem_nil, or_false] at hin
          rcases hin with h2 | h2 | h2
          · omega
          · exact hg g hgt h2
          · omega
        · exact hg _ hgt hin
      | measurementKey =>
        rcases KeyText.runes ht c hin with h2 | h2
        · rw [hb.1] at h2; cases h2
        · exact hb.2.2.2.2.2.1 h2
      | pointTag =>
        obtain ⟨a, ha, -, hac⟩ := ht
        rw [ha] at hin
        simp only [List.mem_cons, List.mem_append, List.not_mem_nil, or_false] at hin
        rcases hin with h2 | h2 | h2
        · omega
        · have h3 := hac c h2
          rw [hb.1] at h3; cases h3
        · omega
      | string =>
        obtain ⟨u, hu'⟩ := ht
        have hd39 : d = 39 := by
          rw [hdx] at hu'
          simp only [List.cons_append, List.cons.injEq] at hu'
          exact hu'.1
        have hq : ∃ s, t = 39 :: (quoted s ++ [39]) := by
          rw [hd39] at hst
          rcases starts_quote hmem hst with rfl | rfl | rfl
          · rcases htext with ⟨g, hg, hgt⟩ | ⟨g, hg, -⟩ | hg
            · exact ⟨g, by rw [quoted_id hgt.noQuote, hg]⟩
            · have h2 := hdx.symm.trans hg
              simp only [List.cons.injEq] at h2
              omega
            · exact absurd (by rw [hdx, hd39]; simp) hg.noQuote
          · exact htext
          · exact absurd rfl hk
        obtain ⟨s, rfl⟩ := hq
        simp only [List.cons_append, List.append_assoc, List.cons.injEq, true_and, List.nil_append] at hu'
        have := quoted_end hu'
        omega
      | datetime =>
        obtain ⟨u, hu', -, -⟩ := id ht
        have hd35 : d = 35 := by
          rw [hdx] at hu'
          simp only [List.cons_append, List.cons.injEq] at hu'
          exact hu'.1
        rw [hd35] at hst
        rcases starts_hash hmem hst with rfl | rfl | rfl
        · exact (hkey rfl).1 (by rw [hdx, hd35]; rfl)
        · obtain ⟨z, hz, -⟩ := htext
          have ht' : Enclosed 35 35 (t ++ c :: w) := ht
          rw [hz] at ht'
          cases enclosed_end ht'
        · exact hk rfl
      | lineComment =>
        obtain ⟨u, hu', -⟩ := ht
        rw [hdx] at hu'
        simp only [List.cons_append, List.cons.injEq] at hu'
        obtain ⟨rfl, hu'⟩ := hu'
        cases x with
        | nil =>
          simp only [List.nil_append, List.cons.injEq] at hu'
          omega
        | cons y x =>
          simp only [List.cons_append, List.cons.injEq] at hu'
          obtain ⟨rfl, hu'⟩ := hu'
          rcases starts_op hmem (x := (codes "-", .math .minus)) (by decide) (c := 45) (by decide) hst with ⟨a, o, rfl⟩ | rfl | rfl | rfl | rfl
          · have hops : ∀ x ∈ ops, x.1.take 2 ≠ [45, 45] := by decide
            have ht : t = a := htext
            exact hops _ (mem_op hmem) (by rw [← ht, hdx]; rfl)
          · exact (hkey rfl).2 (by rw [hdx]; exact ⟨x, rfl⟩)
          · exact hseen.2.1 rfl
          · cases hst
          · exact hk rfl
      | blockComment => exact hlb rfl
      | space =>
        obtain ⟨e, he, -⟩ := ht
        rw [hdx] at he
        simp at he
      | unexpected =>
        obtain ⟨e, he⟩ := ht
        rw [hdx] at he
        simp at he

/-- **A token that is one when it stands alone is one before a blank.** -/
theorem C85_before_blank_partial {k : Kind} {t r : List Nat} (h : Stands k t) (hr : ∀ c, r.head? = some c → isBlank c = true) :
    lex (t ++ r) = (k, t) :: lex r :=
  lex_first ((first_of_alone h.alone).blank h.known h.seen h.key hr)

/-- **Measurement keys that begin with `#` are not**, as one more `#` makes a date of them. -/
theorem C85_key_false : ¬ ∀ (t r : List Nat), lex t = [(.measurementKey, t)] → lex (t ++ 32 :: r) = (.measurementKey, t) :: lex (32 :: r) := by
  intro h
  have h1 := h (codes "#a:1") (codes "#b:1") (by decide +kernel)
  have h2 : lex (codes "#a:1" ++ 32 :: codes "#b:1") = (.datetime, codes "#a:1 #") :: [(.measurementKey, codes "b:1")] := by decide +kernel
  rw [h2] at h1
  simp at h1

/-! ## Many tokens -/

theorem lex_blanks {b : List Nat} (hb : Blanks b) (s : List Nat) : lex (b ++ s) = b.map (fun c => (Kind.space, [c])) ++ lex s := by
  induction b with
  | nil => rfl
  | cons c b ih =>
    rw [List.cons_append, C84_blank (hb c (by simp)), ih fun d hd => hb d (by simp [hd])]
    rfl

/-- The tokens of a text in runes that the parser sees, with their rules. -/
def seen (s : List Nat) : List (Kind × List Nat) := (lex s).filter fun x => (x.1.tok []).isSome

theorem seen_blanks {b : List Nat} (hb : Blanks b) (s : List Nat) : seen (b ++ s) = seen s := by
  unfold seen
  rw [lex_blanks hb, List.filter_append, List.filter_eq_nil_iff.2 ?_, List.nil_append]
  intro x hx
  obtain ⟨c, -, rfl⟩ := List.mem_map.1 hx
  simp [Kind.tok]

/-- **Tokens written with blanks around them are read as they were written.** -/
theorem C85_spread {xs : List (Kind × List Nat)} {s : List Nat} (hx : ∀ x ∈ xs, Stands x.1 x.2) (hs : Spread (xs.map (·.2)) s) : seen s = xs := by
  induction xs generalizing s with
  | nil =>
    cases hs with
    | none hb =>
      have := seen_blanks hb []
      rw [List.append_nil] at this
      rw [this]
      rfl
  | cons x xs ih =>
    cases hs with
    | @some b _ s' _ hb hs next =>
      have hst := hx x (by simp)
      rw [seen_blanks hb]
      unfold seen
      rw [C85_before_blank_partial hst next, List.filter_cons_of_pos]
      · rw [show (lex s').filter _ = seen s' from rfl, ih (fun y hy => hx y (by simp [hy])) hs]
      · have := hst.seen
        cases hk : x.1 <;> rw [hk] at this <;> simp_all [Kind.tok]

theorem tok_isSome (k : Kind) (a b : Str) : (k.tok a).isSome = (k.tok b).isSome := by cases k <;> rfl

theorem tokens_seen {s : List Nat} (hs : ∀ c ∈ s, Utf8.Valid c) : tokens (Utf8.text s) = (seen s).filterMap fun x => x.1.tok (Utf8.text x.2) := by
  unfold tokens seen
  rw [Utf8.runes_text hs, List.filterMap_filter]
  refine List.filterMap_congr fun x _ => ?_
  have := tok_isSome x.1 [] (Utf8.text x.2)
  split
  · rfl
  · rename_i h
    rw [this] at h
    simpa using h

/-- The text of a token: alone it is read as this token. -/
def Writes (t : Tok) (s : List Nat) : Prop := (∀ c ∈ s, Utf8.Valid c) ∧ ∃ k, Stands k s ∧ k.tok (Utf8.text s) = some t

theorem Spread.valid {ts : List (List Nat)} {s : List Nat} (h : Spread ts s) (ht : ∀ t ∈ ts, ∀ c ∈ t, Utf8.Valid c) : ∀ c ∈ s, Utf8.Valid c := by
  have hblank : ∀ {b : List Nat}, Blanks b → ∀ c ∈ b, Utf8.Valid c := by
    intro b hb c hc
    have := hb c hc
    simp only [isBlank, Bool.or_eq_true, beq_iff_eq] at this
    unfold Utf8.Valid
    omega
  induction h with
  | none hb => exact hblank hb
  | some hb _ _ ih =>
    intro c hc
    simp only [List.mem_append] at hc
    rcases hc with hc | hc | hc
    · exact hblank hb c hc
    · exact ht _ (by simp) c hc
    · exact ih (fun t h => ht t (by simp [h])) c hc

/-- **The parser is given the tokens that were written.** -/
theorem C85_tokens {toks : List Tok} {ts : List (List Nat)} (h : List.Forall₂ Writes toks ts) {s : List Nat} (hs : Spread ts s) :
    tokens (Utf8.text s) = toks := by
  have hvalid : ∀ t ∈ ts, ∀ c ∈ t, Utf8.Valid c := by
    intro t ht
    obtain ⟨a, -, ha⟩ : ∃ a ∈ toks, Writes a t := by
      clear hs
      induction h with
      | nil => cases ht
      | cons h1 _ ih =>
        rcases List.mem_cons.1 ht with rfl | ht
        · exact ⟨_, by simp, h1⟩
        · obtain ⟨a, ha, h2⟩ := ih ht
          exact ⟨a, by simp [ha], h2⟩
    exact ha.1
  obtain ⟨xs, hx1, hx2, hx3⟩ : ∃ xs : List (Kind × List Nat), xs.map (·.2) = ts ∧ (∀ x ∈ xs, Stands x.1 x.2) ∧
      xs.filterMap (fun x => x.1.tok (Utf8.text x.2)) = toks := by
    clear hs hvalid
    induction h with
    | nil => exact ⟨[], rfl, by simp, rfl⟩
    | @cons a t _ _ h1 _ ih =>
      obtain ⟨xs, h2, h3, h4⟩ := ih
      obtain ⟨-, k, h5, h6⟩ := h1
      refine ⟨(k, t) :: xs, by simp [h2], fun x hx => ?_, by simp [h6, h4]⟩
      rcases List.mem_cons.1 hx with rfl | hx
      · exact h5
      · exact h3 x hx
  rw [tokens_seen (hs.valid hvalid), C85_spread hx2 (by rw [hx1]; exact hs), hx3]

/-! ## Expressions -/

/-- **The text of an expression is parsed to it**: whatever texts its tokens have, and whatever blanks are between them. -/
theorem C86_parse {e : E} (he : e.WF 0) {ts : List (List Nat)} (h : List.Forall₂ Writes e.toks ts) {s : List Nat} (hs : Spread ts s) :
    parse (tokens (Utf8.text s)) = some e := by
  rw [C85_tokens h hs]
  exact (C70_parse _ e).2 ⟨he, rfl⟩

end Verif.Lex
