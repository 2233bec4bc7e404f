import Verif.Lex.Spread

/-!
# Texts written one after the other with a blank between them (data/FilterExpressionSyntax.g4 L215-371)
-/

namespace Verif.Lex

open Verif.Expr Verif.Parse

/-- What makes a piece `t` of a text with the rest `a` stay one whatever is written behind the text: it is no stray character, no
measurement key that begins like a date or a comment, no comment that is open, and no string before another quote. -/
structure Firm (k : Kind) (t a : List Nat) : Prop where
  known : k ≠ .unexpected
  key : k = .measurementKey → t.head? ≠ some 35 ∧ ¬ [45, 45] <+: t
  line : k = .lineComment → a ≠ []
  block : k = .blockComment → ∃ c, t = 47 :: 42 :: (c ++ [42, 47])
  quote : t.head? = some 39 → a.head? ≠ some 39

theorem number_runes {t : List Nat} (h : NumberText t) {c : Nat} (hc : c ∈ t) : isBlank c = false := by
  obtain ⟨a, v, rfl⟩ := List.append_of_mem hc
  rcases number_next h with h2 | h2 | h2 | h2 | ⟨h2 | h2, -⟩
  · cases hb : isBlank c with
    | false => rfl
    | true => rw [(blank_acronym hb).2.2.2.1] at h2; cases h2
  all_goals (subst h2; rfl)

/-- A line comment is taken up to the break. -/
theorem line_taken (s : List Nat) : Takes .lineComment (45 :: 45 :: s) (45 :: 45 :: s.takeWhile fun c => !isBreak c) := by
  refine ⟨?_, ?_⟩
  · obtain ⟨r, hr⟩ := List.takeWhile_prefix (p := fun c => !isBreak c) (l := s)
    exact ⟨r, by simp only [List.cons_append, hr]⟩
  · rw [if_neg (by decide)]
    exact ⟨_, rfl, fun c hc => by
      have := List.all_takeWhile (p := fun c => !isBreak c) (l := s)
      rw [List.all_eq_true] at this
      simpa using this c hc⟩

/-- Some comment is taken where `/*` is. -/
theorem block_taken (s : List Nat) : ∃ u, Takes .blockComment (47 :: 42 :: s) (47 :: 42 :: u) := by
  cases hc : closing s with
  | none => exact ⟨s, List.prefix_refl _, by rw [if_pos rfl]; exact .inr ⟨rfl, s, rfl, closing_none hc⟩⟩
  | some n =>
    obtain ⟨c, r, rfl, -, h3⟩ := closing_some hc
    exact ⟨c ++ [42, 47], ⟨r, by simp⟩, by rw [if_pos rfl]; exact .inl ⟨c, rfl, h3⟩⟩

/-- A piece stays one when something is written behind the text, after a blank. -/
theorem First.before {k : Kind} {t a r : List Nat} (h : First k (t ++ a) t) (hf : Firm k t a) (hr : ∀ c, r.head? = some c → isBlank c = true) :
    First k (t ++ (a ++ r)) t := by
  obtain ⟨hmem, htake, hfirst⟩ := h
  obtain ⟨hk, hkey, hline, hblock, hquote⟩ := hf
  obtain ⟨d, x, hdx, hst⟩ := htake.starts hmem
  have htext (h : k ≠ .blockComment) : k.Text t := htake.text h
  have htake' : Takes k (t ++ (a ++ r)) t := by
    refine ⟨List.prefix_append _ _, ?_⟩
    have h2 := htake.2
    split at h2
    · rename_i hb
      rw [if_pos hb]
      rcases h2 with h2 | ⟨-, c, h2, h3⟩
      · exact .inl h2
      · obtain ⟨c', hc'⟩ := hblock hb
        rw [h2] at hc'
        simp only [List.cons.injEq, true_and] at hc'
        exact absurd hc' (h3 c' [])
    · rename_i hb
      rwa [if_neg hb]
  refine First.intro hmem htake' fun l hl v hv hu => ?_
  by_cases hva : v <+: a
  · -- the same rule takes it in the text alone
    have : Takes l (t ++ a) (t ++ v) := by
      refine ⟨(List.prefix_append_right_inj t).2 hva, ?_⟩
      have h2 := hu.2
      split at h2
      · rename_i hb
        rw [if_pos hb]
        rcases h2 with h2 | ⟨h3, h2⟩
        · exact .inl h2
        · refine .inr ⟨?_, h2⟩
          have h4 := List.append_cancel_left h3
          have h5 := hva.length_le
          rw [h4, List.length_append] at h5
          have h6 : r = [] := List.length_eq_zero_iff.1 (by omega)
          rw [h3, h6, List.append_nil]
      · rename_i hb
        rwa [if_neg hb]
    rcases hfirst l hl _ this with h | ⟨h, h'⟩
    · simp at h
    · refine ⟨List.length_eq_zero_iff.1 ?_, h'⟩
      rw [List.length_append] at h
      omega
  · exfalso
    obtain ⟨c, w, rfl, hc⟩ : ∃ c w, v = a ++ c :: w ∧ isBlank c = true := by
      rcases List.prefix_or_prefix_of_prefix hv (List.prefix_append a r) with h | ⟨w, rfl⟩
      · exact absurd h hva
      · rw [List.prefix_append_right_inj] at hv
        cases w with
        | nil => exact absurd (by simp) hva
        | cons c w => exact ⟨c, w, rfl, hr c (head_of_prefix hv)⟩
    have hb := blank_acronym hc
    have hin : c ∈ t ++ (a ++ c :: w) := by simp
    by_cases hlb : l = .blockComment
    · have h2 := hu.2
      rw [if_pos hlb] at h2
      obtain ⟨q, hq⟩ : ∃ q, t ++ (a ++ c :: w) = 47 :: 42 :: q := by
        rcases h2 with ⟨q, hq, -⟩ | ⟨-, q, hq, -⟩
        · exact ⟨_, hq⟩
        · exact ⟨_, hq⟩
      have hq0 := hq
      rw [hdx] at hq
      simp only [List.cons_append, List.cons.injEq] at hq
      obtain ⟨rfl, hq⟩ := hq
      cases x with
      | nil =>
        rw [List.nil_append] at hq
        cases a with
        | nil =>
          simp only [List.nil_append, List.cons.injEq] at hq
          omega
        | cons y a =>
          simp only [List.cons_append, List.cons.injEq] at hq
          obtain ⟨rfl, -⟩ := hq
          obtain ⟨u, hu2⟩ := block_taken a
          rw [hdx] at hfirst
          have := hfirst _ (by decide) _ hu2
          simp at this
      | cons y x =>
        simp only [List.cons_append, List.cons.injEq] at hq
        obtain ⟨rfl, hq⟩ := hq
        rcases starts_op hmem (x := (codes "/", .math .slash)) (by decide) (c := 47) (by decide) hst with ⟨a', o, rfl⟩ | rfl | rfl | rfl | rfl
        · have hops : ∀ x ∈ ops, x.1.take 2 ≠ [47, 42] := by decide
          have ht : t = a' := htext (fun h => nomatch h)
          exact hops _ (mem_op hmem) (by rw [← ht, hdx]; rfl)
        · cases hst
        · cases hst
        · obtain ⟨z, hz⟩ := hblock rfl
          rw [hz] at h2
          rcases h2 with ⟨q', hq', h3⟩ | ⟨-, q', hq', h3⟩
          · simp only [List.cons_append, List.cons.injEq, true_and, List.append_assoc, List.nil_append] at hq'
            have := h3 z (a ++ c :: w) hq'.symm
            simp at this
          · simp only [List.cons_append, List.cons.injEq, true_and, List.append_assoc, List.nil_append] at hq'
            exact h3 z (a ++ c :: w) hq'.symm
        · exact hk rfl
    · have ht := hu.text hlb
      cases l with
      | op s o =>
        have hops : ∀ x ∈ ops, ∀ c ∈ x.1, isBlank c = false := by decide
        have h2 : t ++ (a ++ c :: w) = s := ht
        have := hops _ (mem_op hl) c (by rw [← h2]; exact hin)
        rw [hc] at this
        cases this
      | key s o =>
        have h2 := SameWord.letters (keys_capital _ (mem_key hl)) ht c hin
        rw [hb.2.2.1] at h2
        cases h2
      | boolean =>
        have h2 : isLetter c = true := by
          rcases ht with ht | ht
          · exact ht.letters (by decide) c hin
          · exact ht.letters (by decide) c hin
        rw [hb.2.2.1] at h2
        cases h2
      | ident =>
        have hend : ∀ {l r : Nat}, (l = 96 ∧ r = 96) ∨ (l = 91 ∧ r = 93) → Enclosed l r (t ++ (a ++ c :: w)) → False := by
          intro l r hlr hen
          obtain ⟨u, hu', -, -⟩ := id hen
          rw [hdx] at hu'
          simp only [List.cons_append, List.cons.injEq] at hu'
          obtain ⟨rfl, hu'⟩ := hu'
          rcases starts_mark hmem (by omega) hst with rfl | rfl
          · rcases htext (by decide) with he | he | ⟨e, y, he, hw, -⟩
            · obtain ⟨z, hz, -⟩ := he
              have h2 := hdx.symm.trans hz
              simp only [List.cons.injEq] at h2
              rcases hlr with ⟨rfl, rfl⟩ | ⟨rfl, rfl⟩
              · rw [hz] at hen
                exact absurd (enclosed_end hen) (by simp)
              · omega
            · obtain ⟨z, hz, -⟩ := he
              have h2 := hdx.symm.trans hz
              simp only [List.cons.injEq] at h2
              rcases hlr with ⟨rfl, rfl⟩ | ⟨rfl, rfl⟩
              · omega
              · rw [hz] at hen
                exact absurd (enclosed_end hen) (by simp)
            · have h2 := hdx.symm.trans he
              simp only [List.cons.injEq] at h2
              rw [← h2.1] at hw
              have h96 : isWordStart 96 = false ∧ isWordStart 91 = false := by decide
              rcases hlr with ⟨rfl, rfl⟩ | ⟨rfl, rfl⟩
              · rw [h96.1] at hw; cases hw
              · rw [h96.2] at hw; cases hw
          · exact hk rfl
        rcases ht with he | he | he
        · exact hend (.inl ⟨rfl, rfl⟩) he
        · exact hend (.inr ⟨rfl, rfl⟩) he
        · have h2 := he.runes c hin
          rw [hb.2.1] at h2
          cases h2
      | integer =>
        rcases ht with ⟨-, hd⟩ | ⟨y, z, hyz, hy, -, hz⟩
        · have h2 := hd c hin
          rw [hb.2.2.2.1] at h2
          cases h2
        · rw [hyz] at hin
          simp only [List.mem_cons] at hin
          have h48 : isBlank 48 = false ∧ isBlank 88 = false ∧ isBlank 120 = false := by decide
          rcases hin with rfl | rfl | hin
          · rw [h48.1] at hc; cases hc
          · rcases hy with rfl | rfl
            · rw [h48.2.1] at hc; cases hc
            · rw [h48.2.2] at hc; cases hc
          · have h2 := hz c hin
            rw [hb.2.2.2.2.1] at h2
            cases h2
      | numeric =>
        rw [number_runes ht hin] at hc
        cases hc
      | guid =>
        have hg : ∀ g, GuidText g → c ∈ g → False := by
          intro g hg hcg
          rcases hg.runes c hcg with h2 | h2
          · rw [hb.2.2.2.2.1] at h2; cases h2
          · exact hb.2.2.2.2.2.2.1 h2
        rcases ht with ⟨g, hg', hgt⟩ | ⟨g, hg', hgt⟩ | hgt
        · rw [hg'] at hin
          simp only [List.mem_cons, List.mem_append, List.not_mem_nil, or_false] at hin
          rcases hin with h2 | h2 | h2
          · omega
          · exact hg g hgt h2
          · omega
        · rw [hg'] at hin
          simp only [List.mem_cons, List.mem_append, List.not_mem_nil, or_false] at hin
          rcases hin with h2 | h2 | h2
          · omega
          · exact hg g hgt h2
          · omega
        · exact hg _ hgt hin
      | measurementKey =>
        rcases KeyText.runes ht c hin with h2 | h2
        · rw [hb.1] at h2; cases h2
        · exact hb.2.2.2.2.2.1 h2
      | pointTag =>
        obtain ⟨a', ha, -, hac⟩ := ht
        rw [ha] at hin
        simp only [List.mem_cons, List.mem_append, List.not_mem_nil, or_false] at hin
        rcases hin with h2 | h2 | h2
        · omega
        · have h3 := hac c h2
          rw [hb.1] at h3; cases h3
        · omega
      | string =>
        obtain ⟨u, hu'⟩ := ht
        have hd39 : d = 39 := by
          rw [hdx] at hu'
          simp only [List.cons_append, List.cons.injEq] at hu'
          exact hu'.1
        have hq : ∃ s, t = 39 :: (quoted s ++ [39]) := by
          rw [hd39] at hst
          rcases starts_quote hmem hst with rfl | rfl | rfl
          · rcases htext (by decide) with ⟨g, hg, hgt⟩ | ⟨g, hg, -⟩ | hg
            · exact ⟨g, by rw [quoted_id hgt.noQuote, hg]⟩
            · have h2 := hdx.symm.trans hg
              simp only [List.cons.injEq] at h2
              omega
            · exact absurd (by rw [hdx, hd39]; simp) hg.noQuote
          · exact htext (by decide)
          · exact absurd rfl hk
        obtain ⟨s, rfl⟩ := hq
        simp only [List.cons_append, List.append_assoc, List.cons.injEq, true_and, List.nil_append] at hu'
        cases a with
        | nil =>
          have := quoted_end hu'
          omega
        | cons e a =>
          obtain rfl := quoted_end hu'
          exact hquote (by simp) rfl
      | datetime =>
        obtain ⟨u, hu', -, -⟩ := id ht
        have hd35 : d = 35 := by
          rw [hdx] at hu'
          simp only [List.cons_append, List.cons.injEq] at hu'
          exact hu'.1
        rw [hd35] at hst
        rcases starts_hash hmem hst with rfl | rfl | rfl
        · exact (hkey rfl).1 (by rw [hdx, hd35]; rfl)
        · obtain ⟨z, hz, -⟩ := htext (by decide)
          have ht' : Enclosed 35 35 (t ++ (a ++ c :: w)) := ht
          rw [hz] at ht'
          exact absurd (enclosed_end ht') (by simp)
        · exact hk rfl
      | lineComment =>
        obtain ⟨u, hu', hbr⟩ := ht
        rw [hdx] at hu'
        simp only [List.cons_append, List.cons.injEq] at hu'
        obtain ⟨rfl, hu'⟩ := hu'
        cases x with
        | nil =>
          rw [List.nil_append] at hu'
          cases a with
          | nil =>
            simp only [List.nil_append, List.cons.injEq] at hu'
            omega
          | cons y a =>
            simp only [List.cons_append, List.cons.injEq] at hu'
            obtain ⟨rfl, -⟩ := hu'
            have := line_taken a
            rw [hdx] at hfirst
            have := hfirst _ (by decide) _ this
            simp at this
        | cons y x =>
          simp only [List.cons_append, List.cons.injEq] at hu'
          obtain ⟨rfl, hu'⟩ := hu'
          rcases starts_op hmem (x := (codes "-", .math .minus)) (by decide) (c := 45) (by decide) hst with ⟨a', o, rfl⟩ | rfl | rfl | rfl | rfl
          · have hops : ∀ x ∈ ops, x.1.take 2 ≠ [45, 45] := by decide
            have ht : t = a' := htext (fun h => nomatch h)
            exact hops _ (mem_op hmem) (by rw [← ht, hdx]; rfl)
          · exact (hkey rfl).2 (by rw [hdx]; exact ⟨x, rfl⟩)
          · obtain ⟨e, a, rfl⟩ := List.exists_cons_of_ne_nil (hline rfl)
            have he : isBreak e = false := hbr e (by rw [← hu']; simp)
            obtain ⟨z, hz, hzb⟩ := htext (by decide)
            have : Takes .lineComment (t ++ e :: a) (t ++ [e]) := by
              refine ⟨⟨a, by simp⟩, ?_⟩
              rw [if_neg (by decide)]
              refine ⟨z ++ [e], by rw [hz]; rfl, fun c hc => ?_⟩
              rcases List.mem_append.1 hc with hc | hc
              · exact hzb c hc
              · rw [List.mem_singleton.1 hc]; exact he
            have := hfirst _ hmem _ this
            simp at this
          · cases hst
          · exact hk rfl
      | blockComment => exact hlb rfl
      | space =>
        obtain ⟨e, he, -⟩ := ht
        rw [hdx] at he
        simp at he
      | unexpected =>
        obtain ⟨e, he⟩ := ht
        rw [hdx] at he
        simp at he


/-- The pieces of a text that stay what they are whatever is written behind it, after a blank. -/
def Firms : List (Kind × List Nat) → Prop
  | [] => True
  | (k, t) :: xs => Firm k t (xs.flatMap (·.2)) ∧ Firms xs

theorem lex_append_firm {a r : List Nat} (h : Firms (lex a)) (hr : ∀ c, r.head? = some c → isBlank c = true) : lex (a ++ r) = lex a ++ lex r := by
  generalize hn : a.length = n
  induction n using Nat.strongRecOn generalizing a with
  | _ n ih =>
    cases ha : a with
    | nil => rfl
    | cons c a' =>
      have hne : a ≠ [] := by rw [ha]; simp
      rw [← ha]
      obtain ⟨k, t, b, hl, rfl, hf⟩ := lex_ne_nil hne
      rw [hl] at h ⊢
      obtain ⟨h1, h2⟩ := h
      rw [(C80_cut b).1] at h1
      rw [List.append_assoc, lex_first (hf.before h1 hr), List.cons_append]
      congr 1
      have ht := hf.2.1.ne_nil hf.1
      have := List.length_pos_iff.2 ht
      exact ih b.length (by rw [← hn, List.length_append]; omega) h2 rfl

/-- A text without stray characters and without measurement keys that begin like a date or a comment, at the end of which no comment is open. -/
structure Clean (a : List Nat) : Prop where
  known : ∀ x ∈ lex a, x.1 ≠ .unexpected
  key : ∀ x ∈ lex a, x.1 = .measurementKey → x.2.head? ≠ some 35 ∧ ¬ [45, 45] <+: x.2
  last : ∀ x, (lex a).getLast? = some x → x.1 ≠ .lineComment ∧ (x.1 = .blockComment → ∃ c, x.2 = 47 :: 42 :: (c ++ [42, 47]))

/-- A token that begins with a quote is a text in quotes. -/
theorem First.quoted {k : Kind} {s t : List Nat} (h : First k s t) (hk : k ≠ .unexpected) (ht : t.head? = some 39) : ∃ q, t = 39 :: (quoted q ++ [39]) := by
  obtain ⟨hmem, htake, -⟩ := h
  obtain ⟨d, x, rfl, hst⟩ := htake.starts hmem
  obtain rfl : d = 39 := by simpa using ht
  rcases starts_quote hmem hst with rfl | rfl | rfl
  · rcases htake.text (by decide) with ⟨g, hg, hgt⟩ | ⟨g, hg, -⟩ | hg
    · exact ⟨g, by rw [quoted_id hgt.noQuote, hg]⟩
    · simp only [List.cons.injEq] at hg
      omega
    · exact absurd (by simp) hg.noQuote
  · exact htake.text (by decide)
  · exact absurd rfl hk

theorem quoted_append (s u : List Nat) : quoted (s ++ u) = quoted s ++ quoted u := by
  rw [quoted, quoted, quoted, List.flatMap_append]

theorem firms_of_clean {a : List Nat} (h : Clean a) : Firms (lex a) := by
  generalize hn : a.length = n
  induction n using Nat.strongRecOn generalizing a with
  | _ n ih =>
    cases ha : a with
    | nil => trivial
    | cons c a' =>
      have hne : a ≠ [] := by rw [ha]; simp
      rw [← ha]
      clear ha
      obtain ⟨k, t, b, hl, rfl, hf⟩ := lex_ne_nil hne
      obtain ⟨hk, hkey, hlast⟩ := h
      have htne := hf.2.1.ne_nil hf.1
      have hpos := List.length_pos_iff.2 htne
      rw [hl] at hk hkey hlast ⊢
      have hlb : b = [] → lex b = [] := by rintro rfl; rfl
      refine ⟨?_, ih b.length (by rw [← hn, List.length_append]; omega) ⟨fun x hx => hk x (by simp [hx]), fun x hx => hkey x (by simp [hx]), fun x hx => ?_⟩ rfl⟩
      · rw [(C80_cut b).1]
        refine ⟨hk (k, t) (by simp), hkey (k, t) (by simp), ?_, ?_, ?_⟩
        · rintro rfl hb
          rw [hlb hb] at hlast
          exact (hlast _ rfl).1 rfl
        · rintro rfl
          have h2 := hf.2.1.2
          rw [if_pos rfl] at h2
          rcases h2 with ⟨c, hc, -⟩ | ⟨h3, -⟩
          · exact ⟨c, hc⟩
          · have hb : b = [] := by
              have := congrArg List.length h3
              rw [List.length_append] at this
              exact List.length_eq_zero_iff.1 (by omega)
            rw [hlb hb] at hlast
            exact (hlast _ rfl).2 rfl
        · intro h39 hb39
          obtain ⟨q, rfl⟩ := hf.quoted (hk (k, t) (by simp)) h39
          have hbne : b ≠ [] := by rintro rfl; cases hb39
          obtain ⟨k', t', b', hl', rfl, hf'⟩ := lex_ne_nil hbne
          have ht' := hf'.2.1.ne_nil hf'.1
          have h39' : t'.head? = some 39 := by
            obtain ⟨y, z, rfl⟩ := List.exists_cons_of_ne_nil ht'
            exact hb39
          obtain ⟨q', rfl⟩ := hf'.quoted (hk (k', t') (by rw [hl']; simp)) h39'
          have : Takes .string (39 :: (quoted q ++ [39]) ++ (39 :: (quoted q' ++ [39]) ++ b')) (39 :: (quoted q ++ [39]) ++ 39 :: (quoted q' ++ [39])) := by
            refine ⟨⟨b', by simp⟩, ?_⟩
            rw [if_neg (by decide)]
            refine ⟨q ++ 39 :: q', ?_⟩
            rw [quoted_append, quoted_cons]
            simp
          have := hf.2.2 _ (by decide) _ this
          simp only [List.length_append, List.length_cons] at this
          omega
      · apply hlast
        rw [List.getLast?_cons, hx]
        rfl

/-- **What is written behind a text, after a blank, does not change how the text is read**, if it has no stray characters and no comment is
open. -/
theorem C85_append {a r : List Nat} (h : Clean a) (hr : ∀ c, r.head? = some c → isBlank c = true) : lex (a ++ r) = lex a ++ lex r :=
  lex_append_firm (firms_of_clean h) hr

instance (a : List Nat) : Decidable (Clean a) :=
  decidable_of_iff ((∀ x ∈ lex a, x.1 ≠ .unexpected) ∧ (∀ x ∈ lex a, x.1 = .measurementKey → x.2.head? ≠ some 35 ∧ ¬ [45, 45] <+: x.2) ∧
      ∀ x ∈ (lex a).getLast?, x.1 ≠ .lineComment ∧ (x.1 = .blockComment → x.2 = 47 :: 42 :: ((x.2.drop 2).dropLast.dropLast ++ [42, 47])))
    ⟨fun ⟨h1, h2, h3⟩ => ⟨h1, h2, fun x hx => ⟨(h3 x hx).1, fun hb => ⟨_, (h3 x hx).2 hb⟩⟩⟩,
      fun h => ⟨h.known, h.key, fun x hx => ⟨(h.last x hx).1, fun hb => by
        obtain ⟨c, hc⟩ := (h.last x hx).2 hb
        rw [hc]
        have : (c ++ [42, 47]).dropLast.dropLast = c := by
          rw [show c ++ [42, 47] = (c ++ [42]) ++ [47] by simp, List.dropLast_concat, List.dropLast_concat]
        simp only [List.drop_succ_cons, List.drop_zero, this]⟩⟩⟩

example : Clean (codes "a = 'x y' /* note */ AND b > 1.5") := by decide +kernel

/-- **A comment that is open takes what follows**: the sort order behind it is lost. -/
theorem C85_append_false : ¬ ∀ a r : List Nat, (∀ x ∈ lex a, x.1 ≠ .unexpected) → lex (a ++ 32 :: r) = lex a ++ lex (32 :: r) := by
  intro h
  have h1 := h (codes "a -- all") (codes "ORDER BY b") (by decide +kernel)
  have h2 : lex (codes "a -- all" ++ 32 :: codes "ORDER BY b") = [(.ident, codes "a"), (.space, [32]), (.lineComment, codes "-- all ORDER BY b")] := by
    decide +kernel
  have h3 : lex (codes "a -- all") = [(.ident, codes "a"), (.space, [32]), (.lineComment, codes "-- all")] := by decide +kernel
  rw [h2, h3] at h1
  simp only [List.cons_append, List.nil_append, List.cons.injEq, Prod.mk.injEq, true_and] at h1
  exact absurd h1.1 (by decide)

theorem tokens_lex {s : List Nat} (h : ∀ c ∈ s, Utf8.Valid c) : tokens (Utf8.text s) = (lex s).filterMap fun x => x.1.tok (Utf8.text x.2) := by
  rw [tokens, Utf8.runes_text h]

/-- The tokens of two texts with a blank between them are those of the one and those of the other. -/
theorem C85_blank {a r : List Nat} (h : Clean a) (ha : ∀ c ∈ a, Utf8.Valid c) (hr : ∀ c ∈ r, Utf8.Valid c) :
    tokens (Utf8.text (a ++ 32 :: r)) = tokens (Utf8.text a) ++ tokens (Utf8.text r) := by
  have h32 : Utf8.Valid 32 := by decide
  rw [tokens_lex ha, tokens_lex hr, tokens_lex (by
    intro c hc
    rcases List.mem_append.1 hc with hc | hc
    · exact ha c hc
    · rcases List.mem_cons.1 hc with rfl | hc
      · exact h32
      · exact hr c hc), C85_append h (by simp; decide), C84_blank (by decide), List.filterMap_append]
  rfl

theorem Writes.clean {t : Tok} {w : List Nat} (h : Writes t w) : Clean w := by
  obtain ⟨-, k, hs, -⟩ := h
  refine ⟨?_, ?_, ?_⟩ <;> simp only [hs.alone, List.mem_singleton, List.getLast?_singleton, Option.some.injEq, forall_eq]
  · exact hs.known
  · exact hs.key
  · rintro x rfl
    exact ⟨hs.seen.2.1, fun h => absurd h hs.seen.2.2⟩

theorem Writes.tokens {t : Tok} {w : List Nat} (h : Writes t w) : tokens (Utf8.text w) = [t] := by
  obtain ⟨hv, k, hs, ht⟩ := h
  rw [tokens_lex hv, hs.alone]
  simp [ht]

/-- A token, a blank, and more. -/
theorem Writes.blank {t : Tok} {w r : List Nat} (h : Writes t w) (hr : ∀ c ∈ r, Utf8.Valid c) :
    Lex.tokens (Utf8.text (w ++ 32 :: r)) = t :: Lex.tokens (Utf8.text r) := by
  rw [C85_blank h.clean h.1 hr, h.tokens]
  rfl

example : tokens (Utf8.text (codes "a > /* one */ 1" ++ 32 :: codes "order By a")) =
    [.ident [97#8], .cmp .gt, .integer [49#8]] ++ [.kOrder, .kBy, .ident [97#8]] := by
  rw [C85_blank (by decide +kernel) (by decide) (by decide)]
  decide +kernel

end Verif.Lex
