import Verif.Lex.LexProps

/-!
# Which tokens words, numbers, texts in quotes, operators and comments are (data/FilterExpressionSyntax.g4 L217-332)
-/

namespace Verif.Lex

open Verif.Expr Verif.Parse

/-! ## The first rune of a token -/

/-- The runes a rule can start with. -/
def Kind.starts : Kind → Nat → Bool
  | .op s _, c => s.head? == some c
  | .key _ _, c => isLetter c
  | .boolean, c => isLetter c
  | .ident, c => c == 96 || c == 91 || isWordStart c
  | .integer, c => isDigit c
  | .numeric, c => isDigit c || c == 46
  | .guid, c => c == 39 || c == 123 || isHex c
  | .measurementKey, c => isAcronym c
  | .pointTag, c => c == 34
  | .string, c => c == 39
  | .datetime, c => c == 35
  | .lineComment, c => c == 45
  | .blockComment, c => c == 47
  | .space, c => isBlank c
  | .unexpected, _ => true

theorem mem_key {s : List Nat} {t : Tok} (h : Kind.key s t ∈ order) : (s, t) ∈ keys := by
  simp only [order, List.mem_append, List.mem_map, reduceCtorEq, and_false, exists_false, Kind.key.injEq, false_or, List.mem_cons,
    List.not_mem_nil, or_false] at h
  obtain ⟨x, hx, rfl, rfl⟩ := h
  exact hx

theorem mem_op {s : List Nat} {t : Tok} (h : Kind.op s t ∈ order) : (s, t) ∈ ops := by
  simp only [order, List.mem_append, List.mem_map, reduceCtorEq, and_false, exists_false, Kind.op.injEq, List.mem_cons,
    List.not_mem_nil, or_false] at h
  obtain ⟨x, hx, rfl, rfl⟩ := h
  exact hx

theorem key_mem {x : List Nat × Tok} (h : x ∈ keys) : Kind.key x.1 x.2 ∈ order :=
  List.mem_append.2 (.inl (List.mem_append.2 (.inr (List.mem_map.2 ⟨x, h, rfl⟩))))

theorem op_mem {x : List Nat × Tok} (h : x ∈ ops) : Kind.op x.1 x.2 ∈ order :=
  List.mem_append.2 (.inl (List.mem_append.2 (.inl (List.mem_map.2 ⟨x, h, rfl⟩))))

/-- The runes of a word are letters. -/
theorem SameWord.letters {w t : List Nat} (hw : ∀ c ∈ w, 65 ≤ c ∧ c ≤ 90) (h : SameWord w t) : ∀ c ∈ t, isLetter c = true := by
  intro c hc
  have := hw (capital c) (by rw [← h]; exact List.mem_map_of_mem hc)
  simp only [capital] at this
  simp only [isLetter, Bool.or_eq_true, Bool.and_eq_true, decide_eq_true_eq]
  split at this <;> omega

theorem SameWord.ne_nil {w t : List Nat} (hw : w ≠ []) (h : SameWord w t) : t ≠ [] := by
  rintro rfl
  exact hw h.symm

theorem keys_ne_nil : ∀ x ∈ keys, x.1 ≠ [] := by decide

theorem GuidText.head {t : List Nat} (h : GuidText t) : ∃ c r, t = c :: r ∧ isHex c = true := by
  obtain ⟨a, d₁, b, d₂, c, d₃, d, d₄, e, rfl, ⟨ha, ha'⟩, -⟩ := h
  cases a with
  | nil => simp at ha
  | cons x a => exact ⟨x, _, rfl, ha' x (by simp)⟩

theorem GuidText.runes {t : List Nat} (h : GuidText t) : ∀ c ∈ t, isHex c = true ∨ c = 45 := by
  have hd : ∀ {d : List Nat}, Dash d → ∀ c ∈ d, c = 45 := by
    rintro d (rfl | rfl) c hc <;> simp_all
  obtain ⟨a, d₁, b, d₂, c, d₃, d, d₄, e, rfl, ⟨-, ha⟩, h1, ⟨-, hb⟩, h2, ⟨-, hc⟩, h3, ⟨-, hdd⟩, h4, ⟨-, he⟩⟩ := h
  intro x hx
  simp only [List.mem_append] at hx
  rcases hx with hx | hx | hx | hx | hx | hx | hx | hx | hx
  · exact .inl (ha x hx)
  · exact .inr (hd h1 x hx)
  · exact .inl (hb x hx)
  · exact .inr (hd h2 x hx)
  · exact .inl (hc x hx)
  · exact .inr (hd h3 x hx)
  · exact .inl (hdd x hx)
  · exact .inr (hd h4 x hx)
  · exact .inl (he x hx)

theorem GuidText.length {t : List Nat} (h : GuidText t) : 32 ≤ t.length := by
  obtain ⟨a, d₁, b, d₂, c, d₃, d, d₄, e, rfl, ⟨ha, -⟩, h1, ⟨hb, -⟩, h2, ⟨hc, -⟩, h3, ⟨hdd, -⟩, h4, ⟨he, -⟩⟩ := h
  simp only [List.length_append]
  omega

/-- A token starts with one of the runes its rule can start with. -/
theorem Takes.starts {k : Kind} (hk : k ∈ order) {s t : List Nat} (h : Takes k s t) : ∃ c r, t = c :: r ∧ k.starts c = true := by
  have hcons : ∀ {p : Nat → Bool} {t : List Nat}, t ≠ [] → (∀ c ∈ t, p c = true) → ∃ c r, t = c :: r ∧ p c = true := by
    intro p t h1 h2
    cases t with
    | nil => exact absurd rfl h1
    | cons c r => exact ⟨c, r, rfl, h2 c (by simp)⟩
  obtain ⟨-, h⟩ := h
  by_cases hb : k = .blockComment
  · subst hb
    rw [if_pos rfl] at h
    rcases h with ⟨c, rfl, -⟩ | ⟨-, c, rfl, -⟩ <;> exact ⟨47, _, rfl, rfl⟩
  rw [if_neg hb] at h
  cases k with
  | op s o =>
    rw [Kind.Text] at h
    subst h
    have hn : ∀ x ∈ ops, x.1 ≠ [] := by decide
    cases t with
    | nil => exact absurd rfl (hn _ (mem_op hk))
    | cons c r => exact ⟨c, r, rfl, by simp [Kind.starts]⟩
  | key s o => exact hcons (SameWord.ne_nil (keys_ne_nil _ (mem_key hk)) h) (SameWord.letters (keys_capital _ (mem_key hk)) h)
  | boolean =>
    rcases h with h | h
    · exact hcons (SameWord.ne_nil (by decide) h) (SameWord.letters (by decide) h)
    · exact hcons (SameWord.ne_nil (by decide) h) (SameWord.letters (by decide) h)
  | ident =>
    rcases h with ⟨s, rfl, -⟩ | ⟨s, rfl, -⟩ | ⟨c, s, rfl, hc, -⟩
    · exact ⟨_, _, rfl, rfl⟩
    · exact ⟨_, _, rfl, rfl⟩
    · exact ⟨c, s, rfl, by simp [Kind.starts, hc]⟩
  | integer =>
    rcases h with ⟨h1, h2⟩ | ⟨x, h, rfl, -⟩
    · exact hcons h1 h2
    · exact ⟨_, _, rfl, rfl⟩
  | numeric =>
    rcases h with ⟨ds, f, e, rfl, ⟨h1, h2⟩, -⟩ | ⟨ds, e, rfl, -⟩
    · obtain ⟨c, r, rfl, hc⟩ := hcons h1 h2
      exact ⟨c, _, rfl, by simp [Kind.starts, hc]⟩
    · exact ⟨_, _, rfl, rfl⟩
  | guid =>
    rcases h with ⟨g, rfl, -⟩ | ⟨g, rfl, -⟩ | h
    · exact ⟨_, _, rfl, rfl⟩
    · exact ⟨_, _, rfl, rfl⟩
    · obtain ⟨c, r, rfl, hc⟩ := h.head
      exact ⟨c, r, rfl, by simp [Kind.starts, hc]⟩
  | measurementKey =>
    obtain ⟨a, d, rfl, h1, h2, -⟩ := h
    obtain ⟨c, r, rfl, hc⟩ := hcons h1 h2
    exact ⟨c, _, rfl, hc⟩
  | pointTag =>
    obtain ⟨a, rfl, -⟩ := h
    exact ⟨_, _, rfl, rfl⟩
  | string =>
    obtain ⟨s, rfl⟩ := h
    exact ⟨_, _, rfl, rfl⟩
  | datetime =>
    obtain ⟨s, rfl, -⟩ := h
    exact ⟨_, _, rfl, rfl⟩
  | lineComment =>
    obtain ⟨s, rfl, -⟩ := h
    exact ⟨_, _, rfl, rfl⟩
  | blockComment => exact absurd rfl hb
  | space =>
    obtain ⟨c, rfl, hc⟩ := h
    exact ⟨c, [], rfl, hc⟩
  | unexpected =>
    obtain ⟨c, rfl⟩ := h
    exact ⟨c, [], rfl, rfl⟩

/-! ## Showing that a token is the first one -/

/-- The text is taken; where a rule takes as much or more, it takes the same and comes no earlier. -/
theorem First.intro {k : Kind} {t r : List Nat} (hk : k ∈ order) (ht : Takes k (t ++ r) t)
    (h : ∀ l ∈ order, ∀ v, v <+: r → Takes l (t ++ r) (t ++ v) → v = [] ∧ order.idxOf k ≤ order.idxOf l) : First k (t ++ r) t := by
  refine ⟨hk, ht, fun l hl u hu => ?_⟩
  rcases Nat.lt_or_ge u.length t.length with hlt | hge
  · exact .inl hlt
  · right
    obtain ⟨v, rfl⟩ := List.prefix_of_prefix_length_le (List.prefix_append t r) hu.1 hge
    obtain ⟨rfl, h2⟩ := h l hl v ((List.prefix_append_right_inj t).1 hu.1) hu
    exact ⟨by simp, h2⟩

/-- The head of what follows a token. -/
theorem head_of_prefix {c : Nat} {v r : List Nat} (h : c :: v <+: r) : r.head? = some c := by
  obtain ⟨s, rfl⟩ := h
  rfl

/-! ## Words -/

/-- The kinds a letter or `_` can start. -/
theorem starts_word {k : Kind} (hk : k ∈ order) {c : Nat} (hc : isWordStart c = true) (h : k.starts c = true) :
    (∃ s t, k = .key s t) ∨ k = .boolean ∨ k = .ident ∨ k = .guid ∨ k = .measurementKey ∨ k = .unexpected := by
  have hops : ∀ x ∈ ops, ∀ c ∈ x.1.head?, isWordStart c = false := by decide
  simp only [isWordStart, isLetter, Bool.or_eq_true, Bool.and_eq_true, decide_eq_true_eq, beq_iff_eq] at hc
  cases k with
  | op s t =>
    exfalso
    have := hops _ (mem_op hk) c (by simpa [Kind.starts] using h)
    simp only [isWordStart, isLetter, Bool.or_eq_false_iff, Bool.and_eq_false_iff, decide_eq_false_iff_not, beq_eq_false_iff_ne] at this
    omega
  | key s t => exact .inl ⟨s, t, rfl⟩
  | boolean => simp
  | ident => simp
  | guid => simp
  | measurementKey => simp
  | unexpected => simp
  | _ =>
    exfalso
    simp only [Kind.starts, isDigit, isBlank, Bool.or_eq_true, Bool.and_eq_true, decide_eq_true_eq, beq_iff_eq] at h
    omega

theorem letter_word {c : Nat} (h : isLetter c = true) : isWordRune c = true := by simp [isWordRune, isWordStart, h]

theorem Word.runes {w : List Nat} (h : Word w) : ∀ c ∈ w, isWordRune c = true := by
  obtain ⟨c, s, rfl, hc, hs⟩ := h
  intro d hd
  rcases List.mem_cons.1 hd with rfl | hd
  · simp [isWordRune, hc]
  · exact hs d hd

/-- What follows a word must not continue it, and no longer measurement key or GUID may begin with it. -/
structure WordEnd (w r : List Nat) : Prop where
  next : ∀ c, r.head? = some c → isWordRune c = false
  other : ∀ u, u <+: w ++ r → w.length < u.length → ¬ KeyText u ∧ ¬ GuidText u

/-- Nothing but the rules for words takes a word, or more. -/
theorem word_takes {w r : List Nat} (hw : Word w) (he : WordEnd w r) {l : Kind} (hl : l ∈ order) {v : List Nat} (hv : v <+: r)
    (h : Takes l (w ++ r) (w ++ v)) : v = [] ∧ ((∃ s t, l = .key s t ∧ SameWord s w) ∨
      (l = .boolean ∧ (SameWord (codes "TRUE") w ∨ SameWord (codes "FALSE") w)) ∨ l = .ident ∨ l = .guid ∨ l = .unexpected) := by
  obtain ⟨c, s, rfl, hc, hs⟩ := id hw
  have hrunes := hw.runes
  obtain ⟨d, x, hd, hst⟩ := h.starts hl
  obtain ⟨rfl, rfl⟩ : d = c ∧ x = s ++ v := by
    simp only [List.cons_append, List.cons.injEq] at hd
    exact ⟨hd.1.symm, hd.2.symm⟩
  -- if all runes are word runes then nothing follows
  have hend : (∀ e ∈ d :: s ++ v, isWordRune e = true) → v = [] := by
    intro hall
    cases v with
    | nil => rfl
    | cons e v =>
      have := he.next e (head_of_prefix hv)
      rw [hall e (by simp)] at this
      cases this
  rcases starts_word hl hc hst with ⟨a, t, rfl⟩ | rfl | rfl | rfl | rfl | rfl
  · have h' : SameWord a (d :: s ++ v) := by simpa [Takes, Kind.Text] using h.2
    have := hend fun e he => letter_word (h'.letters (keys_capital _ (mem_key hl)) e he)
    subst this
    exact ⟨rfl, .inl ⟨a, t, rfl, by simpa using h'⟩⟩
  · have h' : SameWord (codes "TRUE") (d :: s ++ v) ∨ SameWord (codes "FALSE") (d :: s ++ v) := by simpa [Takes, Kind.Text] using h.2
    have : v = [] := by
      rcases h' with h' | h'
      · exact hend fun e he => letter_word (h'.letters (by decide) e he)
      · exact hend fun e he => letter_word (h'.letters (by decide) e he)
    subst this
    exact ⟨rfl, .inr (.inl ⟨rfl, by simpa using h'⟩)⟩
  · have h' : Enclosed 96 96 (d :: s ++ v) ∨ Enclosed 91 93 (d :: s ++ v) ∨ Word (d :: s ++ v) := by simpa [Takes, Kind.Text] using h.2
    have hv : v = [] := by
      rcases h' with ⟨y, hy, -⟩ | ⟨y, hy, -⟩ | h'
      · simp only [List.cons_append, List.cons.injEq] at hy
        rw [hy.1] at hc
        cases hc
      · simp only [List.cons_append, List.cons.injEq] at hy
        rw [hy.1] at hc
        cases hc
      · exact hend h'.runes
    exact ⟨hv, by simp⟩
  · refine ⟨?_, by simp⟩
    have h' : (∃ g, d :: s ++ v = 39 :: (g ++ [39]) ∧ GuidText g) ∨ (∃ g, d :: s ++ v = 123 :: (g ++ [125]) ∧ GuidText g) ∨
      GuidText (d :: s ++ v) := by simpa [Takes, Kind.Text] using h.2
    rcases h' with ⟨g, hg, -⟩ | ⟨g, hg, -⟩ | hg
    · simp only [List.cons_append, List.cons.injEq] at hg
      rw [hg.1] at hc
      cases hc
    · simp only [List.cons_append, List.cons.injEq] at hg
      rw [hg.1] at hc
      cases hc
    · by_contra hne
      exact (he.other _ h.1 (by
        have := List.length_pos_iff.2 hne
        rw [List.length_append]
        omega)).2 hg
  · exfalso
    have h' : KeyText (d :: s ++ v) := by simpa [Takes, Kind.Text] using h.2
    cases v with
    | nil =>
      obtain ⟨a, b, hab, -⟩ := h'
      have := hrunes 58 (by
        rw [List.append_nil] at hab
        rw [hab]
        simp)
      cases this
    | cons e v => exact (he.other _ h.1 (by rw [List.length_append]; simp)).1 h'
  · have h' : ∃ e, d :: s ++ v = [e] := by simpa [Takes, Kind.Text] using h.2
    obtain ⟨e, h'⟩ := h'
    simp only [List.cons_append, List.cons.injEq, List.append_eq_nil_iff] at h'
    exact ⟨h'.2.2, by simp⟩

/-- The rules for words are in this order. -/
theorem word_order : (∀ x ∈ keys, order.idxOf (.key x.1 x.2) < order.idxOf .boolean) ∧ order.idxOf .boolean < order.idxOf .ident ∧
    order.idxOf .ident < order.idxOf .guid ∧ order.idxOf .guid < order.idxOf .unexpected := by decide +kernel

/-- No keyword is in the table twice, and neither `TRUE` nor `FALSE` is. -/
theorem keys_distinct : ∀ x ∈ keys, ∀ y ∈ keys, x.1 = y.1 → x = y := by decide +kernel

/-- **A keyword is recognised in any mixture of cases.** -/
theorem C81_keyword {w r : List Nat} {x : List Nat × Tok} (hx : x ∈ keys) (hw : SameWord x.1 w) (he : WordEnd w r) :
    lex (w ++ r) = (.key x.1 x.2, w) :: lex r := by
  have hletters := hw.letters (keys_capital x hx)
  have hword : Word w := by
    cases w with
    | nil => exact absurd rfl (hw.ne_nil (keys_ne_nil x hx))
    | cons c s => exact ⟨c, s, rfl, by simp [isWordStart, hletters c (by simp)], fun d hd => letter_word (hletters d (by simp [hd]))⟩
  refine lex_first (First.intro (key_mem hx) ⟨List.prefix_append _ _, by simpa [Kind.Text] using hw⟩ fun l hl v hv hu => ?_)
  obtain ⟨h0, h1 | ⟨rfl, -⟩ | rfl | rfl | rfl⟩ := word_takes hword he hl hv hu
  · obtain ⟨s, t, rfl, h1⟩ := h1
    have := keys_distinct x hx (s, t) (mem_key hl) (by rw [← hw, ← h1])
    rw [this]
    exact ⟨h0, Nat.le_refl _⟩
  · exact ⟨h0, Nat.le_of_lt (word_order.1 x hx)⟩
  all_goals
    have := word_order.1 x hx
    have := word_order.2
    exact ⟨h0, by omega⟩

/-- **`true` and `false` are Booleans in any mixture of cases.** -/
theorem C81_boolean {w r : List Nat} (hw : SameWord (codes "TRUE") w ∨ SameWord (codes "FALSE") w) (he : WordEnd w r) :
    lex (w ++ r) = (.boolean, w) :: lex r := by
  have hletters : ∀ c ∈ w, isLetter c = true := by
    rcases hw with hw | hw
    · exact hw.letters (by decide)
    · exact hw.letters (by decide)
  have hword : Word w := by
    cases w with
    | nil =>
      exfalso
      rcases hw with hw | hw
      · exact hw.ne_nil (by decide) rfl
      · exact hw.ne_nil (by decide) rfl
    | cons c s => exact ⟨c, s, rfl, by simp [isWordStart, hletters c (by simp)], fun d hd => letter_word (hletters d (by simp [hd]))⟩
  refine lex_first (First.intro (by decide) ⟨List.prefix_append _ _, by simpa [Kind.Text] using hw⟩ fun l hl v hv hu => ?_)
  obtain ⟨h0, h1 | ⟨rfl, -⟩ | rfl | rfl | rfl⟩ := word_takes hword he hl hv hu
  · exfalso
    obtain ⟨s, t, rfl, h1⟩ := h1
    have hn : ∀ y ∈ keys, y.1 ≠ codes "TRUE" ∧ y.1 ≠ codes "FALSE" := by decide +kernel
    have := hn _ (mem_key hl)
    rcases hw with hw | hw
    · exact this.1 (by rw [← h1, ← hw])
    · exact this.2 (by rw [← h1, ← hw])
  · exact ⟨h0, Nat.le_refl _⟩
  all_goals
    have := word_order.2
    exact ⟨h0, by omega⟩

/-- **Any other word is an identifier.** -/
theorem C81_identifier_partial {w r : List Nat} (hw : Word w) (hk : ∀ x ∈ keys, ¬ SameWord x.1 w) (ht : ¬ SameWord (codes "TRUE") w)
    (hf : ¬ SameWord (codes "FALSE") w) (he : WordEnd w r) : lex (w ++ r) = (.ident, w) :: lex r := by
  refine lex_first (First.intro (by decide) ⟨List.prefix_append _ _, by rw [if_neg (by decide)]; exact .inr (.inr hw)⟩ fun l hl v hv hu => ?_)
  obtain ⟨h0, h1 | ⟨rfl, h1⟩ | rfl | rfl | rfl⟩ := word_takes hw he hl hv hu
  · exfalso
    obtain ⟨s, t, rfl, h1⟩ := h1
    exact hk _ (mem_key hl) h1
  · exfalso
    rcases h1 with h1 | h1
    · exact ht h1
    · exact hf h1
  · exact ⟨h0, Nat.le_refl _⟩
  all_goals
    have := word_order.2
    exact ⟨h0, by omega⟩

/-- The runes of a measurement key. -/
theorem KeyText.runes {t : List Nat} (h : KeyText t) : ∀ c ∈ t, isAcronym c = true ∨ c = 58 := by
  obtain ⟨a, d, rfl, -, ha, -, hd⟩ := h
  intro c hc
  rcases List.mem_append.1 hc with hc | hc
  · exact .inl (ha c hc)
  · rcases List.mem_cons.1 hc with rfl | hc
    · exact .inr rfl
    · left
      simp [isAcronym, hd c hc]

theorem hex_acronym {c : Nat} (h : isHex c = true) : isAcronym c = true := by
  simp only [isHex, isAcronym, isLetter, Bool.or_eq_true, Bool.and_eq_true, decide_eq_true_eq] at h ⊢
  rcases h with (h | h) | h
  · simp [h]
  · have : 65 ≤ c ∧ c ≤ 90 := by omega
    simp [this]
  · have : 97 ≤ c ∧ c ≤ 122 := by omega
    simp [this]

/-- Where neither a source of a measurement key nor a colon can go on, no longer measurement key or GUID begins. -/
theorem noLonger {w r : List Nat} (h : ∀ c, r.head? = some c → isAcronym c = false ∧ c ≠ 58) :
    ∀ u, u <+: w ++ r → w.length < u.length → ¬ KeyText u ∧ ¬ GuidText u := by
  intro u hu hlt
  obtain ⟨v, rfl⟩ := List.prefix_of_prefix_length_le (List.prefix_append w r) hu (by omega)
  have hv : v <+: r := (List.prefix_append_right_inj w).1 hu
  cases v with
  | nil => simp at hlt
  | cons c v =>
    obtain ⟨h1, h2⟩ := h c (head_of_prefix hv)
    refine ⟨fun hk => ?_, fun hg => ?_⟩
    · rcases hk.runes c (by simp) with h3 | h3
      · rw [h3] at h1; cases h1
      · exact h2 h3
    · rcases hg.runes c (by simp) with h3 | rfl
      · rw [hex_acronym h3] at h1; cases h1
      · cases h1

theorem wordEnd {w r : List Nat} (h : ∀ c, r.head? = some c → isAcronym c = false ∧ c ≠ 58) : WordEnd w r := by
  refine ⟨fun c hc => ?_, noLonger h⟩
  have := (h c hc).1
  simp only [isAcronym, isWordRune, isWordStart, Bool.or_eq_false_iff] at this ⊢
  tauto

/-- `Ordered <> nAmE`, of which `ordered` begins with a keyword. -/
example : lex (codes "Ordered <> nAmE") = [(.ident, codes "Ordered"), (.space, codes " "), (.op (codes "<>") (.cmp .ltGt), codes "<>"),
    (.space, codes " "), (.ident, codes "nAmE")] := by decide +kernel

/-- `iS nOt Null`: three keywords. -/
example : (lex (codes "iS nOt Null")).filterMap (fun x => x.1.tok []) = [.kIs, .not false, .kNull] := by decide +kernel

/-- **Not every word stands for itself**: before a colon and a number it is part of a measurement key, and so is what is written with `-` before
it. -/
theorem C81_word_false : ¬ ∀ w r : List Nat, Word w → (∀ x ∈ keys, ¬ SameWord x.1 w) → (∀ c, r.head? = some c → isWordRune c = false) →
    ∃ k, lex (w ++ r) = (k, w) :: lex r := by
  intro h
  obtain ⟨k, hk⟩ := h (codes "a") (codes "-b:1") ⟨97, [], rfl, rfl, by simp⟩ (by decide +kernel) (by decide)
  have : lex (codes "a" ++ codes "-b:1") = [(.measurementKey, codes "a-b:1")] := by decide +kernel
  rw [this] at hk
  simp only [List.cons.injEq, Prod.mk.injEq] at hk
  exact absurd hk.1.2 (by decide)

end Verif.Lex
