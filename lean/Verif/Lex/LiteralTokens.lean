import Verif.Lex.WordProps

/-!
# Which tokens numbers, GUIDs, texts in delimiters, operators and comments are (data/FilterExpressionSyntax.g4 L286-332)
-/

namespace Verif.Lex

open Verif.Expr Verif.Parse

/-- What a rule other than the comment takes is one of its texts. -/
theorem Takes.text {k : Kind} {s t : List Nat} (hk : k ≠ .blockComment) (h : Takes k s t) : k.Text t := by
  have := h.2
  rwa [if_neg hk] at this

/-- A text of a rule is taken. -/
theorem takes_text {k : Kind} {t r : List Nat} (hk : k ≠ .blockComment) (h : k.Text t) : Takes k (t ++ r) t :=
  ⟨List.prefix_append _ _, by rwa [if_neg hk]⟩

/-! ## Numbers -/

/-- The kinds a digit or a point can start. -/
theorem starts_digit {k : Kind} (hk : k ∈ order) {c : Nat} (hc : isDigit c = true ∨ c = 46) (h : k.starts c = true) :
    k = .integer ∨ k = .numeric ∨ k = .guid ∨ k = .measurementKey ∨ k = .unexpected := by
  have hops : ∀ x ∈ ops, ∀ c ∈ x.1.head?, isDigit c = false ∧ c ≠ 46 := by decide
  have hc' : (48 ≤ c ∧ c ≤ 57) ∨ c = 46 := by
    simpa only [isDigit, Bool.and_eq_true, decide_eq_true_eq] using hc
  cases k with
  | op s t =>
    exfalso
    obtain ⟨h1, h2⟩ := hops _ (mem_op hk) c (by simpa [Kind.starts] using h)
    rcases hc with hc | hc
    · rw [hc] at h1; cases h1
    · exact h2 hc
  | integer => simp
  | numeric => simp
  | guid => simp
  | measurementKey => simp
  | unexpected => simp
  | _ =>
    exfalso
    simp only [Kind.starts, isLetter, isWordStart, isBlank, Bool.or_eq_true, Bool.and_eq_true, decide_eq_true_eq, beq_iff_eq] at h
    omega

/-- The text of a number. -/
def NumberText (t : List Nat) : Prop := Kind.numeric.Text t

/-- The rune after a part of a number: a sign only after the letter of the exponent. -/
theorem number_next {a v : List Nat} {c : Nat} (h : NumberText (a ++ c :: v)) :
    isDigit c = true ∨ c = 46 ∨ c = 69 ∨ c = 101 ∨ ((c = 45 ∨ c = 43) ∧ ∃ b e, a = b ++ [e] ∧ (e = 69 ∨ e = 101)) := by
  -- the exponent
  have hexp : ∀ {a e : List Nat}, Exponent e → e = a ++ c :: v →
      isDigit c = true ∨ c = 69 ∨ c = 101 ∨ ((c = 45 ∨ c = 43) ∧ ∃ x, a = [x] ∧ (x = 69 ∨ x = 101)) := by
    rintro a e ⟨x, sign, ds, rfl, hx, hsign, -, hds⟩ he
    cases a with
    | nil =>
      simp only [List.nil_append, List.cons.injEq] at he
      omega
    | cons y a =>
      simp only [List.cons_append, List.cons.injEq] at he
      obtain ⟨rfl, he⟩ := he
      have hin : c ∈ sign ++ ds := by rw [he]; simp
      rcases List.mem_append.1 hin with hc | hc
      · rcases hsign with rfl | rfl | rfl
        · simp at hc
        · obtain rfl : c = 45 := by simpa using hc
          cases a with
          | nil => exact .inr (.inr (.inr ⟨.inl rfl, x, rfl, hx⟩))
          | cons z a =>
            simp only [List.cons_append, List.nil_append, List.cons.injEq] at he
            exact .inl (hds 45 (by rw [he.2]; simp))
        · obtain rfl : c = 43 := by simpa using hc
          cases a with
          | nil => exact .inr (.inr (.inr ⟨.inr rfl, x, rfl, hx⟩))
          | cons z a =>
            simp only [List.cons_append, List.nil_append, List.cons.injEq] at he
            exact .inl (hds 43 (by rw [he.2]; simp))
      · exact .inl (hds c hc)
  -- a part before the exponent
  have hsplit : ∀ {p e : List Nat}, (∀ x ∈ p, isDigit x = true ∨ x = 46) → (e = [] ∨ Exponent e) → a ++ c :: v = p ++ e →
      isDigit c = true ∨ c = 46 ∨ c = 69 ∨ c = 101 ∨ ((c = 45 ∨ c = 43) ∧ ∃ b e, a = b ++ [e] ∧ (e = 69 ∨ e = 101)) := by
    intro p e hp he heq
    rcases List.append_eq_append_iff.1 heq with ⟨w, h1, h2⟩ | ⟨w, h1, h2⟩
    · -- p = a ++ w, c :: v = w ++ e
      cases w with
      | nil =>
        rw [List.nil_append] at h2
        rcases he with rfl | he
        · cases h2
        · rcases hexp (a := []) he h2.symm with h | h | h | ⟨-, x, hx, -⟩
          · exact .inl h
          · exact .inr (.inr (.inl h))
          · exact .inr (.inr (.inr (.inl h)))
          · cases hx
      | cons y w =>
        simp only [List.cons_append, List.cons.injEq] at h2
        obtain ⟨rfl, -⟩ := h2
        rcases hp c (by rw [h1]; simp) with h | h
        · exact .inl h
        · exact .inr (.inl h)
    · -- a = p ++ w, e = w ++ c :: v
      rcases he with rfl | he
      · exfalso
        have := congrArg List.length h2
        simp at this
      · rcases hexp he h2 with h | h | h | ⟨hs, x, rfl, hx⟩
        · exact .inl h
        · exact .inr (.inr (.inl h))
        · exact .inr (.inr (.inr (.inl h)))
        · exact .inr (.inr (.inr (.inr ⟨hs, p, x, h1, hx⟩)))
  rcases h with ⟨ds, f, e, h, ⟨-, hds⟩, hf, he⟩ | ⟨ds, e, h, ⟨-, hds⟩, he⟩
  · refine hsplit (p := ds ++ f) (fun x hx => ?_) he (by rw [h, List.append_assoc])
    rcases List.mem_append.1 hx with hx | hx
    · exact .inl (hds x hx)
    · rcases hf with rfl | ⟨g, rfl, hg⟩
      · simp at hx
      · rcases List.mem_cons.1 hx with rfl | hx
        · exact .inr rfl
        · exact .inl (hg x hx)
  · refine hsplit (p := 46 :: ds) (fun x hx => ?_) he (by rw [h]; rfl)
    rcases List.mem_cons.1 hx with rfl | hx
    · exact .inr rfl
    · exact .inl (hds x hx)

/-- The last rune of a number is a digit or a point. -/
theorem number_last {t b : List Nat} {e : Nat} (h : NumberText t) (he : t = b ++ [e]) : isDigit e = true ∨ e = 46 := by
  have hlast : ∀ {p x : List Nat}, x ≠ [] → t = p ++ x → ∃ y, x = y ++ [e] := by
    intro p x hx ht
    obtain ⟨y, z, rfl⟩ : ∃ y z, x = y ++ [z] := ⟨x.dropLast, x.getLast hx, (List.dropLast_concat_getLast hx).symm⟩
    rw [ht, ← List.append_assoc] at he
    have := List.append_inj_right' he rfl
    exact ⟨y, by rw [this]⟩
  have hexp : ∀ {p x : List Nat}, Exponent x → t = p ++ x → isDigit e = true := by
    rintro p x ⟨z, sign, ds, rfl, -, -, hne, hds⟩ ht
    obtain ⟨y, hy⟩ := hlast (p := p ++ z :: sign) hne (by rw [ht]; simp)
    exact hds e (by rw [hy]; simp)
  rcases h with ⟨ds, f, x, h, ⟨hne, hds⟩, hf, hx⟩ | ⟨ds, x, h, ⟨hne, hds⟩, hx⟩
  · rcases hx with rfl | hx
    · rcases hf with rfl | ⟨g, rfl, hg⟩
      · obtain ⟨y, hy⟩ := hlast (p := []) hne (by rw [h]; simp)
        exact .inl (hds e (by rw [hy]; simp))
      · obtain ⟨y, hy⟩ := hlast (p := ds) (x := 46 :: g) (by simp) (by rw [h]; simp)
        have : e ∈ 46 :: g := by rw [hy]; simp
        rcases List.mem_cons.1 this with rfl | hm
        · exact .inr rfl
        · exact .inl (hg e hm)
    · exact .inl (hexp (p := ds ++ f) hx (by rw [h]; simp))
  · rcases hx with rfl | hx
    · obtain ⟨y, hy⟩ := hlast (p := [46]) hne (by rw [h]; simp)
      exact .inl (hds e (by rw [hy]; simp))
    · exact .inl (hexp (p := 46 :: ds) hx (by rw [h]; simp))

/-- What follows a number must not continue it, and no longer measurement key or GUID may begin with it. -/
structure NumberEnd (w r : List Nat) : Prop where
  next : ∀ c, r.head? = some c → isDigit c = false ∧ c ≠ 46 ∧ c ≠ 69 ∧ c ≠ 101
  hex : w = [48] → ∀ c, r.head? = some c → c ≠ 88 ∧ c ≠ 120
  other : ∀ u, u <+: w ++ r → w.length < u.length → ¬ KeyText u ∧ ¬ GuidText u

theorem number_starts {t : List Nat} (h : NumberText t) : ∃ c s, t = c :: s ∧ (isDigit c = true ∨ c = 46) := by
  obtain ⟨c, s, rfl, hc⟩ := (takes_text (r := []) (k := .numeric) (by decide) h).starts (by decide)
  exact ⟨c, s, rfl, by simpa [Kind.starts] using hc⟩

/-- Nothing but the rules for numbers, and that for GUIDs, takes a number. -/
theorem number_takes {w r : List Nat} (hw : NumberText w) (he : NumberEnd w r) {l : Kind} (hl : l ∈ order) {v : List Nat} (hv : v <+: r)
    (h : Takes l (w ++ r) (w ++ v)) : v = [] ∧ ((l = .integer ∧ Kind.integer.Text w) ∨ l = .numeric ∨ l = .guid ∨ l = .unexpected) := by
  obtain ⟨c, s, hcs, hc⟩ := number_starts hw
  obtain ⟨d, x, hd, hst⟩ := h.starts hl
  have hdc : d = c := by
    rw [hcs, List.cons_append, List.cons.injEq] at hd
    exact hd.1.symm
  rw [hdc] at hst
  have hnum : NumberText (w ++ v) → v = [] := by
    intro hn
    cases v with
    | nil => rfl
    | cons e v =>
      exfalso
      obtain ⟨h1, h2, h3, h4⟩ := he.next e (head_of_prefix hv)
      rcases number_next hn with h | h | h | h | ⟨-, b, x, hb, hx⟩
      · rw [h] at h1; cases h1
      · exact h2 h
      · exact h3 h
      · exact h4 h
      · rcases number_last hw hb with h | rfl
        · rcases hx with rfl | rfl <;> cases h
        · omega
  rcases starts_digit hl hc hst with rfl | rfl | rfl | rfl | rfl
  · have ht := h.text (by decide)
    have hv0 : v = [] := by
      rcases ht with ht | ⟨x, y, hxy, hx, hy, hy'⟩
      · exact hnum (.inl ⟨w ++ v, [], [], by simp, ht, .inl rfl, .inl rfl⟩)
      · -- hexadecimal digits
        cases w with
        | nil => cases hcs
        | cons w₀ w =>
          simp only [List.cons_append, List.cons.injEq] at hxy
          obtain ⟨rfl, hxy⟩ := hxy
          cases w with
          | nil =>
            exfalso
            rw [List.nil_append] at hxy
            subst hxy
            have := he.hex rfl x (head_of_prefix hv)
            omega
          | cons w₁ w =>
            exfalso
            simp only [List.cons_append, List.cons.injEq] at hxy
            obtain ⟨rfl, -⟩ := hxy
            rcases number_next (a := [48]) (c := w₁) (v := w) hw with h | h | h | h | ⟨-, b, e, hb, he⟩
            · rcases hx with rfl | rfl <;> cases h
            · omega
            · omega
            · omega
            · cases b with
              | nil =>
                simp only [List.nil_append, List.cons.injEq] at hb
                omega
              | cons _ b => simp at hb
    subst hv0
    rw [List.append_nil] at ht
    exact ⟨rfl, .inl ⟨rfl, ht⟩⟩
  · exact ⟨hnum (h.text (by decide)), by simp⟩
  · refine ⟨?_, by simp⟩
    rcases h.text (by decide) with ⟨g, hg, -⟩ | ⟨g, hg, -⟩ | hg
    · exfalso
      rw [hcs] at hg
      simp only [List.cons_append, List.cons.injEq] at hg
      rw [hg.1] at hc
      rcases hc with hc | hc <;> cases hc
    · exfalso
      rw [hcs] at hg
      simp only [List.cons_append, List.cons.injEq] at hg
      rw [hg.1] at hc
      rcases hc with hc | hc <;> cases hc
    · by_contra hne
      exact (he.other _ h.1 (by
        have := List.length_pos_iff.2 hne
        rw [List.length_append]
        omega)).2 hg
  · exfalso
    have h' := h.text (by decide)
    cases v with
    | nil =>
      rw [List.append_nil] at h'
      obtain ⟨a, b, hab, -⟩ := h'
      rw [hab] at hw
      rcases number_next hw with h | h | h | h | ⟨h, -⟩
      · cases h
      all_goals omega
    | cons e v => exact (he.other _ h.1 (by rw [List.length_append]; simp)).1 h'
  · obtain ⟨e, h'⟩ := h.text (by decide)
    rw [hcs] at h'
    simp only [List.cons_append, List.cons.injEq, List.append_eq_nil_iff] at h'
    exact ⟨h'.2.2, by simp⟩

/-- The rules for numbers are in this order. -/
theorem number_order : order.idxOf .integer < order.idxOf .numeric ∧ order.idxOf .numeric < order.idxOf .guid ∧
    order.idxOf .guid < order.idxOf .unexpected ∧ order.idxOf .guid < order.idxOf .string ∧
      order.idxOf .string < order.idxOf .unexpected := by decide +kernel

/-- **Digits are an integer.** -/
theorem C82_integer {w r : List Nat} (hw : Digits w) (he : NumberEnd w r) : lex (w ++ r) = (.integer, w) :: lex r := by
  have hn : NumberText w := .inl ⟨w, [], [], by simp, hw, .inl rfl, .inl rfl⟩
  refine lex_first (First.intro (by decide) (takes_text (by decide) (.inl hw)) fun l hl v hv hu => ?_)
  have := number_order
  obtain ⟨h0, ⟨rfl, -⟩ | rfl | rfl | rfl⟩ := number_takes hn he hl hv hu
  all_goals exact ⟨h0, by omega⟩

/-- **Digits with a point or an exponent are a number.** -/
theorem C82_number {w r : List Nat} (hw : NumberText w) (hd : ¬ Digits w) (he : NumberEnd w r) : lex (w ++ r) = (.numeric, w) :: lex r := by
  refine lex_first (First.intro (by decide) (takes_text (by decide) hw) fun l hl v hv hu => ?_)
  have := number_order
  obtain ⟨h0, ⟨rfl, h1⟩ | rfl | rfl | rfl⟩ := number_takes hw he hl hv hu
  · exfalso
    rcases h1 with h1 | ⟨x, h, rfl, hx, -⟩
    · exact hd h1
    · rcases number_next (a := [48]) hw with h | h | h | h | ⟨h, -⟩
      · rcases hx with rfl | rfl <;> cases h
      all_goals omega
  all_goals exact ⟨h0, by omega⟩

/-- Where neither a source of a measurement key nor a colon can go on, a number has ended. -/
theorem numberEnd {w r : List Nat} (h : ∀ c, r.head? = some c → isAcronym c = false ∧ c ≠ 58) : NumberEnd w r := by
  refine ⟨fun c hc => ?_, fun _ c hc => ?_, noLonger h⟩
  · have h1 := (h c hc).1
    refine ⟨?_, ?_, ?_, ?_⟩
    · simp only [isAcronym, Bool.or_eq_false_iff] at h1
      tauto
    all_goals
      rintro rfl
      cases h1
  · have h1 := (h c hc).1
    constructor
    all_goals
      rintro rfl
      cases h1

/-- `0x1F` is an integer, `0x` the integer `0` and an identifier, `1.5e` a number and an identifier. -/
example : (lex (codes "0x1F 0x 1.5e .5E-3")).filterMap (fun x => x.1.tok (Utf8.text x.2)) =
    [.integer (lit "0x1F"), .integer (lit "0"), .ident (lit "x"), .numeric (lit "1.5"), .ident (lit "e"), .numeric (lit ".5E-3")] := by
  decide +kernel

/-! ## Texts in delimiters -/

/-- The kinds a delimiter can start. -/
theorem starts_quote {k : Kind} (hk : k ∈ order) (h : k.starts 39 = true) : k = .guid ∨ k = .string ∨ k = .unexpected := by
  have hops : ∀ x ∈ ops, x.1.head? ≠ some 39 := by decide
  cases k with
  | op s t => exact absurd (by simpa [Kind.starts] using h) (hops _ (mem_op hk))
  | guid => simp
  | string => simp
  | unexpected => simp
  | _ => cases h

theorem starts_brace {k : Kind} (hk : k ∈ order) (h : k.starts 123 = true) : k = .guid ∨ k = .unexpected := by
  have hops : ∀ x ∈ ops, x.1.head? ≠ some 123 := by decide
  cases k with
  | op s t => exact absurd (by simpa [Kind.starts] using h) (hops _ (mem_op hk))
  | guid => simp
  | unexpected => simp
  | _ => cases h

theorem starts_mark {k : Kind} (hk : k ∈ order) {c : Nat} (hc : c = 96 ∨ c = 91) (h : k.starts c = true) : k = .ident ∨ k = .unexpected := by
  have hops : ∀ x ∈ ops, x.1.head? ≠ some 96 ∧ x.1.head? ≠ some 91 := by decide
  cases k with
  | op s t =>
    exfalso
    have := hops _ (mem_op hk)
    rcases hc with rfl | rfl
    · exact this.1 (by simpa [Kind.starts] using h)
    · exact this.2 (by simpa [Kind.starts] using h)
  | ident => simp
  | unexpected => simp
  | _ => rcases hc with rfl | rfl <;> cases h

theorem starts_hash {k : Kind} (hk : k ∈ order) (h : k.starts 35 = true) : k = .measurementKey ∨ k = .datetime ∨ k = .unexpected := by
  have hops : ∀ x ∈ ops, x.1.head? ≠ some 35 := by decide
  cases k with
  | op s t => exact absurd (by simpa [Kind.starts] using h) (hops _ (mem_op hk))
  | measurementKey => simp
  | datetime => simp
  | unexpected => simp
  | _ => cases h

theorem quoted_cons (c : Nat) (s : List Nat) : quoted (c :: s) = (if c = 39 then [39, 39] else [c]) ++ quoted s := by
  rw [quoted, List.flatMap_cons]
  rfl

/-- After the closing quote nothing but a quote can go on. -/
theorem quoted_end {s u v : List Nat} {c : Nat} (h : quoted s ++ 39 :: c :: v = quoted u ++ [39]) : c = 39 := by
  induction s generalizing u with
  | nil =>
    cases u with
    | nil => simp [quoted] at h
    | cons x u =>
      rw [quoted_cons] at h
      by_cases hx : x = 39
      · rw [if_pos hx] at h
        simp only [quoted, List.flatMap_nil, List.nil_append, List.cons_append, List.cons.injEq] at h
        exact h.2.1
      · rw [if_neg hx] at h
        simp only [quoted, List.flatMap_nil, List.nil_append, List.cons_append, List.cons.injEq] at h
        exact absurd h.1.symm hx
  | cons y s ih =>
    cases u with
    | nil =>
      exfalso
      have := congrArg List.length h
      rw [quoted_cons] at this
      split at this <;> simp [quoted] at this
    | cons x u =>
      rw [quoted_cons, quoted_cons] at h
      by_cases hy : y = 39
      · rw [if_pos hy] at h
        by_cases hx : x = 39
        · rw [if_pos hx] at h
          simp only [List.cons_append, List.nil_append, List.cons.injEq, true_and] at h
          exact ih h
        · rw [if_neg hx] at h
          simp only [List.cons_append, List.nil_append, List.cons.injEq] at h
          exact absurd h.1.symm hx
      · rw [if_neg hy] at h
        by_cases hx : x = 39
        · rw [if_pos hx] at h
          simp only [List.cons_append, List.nil_append, List.cons.injEq] at h
          exact absurd h.1 hy
        · rw [if_neg hx] at h
          simp only [List.cons_append, List.nil_append, List.cons.injEq] at h
          exact ih h.2

theorem quoted_inj {s u : List Nat} (h : quoted s = quoted u) : s = u := by
  induction s generalizing u with
  | nil =>
    cases u with
    | nil => rfl
    | cons x u =>
      rw [quoted_cons] at h
      split at h <;> simp [quoted] at h
  | cons y s ih =>
    cases u with
    | nil =>
      rw [quoted_cons] at h
      split at h <;> simp [quoted] at h
    | cons x u =>
      rw [quoted_cons, quoted_cons] at h
      by_cases hy : y = 39
      · rw [if_pos hy] at h
        by_cases hx : x = 39
        · rw [if_pos hx] at h
          simp only [List.cons_append, List.nil_append, List.cons.injEq, true_and] at h
          rw [ih h, hy, hx]
        · rw [if_neg hx] at h
          simp only [List.cons_append, List.nil_append, List.cons.injEq] at h
          exact absurd h.1.symm hx
      · rw [if_neg hy] at h
        by_cases hx : x = 39
        · rw [if_pos hx] at h
          simp only [List.cons_append, List.nil_append, List.cons.injEq] at h
          exact absurd h.1 hy
        · rw [if_neg hx] at h
          simp only [List.cons_append, List.nil_append, List.cons.injEq] at h
          rw [ih h.2, h.1]

theorem quoted_id {s : List Nat} (h : 39 ∉ s) : quoted s = s := by
  induction s with
  | nil => rfl
  | cons c s ih =>
    rw [quoted_cons, if_neg (by rintro rfl; exact h (by simp)), ih fun hm => h (by simp [hm])]
    rfl

theorem GuidText.noQuote {g : List Nat} (h : GuidText g) : 39 ∉ g := fun hm => by
  rcases h.runes 39 hm with h | h <;> cases h

/-- Only the rules for strings and GUIDs take a text in quotes, and not more. -/
theorem quote_takes {s r : List Nat} (he : r.head? ≠ some 39) {l : Kind} (hl : l ∈ order) {v : List Nat} (hv : v <+: r)
    (h : Takes l (39 :: (quoted s ++ [39]) ++ r) (39 :: (quoted s ++ [39]) ++ v)) : v = [] ∧ ((l = .guid ∧ GuidText s) ∨ l = .string) := by
  obtain ⟨d, x, hd, hst⟩ := h.starts hl
  have hd39 : d = 39 := by
    simp only [List.cons_append, List.cons.injEq] at hd
    exact hd.1.symm
  rw [hd39] at hst
  have hstr : ∀ u, 39 :: (quoted s ++ [39]) ++ v = 39 :: (quoted u ++ [39]) → v = [] ∧ s = u := by
    intro u hu
    have hv0 : v = [] := by
      cases v with
      | nil => rfl
      | cons c v =>
        exfalso
        simp only [List.cons_append, List.append_assoc, List.cons.injEq, true_and, List.nil_append] at hu
        have := quoted_end hu
        rw [this] at hv
        exact he (head_of_prefix hv)
    subst hv0
    rw [List.append_nil] at hu
    simp only [List.cons.injEq, true_and] at hu
    exact ⟨rfl, quoted_inj (List.append_cancel_right hu)⟩
  rcases starts_quote hl hst with rfl | rfl | rfl
  · rcases h.text (by decide) with ⟨g, hg, hgt⟩ | ⟨g, hg, -⟩ | hg
    · obtain ⟨h1, rfl⟩ := hstr g (by rw [quoted_id hgt.noQuote]; exact hg)
      exact ⟨h1, .inl ⟨rfl, hgt⟩⟩
    · simp only [List.cons_append, List.cons.injEq] at hg
      exact absurd hg.1 (by decide)
    · exact absurd (by simp) hg.noQuote
  · obtain ⟨u, hu⟩ := h.text (by decide)
    exact ⟨(hstr u hu).1, .inr rfl⟩
  · obtain ⟨e, h'⟩ := h.text (by decide)
    simp at h'

/-- **A text in quotes, its own quotes doubled, is a string**, if it does not look like a GUID. -/
theorem C83_string_partial {s r : List Nat} (hg : ¬ GuidText s) (he : r.head? ≠ some 39) :
    lex (39 :: (quoted s ++ [39]) ++ r) = (.string, 39 :: (quoted s ++ [39])) :: lex r := by
  refine lex_first (First.intro (by decide) (takes_text (by decide) ⟨s, rfl⟩) fun l hl v hv hu => ?_)
  obtain ⟨h0, ⟨rfl, h⟩ | rfl⟩ := quote_takes he hl hv hu
  · exact absurd h hg
  · exact ⟨h0, Nat.le_refl _⟩

/-- **A GUID in quotes is a GUID.** -/
theorem C82_guid_quoted {g r : List Nat} (hg : GuidText g) (he : r.head? ≠ some 39) :
    lex (39 :: (g ++ [39]) ++ r) = (.guid, 39 :: (g ++ [39])) :: lex r := by
  have hq := quoted_id hg.noQuote
  refine lex_first (First.intro (by decide) (takes_text (by decide) (.inl ⟨g, rfl, hg⟩)) fun l hl v hv hu => ?_)
  rw [← hq] at hu
  have := number_order
  obtain ⟨h0, ⟨rfl, h⟩ | rfl⟩ := quote_takes he hl hv hu
  all_goals exact ⟨h0, by omega⟩

/-- 32 zeros. -/
def zeros : List Nat := List.replicate 32 48

theorem zeros_guid : GuidText zeros :=
  ⟨List.replicate 8 48, [], List.replicate 4 48, [], List.replicate 4 48, [], List.replicate 4 48, [], List.replicate 12 48, rfl,
    ⟨rfl, by decide⟩, .inl rfl, ⟨rfl, by decide⟩, .inl rfl, ⟨rfl, by decide⟩, .inl rfl, ⟨rfl, by decide⟩, .inl rfl, ⟨rfl, by decide⟩⟩

/-- **Not every text in quotes is a string**: one of 32 hexadecimal digits is a GUID. -/
theorem C83_string_false : ¬ ∀ s r : List Nat, r.head? ≠ some 39 → lex (39 :: (quoted s ++ [39]) ++ r) = (.string, 39 :: (quoted s ++ [39])) :: lex r := by
  intro h
  have h1 := h zeros [] (by decide)
  have h2 := C82_guid_quoted zeros_guid (r := []) (by decide)
  rw [quoted_id zeros_guid.noQuote, h2] at h1
  simp at h1

example : lex (codes "'it''s' 'a'") = [(.string, codes "'it''s'"), (.space, codes " "), (.string, codes "'a'")] := by decide +kernel

/-- **A GUID in braces is a GUID**, with or without its dashes. -/
theorem C82_guid_braces {g r : List Nat} (hg : GuidText g) : lex (123 :: (g ++ [125]) ++ r) = (.guid, 123 :: (g ++ [125])) :: lex r := by
  refine lex_first (First.intro (by decide) (takes_text (by decide) (.inr (.inl ⟨g, rfl, hg⟩))) fun l hl v hv hu => ?_)
  obtain ⟨d, x, hd, hst⟩ := hu.starts hl
  have hd39 : d = 123 := by
    simp only [List.cons_append, List.cons.injEq] at hd
    exact hd.1.symm
  rw [hd39] at hst
  rcases starts_brace hl hst with rfl | rfl
  · refine ⟨?_, Nat.le_refl _⟩
    rcases hu.text (by decide) with ⟨g', hg', hgt⟩ | ⟨g', hg', hgt⟩ | hgt
    · simp only [List.cons_append, List.cons.injEq] at hg'
      exact absurd hg'.1 (by decide)
    · simp only [List.cons_append, List.append_assoc, List.cons.injEq, true_and, List.nil_append] at hg'
      cases v with
      | nil => rfl
      | cons c v =>
        exfalso
        -- the brace would be inside the GUID
        have : 125 ∈ g' := by
          rcases List.append_eq_append_iff.1 hg' with ⟨w, h1, h2⟩ | ⟨w, h1, h2⟩
          · cases w with
            | nil => simp at h2
            | cons y w =>
              simp only [List.cons_append, List.cons.injEq] at h2
              rw [h1, ← h2.1]
              simp
          · have := congrArg List.length h2
            simp at this
            omega
        rcases hgt.runes 125 this with h | h <;> cases h
    · exfalso
      rcases hgt.runes 123 (by simp) with h | h <;> cases h
  · obtain ⟨e, h'⟩ := hu.text (by decide)
    simp at h'

/-- **A GUID of 32 digits without dashes or delimiters need not be one**: decimal digits are an integer, and a word is an identifier. -/
theorem C82_guid_false : ¬ ∀ g : List Nat, GuidText g → lex g = [(.guid, g)] := by
  intro h
  have h1 := h zeros zeros_guid
  have h2 := C82_integer (w := zeros) (r := []) ⟨by decide, by decide⟩ (numberEnd (by decide))
  rw [List.append_nil, h1] at h2
  simp at h2

/-- Texts in delimiters end at the first closing one. -/
theorem enclosed_end {l r : Nat} {s v : List Nat} (h : Enclosed l r (l :: (s ++ [r]) ++ v)) : v = [] := by
  obtain ⟨u, hu, -, hr⟩ := h
  simp only [List.cons_append, List.append_assoc, List.cons.injEq, true_and, List.nil_append] at hu
  cases v with
  | nil => rfl
  | cons c v =>
    exfalso
    rcases List.append_eq_append_iff.1 hu with ⟨w, h1, h2⟩ | ⟨w, h1, h2⟩
    · cases w with
      | nil => simp at h2
      | cons y w =>
        simp only [List.cons_append, List.cons.injEq] at h2
        exact hr (by rw [h1, ← h2.1]; simp)
    · have := congrArg List.length h2
      simp at this
      omega

/-- **A text between backticks or brackets is an identifier**, whatever follows. -/
theorem C83_delimited {c d : Nat} (hc : (c = 96 ∧ d = 96) ∨ (c = 91 ∧ d = 93)) {s r : List Nat} (hs : s ≠ []) (hd : d ∉ s) :
    lex (c :: (s ++ [d]) ++ r) = (.ident, c :: (s ++ [d])) :: lex r := by
  have ht : Kind.ident.Text (c :: (s ++ [d])) := by
    rcases hc with ⟨rfl, rfl⟩ | ⟨rfl, rfl⟩
    · exact .inl ⟨s, rfl, hs, hd⟩
    · exact .inr (.inl ⟨s, rfl, hs, hd⟩)
  refine lex_first (First.intro (by decide) (takes_text (by decide) ht) fun l hl v hv hu => ?_)
  obtain ⟨e, x, he, hst⟩ := hu.starts hl
  have hec : e = c := by
    simp only [List.cons_append, List.cons.injEq] at he
    exact he.1.symm
  rw [hec] at hst
  rcases starts_mark hl (by omega) hst with rfl | rfl
  · refine ⟨?_, Nat.le_refl _⟩
    rcases hu.text (by decide) with h | h | ⟨e, x, h, hw, -⟩
    · rcases hc with ⟨rfl, rfl⟩ | ⟨rfl, rfl⟩
      · exact enclosed_end h
      · obtain ⟨u, hu, -⟩ := h
        simp only [List.cons_append, List.cons.injEq] at hu
        exact absurd hu.1 (by decide)
    · rcases hc with ⟨rfl, rfl⟩ | ⟨rfl, rfl⟩
      · obtain ⟨u, hu, -⟩ := h
        simp only [List.cons_append, List.cons.injEq] at hu
        exact absurd hu.1 (by decide)
      · exact enclosed_end h
    · exfalso
      simp only [List.cons_append, List.cons.injEq] at h
      rw [← h.1] at hw
      have h96 : isWordStart 96 = false ∧ isWordStart 91 = false := by decide
      rcases hc with ⟨rfl, rfl⟩ | ⟨rfl, rfl⟩
      · rw [h96.1] at hw; cases hw
      · rw [h96.2] at hw; cases hw
  · obtain ⟨e, h'⟩ := hu.text (by decide)
    simp at h'

/-- **A text between `#` is a date**, if no measurement key goes on. -/
theorem C83_datetime {s r : List Nat} (hs : s ≠ []) (hd : 35 ∉ s)
    (he : ∀ u, u <+: 35 :: (s ++ [35]) ++ r → (35 :: (s ++ [35])).length < u.length → ¬ KeyText u) :
    lex (35 :: (s ++ [35]) ++ r) = (.datetime, 35 :: (s ++ [35])) :: lex r := by
  refine lex_first (First.intro (by decide) (takes_text (by decide) ⟨s, rfl, hs, hd⟩) fun l hl v hv hu => ?_)
  obtain ⟨e, x, hx, hst⟩ := hu.starts hl
  have hec : e = 35 := by
    simp only [List.cons_append, List.cons.injEq] at hx
    exact hx.1.symm
  rw [hec] at hst
  rcases starts_hash hl hst with rfl | rfl | rfl
  · exfalso
    have h' : KeyText _ := hu.text (by decide)
    cases v with
    | nil =>
      -- a measurement key ends in a digit
      rw [List.append_nil] at h'
      obtain ⟨a, d, hab, -, -, hne, hdig⟩ := h'
      obtain ⟨y, z, rfl⟩ : ∃ y z, d = y ++ [z] := ⟨d.dropLast, d.getLast hne, (List.dropLast_concat_getLast hne).symm⟩
      have h2 : (35 :: s) ++ [35] = (a ++ 58 :: y) ++ [z] := by simpa using hab
      have h3 := List.append_inj_right' h2 rfl
      have h4 := hdig z (by simp)
      rw [← (List.cons.inj h3).1] at h4
      cases h4
    | cons c v => exact he _ hu.1 (by rw [List.length_append]; simp) h'
  · exact ⟨enclosed_end (hu.text (by decide)), Nat.le_refl _⟩
  · obtain ⟨e, h'⟩ := hu.text (by decide)
    simp at h'

example : lex (codes "[a b]`c`#2020-01-01 10:30#") = [(.ident, codes "[a b]"), (.ident, codes "`c`"), (.datetime, codes "#2020-01-01 10:30#")] := by
  decide +kernel

/-! ## Operators -/

/-- The runes operators start with start no other token but measurement keys and comments. -/
theorem starts_op {k : Kind} (hk : k ∈ order) {x : List Nat × Tok} (hx : x ∈ ops) {c : Nat} (hc : x.1.head? = some c) (h : k.starts c = true) :
    (∃ s t, k = .op s t) ∨ k = .measurementKey ∨ k = .lineComment ∨ k = .blockComment ∨ k = .unexpected := by
  have hops : ∀ x ∈ ops, ∀ c ∈ x.1.head?, isLetter c = false ∧ isDigit c = false ∧ isHex c = false ∧ isBlank c = false ∧ c ≠ 95 ∧ c ≠ 96 ∧
      c ≠ 91 ∧ c ≠ 46 ∧ c ≠ 39 ∧ c ≠ 123 ∧ c ≠ 34 ∧ c ≠ 35 := by decide +kernel
  obtain ⟨h1, h2, h3, h4, h5, h6, h7, h8, h9, h10, h11, h12⟩ := hops x hx c hc
  cases k with
  | op s t => exact .inl ⟨s, t, rfl⟩
  | measurementKey => simp
  | lineComment => simp
  | blockComment => simp
  | unexpected => simp
  | _ =>
    exfalso
    simp [Kind.starts, isWordStart, h1, h2, h3, h4, h5, h6, h7, h8, h9, h10, h11, h12] at h

theorem op_order : ∀ x ∈ ops, order.idxOf (.op x.1 x.2) < order.idxOf .measurementKey ∧
    order.idxOf (.op x.1 x.2) < order.idxOf .lineComment ∧ order.idxOf (.op x.1 x.2) < order.idxOf .blockComment ∧
      order.idxOf (.op x.1 x.2) < order.idxOf .unexpected := by decide +kernel

theorem ops_distinct : ∀ x ∈ ops, ∀ y ∈ ops, x.1 = y.1 → x = y := by decide +kernel

/-- What follows an operator must make no longer one, no comment and no measurement key of it. -/
structure OpEnd (w r : List Nat) : Prop where
  longer : ∀ y ∈ ops, y.1 <+: w ++ r → y.1.length ≤ w.length
  line : ¬ [45, 45] <+: w ++ r
  block : ¬ [47, 42] <+: w ++ r
  other : ∀ u, u <+: w ++ r → ¬ KeyText u

/-- **The longest operator is taken.** -/
theorem C84_operator {x : List Nat × Tok} (hx : x ∈ ops) {r : List Nat} (he : OpEnd x.1 r) :
    lex (x.1 ++ r) = (.op x.1 x.2, x.1) :: lex r := by
  refine lex_first (First.intro (op_mem hx) (takes_text nofun rfl) fun l hl v hv hu => ?_)
  obtain ⟨c, y, hcy, hst⟩ := hu.starts hl
  have hn : ∀ x ∈ ops, x.1 ≠ [] := by decide
  have hhead : x.1.head? = some c := by
    cases hx1 : x.1 with
    | nil => exact absurd hx1 (hn x hx)
    | cons d z =>
      rw [hx1, List.cons_append, List.cons.injEq] at hcy
      rw [hcy.1]
      rfl
  have hord := op_order x hx
  rcases starts_op hl hx hhead hst with ⟨s, t, rfl⟩ | rfl | rfl | rfl | rfl
  · have ht : x.1 ++ v = s := Takes.text (k := .op _ _) (fun h => nomatch h) hu
    have hlen := he.longer (s, t) (mem_op hl) (by rw [← ht]; exact hu.1)
    have hv0 : v = [] := by
      rw [← ht, List.length_append] at hlen
      exact List.length_eq_zero_iff.1 (by omega)
    rw [hv0, List.append_nil] at ht
    have := ops_distinct x hx (s, t) (mem_op hl) ht
    rw [this]
    exact ⟨hv0, Nat.le_refl _⟩
  · exact absurd (hu.text (by decide)) (he.other _ hu.1)
  · obtain ⟨s, hs, -⟩ := hu.text (by decide)
    exact absurd ((by rw [hs]; exact ⟨s, rfl⟩ : [45, 45] <+: x.1 ++ v).trans hu.1) he.line
  · have h2 := hu.2
    rw [if_pos rfl] at h2
    rcases h2 with ⟨d, hd, -⟩ | ⟨-, d, hd, -⟩
    · exact absurd ((by rw [hd]; exact ⟨_, rfl⟩ : [47, 42] <+: x.1 ++ v).trans hu.1) he.block
    · exact absurd ((by rw [hd]; exact ⟨_, rfl⟩ : [47, 42] <+: x.1 ++ v).trans hu.1) he.block
  · obtain ⟨e, h'⟩ := hu.text (by decide)
    refine ⟨?_, by omega⟩
    have hlen := congrArg List.length h'
    rw [List.length_append] at hlen
    have := List.length_pos_iff.2 (hn x hx)
    simp at hlen
    exact List.length_eq_zero_iff.1 (by omega)

example : (lex (codes "a<=-1<>!b===c!==d<<e&&f")).filterMap (fun x => x.1.tok (Utf8.text x.2)) =
    [.ident (lit "a"), .cmp .le, .math .minus, .integer (lit "1"), .cmp .ltGt, .not true, .ident (lit "b"), .cmp .eqEqEq, .ident (lit "c"),
      .cmp .bangEqEq, .ident (lit "d"), .bit .shl, .ident (lit "e"), .log .ampAmp, .ident (lit "f")] := by decide +kernel

/-- **Two minus signs are not two operators**: the rest of the line is a comment, so that `5--3` is `5`. -/
theorem C84_minus_false : ¬ ∀ a b : List Nat, Digits a → Digits b →
    (lex (a ++ 45 :: 45 :: b)).filterMap (fun x => x.1.tok (Utf8.text x.2)) =
      [.integer (Utf8.text a), .math .minus, .math .minus, .integer (Utf8.text b)] := by
  intro h
  have h1 := h (codes "5") (codes "3") (by decide) (by decide)
  have h2 : (lex (codes "5" ++ 45 :: 45 :: codes "3")).filterMap (fun x => x.1.tok (Utf8.text x.2)) = [.integer (Utf8.text (codes "5"))] := by
    decide +kernel
  rw [h2] at h1
  simp at h1

/-! ## What is skipped -/

/-- The classes of characters the texts above are made of: blanks are space, tab, line feed, vertical tab and carriage return; hexadecimal digits
are of either case; the runes of keys and tags are letters, digits and seven marks. -/
theorem C84_classes (c : Nat) :
    (isBlank c = true ↔ c ∈ [9, 10, 11, 13, 32]) ∧
    (isDigit c = true ↔ c ∈ codes "0123456789") ∧
    (isHex c = true ↔ c ∈ codes "0123456789ABCDEFabcdef") ∧
    (isWordStart c = true ↔ c ∈ codes "ABCDEFGHIJKLMNOPQRSTUVWXYZabcdefghijklmnopqrstuvwxyz_") ∧
    (isWordRune c = true ↔ c ∈ codes "ABCDEFGHIJKLMNOPQRSTUVWXYZabcdefghijklmnopqrstuvwxyz_0123456789") ∧
    (isAcronym c = true ↔ c ∈ codes "ABCDEFGHIJKLMNOPQRSTUVWXYZabcdefghijklmnopqrstuvwxyz0123456789-!_.@#$") := by
  by_cases h : c < 128
  · revert c
    decide +kernel
  · have hs : ∀ s : String, (s.toList.all fun x => x.toNat < 128) = true → c ∉ codes s := by
      intro s hs hc
      obtain ⟨x, hx, rfl⟩ := List.mem_map.1 hc
      exact h (by simpa using List.all_eq_true.1 hs x hx)
    have h1 := hs "0123456789" (by decide)
    have h2 := hs "0123456789ABCDEFabcdef" (by decide)
    have h3 := hs "ABCDEFGHIJKLMNOPQRSTUVWXYZabcdefghijklmnopqrstuvwxyz_" (by decide)
    have h4 := hs "ABCDEFGHIJKLMNOPQRSTUVWXYZabcdefghijklmnopqrstuvwxyz_0123456789" (by decide)
    have h5 := hs "ABCDEFGHIJKLMNOPQRSTUVWXYZabcdefghijklmnopqrstuvwxyz0123456789-!_.@#$" (by decide)
    simp only [h1, h2, h3, h4, h5, iff_false, isBlank, isDigit, isHex, isWordStart, isWordRune, isAcronym, isLetter, List.mem_cons, List.not_mem_nil,
      Bool.not_eq_true, Bool.or_eq_false_iff, Bool.and_eq_false_iff, decide_eq_false_iff_not, beq_eq_false_iff_ne, or_false]
    simp only [Bool.or_eq_true, beq_iff_eq]
    omega

/-- **Blanks are skipped one by one**, whatever follows. -/
theorem C84_blank {c : Nat} (hc : isBlank c = true) (r : List Nat) : lex (c :: r) = (.space, [c]) :: lex r := by
  have hops : ∀ x ∈ ops, ∀ c ∈ x.1.head?, isBlank c = false := by decide
  have hc' : c = 32 ∨ c = 11 ∨ c = 9 ∨ c = 13 ∨ c = 10 := by
    simp only [isBlank, Bool.or_eq_true, beq_iff_eq] at hc
    omega
  refine lex_first (t := [c]) (First.intro (by decide) (takes_text (by decide) ⟨c, rfl, hc⟩) fun l hl v hv hu => ?_)
  obtain ⟨d, x, hd, hst⟩ := hu.starts hl
  have hdc : d = c := by
    simp only [List.cons_append, List.cons.injEq] at hd
    exact hd.1.symm
  rw [hdc] at hst
  have hkinds : l = .space ∨ l = .unexpected := by
    cases l with
    | op s t =>
      exfalso
      have := hops _ (mem_op hl) c (by simpa [Kind.starts] using hst)
      rw [hc] at this
      cases this
    | space => simp
    | unexpected => simp
    | _ => exfalso; rcases hc' with rfl | rfl | rfl | rfl | rfl <;> cases hst
  rcases hkinds with rfl | rfl
  · obtain ⟨e, h', -⟩ := hu.text (by decide)
    simp at h'
    exact ⟨h'.2, Nat.le_refl _⟩
  · obtain ⟨e, h'⟩ := hu.text (by decide)
    simp at h'
    exact ⟨h'.2, by decide +kernel⟩

/-- **From `--` to the end of the line is a comment**, unless all of it is a measurement key. -/
theorem C84_line_comment_partial {s r : List Nat} (hs : ∀ c ∈ s, isBreak c = false) (hr : ∀ c, r.head? = some c → isBreak c = true)
    (hk : ¬ KeyText (45 :: 45 :: s)) : lex (45 :: 45 :: s ++ r) = (.lineComment, 45 :: 45 :: s) :: lex r := by
  refine lex_first (First.intro (by decide) (takes_text (by decide) ⟨s, rfl, hs⟩) fun l hl v hv hu => ?_)
  obtain ⟨d, x, hd, hst⟩ := hu.starts hl
  have hdc : d = 45 := by
    simp only [List.cons_append, List.cons.injEq] at hd
    exact hd.1.symm
  rw [hdc] at hst
  rcases starts_op hl (x := (codes "-", .math .minus)) (by decide) (c := 45) (by decide) hst with ⟨a, t, rfl⟩ | rfl | rfl | rfl | rfl
  · exfalso
    have ht : 45 :: 45 :: s ++ v = a := Takes.text (k := .op _ _) (fun h => nomatch h) hu
    have hops : ∀ x ∈ ops, x.1.take 2 ≠ [45, 45] := by decide
    exact hops _ (mem_op hl) (by rw [← ht]; rfl)
  · exfalso
    have h' : KeyText _ := hu.text (by decide)
    cases v with
    | nil => exact hk (by rwa [List.append_nil] at h')
    | cons c v =>
      have hb := hr c (head_of_prefix hv)
      rcases h'.runes c (by simp) with h | rfl
      · simp only [isBreak, Bool.or_eq_true, beq_iff_eq] at hb
        rcases hb with rfl | rfl <;> cases h
      · cases hb
  · refine ⟨?_, Nat.le_refl _⟩
    obtain ⟨u, hu', hb⟩ := hu.text (by decide)
    simp only [List.cons_append, List.cons.injEq, true_and] at hu'
    cases v with
    | nil => rfl
    | cons c v =>
      exfalso
      have h1 := hr c (head_of_prefix hv)
      rw [hb c (by rw [← hu']; simp)] at h1
      cases h1
  · cases hst
  · obtain ⟨e, h'⟩ := hu.text (by decide)
    simp at h'

/-- **Not every `--` starts a comment**: `--a:1` at the end of a line is a measurement key, as long as the comment and of an earlier rule. -/
theorem C84_line_comment_false : ¬ ∀ s r : List Nat, (∀ c ∈ s, isBreak c = false) → (∀ c, r.head? = some c → isBreak c = true) →
    lex (45 :: 45 :: s ++ r) = (.lineComment, 45 :: 45 :: s) :: lex r := by
  intro h
  have h1 := h (codes "a:1") [] (by decide) (by decide)
  have h2 : lex (45 :: 45 :: codes "a:1" ++ []) = [(.measurementKey, 45 :: 45 :: codes "a:1")] := by decide +kernel
  rw [h2] at h1
  simp at h1

/-- **From `/*` to the nearest `*/` is a comment**; without one, the rest of the text. -/
theorem C84_block_comment {s t r : List Nat} (hs : s = t ++ r) (h : CommentOf s t) : lex s = (.blockComment, t) :: lex r := by
  subst hs
  have htake : Takes .blockComment (t ++ r) t := ⟨List.prefix_append _ _, by rwa [if_pos rfl]⟩
  refine lex_first (First.intro (by decide) htake fun l hl v hv hu => ?_)
  obtain ⟨q, hq⟩ : ∃ q, t = 47 :: 42 :: q := by
    rcases h with ⟨c, hc, -⟩ | ⟨-, c, hc, -⟩
    · exact ⟨_, hc⟩
    · exact ⟨_, hc⟩
  obtain ⟨d, x, hd, hst⟩ := hu.starts hl
  have hdc : d = 47 := by
    rw [hq] at hd
    simp only [List.cons_append, List.cons.injEq] at hd
    exact hd.1.symm
  rw [hdc] at hst
  rcases starts_op hl (x := (codes "/", .math .slash)) (by decide) (c := 47) (by decide) hst with ⟨a, o, rfl⟩ | rfl | rfl | rfl | rfl
  · exfalso
    have ht : t ++ v = a := Takes.text (k := .op _ _) (fun h => nomatch h) hu
    have hops : ∀ x ∈ ops, x.1.take 2 ≠ [47, 42] := by decide
    exact hops _ (mem_op hl) (by rw [← ht, hq]; rfl)
  · cases hst
  · cases hst
  · refine ⟨?_, Nat.le_refl _⟩
    have h2 := hu.2
    rw [if_pos rfl] at h2
    have := comment_unique hu.1 (List.prefix_append _ _) h2 h
    exact List.append_right_eq_self.1 this
  · obtain ⟨e, h'⟩ := hu.text (by decide)
    rw [hq] at h'
    simp at h'

example : (lex (codes "1 /* 2 */ + -- 3\n4 /* 5")).filterMap (fun x => x.1.tok (Utf8.text x.2)) =
    [.integer (lit "1"), .math .plus, .integer (lit "4")] := by decide +kernel

end Verif.Lex
