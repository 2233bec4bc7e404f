import Verif.Lex.Lexer

/-!
# The texts of the lexer rules, said without regular expressions
-/

namespace Verif.Lex

open Verif.Expr Verif.Parse

/-! ## Specification -/

/-- The capital of a letter. -/
def capital (c : Nat) : Nat := if 97 ≤ c ∧ c ≤ 122 then c - 32 else c

/-- The same word but for the case of its letters; the first is in capitals. -/
def SameWord (w t : List Nat) : Prop := t.map capital = w

instance (w t : List Nat) : Decidable (SameWord w t) := by unfold SameWord; infer_instance

/-- One digit or more. -/
def Digits (t : List Nat) : Prop := t ≠ [] ∧ ∀ c ∈ t, isDigit c = true

instance (t : List Nat) : Decidable (Digits t) := by unfold Digits; infer_instance

/-- A letter or `_`, then letters, digits and `_`. -/
def Word (t : List Nat) : Prop := ∃ c s, t = c :: s ∧ isWordStart c = true ∧ ∀ d ∈ s, isWordRune d = true

/-- A text that is not empty between two delimiters, the closing one being nowhere else. -/
def Enclosed (l r : Nat) (t : List Nat) : Prop := ∃ s, t = l :: (s ++ [r]) ∧ s ≠ [] ∧ r ∉ s

/-- An exponent of ten. -/
def Exponent (t : List Nat) : Prop := ∃ e sign ds, t = e :: (sign ++ ds) ∧ (e = 69 ∨ e = 101) ∧ (sign = [] ∨ sign = [45] ∨ sign = [43]) ∧ Digits ds

/-- Hexadecimal digits, so many. -/
def HexDigits (n : Nat) (t : List Nat) : Prop := t.length = n ∧ ∀ c ∈ t, isHex c = true

/-- A dash or nothing. -/
def Dash (t : List Nat) : Prop := t = [] ∨ t = [45]

/-- 32 hexadecimal digits, with or without a dash after the 8th, 12th, 16th and 20th. -/
def GuidText (t : List Nat) : Prop :=
  ∃ a d₁ b d₂ c d₃ d d₄ e, t = a ++ (d₁ ++ (b ++ (d₂ ++ (c ++ (d₃ ++ (d ++ (d₄ ++ e))))))) ∧ HexDigits 8 a ∧ Dash d₁ ∧ HexDigits 4 b ∧ Dash d₂ ∧
    HexDigits 4 c ∧ Dash d₃ ∧ HexDigits 4 d ∧ Dash d₄ ∧ HexDigits 12 e

/-- A text with its quotes doubled. -/
def quoted (s : List Nat) : List Nat := s.flatMap fun c => if c = 39 then [39, 39] else [c]

/-- A source, a colon and a number. -/
def KeyText (t : List Nat) : Prop := ∃ a d, t = a ++ 58 :: d ∧ a ≠ [] ∧ (∀ c ∈ a, isAcronym c = true) ∧ Digits d

/-- The texts of a rule, apart from `MULTILINE_COMMENT`. -/
def Kind.Text : Kind → List Nat → Prop
  | .op s _, t => t = s
  | .key s _, t => SameWord s t
  | .boolean, t => SameWord (codes "TRUE") t ∨ SameWord (codes "FALSE") t
  | .ident, t => Enclosed 96 96 t ∨ Enclosed 91 93 t ∨ Word t
  | .integer, t => Digits t ∨ ∃ x h, t = 48 :: x :: h ∧ (x = 88 ∨ x = 120) ∧ h ≠ [] ∧ ∀ c ∈ h, isHex c = true
  | .numeric, t =>
      (∃ ds f e, t = ds ++ (f ++ e) ∧ Digits ds ∧ (f = [] ∨ ∃ g, f = 46 :: g ∧ ∀ c ∈ g, isDigit c = true) ∧ (e = [] ∨ Exponent e)) ∨
        ∃ ds e, t = 46 :: (ds ++ e) ∧ Digits ds ∧ (e = [] ∨ Exponent e)
  | .guid, t => (∃ g, t = 39 :: (g ++ [39]) ∧ GuidText g) ∨ (∃ g, t = 123 :: (g ++ [125]) ∧ GuidText g) ∨ GuidText t
  | .measurementKey, t => KeyText t
  | .pointTag, t => ∃ a, t = 34 :: (a ++ [34]) ∧ a ≠ [] ∧ ∀ c ∈ a, isAcronym c = true
  | .string, t => ∃ s, t = 39 :: (quoted s ++ [39])
  | .datetime, t => Enclosed 35 35 t
  | .lineComment, t => ∃ s, t = 45 :: 45 :: s ∧ ∀ c ∈ s, isBreak c = false
  | .blockComment, _ => False
  | .space, t => ∃ c, t = [c] ∧ isBlank c = true
  | .unexpected, t => ∃ c, t = [c]

/-! ## The bodies of the rules match these texts -/

theorem matches_one {c : Nat} {t : List Nat} : Matches (.one c) t ↔ t = [c] := by
  rw [Re.one, matches_set]
  simp

theorem matches_fixed {s t : List Nat} : Matches (.fixed s) t ↔ t = s := by
  induction s generalizing t with
  | nil => rw [Re.fixed, matches_eps]
  | cons c s ih =>
    rw [Re.fixed, matches_seq]
    constructor
    · rintro ⟨u, v, rfl, h1, h2⟩
      rw [matches_one.1 h1, ih.1 h2]
      rfl
    · rintro rfl
      exact ⟨[c], s, rfl, matches_one.2 rfl, ih.2 rfl⟩

theorem matches_letter {c : Nat} (hc : 65 ≤ c ∧ c ≤ 90) {t : List Nat} : Matches (.letter c) t ↔ ∃ x, t = [x] ∧ capital x = c := by
  rw [Re.letter, matches_set]
  refine exists_congr fun x => and_congr_right fun _ => ?_
  simp only [Bool.or_eq_true, beq_iff_eq, capital]
  split <;> omega

theorem matches_word {w : List Nat} (hw : ∀ c ∈ w, 65 ≤ c ∧ c ≤ 90) {t : List Nat} : Matches (.word w) t ↔ SameWord w t := by
  induction w generalizing t with
  | nil => rw [Re.word, matches_eps, SameWord]; simp
  | cons c w ih =>
    rw [Re.word, matches_seq, SameWord]
    constructor
    · rintro ⟨u, v, rfl, h1, h2⟩
      obtain ⟨x, rfl, hx⟩ := (matches_letter (hw c (by simp))).1 h1
      have := (ih fun d hd => hw d (by simp [hd])).1 h2
      rw [SameWord] at this
      simp [hx, this]
    · intro h
      cases t with
      | nil => simp at h
      | cons x t =>
        simp only [List.map_cons, List.cons.injEq] at h
        exact ⟨[x], t, rfl, (matches_letter (hw c (by simp))).2 ⟨x, rfl, h.1⟩, (ih fun d hd => hw d (by simp [hd])).2 h.2⟩

theorem matches_many {p : Nat → Bool} {t : List Nat} : Matches (.star (.set p)) t ↔ ∀ c ∈ t, p c = true := by
  rw [matches_star]
  constructor
  · rintro ⟨l, rfl, h⟩ c hc
    obtain ⟨u, hu, hcu⟩ := List.mem_flatten.1 hc
    obtain ⟨d, rfl, hd⟩ := matches_set.1 (h u hu)
    rw [List.mem_singleton.1 hcu]
    exact hd
  · intro h
    refine ⟨t.map fun c => [c], ?_, ?_⟩
    · induction t with
      | nil => rfl
      | cons c t ih => rw [List.map_cons, List.flatten_cons, ← ih fun d hd => h d (by simp [hd])]; rfl
    · intro u hu
      obtain ⟨c, hc, rfl⟩ := List.mem_map.1 hu
      exact .set (h c hc)

theorem matches_plus {p : Nat → Bool} {t : List Nat} : Matches (.plus (.set p)) t ↔ t ≠ [] ∧ ∀ c ∈ t, p c = true := by
  rw [Re.plus, matches_seq]
  constructor
  · rintro ⟨u, v, rfl, h1, h2⟩
    obtain ⟨c, rfl, hc⟩ := matches_set.1 h1
    refine ⟨by simp, fun d hd => ?_⟩
    rcases List.mem_cons.1 hd with rfl | hd
    · exact hc
    · exact matches_many.1 h2 d hd
  · rintro ⟨h1, h2⟩
    cases t with
    | nil => exact absurd rfl h1
    | cons c t => exact ⟨[c], t, rfl, .set (h2 c (by simp)), matches_many.2 fun d hd => h2 d (by simp [hd])⟩

theorem matches_digits {t : List Nat} : Matches (.plus (.set isDigit)) t ↔ Digits t := matches_plus

theorem matches_times {p : Nat → Bool} {n : Nat} {t : List Nat} : Matches (.times (.set p) n) t ↔ t.length = n ∧ ∀ c ∈ t, p c = true := by
  induction n generalizing t with
  | zero =>
    rw [Re.times, matches_eps]
    constructor
    · rintro rfl
      simp
    · rintro ⟨h, -⟩
      exact List.length_eq_zero_iff.1 h
  | succ n ih =>
    rw [Re.times, matches_seq]
    constructor
    · rintro ⟨u, v, rfl, h1, h2⟩
      obtain ⟨c, rfl, hc⟩ := matches_set.1 h1
      obtain ⟨h3, h4⟩ := ih.1 h2
      refine ⟨by simp [h3], fun d hd => ?_⟩
      rcases List.mem_cons.1 hd with rfl | hd
      · exact hc
      · exact h4 d hd
    · rintro ⟨h1, h2⟩
      cases t with
      | nil => simp at h1
      | cons c t => exact ⟨[c], t, rfl, .set (h2 c (by simp)), ih.2 ⟨by simpa using h1, fun d hd => h2 d (by simp [hd])⟩⟩

theorem matches_opt {a : Re} {t : List Nat} : Matches (.opt a) t ↔ t = [] ∨ Matches a t := by
  rw [Re.opt, matches_alt, matches_eps, or_comm]

theorem matches_dash {t : List Nat} : Matches (.opt (.one 45)) t ↔ Dash t := by rw [matches_opt, matches_one, Dash]

theorem matches_guid {t : List Nat} : Matches .guid t ↔ GuidText t := by
  simp only [Re.guid, matches_seq, matches_times, matches_dash]
  constructor
  · rintro ⟨a, _, rfl, ha, d₁, _, rfl, h₁, b, _, rfl, hb, d₂, _, rfl, h₂, c, _, rfl, hc, d₃, _, rfl, h₃, d, _, rfl, hd, d₄, e, rfl, h₄, he⟩
    exact ⟨a, d₁, b, d₂, c, d₃, d, d₄, e, rfl, ha, h₁, hb, h₂, hc, h₃, hd, h₄, he⟩
  · rintro ⟨a, d₁, b, d₂, c, d₃, d, d₄, e, rfl, ha, h₁, hb, h₂, hc, h₃, hd, h₄, he⟩
    exact ⟨a, _, rfl, ha, d₁, _, rfl, h₁, b, _, rfl, hb, d₂, _, rfl, h₂, c, _, rfl, hc, d₃, _, rfl, h₃, d, _, rfl, hd, d₄, e, rfl, h₄, he⟩

theorem matches_exponent {t : List Nat} : Matches .exponent t ↔ Exponent t := by
  simp only [Re.exponent, matches_seq, matches_digits, matches_opt, matches_set, Re.letter]
  constructor
  · rintro ⟨_, _, rfl, ⟨e, rfl, he⟩, s, ds, rfl, hs, hd⟩
    refine ⟨e, s, ds, rfl, by simpa using he, ?_, hd⟩
    rcases hs with rfl | ⟨c, rfl, hc⟩
    · exact .inl rfl
    · right
      simpa using hc
  · rintro ⟨e, s, ds, rfl, he, hs, hd⟩
    refine ⟨[e], _, rfl, ⟨e, rfl, by simpa using he⟩, s, ds, rfl, ?_, hd⟩
    rcases hs with rfl | rfl | rfl
    · exact .inl rfl
    · exact .inr ⟨45, rfl, rfl⟩
    · exact .inr ⟨43, rfl, rfl⟩

/-- A delimited text as a sequence. -/
theorem matches_between {l r : Nat} {a : Re} {t : List Nat} :
    Matches (.seq (.one l) (.seq a (.one r))) t ↔ ∃ s, t = l :: (s ++ [r]) ∧ Matches a s := by
  simp only [matches_seq, matches_one]
  constructor
  · rintro ⟨_, _, rfl, rfl, s, _, rfl, h, rfl⟩
    exact ⟨s, rfl, h⟩
  · rintro ⟨s, rfl, h⟩
    exact ⟨[l], _, rfl, rfl, s, [r], rfl, h, rfl⟩

theorem matches_enclosed {l r : Nat} {t : List Nat} :
    Matches (.seq (.one l) (.seq (.plus (.set fun c => c != r)) (.one r))) t ↔ Enclosed l r t := by
  rw [matches_between, Enclosed]
  refine exists_congr fun s => and_congr_right fun _ => ?_
  rw [matches_plus]
  refine and_congr_right fun _ => ?_
  constructor
  · intro h hr
    simpa using h r hr
  · intro h c hc
    simp only [bne_iff_ne, ne_eq]
    rintro rfl
    exact h hc

theorem matches_quoted {t : List Nat} : Matches (.star (.alt (.set fun c => c != 39) (.seq (.one 39) (.one 39)))) t ↔ ∃ s, t = quoted s := by
  rw [matches_star]
  constructor
  · rintro ⟨l, rfl, h⟩
    induction l with
    | nil => exact ⟨[], rfl⟩
    | cons u l ih =>
      obtain ⟨s, hs⟩ := ih fun v hv => h v (by simp [hv])
      rcases matches_alt.1 (h u (by simp)) with h1 | h1
      · obtain ⟨c, rfl, hc⟩ := matches_set.1 h1
        exact ⟨c :: s, by simp only [List.flatten_cons, hs, quoted, List.flatMap_cons]; rw [if_neg (by simpa using hc)]⟩
      · obtain ⟨_, _, rfl, h2, h3⟩ := matches_seq.1 h1
        rw [matches_one] at h2 h3
        subst h2 h3
        exact ⟨39 :: s, by simp only [List.flatten_cons, hs, quoted, List.flatMap_cons]; rfl⟩
  · rintro ⟨s, rfl⟩
    refine ⟨s.map fun c => if c = 39 then [39, 39] else [c], by rw [quoted, List.flatMap_def], ?_⟩
    intro u hu
    obtain ⟨c, -, rfl⟩ := List.mem_map.1 hu
    split
    · exact .right (.seq (s := [39]) (matches_one.2 rfl) (matches_one.2 rfl))
    · rename_i h
      exact .left (.set (by simpa using h))

/-- Keywords are in capitals in the table. -/
theorem keys_capital : ∀ x ∈ keys, ∀ c ∈ x.1, 65 ≤ c ∧ c ≤ 90 := by decide

/-- **The bodies of the rules match the texts said above.** -/
theorem Kind.re_iff {k : Kind} (hk : k ∈ order) {t : List Nat} : Matches k.re t ↔ k.Text t := by
  cases k with
  | op s o => exact matches_fixed
  | key s o =>
    refine matches_word fun c hc => ?_
    simp only [order, List.mem_append, List.mem_map, reduceCtorEq, and_false, exists_false, Kind.key.injEq, false_or, List.mem_cons,
      List.not_mem_nil, or_false] at hk
    obtain ⟨x, hx, rfl, rfl⟩ := hk
    exact keys_capital x hx c hc
  | boolean =>
    rw [Kind.re, matches_alt, matches_word (by decide), matches_word (by decide)]
    rfl
  | ident =>
    rw [Kind.re, matches_alt, matches_alt, matches_enclosed, matches_enclosed, matches_seq, Kind.Text]
    refine or_congr_right (or_congr_right ?_)
    simp only [matches_set, matches_many]
    constructor
    · rintro ⟨_, s, rfl, ⟨c, rfl, hc⟩, hs⟩
      exact ⟨c, s, rfl, hc, hs⟩
    · rintro ⟨c, s, rfl, hc, hs⟩
      exact ⟨[c], s, rfl, ⟨c, rfl, hc⟩, hs⟩
  | integer =>
    rw [Kind.re, matches_alt, matches_digits, Kind.Text]
    refine or_congr_right ?_
    simp only [matches_seq, matches_one, matches_plus, Re.letter, matches_set]
    constructor
    · rintro ⟨_, _, rfl, rfl, _, h, rfl, ⟨x, rfl, hx⟩, h1, h2⟩
      exact ⟨x, h, rfl, by simpa using hx, h1, h2⟩
    · rintro ⟨x, h, rfl, hx, h1, h2⟩
      exact ⟨[48], _, rfl, rfl, [x], h, rfl, ⟨x, rfl, by simpa using hx⟩, h1, h2⟩
  | numeric =>
    rw [Kind.re, matches_alt, Kind.Text]
    refine or_congr ?_ ?_
    · simp only [matches_seq, matches_digits, matches_opt, matches_one, matches_many, matches_exponent]
      constructor
      · rintro ⟨ds, _, rfl, hd, f, e, rfl, hf, he⟩
        refine ⟨ds, f, e, rfl, hd, ?_, he⟩
        rcases hf with rfl | ⟨_, g, rfl, rfl, hg⟩
        · exact .inl rfl
        · exact .inr ⟨g, rfl, hg⟩
      · rintro ⟨ds, f, e, rfl, hd, hf, he⟩
        refine ⟨ds, _, rfl, hd, f, e, rfl, ?_, he⟩
        rcases hf with rfl | ⟨g, rfl, hg⟩
        · exact .inl rfl
        · exact .inr ⟨[46], g, rfl, rfl, hg⟩
    · simp only [matches_seq, matches_digits, matches_opt, matches_one, matches_exponent]
      constructor
      · rintro ⟨_, _, rfl, rfl, ds, e, rfl, hd, he⟩
        exact ⟨ds, e, rfl, hd, he⟩
      · rintro ⟨ds, e, rfl, hd, he⟩
        exact ⟨[46], _, rfl, rfl, ds, e, rfl, hd, he⟩
  | guid =>
    rw [Kind.re, matches_alt, matches_alt, matches_between, matches_between, matches_guid, Kind.Text]
    simp only [matches_guid]
  | measurementKey =>
    simp only [Kind.re, Kind.Text, KeyText, matches_seq, matches_plus, matches_one]
    constructor
    · rintro ⟨a, _, rfl, ⟨h1, h2⟩, _, d, rfl, rfl, h3⟩
      exact ⟨a, d, rfl, h1, h2, h3⟩
    · rintro ⟨a, d, rfl, h1, h2, h3⟩
      exact ⟨a, _, rfl, ⟨h1, h2⟩, [58], d, rfl, rfl, h3⟩
  | pointTag => simp only [Kind.re, Kind.Text, matches_between, matches_plus]
  | string =>
    simp only [Kind.re, Kind.Text, matches_between, matches_quoted]
    constructor
    · rintro ⟨_, rfl, s, rfl⟩
      exact ⟨s, rfl⟩
    · rintro ⟨s, rfl⟩
      exact ⟨_, rfl, s, rfl⟩
  | datetime => exact matches_enclosed
  | lineComment =>
    simp only [Kind.re, Kind.Text, matches_seq, matches_one, matches_many]
    constructor
    · rintro ⟨_, _, rfl, rfl, _, s, rfl, rfl, h⟩
      exact ⟨s, rfl, fun c hc => by simpa using h c hc⟩
    · rintro ⟨s, rfl, h⟩
      exact ⟨[45], _, rfl, rfl, [45], s, rfl, rfl, fun c hc => by simp [h c hc]⟩
  | blockComment => simp [Kind.re, Kind.Text, matches_empty]
  | space => exact matches_set
  | unexpected => simp [Kind.re, Kind.Text, matches_set]

end Verif.Lex
