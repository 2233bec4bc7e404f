import Verif.Common.Basic

/-!
# Bodies of lexer rules (data/FilterExpressionSyntax.g4 L217-371)

A rule of the lexer, apart from the comment that ends at the nearest `*/`, is a regular expression over runes. What it matches is said by
`Matches`; how much of a text it can match at most is computed with derivatives, as ANTLR does by simulating its automaton.
-/

namespace Verif.Lex

/-- The constructs of the grammar's lexer rules: sets of runes (`'x'`, `[..]`, `~'x'`, `.`), sequence, `|`, `*`; the others are made of
these. `empty` matches nothing. (FilterExpressionSyntax.g4 L217-344) -/
inductive Re where
  | empty
  | eps
  | set (p : Nat → Bool)
  | seq (a b : Re)
  | alt (a b : Re)
  | star (a : Re)

/-- The texts a rule body matches. (FilterExpressionSyntax.g4 L217-344) -/
inductive Matches : Re → List Nat → Prop
  | eps : Matches .eps []
  | set {p : Nat → Bool} {c : Nat} (h : p c = true) : Matches (.set p) [c]
  | seq {a b : Re} {s t : List Nat} (ha : Matches a s) (hb : Matches b t) : Matches (.seq a b) (s ++ t)
  | left {a b : Re} {s : List Nat} (h : Matches a s) : Matches (.alt a b) s
  | right {a b : Re} {s : List Nat} (h : Matches b s) : Matches (.alt a b) s
  | nil {a : Re} : Matches (.star a) []
  | cons {a : Re} {s t : List Nat} (ha : Matches a s) (hs : Matches (.star a) t) : Matches (.star a) (s ++ t)

/-- Whether the empty text is matched: the automaton is in an accepting state. (FilterExpressionSyntax.g4 L217-344) -/
def Re.nullable : Re → Bool
  | .empty => false
  | .eps => true
  | .set _ => false
  | .seq a b => a.nullable && b.nullable
  | .alt a b => a.nullable || b.nullable
  | .star _ => true

/-- A sequence, empty where its first part is. (FilterExpressionSyntax.g4 L217-344) -/
def Re.mkSeq : Re → Re → Re
  | .empty, _ => .empty
  | .eps, b => b
  | a, b => .seq a b

/-- An alternative, without the parts that match nothing. (FilterExpressionSyntax.g4 L217-344) -/
def Re.mkAlt : Re → Re → Re
  | .empty, b => b
  | a, .empty => a
  | a, b => .alt a b

/-- What is left to match after a rune: the step of the automaton. (FilterExpressionSyntax.g4 L217-344) -/
def Re.step (c : Nat) : Re → Re
  | .empty => .empty
  | .eps => .empty
  | .set p => if p c then .eps else .empty
  | .seq a b => if a.nullable then .mkAlt (.mkSeq (a.step c) b) (b.step c) else .mkSeq (a.step c) b
  | .alt a b => .mkAlt (a.step c) (b.step c)
  | .star a => .mkSeq (a.step c) (.star a)

/-- The length of the longest prefix a rule matches: the automaton runs on while it can, and its last accepting state counts.
(FilterExpressionSyntax.g4 L217-344) -/
def Re.longest (r : Re) : List Nat → Option Nat
  | [] => if r.nullable then some 0 else none
  | c :: s =>
    match (r.step c).longest s with
    | some n => some (n + 1)
    | none => if r.nullable then some 0 else none

/-! ## Correctness -/

theorem matches_empty {s : List Nat} : ¬ Matches .empty s := nofun

theorem matches_eps {s : List Nat} : Matches .eps s ↔ s = [] := by
  constructor
  · rintro ⟨⟩
    rfl
  · rintro rfl
    exact .eps

theorem matches_set {p : Nat → Bool} {s : List Nat} : Matches (.set p) s ↔ ∃ c, s = [c] ∧ p c = true := by
  constructor
  · rintro ⟨⟩
    exact ⟨_, rfl, by assumption⟩
  · rintro ⟨c, rfl, h⟩
    exact .set h

theorem matches_seq {a b : Re} {s : List Nat} : Matches (.seq a b) s ↔ ∃ t u, s = t ++ u ∧ Matches a t ∧ Matches b u := by
  constructor
  · rintro ⟨⟩
    exact ⟨_, _, rfl, by assumption, by assumption⟩
  · rintro ⟨t, u, rfl, h1, h2⟩
    exact .seq h1 h2

theorem matches_alt {a b : Re} {s : List Nat} : Matches (.alt a b) s ↔ Matches a s ∨ Matches b s := by
  constructor
  · intro h
    cases h with
    | left h => exact .inl h
    | right h => exact .inr h
  · rintro (h | h)
    · exact .left h
    · exact .right h

theorem matches_star {a : Re} {s : List Nat} : Matches (.star a) s ↔ ∃ l : List (List Nat), s = l.flatten ∧ ∀ t ∈ l, Matches a t := by
  constructor
  · intro h
    generalize hr : Re.star a = r at h
    induction h with
    | nil =>
      cases hr
      exact ⟨[], rfl, by simp⟩
    | cons ha hs _ ih =>
      cases hr
      obtain ⟨l, rfl, hl⟩ := ih rfl
      exact ⟨_ :: l, rfl, by
        intro t ht
        rcases List.mem_cons.1 ht with rfl | ht
        · exact ha
        · exact hl t ht⟩
    | _ => cases hr
  · rintro ⟨l, rfl, h⟩
    induction l with
    | nil => exact .nil
    | cons t l ih =>
      rw [List.flatten_cons]
      exact .cons (h t (by simp)) (ih fun u hu => h u (by simp [hu]))

theorem Re.nullable_iff (r : Re) : r.nullable = true ↔ Matches r [] := by
  induction r with
  | empty => simp [Re.nullable, matches_empty]
  | eps => simp [Re.nullable, matches_eps]
  | set p => simp [Re.nullable, matches_set]
  | seq a b iha ihb =>
    simp only [Re.nullable, Bool.and_eq_true, iha, ihb, matches_seq]
    constructor
    · rintro ⟨h1, h2⟩
      exact ⟨[], [], rfl, h1, h2⟩
    · rintro ⟨t, u, h, h1, h2⟩
      obtain ⟨rfl, rfl⟩ := List.append_eq_nil_iff.1 h.symm
      exact ⟨h1, h2⟩
  | alt a b iha ihb => simp only [Re.nullable, Bool.or_eq_true, iha, ihb, matches_alt]
  | star a _ => simp [Re.nullable, Matches.nil]

theorem Re.matches_mkSeq {a b : Re} {s : List Nat} : Matches (.mkSeq a b) s ↔ Matches (.seq a b) s := by
  cases a with
  | empty => simp [Re.mkSeq, matches_seq, matches_empty]
  | eps => simp [Re.mkSeq, matches_seq, matches_eps]
  | _ => rfl

theorem Re.matches_mkAlt {a b : Re} {s : List Nat} : Matches (.mkAlt a b) s ↔ Matches (.alt a b) s := by
  cases a <;> cases b <;> simp [Re.mkAlt, matches_alt, matches_empty]

theorem Re.step_iff (r : Re) (c : Nat) (s : List Nat) : Matches (r.step c) s ↔ Matches r (c :: s) := by
  induction r generalizing s with
  | empty => simp [Re.step, matches_empty]
  | eps => simp [Re.step, matches_eps, matches_empty]
  | set p =>
    simp only [Re.step, matches_set]
    split
    · rename_i h
      simp [matches_eps, h]
    · rename_i h
      simp [matches_empty, h]
  | seq a b iha ihb =>
    have key : Matches (.mkSeq (a.step c) b) s ↔ ∃ t u, s = t ++ u ∧ Matches a (c :: t) ∧ Matches b u := by
      rw [Re.matches_mkSeq, matches_seq]
      simp only [iha]
    simp only [Re.step]
    split
    · rename_i hn
      rw [Re.matches_mkAlt, matches_alt, key, ihb, matches_seq]
      constructor
      · rintro (⟨t, u, rfl, h1, h2⟩ | h)
        · exact ⟨c :: t, u, rfl, h1, h2⟩
        · exact ⟨[], c :: s, rfl, (Re.nullable_iff a).1 hn, h⟩
      · rintro ⟨t, u, h, h1, h2⟩
        cases t with
        | nil =>
          right
          rw [List.nil_append] at h
          rwa [h]
        | cons d t =>
          left
          simp only [List.cons_append, List.cons.injEq] at h
          obtain ⟨rfl, rfl⟩ := h
          exact ⟨t, u, rfl, h1, h2⟩
    · rename_i hn
      rw [key, matches_seq]
      constructor
      · rintro ⟨t, u, rfl, h1, h2⟩
        exact ⟨c :: t, u, rfl, h1, h2⟩
      · rintro ⟨t, u, h, h1, h2⟩
        cases t with
        | nil => exact absurd ((Re.nullable_iff a).2 h1) hn
        | cons d t =>
          simp only [List.cons_append, List.cons.injEq] at h
          obtain ⟨rfl, rfl⟩ := h
          exact ⟨t, u, rfl, h1, h2⟩
  | alt a b iha ihb => simp only [Re.step, Re.matches_mkAlt, matches_alt, iha, ihb]
  | star a ih =>
    rw [Re.step, Re.matches_mkSeq, matches_seq]
    simp only [ih]
    constructor
    · rintro ⟨t, u, rfl, h1, h2⟩
      exact Matches.cons h1 h2
    · intro h
      obtain ⟨l, hl, hs⟩ := matches_star.1 h
      clear h
      induction l with
      | nil => simp at hl
      | cons t l ih =>
        cases t with
        | nil => exact ih (by simpa using hl) fun u hu => hs u (by simp [hu])
        | cons d t =>
          simp only [List.flatten_cons, List.cons_append, List.cons.injEq] at hl
          obtain ⟨rfl, rfl⟩ := hl
          exact ⟨t, l.flatten, rfl, hs _ (by simp), matches_star.2 ⟨l, rfl, fun u hu => hs u (by simp [hu])⟩⟩

/-- **The run of the automaton finds the longest match.** -/
theorem Re.longest_some (r : Re) (s : List Nat) (n : Nat) : r.longest s = some n ↔
    n ≤ s.length ∧ Matches r (s.take n) ∧ ∀ t, t <+: s → n < t.length → ¬ Matches r t := by
  have hnil : ∀ r : Re, r.longest [] = if r.nullable then some 0 else none := fun r => rfl
  induction s generalizing r n with
  | nil =>
    rw [hnil]
    constructor
    · intro h
      split at h
      · rename_i hn
        obtain rfl := Option.some.inj h
        exact ⟨Nat.le_refl _, (Re.nullable_iff r).1 hn, fun t ht hlt => by simp [List.prefix_nil.1 ht] at hlt⟩
      · cases h
    · rintro ⟨h1, h2, -⟩
      obtain rfl : n = 0 := by simpa using h1
      rw [if_pos ((Re.nullable_iff r).2 h2)]
  | cons c s ih =>
    have hnone : (r.step c).longest s = none → ∀ t, t <+: s → ¬ Matches (r.step c) t := by
      intro h t ht hm
      -- some prefix matches, so a longest one does
      have : ∃ n, (r.step c).longest s = some n := by
        have hb : ∀ k, ∀ m, m ≤ s.length → s.length - m ≤ k → Matches (r.step c) (s.take m) → ∃ n, (r.step c).longest s = some n := by
          intro k
          induction k with
          | zero =>
            intro m hm hk hmt
            refine ⟨m, (ih _ _).2 ⟨hm, hmt, fun t ht hlt => ?_⟩⟩
            have := ht.length_le
            omega
          | succ k ihk =>
            intro m hm hk hmt
            by_cases hex : ∃ t, t <+: s ∧ m < t.length ∧ Matches (r.step c) t
            · obtain ⟨t, ht, hlt, hmt'⟩ := hex
              have hle := ht.length_le
              exact ihk t.length hle (by omega) (by rwa [← List.prefix_iff_eq_take.1 ht])
            · exact ⟨m, (ih _ _).2 ⟨hm, hmt, fun t ht hlt hmt' => hex ⟨t, ht, hlt, hmt'⟩⟩⟩
        exact hb s.length t.length ht.length_le (by omega) (by rwa [← List.prefix_iff_eq_take.1 ht])
      obtain ⟨n, hn⟩ := this
      rw [h] at hn
      cases hn
    rw [Re.longest]
    cases hx : (r.step c).longest s with
    | some m =>
      obtain ⟨h1, h2, h3⟩ := (ih _ _).1 hx
      simp only [Option.some.injEq]
      constructor
      · rintro rfl
        refine ⟨by simpa using h1, by simpa [← Re.step_iff] using h2, fun t ht hlt hmt => ?_⟩
        cases t with
        | nil => simp at hlt
        | cons d t =>
          obtain ⟨rfl, ht2⟩ := List.cons_prefix_cons.1 ht
          exact h3 t ht2 (by simpa using hlt) ((Re.step_iff _ _ _).2 hmt)
      · rintro ⟨g1, g2, g3⟩
        rcases Nat.lt_trichotomy (m + 1) n with hlt | heq | hgt
        · exfalso
          obtain ⟨n, rfl⟩ : ∃ k, n = k + 1 := ⟨n - 1, by omega⟩
          rw [List.take_succ_cons] at g2
          exact h3 (s.take n) (List.take_prefix _ _) (by simp at g1 ⊢; omega) ((Re.step_iff _ _ _).2 g2)
        · exact heq
        · exfalso
          exact g3 (c :: s.take m) (List.cons_prefix_cons.2 ⟨rfl, List.take_prefix _ _⟩) (by simp; omega) ((Re.step_iff _ _ _).1 h2)
    | none =>
      have hno := hnone hx
      dsimp only
      constructor
      · intro h
        split at h
        · rename_i hn
          obtain rfl := Option.some.inj h
          refine ⟨Nat.zero_le _, (Re.nullable_iff r).1 hn, fun t ht hlt hmt => ?_⟩
          cases t with
          | nil => simp at hlt
          | cons d t =>
            obtain ⟨rfl, ht2⟩ := List.cons_prefix_cons.1 ht
            exact hno t ht2 ((Re.step_iff _ _ _).2 hmt)
        · cases h
      · rintro ⟨g1, g2, g3⟩
        cases n with
        | zero => rw [if_pos ((Re.nullable_iff r).2 g2)]
        | succ n =>
          rw [List.take_succ_cons] at g2
          exact absurd ((Re.step_iff _ _ _).2 g2) (hno _ (List.take_prefix _ _))

/-- **If it finds none there is none.** -/
theorem Re.longest_none (r : Re) (s : List Nat) : r.longest s = none ↔ ∀ t, t <+: s → ¬ Matches r t := by
  constructor
  · intro h t ht hm
    induction s generalizing r t with
    | nil =>
      rw [List.prefix_nil.1 ht] at hm
      simp [Re.longest, (Re.nullable_iff r).2 hm] at h
    | cons c s ih =>
      rw [Re.longest] at h
      cases hx : (r.step c).longest s with
      | some n => rw [hx] at h; cases h
      | none =>
        rw [hx] at h
        dsimp only at h
        split at h
        · cases h
        · rename_i hn
          cases t with
          | nil => exact hn ((Re.nullable_iff r).2 hm)
          | cons d t =>
            obtain ⟨rfl, ht2⟩ := List.cons_prefix_cons.1 ht
            exact ih _ hx t ht2 ((Re.step_iff _ _ _).2 hm)
  · intro h
    cases hx : r.longest s with
    | none => rfl
    | some n =>
      obtain ⟨-, h2, -⟩ := (Re.longest_some r s n).1 hx
      exact absurd h2 (h _ (List.take_prefix _ _))

end Verif.Lex
