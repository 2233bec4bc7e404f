import Verif.Expr.Toy
import Verif.Expr.TypeProps

/-!
# C49: LIKE

Full statement: for every text and pattern LIKE is true exactly when the text matches the pattern, `%` or `*` at either end
standing for any text and a pattern without wildcard matching only the equal text; NOT LIKE is its negation.
-/

namespace Verif.Expr

variable {P : Prim}

open Val

/-! ### What the string functions compute -/

theorem hasPrefix_iff {s t : Str} : hasPrefix s t = true ↔ ∃ post, s = t ++ post := by
  rw [hasPrefix, List.isPrefixOf_iff_prefix]
  exact ⟨fun ⟨x, h⟩ => ⟨x, h.symm⟩, fun ⟨x, h⟩ => ⟨x, h.symm⟩⟩

theorem hasSuffix_iff {s t : Str} : hasSuffix s t = true ↔ ∃ pre, s = pre ++ t := by
  rw [hasSuffix, List.isSuffixOf_iff_suffix]
  exact ⟨fun ⟨x, h⟩ => ⟨x, h.symm⟩, fun ⟨x, h⟩ => ⟨x, h.symm⟩⟩

theorem hasPrefix_false {s t : Str} : hasPrefix s t = false ↔ ¬ ∃ post, s = t ++ post := by
  rw [← hasPrefix_iff]; simp

/-- `t` occurs in `s` at position `i`. -/
def OccursAt (s t : Str) (i : Nat) : Prop := ∃ pre post, s = pre ++ t ++ post ∧ pre.length = i

theorem occursAt_zero {s t : Str} : OccursAt s t 0 ↔ hasPrefix s t = true := by
  rw [hasPrefix_iff]
  constructor
  · rintro ⟨pre, post, h, hl⟩
    cases List.length_eq_zero_iff.mp hl
    exact ⟨post, by simpa using h⟩
  · rintro ⟨post, h⟩
    exact ⟨[], post, by simpa using h, rfl⟩

theorem occursAt_succ {b : Byte} {s t : Str} {i : Nat} : OccursAt (b :: s) t (i + 1) ↔ OccursAt s t i := by
  constructor
  · rintro ⟨pre, post, h, hl⟩
    cases pre with
    | nil => simp at hl
    | cons c pre =>
      simp at h hl
      exact ⟨pre, post, by simp [h.2], hl⟩
  · rintro ⟨pre, post, h, hl⟩
    exact ⟨b :: pre, post, by simp [h], by simp [hl]⟩

theorem occursAt_nil {t : Str} {i : Nat} : OccursAt [] t i ↔ t = [] ∧ i = 0 := by
  constructor
  · rintro ⟨pre, post, h, hl⟩
    simp at h
    simp [h] at hl
    exact ⟨h.2.1, hl.symm⟩
  · rintro ⟨rfl, rfl⟩
    exact ⟨[], [], rfl, rfl⟩

theorem occursAt_length {s t : Str} {i : Nat} (h : OccursAt s t i) : i + t.length ≤ s.length := by
  obtain ⟨pre, post, rfl, rfl⟩ := h
  simp

/-- The first occurrence. -/
theorem index?_some {s t : Str} {i : Nat} : index? s t = some i ↔ OccursAt s t i ∧ ∀ j < i, ¬ OccursAt s t j := by
  induction s generalizing i with
  | nil =>
    rw [index?, occursAt_nil]
    by_cases ht : t = []
    · subst ht
      rw [if_pos (show hasPrefix [] [] = true from rfl)]
      constructor
      · rintro h
        cases h
        simp
      · rintro ⟨⟨_, rfl⟩, _⟩
        rfl
    · have : hasPrefix [] t = false := by
        rw [hasPrefix_false]
        rintro ⟨post, h⟩
        simp at h
        exact ht h.1
      rw [this]
      simp [ht]
  | cons b s ih =>
    rw [index?]
    by_cases hp : hasPrefix (b :: s) t = true
    · rw [if_pos hp]
      constructor
      · intro h
        cases h
        exact ⟨occursAt_zero.mpr hp, by simp⟩
      · rintro ⟨_, h⟩
        cases i with
        | zero => rfl
        | succ i => exact absurd (occursAt_zero.mpr hp) (h 0 (by omega))
    · rw [if_neg hp]
      cases i with
      | zero =>
        simp only [Option.map_eq_some_iff]
        constructor
        · rintro ⟨a, _, h⟩
          omega
        · rintro ⟨h, _⟩
          exact absurd (occursAt_zero.mp h) hp
      | succ i =>
        rw [occursAt_succ]
        constructor
        · intro h
          simp only [Option.map_eq_some_iff] at h
          obtain ⟨a, ha, he⟩ := h
          obtain rfl : a = i := by omega
          obtain ⟨h1, h2⟩ := ih.mp ha
          refine ⟨h1, ?_⟩
          intro j hj
          cases j with
          | zero => exact fun h => hp (occursAt_zero.mp h)
          | succ j => rw [occursAt_succ]; exact h2 j (by omega)
        · rintro ⟨h1, h2⟩
          rw [ih.mpr ⟨h1, fun j hj => by rw [← occursAt_succ (b := b)]; exact h2 (j + 1) (by omega)⟩]
          rfl

theorem index?_none {s t : Str} : index? s t = none ↔ ∀ i, ¬ OccursAt s t i := by
  induction s with
  | nil =>
    rw [index?]
    by_cases ht : t = []
    · subst ht
      rw [if_pos (show hasPrefix [] [] = true from rfl)]
      simp only [reduceCtorEq, false_iff, not_forall, not_not]
      exact ⟨0, occursAt_nil.mpr ⟨rfl, rfl⟩⟩
    · have : hasPrefix [] t = false := by
        rw [hasPrefix_false]
        rintro ⟨post, h⟩
        simp at h
        exact ht h.1
      rw [this]
      simp [occursAt_nil, ht]
  | cons b s ih =>
    rw [index?]
    by_cases hp : hasPrefix (b :: s) t = true
    · rw [if_pos hp]
      simp only [reduceCtorEq, false_iff, not_forall, not_not]
      exact ⟨0, occursAt_zero.mpr hp⟩
    · rw [if_neg hp, Option.map_eq_none_iff, ih]
      constructor
      · intro h i
        cases i with
        | zero => exact fun h => hp (occursAt_zero.mp h)
        | succ i => rw [occursAt_succ]; exact h i
      · intro h i
        rw [← occursAt_succ (b := b)]
        exact h (i + 1)

theorem containsStr_iff {s t : Str} : containsStr s t = true ↔ ∃ pre post, s = pre ++ t ++ post := by
  rw [containsStr, Option.isSome_iff_ne_none, ne_eq, index?_none]
  constructor
  · intro h
    simp only [not_forall, not_not] at h
    obtain ⟨i, pre, post, h, _⟩ := h
    exact ⟨pre, post, h⟩
  · rintro ⟨pre, post, h⟩ hn
    exact hn pre.length ⟨pre, post, h, rfl⟩

theorem replaceFrom_one (a b : Byte) (s : Str) : replaceFrom s [a] [b] = s.map fun c => if c = a then b else c := by
  induction s with
  | nil => simp [replaceFrom]
  | cons c s ih =>
    rw [replaceFrom]
    simp [hasPrefix, ih]
    by_cases h : a = c
    · simp [h]
    · rw [if_neg h, if_neg (fun e => h e.symm)]

/-! ### The pattern -/

/-- The two wildcard characters. -/
def Wild (w : Byte) : Prop := w = star ∨ w = percent

instance (w : Byte) : Decidable (Wild w) := by unfold Wild; infer_instance

/-- A pattern made of a core and the wildcards in front of it and behind it. -/
def pattern (front : Option Byte) (core : Str) (back : Option Byte) : Str := front.toList ++ core ++ back.toList

/-- A text described by the pattern: anything may stand for a wildcard, nothing where there is none. -/
def Described (front : Option Byte) (core : Str) (back : Option Byte) (text : Str) : Prop :=
  ∃ pre post, text = pre ++ core ++ post ∧ (front = none → pre = []) ∧ (back = none → post = [])

/-- Letter case matters for the exact match only. -/
def fold (P : Prim) (exact : Bool) (s : Str) : Str := if exact then s else P.upper s

/-- The operator. -/
def likeOf (exact : Bool) : Op := if exact then .likeExactMatch else .like
def notLikeOf (exact : Bool) : Op := if exact then .notLikeExactMatch else .notLike

theorem apply_like (exact : Bool) (l r : Str) :
    applyOp (P := P) (likeOf exact) (.string l) (.string r) = (likeText P exact l r >>= fun b => .ok (.boolean b)) := by
  cases exact <;> rfl

/-- The pattern with `%` written as `*`. -/
def starred (s : Str) : Str := s.map fun c => if c = percent then star else c

theorem starred_core {core : Str} (h : ∀ b ∈ core, ¬ Wild b) : starred core = core := by
  unfold starred
  rw [List.map_congr_left (g := id), List.map_id]
  intro b hb
  have := h b hb
  unfold Wild at this
  rw [if_neg (by tauto)]
  rfl

theorem starred_wild {w : Byte} (h : Wild w) : starred [w] = [star] := by
  rcases h with rfl | rfl <;> decide

theorem test_eq (s : Str) : replaceAll s [percent] [star] = starred s := by
  rw [replaceAll, if_neg (by simp), replaceFrom_one]
  rfl

/-- The pattern in the form the code works with. -/
theorem starred_pattern {front back : Option Byte} {core : Str} (hf : ∀ w ∈ front, Wild w) (hb : ∀ w ∈ back, Wild w)
    (hc : ∀ b ∈ core, ¬ Wild b) :
    starred (pattern front core back) = (if front.isSome then [star] else []) ++ core ++ (if back.isSome then [star] else []) := by
  have h1 : starred front.toList = if front.isSome then [star] else [] := by
    cases front with
    | none => rfl
    | some w => exact starred_wild (hf w rfl)
  have h2 : starred back.toList = if back.isSome then [star] else [] := by
    cases back with
    | none => rfl
    | some w => exact starred_wild (hb w rfl)
  have h3 := starred_core hc
  unfold pattern
  unfold starred at *
  rw [List.map_append, List.map_append, h1, h2, h3]

theorem prefix_star (f : Bool) {core rest : Str} (hc : star ∉ core) (h : core ≠ []) :
    hasPrefix ((if f then [star] else []) ++ core ++ rest) [star] = f := by
  cases core with
  | nil => exact absurd rfl h
  | cons c core =>
    have hne : (star == c) = false := by
      rw [beq_eq_false_iff_ne]
      rintro rfl
      simp at hc
    cases f
    · simp only [Bool.false_eq_true, if_false, List.nil_append, List.cons_append, hasPrefix, List.isPrefixOf, hne, Bool.false_and]
    · simp [hasPrefix]

theorem suffix_star (f : Bool) {core front : Str} (hc : star ∉ core) (h : core ≠ []) :
    hasSuffix (front ++ core ++ (if f then [star] else [])) [star] = f := by
  obtain ⟨init, last, rfl⟩ : ∃ init last, core = init ++ [last] := ⟨core.dropLast, core.getLast h, (List.dropLast_concat_getLast h).symm⟩
  cases f
  · rw [Bool.eq_false_iff]
    intro hs
    obtain ⟨pre, he⟩ := hasSuffix_iff.mp hs
    simp only [Bool.false_eq_true, if_false, List.append_nil, ← List.append_assoc] at he
    have := List.append_inj_right' he rfl
    simp at this
    exact hc (by simp [this])
  · exact hasSuffix_iff.mpr ⟨_, rfl⟩

theorem likeCore_eq (f b : Bool) {core : Str} (hc : star ∉ core) (h : core ≠ []) :
    likeCore ((if f then [star] else []) ++ core ++ (if b then [star] else [])) = core := by
  have hp := prefix_star (rest := if b then [star] else []) f hc h
  have hs := suffix_star (front := if f then [star] else []) b hc h
  unfold likeCore
  dsimp only
  rw [hp, hs]
  have hl : 0 < core.length := List.length_pos_iff.mpr h
  cases f <;> cases b <;> simp [h]

/-- Partial: patterns with a wildcard at either end, or both. The result is true exactly for the texts described by the pattern.
    Missing: patterns without any wildcard, see `C49_no_wildcard_false` and `C49_empty_pattern_false`. -/
theorem C49_like_partial (exact : Bool) {front back : Option Byte} {core : Str} (text : Str) (hf : ∀ w ∈ front, Wild w)
    (hb : ∀ w ∈ back, Wild w) (hc : ∀ b ∈ core, ¬ Wild b) (hw : front ≠ none ∨ back ≠ none) (hne : core ≠ []) :
    ∃ b : Bool, applyOp (P := P) (likeOf exact) (.string text) (.string (pattern front core back)) = .ok (.boolean b) ∧
      (b = true ↔ Described front (fold P exact core) back (fold P exact text)) := by
  have hstar : star ∉ core := fun h => hc _ h (.inl rfl)
  rw [apply_like, likeText]
  rw [test_eq, starred_pattern hf hb hc, likeCore_eq _ _ hstar hne, prefix_star _ hstar hne, suffix_star _ hstar hne]
  rw [if_neg (by simpa using hne), if_neg (by simpa using hstar)]
  refine ⟨_, rfl, ?_⟩
  have e1 : ∀ a b : Str, (if exact then hasSuffix a b else hasSuffix (P.upper a) (P.upper b)) = hasSuffix (fold P exact a) (fold P exact b) := by
    intro a b; cases exact <;> rfl
  have e2 : ∀ a b : Str, (if exact then hasPrefix a b else hasPrefix (P.upper a) (P.upper b)) = hasPrefix (fold P exact a) (fold P exact b) := by
    intro a b; cases exact <;> rfl
  have e3 : ∀ a b : Str, (if exact then containsStr a b else containsStr (P.upper a) (P.upper b)) = containsStr (fold P exact a) (fold P exact b) := by
    intro a b; cases exact <;> rfl
  unfold likeTests
  rw [e1, e2, e3]
  generalize fold P exact text = t
  generalize fold P exact core = c
  unfold Described
  cases front with
  | none =>
    cases back with
    | none => simp at hw
    | some w =>
      simp only [Option.isSome_none, Option.isSome_some, Bool.false_and, Bool.true_and, Bool.false_eq_true, if_false]
      have : (if hasPrefix t c = true then true else false) = hasPrefix t c := by cases hasPrefix t c <;> rfl
      rw [this, hasPrefix_iff]
      constructor
      · rintro ⟨post, h⟩
        exact ⟨[], post, by simpa using h, fun _ => rfl, by simp⟩
      · rintro ⟨pre, post, h, hp, _⟩
        rw [hp trivial] at h
        exact ⟨post, by simpa using h⟩
  | some w =>
    cases back with
    | none =>
      simp only [Option.isSome_none, Option.isSome_some, Bool.false_and, Bool.true_and, Bool.false_eq_true, if_false, Bool.and_false]
      have : (if hasSuffix t c = true then true else false) = hasSuffix t c := by cases hasSuffix t c <;> rfl
      rw [this, hasSuffix_iff]
      constructor
      · rintro ⟨pre, h⟩
        exact ⟨pre, [], by simpa using h, by simp, fun _ => rfl⟩
      · rintro ⟨pre, post, h, _, hp⟩
        rw [hp trivial] at h
        exact ⟨pre, by simpa using h⟩
    | some w' =>
      simp only [Option.isSome_some, Bool.true_and]
      constructor
      · intro h
        by_cases h1 : hasSuffix t c = true
        · obtain ⟨pre, h⟩ := hasSuffix_iff.mp h1
          exact ⟨pre, [], by simpa using h, by simp, by simp⟩
        · rw [if_neg h1] at h
          by_cases h2 : hasPrefix t c = true
          · obtain ⟨post, h⟩ := hasPrefix_iff.mp h2
            exact ⟨[], post, by simpa using h, by simp, by simp⟩
          · rw [if_neg h2] at h
            have h3 : containsStr t c = true := by
              by_contra h3
              rw [if_neg h3] at h
              cases h
            obtain ⟨pre, post, h⟩ := containsStr_iff.mp h3
            exact ⟨pre, post, h, by simp, by simp⟩
      · rintro ⟨pre, post, h, _, _⟩
        have h3 : containsStr t c = true := containsStr_iff.mpr ⟨pre, post, h⟩
        rw [h3]
        split
        · rfl
        · split <;> rfl

/-- `'Voltage' LIKE '%TAG*'` -/
example : ∃ b : Bool, applyOp (P := Toy.prim) (likeOf false) (.string (lit "Voltage")) (.string (lit "%TAG*")) = .ok (.boolean b) ∧
    (b = true ↔ Described (some percent) (fold Toy.prim false (lit "TAG")) (some star) (fold Toy.prim false (lit "Voltage"))) :=
  C49_like_partial (front := some percent) (core := lit "TAG") (back := some star) false (lit "Voltage")
    (by simp [Wild]) (by simp [Wild]) (by decide) (by simp) (by decide)

/-- Nothing but wildcards matches every text. -/
theorem C49_only_wildcards (exact : Bool) (text : Str) {w v : Byte} (hw : Wild w) (hv : Wild v) :
    applyOp (P := P) (likeOf exact) (.string text) (.string [w]) = .ok (.boolean true) ∧
    applyOp (P := P) (likeOf exact) (.string text) (.string [w, v]) = .ok (.boolean true) := by
  have h1 : starred [w] = [star] := starred_wild hw
  have h2 : starred [w, v] = [star, star] := by
    rcases hw with rfl | rfl <;> rcases hv with rfl | rfl <;> decide
  constructor
  · rw [apply_like, likeText, test_eq, h1]
    rfl
  · rw [apply_like, likeText, test_eq, h2]
    rfl

example : Wild percent := .inr rfl

/-- A pattern without a wildcard matches nothing, not even the equal text. -/
theorem C49_no_wildcard_false (exact : Bool) {core : Str} (text : Str) (hc : ∀ b ∈ core, ¬ Wild b) (hne : core ≠ []) :
    applyOp (P := P) (likeOf exact) (.string text) (.string core) = .ok (.boolean false) := by
  have hstar : star ∉ core := fun h => hc _ h (.inl rfl)
  have h0 := starred_core hc
  have e := likeCore_eq false false hstar hne
  have p := prefix_star (rest := []) false hstar hne
  have s := suffix_star (front := []) false hstar hne
  simp only [Bool.false_eq_true, if_false, List.nil_append, List.append_nil] at e p s
  rw [apply_like, likeText]
  rw [test_eq, h0, e, p, s, if_neg (by simpa using hne), if_neg (by simpa using hstar)]
  rfl

example : applyOp (P := Toy.prim) .like (.string (lit "abc")) (.string (lit "abc")) = .ok (.boolean false) :=
  C49_no_wildcard_false false (lit "abc") (by decide) (by decide)

/-- The empty pattern matches every text, not only the empty one. -/
theorem C49_empty_pattern_false (exact : Bool) (text : Str) :
    applyOp (P := P) (likeOf exact) (.string text) (.string []) = .ok (.boolean true) := by
  rw [apply_like, likeText, test_eq]
  rfl

/-- A wildcard anywhere but at the ends is refused. -/
theorem C49_inner_wildcard (exact : Bool) (text pre post : Str) (a b w : Byte) (hw : Wild w) :
    applyOp (P := P) (likeOf exact) (.string text) (.string (a :: (pre ++ w :: (post ++ [b])))) = .err := by
  have hs : starred (a :: (pre ++ w :: (post ++ [b]))) =
      (if a = percent then star else a) :: (starred pre ++ star :: (starred post ++ [if b = percent then star else b])) := by
    have := starred_wild hw
    simp [starred] at this ⊢
    exact this
  have hmem : ∀ (x y : Byte) (u v : Str), star ∈ likeCore (x :: (u ++ star :: (v ++ [y]))) := by
    intro x y u v
    unfold likeCore
    dsimp only
    split <;> split
    · simp [List.take_append]
    · simp
    · have : (x :: (u ++ star :: (v ++ [y]))) = (x :: (u ++ star :: v)) ++ [y] := by simp
      rw [this, List.length_append, List.length_singleton, Nat.add_sub_cancel, List.take_left]
      simp
    · simp
  rw [apply_like, likeText]
  rw [test_eq, hs]
  have hm := hmem (if a = percent then star else a) (if b = percent then star else b) (starred pre) (starred post)
  generalize likeCore _ = c at hm
  rw [if_neg, if_pos]
  · rfl
  · simpa using hm
  · intro h
    rw [List.length_eq_zero_iff.mp h] at hm
    cases hm

example : applyOp (P := Toy.prim) .like (.string (lit "abc")) (.string (lit "a*c")) = .err :=
  C49_inner_wildcard false (lit "abc") [] [] _ _ star (.inl rfl)

/-- NOT LIKE is the negation of LIKE, for all texts and patterns. -/
theorem C49_not_like (exact : Bool) (text pat : Str) :
    (∀ b : Bool, applyOp (P := P) (likeOf exact) (.string text) (.string pat) = .ok (.boolean b) →
      applyOp (P := P) (notLikeOf exact) (.string text) (.string pat) = .ok (.boolean (!b))) ∧
    (applyOp (P := P) (likeOf exact) (.string text) (.string pat) = .err →
      applyOp (P := P) (notLikeOf exact) (.string text) (.string pat) = .err) := by
  have h : applyOp (P := P) (notLikeOf exact) (.string text) (.string pat) = (likeText P exact text pat >>= fun b => .ok (.boolean (!b))) := by
    have : applyOp (P := P) (notLikeOf exact) (.string text) (.string pat) = (do
        let result ← (likeText P exact text pat >>= fun b => Res.ok (Val.boolean (P := P) b))
        if ← result.booleanValue then return .boolean false else return .boolean true : Res (Val P)) := by
      cases exact <;> rfl
    rw [this]
    cases likeText P exact text pat with
    | ok b => cases b <;> rfl
    | err => rfl
    | panic => rfl
  rw [h, apply_like]
  cases likeText P exact text pat with
  | ok b =>
    constructor
    · intro c hc
      simp at hc
      simp [hc]
    · intro hc
      cases hc
  | err => exact ⟨fun c hc => (by cases hc), fun _ => rfl⟩
  | panic => exact ⟨fun c hc => (by cases hc), fun hc => (by cases hc)⟩

example : applyOp (P := Toy.prim) .notLike (.string (lit "abc")) (.string (lit "b")) = .ok (.boolean true) :=
  (C49_not_like false (lit "abc") (lit "b")).1 false (C49_no_wildcard_false false (lit "abc") (by decide) (by decide))

end Verif.Expr
