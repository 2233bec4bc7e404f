import Verif.Lex.Texts

/-!
# Every text is cut into tokens, each the longest text a rule matches (data/FilterExpressionSyntax.g4 L215-371)
-/

namespace Verif.Lex

open Verif.Expr Verif.Parse

/-! ## Specification -/

/-- A comment from `/*` to the nearest `*/`, or to the end of the text if there is none. -/
def CommentOf (s t : List Nat) : Prop :=
  (∃ c, t = 47 :: 42 :: (c ++ [42, 47]) ∧ ∀ a b, c ++ [42, 47] = a ++ 42 :: 47 :: b → b = []) ∨
    (t = s ∧ ∃ c, t = 47 :: 42 :: c ∧ ∀ a b, c ≠ a ++ 42 :: 47 :: b)

/-- A rule can take `t` at the start of `s`. -/
def Takes (k : Kind) (s t : List Nat) : Prop := t <+: s ∧ if k = .blockComment then CommentOf s t else k.Text t

/-- The token at the start of `s` is `t`, of rule `k`: no rule takes more, no earlier one as much. -/
def First (k : Kind) (s t : List Nat) : Prop :=
  k ∈ order ∧ Takes k s t ∧ ∀ l ∈ order, ∀ u, Takes l s u → u.length < t.length ∨ (u.length = t.length ∧ order.idxOf k ≤ order.idxOf l)

/-! ## Comments -/

theorem closing_some {s : List Nat} {n : Nat} (h : closing s = some n) :
    ∃ c r, s = c ++ 42 :: 47 :: r ∧ n = c.length + 2 ∧ ∀ a b, c ++ [42, 47] = a ++ 42 :: 47 :: b → b = [] := by
  induction s generalizing n with
  | nil => cases h
  | cons x s ih =>
    rw [closing] at h
    split at h
    · rename_i hx
      obtain rfl := Option.some.inj h
      obtain ⟨rfl, hs⟩ := hx
      cases s with
      | nil => simp at hs
      | cons y s =>
        obtain rfl : y = 47 := by simpa using hs
        refine ⟨[], s, rfl, rfl, fun a b hab => ?_⟩
        have := congrArg List.length hab
        simp at this
        exact List.length_eq_zero_iff.1 (by omega)
    · rename_i hx
      cases hc : closing s with
      | none => rw [hc] at h; cases h
      | some m =>
        rw [hc] at h
        obtain rfl := Option.some.inj h
        obtain ⟨c, r, rfl, rfl, h3⟩ := ih hc
        refine ⟨x :: c, r, rfl, by simp, fun a b hab => ?_⟩
        cases a with
        | nil =>
          exfalso
          simp only [List.cons_append, List.nil_append, List.cons.injEq] at hab
          refine hx ⟨hab.1, ?_⟩
          cases c with
          | nil => simp at hab
          | cons y c =>
            simp only [List.cons_append, List.cons.injEq] at hab
            simp [hab.2.1]
        | cons y a =>
          simp only [List.cons_append, List.cons.injEq] at hab
          exact h3 a b hab.2

theorem closing_none {s : List Nat} (h : closing s = none) : ∀ a b, s ≠ a ++ 42 :: 47 :: b := by
  induction s with
  | nil => intro a b hab; cases a <;> simp at hab
  | cons x s ih =>
    rw [closing] at h
    split at h
    · cases h
    · rename_i hx
      cases hc : closing s with
      | some m => rw [hc] at h; cases h
      | none =>
        intro a b hab
        cases a with
        | nil =>
          simp only [List.nil_append, List.cons.injEq] at hab
          exact hx ⟨hab.1, by simp [hab.2]⟩
        | cons y a =>
          simp only [List.cons_append, List.cons.injEq] at hab
          exact ih hc a b hab.2

/-- A text that holds `*/` cannot have it at two first places. -/
theorem comment_unique {s t u : List Nat} (ht : t <+: s) (hu : u <+: s) (h1 : CommentOf s t) (h2 : CommentOf s u) : t = u := by
  obtain ⟨rt, rfl⟩ := ht
  obtain ⟨ru, hru⟩ := hu
  rcases h1 with ⟨c, rfl, hc⟩ | ⟨he, c, rfl, hc⟩
  · rcases h2 with ⟨d, rfl, hd⟩ | ⟨he, d, hd, hd'⟩
    · simp only [List.cons_append, List.cons.injEq, true_and, List.append_assoc] at hru
      rcases Nat.lt_trichotomy c.length d.length with hlt | heq | hgt
      · exfalso
        -- `*/` after c lies inside d */
        have hp : c ++ [42, 47] <+: d ++ [42, 47] := by
          refine List.prefix_of_prefix_length_le (l₃ := c ++ ([42, 47] ++ rt)) ?_ ?_ (by simp; omega)
          · exact ⟨rt, by simp⟩
          · exact ⟨ru, by simpa using hru⟩
        obtain ⟨b, hb⟩ := hp
        have := hd c b (by simpa using hb.symm)
        subst this
        have := congrArg List.length hb
        simp at this
        omega
      · have := List.append_inj_left (t₁ := 42 :: 47 :: ru) (t₂ := 42 :: 47 :: rt) (by simpa using hru) heq.symm
        rw [this]
      · exfalso
        have hp : d ++ [42, 47] <+: c ++ [42, 47] := by
          refine List.prefix_of_prefix_length_le (l₃ := c ++ ([42, 47] ++ rt)) ?_ ?_ (by simp; omega)
          · exact ⟨ru, by simpa using hru⟩
          · exact ⟨rt, by simp⟩
        obtain ⟨b, hb⟩ := hp
        have := hc d b (by simpa using hb.symm)
        subst this
        have := congrArg List.length hb
        simp at this
        omega
    · exfalso
      rw [hd] at he
      simp only [List.cons_append, List.cons.injEq, true_and, List.append_assoc] at he
      exact hd' c rt (by simpa using he)
  · rcases h2 with ⟨d, rfl, hd⟩ | ⟨he2, d, hd, hd'⟩
    · exfalso
      have hrt : rt = [] := by
        have := congrArg List.length he
        simp at this
        exact this
      subst hrt
      simp only [List.cons_append, List.append_nil, List.cons.injEq, true_and, List.append_assoc] at hru
      exact hc d ru (by simpa using hru.symm)
    · rw [he2]
      exact he

theorem comment_spec (s : List Nat) (n : Nat) : comment s = some n ↔ n ≤ s.length ∧ CommentOf s (s.take n) := by
  have key : ∀ m, comment s = some m → m ≤ s.length ∧ CommentOf s (s.take m) := by
    intro m h
    unfold comment at h
    split at h
    · rename_i s
      obtain rfl := Option.some.inj h
      cases hc : closing s with
      | some k =>
        obtain ⟨c, r, rfl, rfl, h3⟩ := closing_some hc
        refine ⟨by simp, .inl ⟨c, ?_, h3⟩⟩
        have e : c ++ 42 :: 47 :: r = (c ++ [42, 47]) ++ r := by simp
        simp only [Option.getD_some, List.take_succ_cons]
        rw [e, show c.length + 2 = (c ++ [42, 47]).length by simp, List.take_left]
      | none =>
        refine ⟨by simp, .inr ⟨by simp, s, by simp, closing_none hc⟩⟩
    · cases h
  constructor
  · exact key n
  · rintro ⟨h1, h2⟩
    have hs : ∃ r, s = 47 :: 42 :: r := by
      rcases h2 with ⟨c, hc, -⟩ | ⟨he, c, hc, -⟩
      · have := List.take_append_drop n s
        rw [hc] at this
        exact ⟨c ++ [42, 47] ++ s.drop n, by rw [List.cons_append, List.cons_append] at this; exact this.symm⟩
      · exact ⟨c, by rw [← he, hc]⟩
    obtain ⟨r, rfl⟩ := hs
    obtain ⟨h3, h4⟩ := key _ (rfl : comment (47 :: 42 :: r) = some ((closing r).getD r.length + 2))
    have := comment_unique (List.take_prefix _ _) (List.take_prefix _ _) h2 h4
    have := congrArg List.length this
    rw [List.length_take, List.length_take] at this
    have e : n = (closing r).getD r.length + 2 := by omega
    rw [e]
    rfl

theorem comment_none (s : List Nat) : comment s = none ↔ ∀ t, t <+: s → ¬ CommentOf s t := by
  constructor
  · intro h t ht hc
    rw [(comment_spec s t.length).2 ⟨ht.length_le, by rwa [← List.prefix_iff_eq_take.1 ht]⟩] at h
    cases h
  · intro h
    cases hc : comment s with
    | none => rfl
    | some n => exact absurd ((comment_spec s n).1 hc).2 (h _ (List.take_prefix _ _))

/-! ## One token -/

theorem Kind.scan_some {k : Kind} (hk : k ∈ order) {s : List Nat} {n : Nat} :
    k.scan s = some n ↔ n ≤ s.length ∧ Takes k s (s.take n) ∧ ∀ u, Takes k s u → u.length ≤ n := by
  rw [Kind.scan]
  by_cases h : k = .blockComment
  · subst h
    simp only [Takes, if_pos, comment_spec]
    constructor
    · rintro ⟨h1, h2⟩
      refine ⟨h1, ⟨List.take_prefix _ _, h2⟩, fun u hu => ?_⟩
      rw [comment_unique hu.1 (List.take_prefix n s) hu.2 h2]
      simp
    · rintro ⟨h1, h2, -⟩
      exact ⟨h1, h2.2⟩
  · simp only [Takes, if_neg h, Re.longest_some, Kind.re_iff hk]
    constructor
    · rintro ⟨h1, h2, h3⟩
      refine ⟨h1, ⟨List.take_prefix _ _, h2⟩, fun u hu => ?_⟩
      by_contra hlt
      exact h3 u hu.1 (by omega) hu.2
    · rintro ⟨h1, h2, h3⟩
      refine ⟨h1, h2.2, fun u hu hlt hm => ?_⟩
      have := h3 u ⟨hu, hm⟩
      omega

theorem Kind.scan_none {k : Kind} (hk : k ∈ order) {s : List Nat} : k.scan s = none ↔ ∀ u, ¬ Takes k s u := by
  rw [Kind.scan]
  by_cases h : k = .blockComment
  · subst h
    simp only [Takes, if_pos, comment_none]
    exact ⟨fun h u hu => h u hu.1 hu.2, fun h u h1 h2 => h u ⟨h1, h2⟩⟩
  · simp only [Takes, if_neg h, Re.longest_none, Kind.re_iff hk]
    exact ⟨fun h u hu => h u hu.1 hu.2, fun h u h1 h2 => h u ⟨h1, h2⟩⟩

theorem best_some {ks : List Kind} {s : List Nat} {k : Kind} {n : Nat} (h : best ks s = some (k, n)) :
    ∃ pre post, ks = pre ++ k :: post ∧ k.scan s = some n ∧ (∀ l ∈ pre, ∀ m, l.scan s = some m → m < n) ∧
      ∀ l ∈ post, ∀ m, l.scan s = some m → m ≤ n := by
  induction ks with
  | nil => cases h
  | cons x ks ih =>
    have hbound : ∀ {l : Kind} {p : Nat}, best ks s = some (l, p) → ∀ y ∈ ks, ∀ m, y.scan s = some m → m ≤ p := by
      intro l p hb
      clear ih h
      induction ks generalizing l p with
      | nil => cases hb
      | cons z ks ih =>
        intro y hy m hm
        rw [best] at hb
        cases hz : z.scan s with
        | none =>
          rw [hz] at hb
          rcases List.mem_cons.1 hy with rfl | hy
          · rw [hz] at hm; cases hm
          · exact ih hb y hy m hm
        | some a =>
          cases hr : best ks s with
          | none =>
            have hnone : ∀ y ∈ ks, y.scan s = none := by
              clear ih hb hy hm
              induction ks with
              | nil => simp
              | cons w ks ih =>
                rw [best] at hr
                cases hw : w.scan s with
                | none =>
                  rw [hw] at hr
                  intro y hy
                  rcases List.mem_cons.1 hy with rfl | hy
                  · exact hw
                  · exact ih hr y hy
                | some b =>
                  rw [hw] at hr
                  cases hq : best ks s with
                  | none => rw [hq] at hr; cases hr
                  | some q =>
                    rw [hq] at hr
                    dsimp only at hr
                    split at hr <;> cases hr
            rw [hz, hr] at hb
            simp only [Option.some.injEq, Prod.mk.injEq] at hb
            rcases List.mem_cons.1 hy with rfl | hy
            · rw [hz] at hm
              simp only [Option.some.injEq] at hm
              omega
            · rw [hnone y hy] at hm
              cases hm
          | some q =>
            obtain ⟨l', p'⟩ := q
            rw [hz, hr] at hb
            dsimp only at hb
            have hle : a ≤ p ∧ p' ≤ p := by
              split at hb <;> simp only [Option.some.injEq, Prod.mk.injEq] at hb <;> omega
            rcases List.mem_cons.1 hy with rfl | hy
            · rw [hz] at hm
              simp only [Option.some.injEq] at hm
              omega
            · have := ih hr y hy m hm
              omega
    have hempty : best ks s = none → ∀ y ∈ ks, y.scan s = none := by
      intro hr
      clear ih h hbound
      induction ks with
      | nil => simp
      | cons w ks ih =>
        rw [best] at hr
        cases hw : w.scan s with
        | none =>
          rw [hw] at hr
          intro y hy
          rcases List.mem_cons.1 hy with rfl | hy
          · exact hw
          · exact ih hr y hy
        | some b =>
          rw [hw] at hr
          cases hq : best ks s with
          | none => rw [hq] at hr; cases hr
          | some q =>
            rw [hq] at hr
            dsimp only at hr
            split at hr <;> cases hr
    rw [best] at h
    cases hx : x.scan s with
    | none =>
      rw [hx] at h
      obtain ⟨pre, post, rfl, h2, h3, h4⟩ := ih h
      refine ⟨x :: pre, post, rfl, h2, fun l hl m hm => ?_, h4⟩
      rcases List.mem_cons.1 hl with rfl | hl
      · rw [hx] at hm; cases hm
      · exact h3 l hl m hm
    | some a =>
      cases hr : best ks s with
      | none =>
        rw [hx, hr] at h
        simp only [Option.some.injEq, Prod.mk.injEq] at h
        obtain ⟨rfl, rfl⟩ := h
        exact ⟨[], ks, rfl, hx, by simp, fun l hl m hm => by rw [hempty hr l hl] at hm; cases hm⟩
      | some q =>
        obtain ⟨l, p⟩ := q
        rw [hx, hr] at h
        dsimp only at h
        split at h
        · rename_i hle
          simp only [Option.some.injEq, Prod.mk.injEq] at h
          obtain ⟨rfl, rfl⟩ := h
          refine ⟨[], ks, rfl, hx, by simp, fun y hy m hm => ?_⟩
          have := hbound hr y hy m hm
          omega
        · rename_i hle
          simp only [Option.some.injEq, Prod.mk.injEq] at h
          obtain ⟨rfl, rfl⟩ := h
          obtain ⟨pre, post, rfl, h2, h3, h4⟩ := ih hr
          refine ⟨x :: pre, post, rfl, h2, fun y hy m hm => ?_, h4⟩
          rcases List.mem_cons.1 hy with rfl | hy
          · rw [hx] at hm
            simp only [Option.some.injEq] at hm
            omega
          · exact h3 y hy m hm

theorem best_none {ks : List Kind} {s : List Nat} (h : best ks s = none) : ∀ k ∈ ks, k.scan s = none := by
  induction ks with
  | nil => simp
  | cons w ks ih =>
    rw [best] at h
    cases hw : w.scan s with
    | none =>
      rw [hw] at h
      intro y hy
      rcases List.mem_cons.1 hy with rfl | hy
      · exact hw
      · exact ih h y hy
    | some b =>
      rw [hw] at h
      cases hq : best ks s with
      | none => rw [hq] at h; cases h
      | some q =>
        rw [hq] at h
        dsimp only at h
        split at h <;> cases h

/-- No rule is in the table twice. -/
theorem order_nodup : order.Nodup := by decide +kernel

theorem unexpected_mem : Kind.unexpected ∈ order := by decide

/-- No rule takes an empty text. -/
theorem Takes.ne_nil {k : Kind} (hk : k ∈ order) {s t : List Nat} (h : Takes k s t) : t ≠ [] := by
  rintro rfl
  have hn : ∀ k ∈ order, k.re.nullable = false := by decide +kernel
  by_cases hb : k = .blockComment
  · rw [Takes, if_pos hb] at h
    rcases h.2 with ⟨c, hc, -⟩ | ⟨-, c, hc, -⟩ <;> cases hc
  · rw [Takes, if_neg hb] at h
    have := (Re.nullable_iff k.re).2 ((Kind.re_iff hk).2 h.2)
    rw [hn k hk] at this
    cases this

theorem idxOf_inj {ks : List Kind} {k l : Kind} (hk : k ∈ ks) (h : ks.idxOf k = ks.idxOf l) : k = l := by
  induction ks with
  | nil => simp at hk
  | cons x ks ih =>
    rw [List.idxOf_cons, List.idxOf_cons] at h
    by_cases h1 : x = k
    · by_cases h2 : x = l
      · rw [← h1, h2]
      · rw [beq_iff_eq.2 h1, beq_false_of_ne h2] at h
        cases h
    · by_cases h2 : x = l
      · rw [beq_iff_eq.2 h2, beq_false_of_ne h1] at h
        cases h
      · rw [beq_false_of_ne h1, beq_false_of_ne h2] at h
        refine ih ?_ (Nat.succ.inj h)
        rcases List.mem_cons.1 hk with rfl | hk
        · exact absurd rfl h1
        · exact hk

/-- There is one first token at most. -/
theorem First.unique {k l : Kind} {s t u : List Nat} (h : First k s t) (h' : First l s u) : k = l ∧ t = u := by
  obtain ⟨hk, ht, h1⟩ := h
  obtain ⟨hl, hu, h2⟩ := h'
  have a := h1 l hl u hu
  have b := h2 k hk t ht
  have hlen : t.length = u.length := by omega
  refine ⟨idxOf_inj hk (by omega), ?_⟩
  rw [List.prefix_iff_eq_take.1 ht.1, List.prefix_iff_eq_take.1 hu.1, hlen]

/-- What the lexer finds is the first token. -/
theorem best_first {s : List Nat} (hs : s ≠ []) : ∃ k n, best order s = some (k, n) ∧ n ≤ s.length ∧ First k s (s.take n) := by
  cases hb : best order s with
  | none =>
    exfalso
    have := (Kind.scan_none unexpected_mem).1 (best_none hb _ unexpected_mem)
    cases s with
    | nil => exact hs rfl
    | cons c s => exact this [c] ⟨⟨s, rfl⟩, by rw [if_neg (by decide)]; exact ⟨c, rfl⟩⟩
  | some x =>
    obtain ⟨k, n⟩ := x
    obtain ⟨pre, post, ho, h1, h2, h3⟩ := best_some hb
    have hk : k ∈ order := by rw [ho]; simp
    obtain ⟨h4, h5, h6⟩ := (Kind.scan_some hk).1 h1
    refine ⟨k, n, rfl, h4, hk, h5, fun l hl u hu => ?_⟩
    have hlen : (s.take n).length = n := by rw [List.length_take]; omega
    rw [hlen]
    have hscan : ∃ m, l.scan s = some m ∧ u.length ≤ m := by
      cases hm : l.scan s with
      | none => exact absurd hu ((Kind.scan_none hl).1 hm u)
      | some m => exact ⟨m, rfl, ((Kind.scan_some hl).1 hm).2.2 u hu⟩
    obtain ⟨m, hm, hle⟩ := hscan
    have hnd := order_nodup
    rw [ho] at hnd hl
    by_cases hpre : l ∈ pre
    · left
      have := h2 l hpre m hm
      omega
    · have hmn : m ≤ n := by
        rcases List.mem_append.1 hl with hl | hl
        · exact absurd hl hpre
        · rcases List.mem_cons.1 hl with rfl | hl
          · rw [hm] at h1
            simp only [Option.some.injEq] at h1
            omega
          · exact h3 l hl m hm
      have hkp : k ∉ pre := fun hkp => (List.nodup_append.1 hnd).2.2 _ hkp _ (by simp) rfl
      have hidx : order.idxOf k ≤ order.idxOf l := by
        rw [ho, List.idxOf_append, List.idxOf_append, if_neg hkp, if_neg hpre, List.idxOf_cons_self]
        omega
      omega

/-- The first token settles what the lexer does. -/
theorem lex_first {k : Kind} {t r : List Nat} (h : First k (t ++ r) t) : lex (t ++ r) = (k, t) :: lex r := by
  have hne := h.2.1.ne_nil h.1
  have hs : t ++ r ≠ [] := by simp [hne]
  obtain ⟨l, n, hb, hle, hl⟩ := best_first hs
  obtain ⟨rfl, ht⟩ := h.unique hl
  have hn : n = t.length := by
    have := congrArg List.length ht
    rw [List.length_take] at this
    omega
  subst hn
  have hfuel : ∀ (n m : Nat) (s : List Nat), s.length ≤ n → s.length ≤ m → lexAux n s = lexAux m s := by
    intro n
    induction n with
    | zero =>
      intro m s h1 _
      obtain rfl := List.length_eq_zero_iff.1 (Nat.le_zero.1 h1)
      cases m <;> simp [lexAux]
    | succ n ih =>
      intro m s h1 h2
      cases m with
      | zero =>
        obtain rfl := List.length_eq_zero_iff.1 (Nat.le_zero.1 h2)
        simp [lexAux]
      | succ m =>
        rw [lexAux, lexAux]
        by_cases he : s = []
        · rw [if_pos he, if_pos he]
        · rw [if_neg he, if_neg he]
          obtain ⟨k, j, hb, hj, hf⟩ := best_first he
          have hpos := hf.2.1.ne_nil hf.1
          have : 0 < j := by
            rcases Nat.eq_zero_or_pos j with rfl | h
            · simp at hpos
            · exact h
          rw [hb]
          dsimp only
          rw [ih m (s.drop j) (by rw [List.length_drop]; omega) (by rw [List.length_drop]; omega)]
  rw [lex]
  obtain ⟨p, hp⟩ : ∃ p, (t ++ r).length = p + 1 := ⟨(t ++ r).length - 1, by
    have := List.length_pos_iff.2 hs
    omega⟩
  rw [hp, lexAux, if_neg hs, hb]
  simp only [List.take_left, List.drop_left]
  rw [lex, hfuel p r.length r (by
    have := List.length_pos_iff.2 hne
    rw [List.length_append] at hp
    omega) (Nat.le_refl _)]

theorem lex_nil : lex [] = [] := rfl

/-- **Every text is cut into tokens without loss, each of them the longest text that any rule takes at its place, of the first rule that
takes as much.** There is no text the lexer fails on. -/
theorem C80_cut (s : List Nat) :
    (lex s).flatMap (·.2) = s ∧
    ∀ pre k t post, lex s = pre ++ (k, t) :: post → t ≠ [] ∧ First k (t ++ post.flatMap (·.2)) t := by
  suffices hmain : ∀ n, ∀ s : List Nat, s.length ≤ n → (lex s).flatMap (·.2) = s ∧
      ∀ pre k t post, lex s = pre ++ (k, t) :: post → t ≠ [] ∧ First k (t ++ post.flatMap (·.2)) t from
    hmain s.length s (Nat.le_refl _)
  intro n
  induction n with
  | zero =>
    intro s h
    obtain rfl := List.length_eq_zero_iff.1 (Nat.le_zero.1 h)
    exact ⟨rfl, fun pre k t post h => by rw [lex_nil] at h; simp at h⟩
  | succ n ih =>
    intro s h
    by_cases hs : s = []
    · subst hs
      exact ⟨rfl, fun pre k t post h => by rw [lex_nil] at h; simp at h⟩
    · obtain ⟨k, m, -, hm, hf⟩ := best_first hs
      have hne := hf.2.1.ne_nil hf.1
      have hcut : s.take m ++ s.drop m = s := List.take_append_drop m s
      have hf' : First k (s.take m ++ s.drop m) (s.take m) := by rw [hcut]; exact hf
      have hlex := lex_first hf'
      rw [hcut] at hlex
      have hpos : 0 < m := by
        rcases Nat.eq_zero_or_pos m with rfl | h
        · simp at hne
        · exact h
      obtain ⟨h1, h2⟩ := ih (s.drop m) (by rw [List.length_drop]; omega)
      refine ⟨by rw [hlex, List.flatMap_cons, h1, hcut], fun pre l t post he => ?_⟩
      rw [hlex] at he
      cases pre with
      | nil =>
        simp only [List.nil_append, List.cons.injEq, Prod.mk.injEq] at he
        obtain ⟨⟨rfl, rfl⟩, rfl⟩ := he
        refine ⟨hne, ?_⟩
        rw [h1]
        exact hf'
      | cons x pre =>
        simp only [List.cons_append, List.cons.injEq] at he
        exact h2 pre l t post he.2

/-- The rules settle the tokens: whoever cuts a text by them gets what the lexer gets. -/
theorem C80_unique (l : List (Kind × List Nat)) (h : ∀ pre k t post, l = pre ++ (k, t) :: post → First k (t ++ post.flatMap (·.2)) t) :
    lex (l.flatMap (·.2)) = l := by
  induction l with
  | nil => rfl
  | cons x l ih =>
    obtain ⟨k, t⟩ := x
    rw [List.flatMap_cons, lex_first (h [] k t l rfl), ih fun pre k' t' post he => h ((k, t) :: pre) k' t' post (by rw [he]; rfl)]

end Verif.Lex
