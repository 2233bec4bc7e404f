import Verif.Lex.LiteralTokens

/-!
# Which texts are GUIDs, measurement keys and point tags (data/FilterExpressionSyntax.g4 L297-312)
-/

namespace Verif.Lex

open Verif.Expr Verif.Parse

/-! ## Hexadecimal integers -/

/-- **`0x` and hexadecimal digits are an integer.** -/
theorem C82_hex {x : Nat} (hx : x = 88 ∨ x = 120) {h r : List Nat} (hh : h ≠ []) (hd : ∀ c ∈ h, isHex c = true)
    (hr : ∀ c, r.head? = some c → isHex c = false) (he : ∀ u, u <+: 48 :: x :: h ++ r → (48 :: x :: h).length < u.length → ¬ KeyText u) :
    lex (48 :: x :: h ++ r) = (.integer, 48 :: x :: h) :: lex r := by
  have hxd : isDigit x = false ∧ isHex x = false := by rcases hx with rfl | rfl <;> decide
  refine lex_first (First.intro (by decide) (takes_text (by decide) (.inr ⟨x, h, rfl, hx, hh, hd⟩)) fun l hl v hv hu => ?_)
  obtain ⟨d, y, hdy, hst⟩ := hu.starts hl
  have hd48 : d = 48 := by
    simp only [List.cons_append, List.cons.injEq] at hdy
    exact hdy.1.symm
  rw [hd48] at hst
  rcases starts_digit hl (.inl (by decide)) hst with rfl | rfl | rfl | rfl | rfl
  · refine ⟨?_, Nat.le_refl _⟩
    rcases hu.text (by decide) with ⟨-, ht⟩ | ⟨y, z, hyz, -, -, hz⟩
    · have := ht x (by simp)
      rw [hxd.1] at this
      cases this
    · simp only [List.cons_append, List.cons.injEq, true_and] at hyz
      cases v with
      | nil => rfl
      | cons c v =>
        have h1 := hr c (head_of_prefix hv)
        rw [hz c (by rw [← hyz.2]; simp)] at h1
        cases h1
  · exfalso
    rcases number_next (a := [48]) (c := x) (v := h ++ v) (hu.text (by decide)) with h | h | h | h | ⟨h, -⟩
    · rw [hxd.1] at h; cases h
    all_goals omega
  · exfalso
    rcases hu.text (by decide) with ⟨g, hg, -⟩ | ⟨g, hg, -⟩ | hg
    · simp only [List.cons_append, List.cons.injEq] at hg
      omega
    · simp only [List.cons_append, List.cons.injEq] at hg
      omega
    · rcases hg.runes x (by simp) with h | h
      · rw [hxd.2] at h; cases h
      · omega
  · exfalso
    have ht : KeyText _ := hu.text (by decide)
    cases v with
    | nil =>
      rw [List.append_nil] at ht
      obtain ⟨a, b, hab, -⟩ := ht
      have : 58 ∈ 48 :: x :: h := by rw [hab]; simp
      simp only [List.mem_cons] at this
      rcases this with h | h | h
      · omega
      · omega
      · cases hd 58 h
    | cons c v => exact he _ hu.1 (by rw [List.length_append]; simp) ht
  · exfalso
    obtain ⟨e, h'⟩ := hu.text (by decide)
    simp at h'

/-! ## GUIDs with dashes -/

theorem digits_count {ds : List Nat} (h : ∀ c ∈ ds, isDigit c = true) : ds.count 45 = 0 :=
  List.count_eq_zero.2 fun hm => by cases h 45 hm

/-- A number has one sign at most. -/
theorem number_count {t : List Nat} (h : NumberText t) : t.count 45 ≤ 1 := by
  have hexp : ∀ {e : List Nat}, e = [] ∨ Exponent e → e.count 45 ≤ 1 := by
    rintro e (rfl | ⟨x, sign, ds, rfl, hx, hsign, -, hds⟩)
    · simp
    · rw [List.count_cons_of_ne (by omega), List.count_append, digits_count hds]
      rcases hsign with rfl | rfl | rfl <;> simp
  rcases h with ⟨ds, f, e, rfl, ⟨-, hds⟩, hf, he⟩ | ⟨ds, e, rfl, ⟨-, hds⟩, he⟩
  · have h1 : f.count 45 = 0 := by
      rcases hf with rfl | ⟨g, rfl, hg⟩
      · rfl
      · rw [List.count_cons_of_ne (by decide), digits_count hg]
    rw [List.count_append, List.count_append, digits_count hds, h1]
    have := hexp he
    omega
  · rw [List.count_cons_of_ne (by decide), List.count_append, digits_count hds]
    have := hexp he
    omega

theorem hex_countP {n : Nat} {t : List Nat} (h : HexDigits n t) : t.countP isHex = n := by
  rw [← h.1, List.countP_eq_length]
  exact h.2

theorem dash_countP {t : List Nat} (h : Dash t) : t.countP isHex = 0 := by
  rcases h with rfl | rfl <;> rfl

theorem GuidText.countP {g : List Nat} (h : GuidText g) : g.countP isHex = 32 := by
  obtain ⟨a, d₁, b, d₂, c, d₃, d, d₄, e, rfl, ha, h1, hb, h2, hc, h3, hd, h4, he⟩ := h
  simp only [List.countP_append, hex_countP ha, hex_countP hb, hex_countP hc, hex_countP hd, hex_countP he, dash_countP h1, dash_countP h2,
    dash_countP h3, dash_countP h4]

/-- No GUID goes on behind another one. -/
theorem GuidText.end {g v : List Nat} (h : GuidText g) (h' : GuidText (g ++ v)) : v = [] := by
  have h0 : v.countP isHex = 0 := by
    have h1 := h.countP
    have h2 := h'.countP
    rw [List.countP_append] at h2
    omega
  obtain ⟨a, d₁, b, d₂, c, d₃, d, d₄, e, he, -, -, -, -, -, -, -, -, hle, hhe⟩ := h'
  by_contra hv
  obtain ⟨y, z, rfl⟩ : ∃ y z, v = y ++ [z] := ⟨v.dropLast, v.getLast hv, (List.dropLast_concat_getLast hv).symm⟩
  have hne : e ≠ [] := by rintro rfl; cases hle
  obtain ⟨y', z', rfl⟩ : ∃ y z, e = y ++ [z] := ⟨e.dropLast, e.getLast hne, (List.dropLast_concat_getLast hne).symm⟩
  have h2 : (g ++ y) ++ [z] = (a ++ (d₁ ++ (b ++ (d₂ ++ (c ++ (d₃ ++ (d ++ (d₄ ++ y')))))))) ++ [z'] := by simpa using he
  have h3 := List.append_inj_right' h2 rfl
  have h4 := hhe z' (by simp)
  rw [← (List.cons.inj h3).1] at h4
  rw [List.countP_eq_zero] at h0
  exact h0 z (by simp) h4

/-- The kinds a hexadecimal digit can start. -/
theorem starts_hex {k : Kind} (hk : k ∈ order) {c : Nat} (hc : isHex c = true) (h : k.starts c = true) :
    (∃ s t, k = .key s t) ∨ k = .boolean ∨ k = .ident ∨ k = .integer ∨ k = .numeric ∨ k = .guid ∨ k = .measurementKey ∨ k = .unexpected := by
  by_cases hd : isDigit c = true
  · have := starts_digit hk (.inl hd) h
    tauto
  · have hw : isWordStart c = true := by
      simp only [isHex, isDigit, isWordStart, isLetter, Bool.or_eq_true, Bool.and_eq_true, decide_eq_true_eq, beq_iff_eq] at hc hd ⊢
      omega
    rcases starts_word hk hw h with h | h | h | h | h | h <;> simp [h]

/-- **A GUID with two dashes or more is a GUID also without delimiters**, if no measurement key goes on. -/
theorem C82_guid_dashes_partial {g r : List Nat} (hg : GuidText g) (hd : 2 ≤ g.count 45)
    (he : ∀ u, u <+: g ++ r → g.length < u.length → ¬ KeyText u) : lex (g ++ r) = (.guid, g) :: lex r := by
  have h45 : ∀ v : List Nat, 2 ≤ (g ++ v).count 45 := fun v => by rw [List.count_append]; omega
  have hmem : ∀ v : List Nat, 45 ∈ g ++ v := fun v => List.count_pos_iff.1 (by have := h45 v; omega)
  refine lex_first (First.intro (by decide) (takes_text (by decide) (.inr (.inr hg))) fun l hl v hv hu => ?_)
  obtain ⟨c, s, hcs, hc⟩ := hg.head
  obtain ⟨d, x, hdx, hst⟩ := hu.starts hl
  have hdc : d = c := by
    rw [hcs, List.cons_append, List.cons.injEq] at hdx
    exact hdx.1.symm
  rw [hdc] at hst
  have hlb : l ≠ .blockComment := by
    rintro rfl
    have : c = 47 := by simpa [Kind.starts] using hst
    rw [this] at hc
    cases hc
  have ht := hu.text hlb
  rcases starts_hex hl hc hst with ⟨a, t, rfl⟩ | rfl | rfl | rfl | rfl | rfl | rfl | rfl
  · have := SameWord.letters (keys_capital _ (mem_key hl)) ht 45 (hmem v)
    cases this
  · exfalso
    rcases ht with ht | ht
    · cases ht.letters (by decide) 45 (hmem v)
    · cases ht.letters (by decide) 45 (hmem v)
  · exfalso
    rcases ht with ⟨y, hy, -⟩ | ⟨y, hy, -⟩ | hw
    · rw [hcs] at hy
      simp only [List.cons_append, List.cons.injEq] at hy
      rw [hy.1] at hc
      cases hc
    · rw [hcs] at hy
      simp only [List.cons_append, List.cons.injEq] at hy
      rw [hy.1] at hc
      cases hc
    · cases hw.runes 45 (hmem v)
  · exfalso
    rcases ht with ⟨-, hds⟩ | ⟨y, z, hyz, hy, -, hz⟩
    · cases hds 45 (hmem v)
    · have := hmem v
      rw [hyz] at this
      simp only [List.mem_cons] at this
      rcases this with h | h | h
      · omega
      · omega
      · cases hz 45 h
  · exfalso
    have h1 := number_count ht
    have h2 := h45 v
    omega
  · refine ⟨?_, Nat.le_refl _⟩
    rcases ht with ⟨y, hy, -⟩ | ⟨y, hy, -⟩ | hw
    · exfalso
      rw [hcs] at hy
      simp only [List.cons_append, List.cons.injEq] at hy
      rw [hy.1] at hc
      cases hc
    · exfalso
      rw [hcs] at hy
      simp only [List.cons_append, List.cons.injEq] at hy
      rw [hy.1] at hc
      cases hc
    · exact hg.end hw
  · exfalso
    cases v with
    | nil =>
      rw [List.append_nil] at ht
      obtain ⟨a, b, hab, -⟩ := ht
      rcases hg.runes 58 (by rw [hab]; simp) with h | h <;> cases h
    | cons e v => exact he _ hu.1 (by rw [List.length_append]; simp) ht
  · exfalso
    obtain ⟨e, he⟩ := ht
    have h1 := congrArg List.length he
    have h2 := hg.length
    rw [List.length_append] at h1
    simp at h1
    omega

example : lex (codes "1234567e-1234-5678-9abc-123456789abc+1") = [(.guid, codes "1234567e-1234-5678-9abc-123456789abc"),
    (.op (codes "+") (.math .plus), codes "+"), (.integer, codes "1")] := by decide +kernel

/-! ## Measurement keys -/

/-- Two measurement keys, the one beginning with the other, differ in digits at the end. -/
theorem KeyText.end {t v : List Nat} (h : KeyText t) (h' : KeyText (t ++ v)) : ∀ c ∈ v, isDigit c = true := by
  obtain ⟨a, d, rfl, -, ha, -, hd⟩ := h
  obtain ⟨a', d', hab, -, ha', -, hd'⟩ := h'
  have h58 : isAcronym 58 = false := by decide
  rw [List.append_assoc, List.cons_append] at hab
  have : a = a' := by
    rcases List.append_eq_append_iff.1 hab with ⟨w, h1, h2⟩ | ⟨w, h1, h2⟩
    · cases w with
      | nil => rw [h1, List.append_nil]
      | cons y w =>
        simp only [List.cons_append, List.cons.injEq] at h2
        have := ha' 58 (by rw [h1, ← h2.1]; simp)
        rw [h58] at this
        cases this
    · cases w with
      | nil => rw [h1, List.append_nil]
      | cons y w =>
        simp only [List.cons_append, List.cons.injEq] at h2
        have := ha 58 (by rw [h1, ← h2.1]; simp)
        rw [h58] at this
        cases this
  subst this
  have h2 := List.append_cancel_left hab
  simp only [List.cons.injEq, true_and] at h2
  intro c hc
  exact hd' c (by rw [← h2]; simp [hc])

/-- **A source, a colon and a number are a measurement key**, if it does not begin with `#` or `--`. -/
theorem C83_key {t r : List Nat} (h : KeyText t) (h1 : t.head? ≠ some 35) (h2 : ¬ [45, 45] <+: t) (hr : ∀ c, r.head? = some c → isDigit c = false) :
    lex (t ++ r) = (.measurementKey, t) :: lex r := by
  have hcolon : ∀ v : List Nat, 58 ∈ t ++ v := by
    intro v
    obtain ⟨a, d, rfl, -⟩ := id h
    simp
  have hacr : ∃ c s, t = c :: s ∧ isAcronym c = true ∧ 58 ∈ s := by
    obtain ⟨a, d, rfl, ha, hac, -⟩ := id h
    obtain ⟨c, a, rfl⟩ := List.exists_cons_of_ne_nil ha
    exact ⟨c, a ++ 58 :: d, rfl, hac c (by simp), by simp⟩
  obtain ⟨c, s, hcs, hc, hs⟩ := hacr
  refine lex_first (First.intro (by decide) (takes_text (by decide) h) fun l hl v hv hu => ?_)
  obtain ⟨d, x, hdx, hst⟩ := hu.starts hl
  have hdc : d = c := by
    rw [hcs, List.cons_append, List.cons.injEq] at hdx
    exact hdx.1.symm
  rw [hdc] at hst
  have hmark : c ≠ 96 ∧ c ≠ 91 ∧ c ≠ 39 ∧ c ≠ 123 ∧ c ≠ 34 ∧ c ≠ 47 ∧ isBlank c = false := by
    refine ⟨?_, ?_, ?_, ?_, ?_, ?_, ?_⟩
    all_goals first
      | (rintro rfl; cases hc)
      | (by_contra hb
         have hb : isBlank c = true := by simpa using hb
         simp only [isBlank, Bool.or_eq_true, beq_iff_eq] at hb
         rcases hb with (((rfl | rfl) | rfl) | rfl) | rfl <;> cases hc)
  have hlb : l ≠ .blockComment := by
    rintro rfl
    exact hmark.2.2.2.2.2.1 (by simpa [Kind.starts] using hst)
  have ht := hu.text hlb
  cases l with
  | op a o =>
    exfalso
    have hops : ∀ x ∈ ops, 58 ∉ x.1 := by decide
    have h3 : t ++ v = a := ht
    exact hops _ (mem_op hl) (by rw [← h3]; exact hcolon v)
  | key a o =>
    cases SameWord.letters (keys_capital _ (mem_key hl)) ht 58 (hcolon v)
  | boolean =>
    exfalso
    rcases ht with ht | ht
    · cases ht.letters (by decide) 58 (hcolon v)
    · cases ht.letters (by decide) 58 (hcolon v)
  | ident =>
    exfalso
    rcases ht with ⟨y, hy, -⟩ | ⟨y, hy, -⟩ | hw
    · rw [hcs] at hy
      simp only [List.cons_append, List.cons.injEq] at hy
      exact hmark.1 hy.1
    · rw [hcs] at hy
      simp only [List.cons_append, List.cons.injEq] at hy
      exact hmark.2.1 hy.1
    · cases hw.runes 58 (hcolon v)
  | integer =>
    exfalso
    rcases ht with ⟨-, hds⟩ | ⟨y, z, hyz, hy, -, hz⟩
    · cases hds 58 (hcolon v)
    · have := hcolon v
      rw [hyz] at this
      simp only [List.mem_cons] at this
      rcases this with h | h | h
      · omega
      · omega
      · cases hz 58 h
  | numeric =>
    exfalso
    have hv' : 58 ∈ s ++ v := by simp [hs]
    obtain ⟨a, b, hab⟩ := List.append_of_mem (hcolon v)
    have ht' : NumberText (t ++ v) := ht
    rw [hab] at ht'
    rcases number_next ht' with h | h | h | h | ⟨h, -⟩
    · cases h
    all_goals omega
  | guid =>
    exfalso
    have hg : ∀ {g : List Nat}, GuidText g → 58 ∉ g := fun hg hm => by rcases hg.runes 58 hm with h | h <;> cases h
    rcases ht with ⟨g, hg', hgt⟩ | ⟨g, hg', hgt⟩ | hgt
    · rw [hcs] at hg'
      simp only [List.cons_append, List.cons.injEq] at hg'
      exact hmark.2.2.1 hg'.1
    · rw [hcs] at hg'
      simp only [List.cons_append, List.cons.injEq] at hg'
      exact hmark.2.2.2.1 hg'.1
    · exact hg hgt (hcolon v)
  | measurementKey =>
    refine ⟨?_, Nat.le_refl _⟩
    cases v with
    | nil => rfl
    | cons e v =>
      exfalso
      have h3 := h.end ht e (by simp)
      rw [hr e (head_of_prefix hv)] at h3
      cases h3
  | pointTag =>
    exact absurd (by simpa [Kind.starts] using hst) hmark.2.2.2.2.1
  | string =>
    exact absurd (by simpa [Kind.starts] using hst) hmark.2.2.1
  | datetime =>
    exfalso
    have : c = 35 := by simpa [Kind.starts] using hst
    exact h1 (by rw [hcs, this]; rfl)
  | lineComment =>
    exfalso
    obtain ⟨u, hu', -⟩ := ht
    apply h2
    rw [hcs] at hu' ⊢
    cases s with
    | nil => cases hs
    | cons e s =>
      simp only [List.cons_append, List.cons.injEq] at hu'
      rw [hu'.1, hu'.2.1]
      exact ⟨s, rfl⟩
  | blockComment => exact absurd rfl hlb
  | space =>
    have hb : isBlank c = true := hst
    rw [hmark.2.2.2.2.2.2] at hb
    cases hb
  | unexpected =>
    exfalso
    obtain ⟨e, he⟩ := ht
    rw [hcs] at he
    simp only [List.cons_append, List.cons.injEq, List.append_eq_nil_iff] at he
    rw [he.2.1] at hs
    cases hs

example : lex (codes "PPA:12,SH-B!X:3") = [(.measurementKey, codes "PPA:12"), (.op (codes ",") .comma, codes ","),
    (.measurementKey, codes "SH-B!X:3")] := by decide +kernel

/-! ## Point tags -/

/-- **A source in double quotes is a point tag**, whatever follows. -/
theorem C83_tag {a r : List Nat} (ha : a ≠ []) (hac : ∀ c ∈ a, isAcronym c = true) :
    lex (34 :: (a ++ [34]) ++ r) = (.pointTag, 34 :: (a ++ [34])) :: lex r := by
  refine lex_first (First.intro (by decide) (takes_text (by decide) ⟨a, rfl, ha, hac⟩) fun l hl v hv hu => ?_)
  obtain ⟨d, x, hdx, hst⟩ := hu.starts hl
  have hd : d = 34 := by
    simp only [List.cons_append, List.cons.injEq] at hdx
    exact hdx.1.symm
  rw [hd] at hst
  have hl2 : l = .pointTag ∨ l = .unexpected := by
    have hops : ∀ x ∈ ops, x.1.head? ≠ some 34 := by decide
    cases l with
    | op s t => exact absurd (by simpa [Kind.starts] using hst) (hops _ (mem_op hl))
    | pointTag => simp
    | unexpected => simp
    | _ => cases hst
  rcases hl2 with rfl | rfl
  · refine ⟨?_, Nat.le_refl _⟩
    obtain ⟨b, hb, hb0, hbc⟩ := hu.text (by decide)
    refine enclosed_end (l := 34) (r := 34) (s := a) ⟨b, hb, hb0, fun hm => ?_⟩
    cases hbc 34 hm
  · exfalso
    obtain ⟨e, he⟩ := hu.text (by decide)
    simp at he

end Verif.Lex
