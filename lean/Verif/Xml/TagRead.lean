import Verif.Xml.TextRead

/-!
# C120: reading tags and what is between them
-/

namespace Verif.Xml

open Verif.Expr (lit)

theorem name_start {T : NameLib} {n : Str} {q : QName} (h : QNameText T n q) : ∃ b s, n = b :: s ∧ inName b = true := by
  have hb := h.name.bytes
  cases n with
  | nil => exact absurd rfl hb.1
  | cons b s => exact ⟨b, s, rfl, hb.2 b (by simp)⟩

theorem space_not_name {b : Byte} (h : isSpaceByte b = true) : inName b = false := by
  rcases (isSpaceByte_iff b).mp h with rfl | rfl | rfl | rfl <;> decide

theorem name_not_space {b : Byte} (h : inName b = true) : isSpaceByte b = false := by
  cases hs : isSpaceByte b with
  | false => rfl
  | true => rw [space_not_name hs] at h; cases h

/-- What begins with blanks or something that is not in names ends a name. -/
theorem blank_ends {sp rest : Str} (h : Blank sp) (hr : ∀ b, rest.head? = some b → inName b = false) :
    ∀ b, (sp ++ rest).head? = some b → inName b = false := by
  cases sp with
  | nil => exact hr
  | cons c sp =>
    intro b hb
    have : c = b := by simpa using hb
    subst this
    exact space_not_name ((blank_iff _).mp h c (by simp))

theorem readAttr_iff (T : NameLib) (s rest v : Str) (q : QName) (hr : rest ≠ []) : readAttr T s = some ((q, v), rest) ↔
    ∃ n s1 s2 raw b, s = n ++ (s1 ++ 61#8 :: (s2 ++ b :: (raw ++ b :: rest))) ∧ QNameText T n q ∧ Blank s1 ∧ Blank s2 ∧ (b = 34#8 ∨ b = 39#8) ∧
      TextBytes (some b) raw v ∧ Chars v := by
  constructor
  · intro h
    unfold readAttr at h
    cases hn : readQName T s with
    | none => rw [hn] at h; cases h
    | some p =>
      obtain ⟨q', s'⟩ := p
      rw [hn] at h
      dsimp only at h
      obtain ⟨n, h1, h2, -, -⟩ := (readQName_iff T s s' q').mp hn
      cases he : expectByte 61#8 (skipSpace s') with
      | none => rw [he] at h; cases h
      | some s'' =>
        rw [he] at h
        dsimp only at h
        obtain ⟨sp1, hb1, e1, -⟩ := skipSpace_split s'
        rw [expectByte_iff.mp he] at e1
        obtain ⟨sp2, hb2, e2, -⟩ := skipSpace_split s''
        cases hs : skipSpace s'' with
        | nil => rw [hs] at h; cases h
        | cons b s3 =>
          rw [hs] at h e2
          dsimp only at h
          split_ifs at h with hb
          obtain ⟨p, hp, hpe⟩ := Option.map_eq_some_iff.mp h
          obtain ⟨v', r'⟩ := p
          injection hpe with e3 e4
          injection e3 with e3 e5
          subst e3 e4 e5
          obtain ⟨raw, e6, e7, e8⟩ := (readText_quoted b hb s3 v' r' hr).mp hp
          exact ⟨n, sp1, sp2, raw, b, by rw [h1, e1, e2, e6], h2, hb1, hb2, hb, e7, e8⟩
  · rintro ⟨n, s1, s2, raw, b, rfl, h1, h2, h3, hb, h5, h6⟩
    unfold readAttr
    rw [(readQName_iff T _ (s1 ++ 61#8 :: (s2 ++ b :: (raw ++ b :: rest))) q).mpr ⟨n, rfl, h1, by simp,
      blank_ends h2 (by intro c hc; simp at hc; subst hc; decide)⟩]
    dsimp only
    rw [skipSpace_append h2 (by intro c hc; simp at hc; subst hc; decide), expectByte_iff.mpr rfl]
    dsimp only
    rw [skipSpace_append h3 (by intro c hc; simp at hc; subst hc; rcases hb with rfl | rfl <;> decide)]
    dsimp only
    rw [if_pos hb, (readText_quoted b hb _ v rest hr).mpr ⟨raw, rfl, h5, h6⟩]
    rfl

/-- The end of a start tag. -/
def closing (empty : Bool) : Str := if empty then lit "/>" else lit ">"

theorem readAttrs_nil (T : NameLib) (n : Nat) : readAttrs T n [] = none := by
  cases n with
  | zero => rfl
  | succ n => rfl

theorem readAttrs_back (T : NameLib) : ∀ (n : Nat) (s rest : Str) (as : List (QName × Str)) (e : Bool), readAttrs T n s = some (as, e, rest) →
    ∃ a sp, s = a ++ (sp ++ (closing e ++ rest)) ∧ AttrsText T a as ∧ Blank sp := by
  intro n
  induction n with
  | zero => intro s rest as e h; cases h
  | succ n ih =>
    intro s rest as e h
    unfold readAttrs at h
    obtain ⟨sp, hb, e1, -⟩ := skipSpace_split s
    cases hs : skipSpace s with
    | nil => rw [hs] at h; cases h
    | cons b s1 =>
      rw [hs] at h e1
      dsimp only at h
      by_cases h47 : b = 47#8
      · rw [if_pos h47] at h
        subst h47
        obtain ⟨r, hr, he⟩ := Option.map_eq_some_iff.mp h
        injection he with a1 a2
        injection a2 with a2 a3
        subst a1 a2 a3
        exact ⟨[], sp, by rw [e1, expectByte_iff.mp hr]; rfl, .nil, hb⟩
      rw [if_neg h47] at h
      by_cases h62 : b = 62#8
      · rw [if_pos h62] at h
        subst h62
        injection h with h
        injection h with a1 a2
        injection a2 with a2 a3
        subst a1 a2 a3
        exact ⟨[], sp, by rw [e1]; rfl, .nil, hb⟩
      rw [if_neg h62] at h
      cases ha : readAttr T (b :: s1) with
      | none => rw [ha] at h; cases h
      | some p =>
        obtain ⟨⟨q, v⟩, s2⟩ := p
        rw [ha] at h
        dsimp only at h
        obtain ⟨p, hp, hpe⟩ := Option.map_eq_some_iff.mp h
        obtain ⟨as', e', r'⟩ := p
        injection hpe with a1 a2
        injection a2 with a2 a3
        subst a1 a2 a3
        have hne : s2 ≠ [] := by rintro rfl; rw [readAttrs_nil] at hp; cases hp
        obtain ⟨nm, w1, w2, raw, c, f1, f2, f3, f4, f5, f6, f7⟩ := (readAttr_iff T _ s2 v q hne).mp ha
        obtain ⟨a, sp', g1, g2, g3⟩ := ih _ _ _ _ hp
        refine ⟨sp ++ (nm ++ (w1 ++ 61#8 :: (w2 ++ c :: (raw ++ c :: a)))), sp', ?_, .cons hb f2 f3 f4 f5 f6 f7 g2, g3⟩
        rw [e1, f1, g1]
        simp

theorem closing_ne (e : Bool) (rest : Str) : closing e ++ rest ≠ [] := by cases e <;> simp [closing, lit]

theorem closing_head (e : Bool) (rest : Str) : ∀ b, (closing e ++ rest).head? = some b → isSpaceByte b = false ∧ inName b = false := by
  intro b hb
  cases e
  · have : b = 62#8 := by simpa [closing, lit] using hb.symm
    subst this; decide
  · have : b = 47#8 := by simpa [closing, lit] using hb.symm
    subst this; decide

theorem readAttrs_forward {T : NameLib} {a : Str} {as : List (QName × Str)} (h : AttrsText T a as) :
    ∀ (n : Nat) (sp rest : Str) (e : Bool), a.length < n → Blank sp → readAttrs T n (a ++ (sp ++ (closing e ++ rest))) = some (as, e, rest) := by
  induction h with
  | nil =>
    intro n sp rest e hn hb
    obtain ⟨n, rfl⟩ : ∃ m, n = m + 1 := ⟨n - 1, by simp at hn; omega⟩
    rw [List.nil_append]
    unfold readAttrs
    rw [skipSpace_append hb (fun b hb => (closing_head e rest b hb).1)]
    cases e
    · rfl
    · rfl
  | @cons w nm w1 w2 raw v more q c as hw hn hw1 hw2 hc ht hv _ ih =>
    intro n sp rest e hlen hb
    obtain ⟨n, rfl⟩ : ∃ m, n = m + 1 := ⟨n - 1, by simp at hlen; omega⟩
    obtain ⟨b, s, rfl, hbn⟩ := name_start hn
    unfold readAttrs
    rw [show (w ++ (b :: s ++ (w1 ++ 61#8 :: (w2 ++ c :: (raw ++ c :: more))))) ++ (sp ++ (closing e ++ rest)) =
      w ++ (b :: s ++ (w1 ++ 61#8 :: (w2 ++ c :: (raw ++ c :: (more ++ (sp ++ (closing e ++ rest))))))) by simp]
    rw [skipSpace_append hw (by intro x hx; simp at hx; subst hx; exact name_not_space hbn)]
    have h47 : b ≠ 47#8 := by rintro rfl; revert hbn; decide
    have h62 : b ≠ 62#8 := by rintro rfl; revert hbn; decide
    rw [List.cons_append]
    dsimp only
    rw [if_neg h47, if_neg h62]
    rw [← List.cons_append, (readAttr_iff T _ (more ++ (sp ++ (closing e ++ rest))) v q (by
      intro hh
      exact closing_ne e rest (List.append_eq_nil_iff.mp (List.append_eq_nil_iff.mp hh).2).2)).mpr
      ⟨b :: s, w1, w2, raw, c, rfl, hn, hw1, hw2, hc, ht, hv⟩]
    dsimp only
    rw [ih n sp rest e (by simp at hlen; omega) hb]
    rfl

/-! ### Directives, instructions, comments -/

theorem readDirective_back : ∀ (n : Nat) (q : Option Byte) (d : Nat) (s rest : Str), readDirective n q d s = some rest →
    ∃ raw, s = raw ++ rest ∧ DirText q d raw := by
  intro n
  induction n with
  | zero => intro q d s rest h; cases h
  | succ n ih =>
    intro q d s rest h
    cases s with
    | nil => cases h
    | cons b s =>
      unfold readDirective at h
      by_cases h0 : q = none ∧ b = 62#8 ∧ d = 0
      · rw [if_pos h0] at h
        injection h with h
        subst h
        obtain ⟨rfl, rfl, rfl⟩ := h0
        exact ⟨[62#8], rfl, .stop⟩
      rw [if_neg h0] at h
      by_cases h1 : q = some b
      · rw [if_pos h1] at h
        subst h1
        obtain ⟨raw, rfl, hr⟩ := ih _ _ _ _ h
        exact ⟨b :: raw, rfl, .unquote hr⟩
      rw [if_neg h1] at h
      by_cases h2 : q ≠ none
      · rw [if_pos h2] at h
        obtain ⟨c, rfl⟩ := Option.ne_none_iff_exists'.mp h2
        obtain ⟨raw, rfl, hr⟩ := ih _ _ _ _ h
        exact ⟨b :: raw, rfl, .quoted (fun e => h1 (by rw [e])) hr⟩
      rw [if_neg h2] at h
      have hq : q = none := not_not.mp h2
      subst hq
      by_cases h3 : b = 39#8 ∨ b = 34#8
      · rw [if_pos h3] at h
        obtain ⟨raw, rfl, hr⟩ := ih _ _ _ _ h
        exact ⟨b :: raw, rfl, .quote h3 hr⟩
      rw [if_neg h3] at h
      by_cases h4 : b = 62#8
      · rw [if_pos h4] at h
        subst h4
        obtain ⟨raw, rfl, hr⟩ := ih _ _ _ _ h
        obtain ⟨d, rfl⟩ : ∃ m, d = m + 1 := ⟨d - 1, by
          have : d ≠ 0 := fun e => h0 ⟨rfl, rfl, e⟩
          omega⟩
        exact ⟨62#8 :: raw, rfl, .up hr⟩
      rw [if_neg h4] at h
      by_cases h5 : b = 60#8
      · rw [if_pos h5] at h
        subst h5
        by_cases h6 : lit "!--" <+: s
        · rw [if_pos h6] at h
          obtain ⟨s1, rfl⟩ := h6
          rw [show (lit "!--" ++ s1).drop 3 = s1 from rfl] at h
          cases hu : upTo (lit "-->") s1 with
          | none => rw [hu] at h; cases h
          | some p =>
            obtain ⟨c, s2⟩ := p
            rw [hu] at h
            dsimp only at h
            obtain ⟨e1, e2⟩ := (upTo_iff (by decide) s1 c s2).mp hu
            obtain ⟨raw, rfl, hr⟩ := ih _ _ _ _ h
            exact ⟨60#8 :: (lit "!--" ++ (c ++ (lit "-->" ++ raw))), by rw [e1]; simp, .comment e2 hr⟩
        · rw [if_neg h6] at h
          obtain ⟨raw, rfl, hr⟩ := ih _ _ _ _ h
          exact ⟨60#8 :: raw, rfl, .down (fun hh => h6 (hh.trans (List.prefix_append _ _))) hr⟩
      rw [if_neg h5] at h
      rw [not_or] at h3
      obtain ⟨raw, rfl, hr⟩ := ih _ _ _ _ h
      exact ⟨b :: raw, rfl, .other h3.1 h3.2 h4 h5 hr⟩

theorem DirText.last {q : Option Byte} {d : Nat} {raw : Str} (h : DirText q d raw) : raw.getLast? = some 62#8 := by
  have key : ∀ (b : Byte) (l : Str), l.getLast? = some 62#8 → (b :: l).getLast? = some 62#8 := by
    intro b l hl
    rw [List.getLast?_cons, hl]
    rfl
  induction h with
  | stop => rfl
  | unquote _ ih => exact key _ _ ih
  | quoted _ _ ih => exact key _ _ ih
  | quote _ _ ih => exact key _ _ ih
  | up _ ih => exact key _ _ ih
  | comment _ _ ih =>
    rw [List.getLast?_cons, List.getLast?_append, List.getLast?_append, List.getLast?_append, ih]
    rfl
  | down _ _ ih => exact key _ _ ih
  | other _ _ _ _ _ ih => exact key _ _ ih

theorem readDirective_forward {q : Option Byte} {d : Nat} {raw : Str} (h : DirText q d raw) : ∀ (n : Nat) (rest : Str), raw.length ≤ n →
    readDirective n q d (raw ++ rest) = some rest := by
  have hpos : ∀ {q d raw n}, DirText q d raw → raw.length ≤ n → ∃ m, n = m + 1 := by
    intro q d raw n h hn
    have := h.last
    cases raw with
    | nil => cases this
    | cons b raw => exact ⟨n - 1, by simp at hn; omega⟩
  induction h with
  | stop =>
    intro n rest hn
    obtain ⟨n, rfl⟩ : ∃ m, n = m + 1 := ⟨n - 1, by simp at hn; omega⟩
    simp [readDirective]
  | unquote hr ih =>
    intro n rest hn
    obtain ⟨n, rfl⟩ : ∃ m, n = m + 1 := ⟨n - 1, by simp at hn; omega⟩
    rw [List.cons_append]
    unfold readDirective
    rw [if_neg (by simp), if_pos rfl]
    exact ih n rest (by simp at hn; omega)
  | quoted hbc hr ih =>
    intro n rest hn
    obtain ⟨n, rfl⟩ : ∃ m, n = m + 1 := ⟨n - 1, by simp at hn; omega⟩
    rw [List.cons_append]
    unfold readDirective
    rw [if_neg (by simp), if_neg (by simpa using hbc), if_pos (by simp)]
    exact ih n rest (by simp at hn; omega)
  | quote hb hr ih =>
    intro n rest hn
    obtain ⟨n, rfl⟩ : ∃ m, n = m + 1 := ⟨n - 1, by simp at hn; omega⟩
    rw [List.cons_append]
    unfold readDirective
    rw [if_neg (by rintro ⟨-, rfl, -⟩; revert hb; decide), if_neg (by simp), if_neg (by simp), if_pos hb]
    exact ih n rest (by simp at hn; omega)
  | up hr ih =>
    intro n rest hn
    obtain ⟨n, rfl⟩ : ∃ m, n = m + 1 := ⟨n - 1, by simp at hn; omega⟩
    rw [List.cons_append]
    unfold readDirective
    rw [if_neg (by simp), if_neg (by simp), if_neg (by simp), if_neg (by decide), if_pos rfl]
    exact ih n rest (by simp at hn; omega)
  | @comment c d raw hc hr ih =>
    intro n rest hn
    obtain ⟨n, rfl⟩ : ∃ m, n = m + 1 := ⟨n - 1, by simp at hn; omega⟩
    rw [List.cons_append]
    unfold readDirective
    rw [if_neg (by rintro ⟨-, h, -⟩; revert h; decide), if_neg (by simp), if_neg (by simp), if_neg (by decide), if_neg (by decide), if_pos rfl]
    rw [show (lit "!--" ++ (c ++ (lit "-->" ++ raw))) ++ rest = lit "!--" ++ (c ++ (lit "-->" ++ (raw ++ rest))) by simp]
    rw [if_pos (List.prefix_append _ _), show (lit "!--" ++ (c ++ (lit "-->" ++ (raw ++ rest)))).drop 3 = c ++ (lit "-->" ++ (raw ++ rest)) from rfl]
    rw [(upTo_iff (by decide) _ c (raw ++ rest)).mpr ⟨rfl, hc⟩]
    exact ih n rest (by simp at hn; omega)
  | @down d raw hp hr ih =>
    intro n rest hn
    obtain ⟨n, rfl⟩ : ∃ m, n = m + 1 := ⟨n - 1, by simp at hn; omega⟩
    rw [List.cons_append]
    unfold readDirective
    rw [if_neg (by rintro ⟨-, h, -⟩; revert h; decide), if_neg (by simp), if_neg (by simp), if_neg (by decide), if_neg (by decide), if_pos rfl]
    rw [if_neg ?_]
    · exact ih n rest (by simp at hn; omega)
    · intro hh
      by_cases hl : (lit "!--").length ≤ raw.length
      · exact hp ((prefix_long hl).mp hh)
      · have h3 : raw.length < 3 := by
          have : (lit "!--").length = 3 := rfl
          omega
        have hraw : raw <+: lit "!--" := List.prefix_of_prefix_length_le (List.prefix_append raw rest) hh (by
          have : (lit "!--").length = 3 := rfl
          omega)
        have hl := hr.last
        have hmem : (62#8 : Byte) ∈ raw := List.mem_of_getLast? hl
        have := hraw.subset hmem
        revert this; decide
  | other h1 h2 h3 h4 hr ih =>
    intro n rest hn
    obtain ⟨n, rfl⟩ : ∃ m, n = m + 1 := ⟨n - 1, by simp at hn; omega⟩
    rw [List.cons_append]
    unfold readDirective
    rw [if_neg (fun h => h3 h.2.1), if_neg (by simp), if_neg (by simp), if_neg (by simp [h1, h2]), if_neg h3, if_neg h4]
    exact ih n rest (by simp at hn; omega)

theorem readInst_iff (T : NameLib) (s rest : Str) : readInst T s = some rest ↔ ∃ n sp data, s = n ++ (sp ++ (data ++ (lit "?>" ++ rest))) ∧
    IsName T n ∧ Blank sp ∧ (∀ b, (sp ++ (data ++ lit "?>")).head? = some b → inName b = false) ∧
    (∀ b, data.head? = some b → isSpaceByte b = false) ∧ ¬ lit "?>" <:+: data ∧ (n = lit "xml" → declOk data = true) := by
  have hinf : ∀ data : Str, lit "?>" <:+: data ++ (lit "?>").dropLast ↔ lit "?>" <:+: data := by
    intro data
    constructor
    · rintro ⟨a, b, he⟩
      rcases List.eq_nil_or_concat b with rfl | ⟨b', x, rfl⟩
      · have := congrArg List.getLast? he
        simp [lit] at this
      · refine ⟨a, b', ?_⟩
        rw [List.concat_eq_append, ← List.append_assoc] at he
        have := congrArg List.dropLast he
        rw [List.dropLast_concat, show (lit "?>").dropLast = [63#8] from rfl, List.dropLast_concat] at this
        exact this
    · rintro ⟨a, b, he⟩
      exact ⟨a, b ++ (lit "?>").dropLast, by rw [← he]; simp⟩
  constructor
  · intro h
    unfold readInst at h
    cases hn : readTarget T s with
    | none => rw [hn] at h; cases h
    | some p =>
      obtain ⟨n, s1⟩ := p
      rw [hn] at h
      dsimp only at h
      obtain ⟨e1, e2, e3, e4⟩ := (readTarget_iff T s n s1).mp hn
      obtain ⟨sp, f1, f2, f3⟩ := skipSpace_split s1
      cases hu : upTo (lit "?>") (skipSpace s1) with
      | none => rw [hu] at h; cases h
      | some p =>
        obtain ⟨data, s2⟩ := p
        rw [hu] at h
        dsimp only at h
        split_ifs at h with hc
        injection h with h
        subst h
        obtain ⟨g1, g2⟩ := (upTo_iff (by decide) _ data s2).mp hu
        rw [g1] at f2 f3
        have hhead : ∀ l : Str, l ≠ [] → ∀ l', (sp ++ (l ++ l')).head? = (sp ++ l).head? := by
          intro l hl l'
          rw [← List.append_assoc, head_append]
          intro e
          exact hl (List.append_eq_nil_iff.mp e).2
        refine ⟨n, sp, data, by rw [e1, f2], e2, f1, ?_, ?_, fun hh => g2 ((hinf data).mpr hh), ?_⟩
        · intro b hb
          apply e4
          rw [f2, ← List.append_assoc data, hhead _ (by simp [lit])]
          exact hb
        · intro b hb
          apply f3
          rw [head_append]
          · exact hb
          · rintro rfl; cases hb
        · intro hx
          cases hd : declOk data with
          | true => rfl
          | false => exact absurd ⟨hx, hd⟩ hc
  · rintro ⟨n, sp, data, rfl, h1, h2, h3, h4, h5, h6⟩
    unfold readInst
    have hend : ∀ b, (sp ++ (data ++ (lit "?>" ++ rest))).head? = some b → inName b = false := by
      intro b hb
      apply h3
      rw [← List.append_assoc data, ← List.append_assoc, head_append (by simp [lit])] at hb
      exact hb
    rw [(readTarget_iff T _ n _).mpr ⟨rfl, h1, by simp [lit], hend⟩]
    dsimp only
    rw [skipSpace_append h2 (by
      intro b hb
      cases data with
      | nil =>
        have : b = 63#8 := by simpa [lit] using hb.symm
        subst this; decide
      | cons c data => exact h4 b hb)]
    rw [(upTo_iff (by decide) _ data rest).mpr ⟨rfl, fun hh => h5 ((hinf data).mp hh)⟩]
    dsimp only
    rw [if_neg (by rintro ⟨a, b⟩; rw [h6 a] at b; cases b)]

/-! ### Tokens -/

theorem readBang_iff (T : NameLib) (s rest : Str) : readBang s = some rest ↔ ∃ raw, lit "<!" ++ s = raw ++ rest ∧ Misc T raw ∧ lit "<!" <+: raw := by
  constructor
  · intro h
    cases s with
    | nil => cases h
    | cons b s =>
      unfold readBang at h
      dsimp only at h
      by_cases h45 : b = 45#8
      · rw [if_pos h45] at h
        subst h45
        cases he : expectByte 45#8 s with
        | none => rw [he] at h; cases h
        | some s1 =>
          rw [he] at h
          dsimp only at h
          unfold readComment at h
          cases hu : upTo (lit "--") s1 with
          | none => rw [hu] at h; cases h
          | some p =>
            obtain ⟨c, s2⟩ := p
            rw [hu] at h
            dsimp only at h
            obtain ⟨g1, g2⟩ := (upTo_iff (by decide) _ c s2).mp hu
            refine ⟨lit "<!--" ++ (c ++ lit "-->"), ?_, .comment g2, by exact ⟨lit "--" ++ (c ++ lit "-->"), rfl⟩⟩
            rw [expectByte_iff.mp he, g1, expectByte_iff.mp h]
            simp [lit]
      rw [if_neg h45] at h
      by_cases h91 : b = 91#8
      · rw [if_pos h91] at h
        subst h91
        split_ifs at h with hp
        obtain ⟨s1, rfl⟩ := hp
        rw [show (lit "CDATA[" ++ s1).drop 6 = s1 from rfl] at h
        obtain ⟨c, out, e1, e2, e3, e4⟩ := (readText_cdata s1 rest).mp h
        refine ⟨lit "<![CDATA[" ++ (c ++ lit "]]>"), ?_, .cdata e2 e3 e4, ⟨lit "[CDATA[" ++ (c ++ lit "]]>"), rfl⟩⟩
        rw [e1]
        simp [lit]
      · rw [if_neg h91] at h
        obtain ⟨raw, rfl, hr⟩ := readDirective_back _ _ _ _ _ h
        exact ⟨lit "<!" ++ b :: raw, by simp, .directive h45 h91 hr, List.prefix_append _ _⟩
  · rintro ⟨raw, h1, h2, h3⟩
    cases h2 with
    | @comment c hc =>
      have e : s = 45#8 :: 45#8 :: (c ++ (lit "--" ++ 62#8 :: rest)) := by
        have : lit "<!" ++ s = lit "<!" ++ (45#8 :: 45#8 :: (c ++ (lit "--" ++ 62#8 :: rest))) := by rw [h1]; simp [lit]
        exact List.append_cancel_left this
      subst e
      unfold readBang
      dsimp only
      rw [if_pos rfl, expectByte_iff.mpr rfl]
      dsimp only
      unfold readComment
      rw [(upTo_iff (by decide) _ c (62#8 :: rest)).mpr ⟨rfl, hc⟩]
      exact expectByte_iff.mpr rfl
    | inst =>
      exfalso
      obtain ⟨x, hx⟩ := h3
      simp [lit] at hx
    | @cdata c out h4 h5 h6 =>
      have e : s = 91#8 :: (lit "CDATA[" ++ (c ++ (lit "]]>" ++ rest))) := by
        have : lit "<!" ++ s = lit "<!" ++ (91#8 :: (lit "CDATA[" ++ (c ++ (lit "]]>" ++ rest)))) := by rw [h1]; simp [lit]
        exact List.append_cancel_left this
      subst e
      unfold readBang
      dsimp only
      rw [if_neg (by decide), if_pos rfl, if_pos (List.prefix_append _ _)]
      rw [show (lit "CDATA[" ++ (c ++ (lit "]]>" ++ rest))).drop 6 = c ++ (lit "]]>" ++ rest) from rfl]
      exact (readText_cdata _ rest).mpr ⟨c, out, rfl, h4, h5, h6⟩
    | @directive b raw hb1 hb2 hr =>
      have e : s = b :: (raw ++ rest) := by
        have : lit "<!" ++ s = lit "<!" ++ (b :: (raw ++ rest)) := by rw [h1]; simp
        exact List.append_cancel_left this
      subst e
      unfold readBang
      dsimp only
      rw [if_neg hb1, if_neg hb2]
      exact readDirective_forward hr _ rest (by simp; omega)

theorem rawToken_start (T : NameLib) (s rest : Str) (q : QName) (as : List (QName × Str)) (e : Bool) :
    rawToken T s = some (.start q as e, rest) ↔ ∃ n a sp, s = 60#8 :: (n ++ (a ++ (sp ++ (closing e ++ rest)))) ∧ QNameText T n q ∧ AttrsText T a as ∧
      Blank sp ∧ ∀ b, (a ++ sp).head? = some b → inName b = false := by
  constructor
  · intro h
    cases s with
    | nil => cases h
    | cons b s =>
      unfold rawToken at h
      dsimp only at h
      by_cases h60 : b = 60#8
      · rw [if_pos h60] at h
        subst h60
        cases s with
        | nil => cases h
        | cons c s =>
          dsimp only at h
          by_cases h47 : c = 47#8
          · rw [if_pos h47] at h
            unfold readClose at h
            cases hn : readQName T s with
            | none => rw [hn] at h; cases h
            | some p =>
              rw [hn] at h
              dsimp only at h
              obtain ⟨x, -, hx⟩ := Option.map_eq_some_iff.mp h
              injection hx with hx; cases hx
          rw [if_neg h47] at h
          by_cases h63 : c = 63#8
          · rw [if_pos h63] at h
            obtain ⟨x, -, hx⟩ := Option.map_eq_some_iff.mp h
            injection hx with hx; cases hx
          rw [if_neg h63] at h
          by_cases h33 : c = 33#8
          · rw [if_pos h33] at h
            obtain ⟨x, -, hx⟩ := Option.map_eq_some_iff.mp h
            injection hx with hx; cases hx
          rw [if_neg h33] at h
          unfold readStart at h
          cases hn : readQName T (c :: s) with
          | none => rw [hn] at h; cases h
          | some p =>
            obtain ⟨q', s'⟩ := p
            rw [hn] at h
            dsimp only at h
            obtain ⟨p, hp, hpe⟩ := Option.map_eq_some_iff.mp h
            obtain ⟨as', e', r'⟩ := p
            injection hpe with e1 e2
            injection e1 with e1 e3 e4
            subst e1 e2 e3 e4
            obtain ⟨n, f1, f2, f3, f4⟩ := (readQName_iff T _ s' q').mp hn
            obtain ⟨a, sp, g1, g2, g3⟩ := readAttrs_back T _ _ _ _ _ hp
            refine ⟨n, a, sp, by rw [f1, g1], f2, g2, g3, ?_⟩
            intro x hx
            apply f4
            rw [g1, ← List.append_assoc, head_append]
            · exact hx
            · rintro e; rw [e] at hx; cases hx
      · rw [if_neg h60] at h
        obtain ⟨x, -, hx⟩ := Option.map_eq_some_iff.mp h
        injection hx with hx; cases hx
  · rintro ⟨n, a, sp, rfl, h1, h2, h3, h4⟩
    obtain ⟨c, n', hn', hc⟩ := name_start h1
    unfold rawToken
    dsimp only
    rw [if_pos rfl]
    have h47 : c ≠ 47#8 := by rintro rfl; revert hc; decide
    have h63 : c ≠ 63#8 := by rintro rfl; revert hc; decide
    have h33 : c ≠ 33#8 := by rintro rfl; revert hc; decide
    have : ∀ r, n ++ r = c :: (n' ++ r) := by intro r; rw [hn']; rfl
    rw [this]
    dsimp only
    rw [if_neg h47, if_neg h63, if_neg h33, ← this]
    unfold readStart
    rw [(readQName_iff T _ _ q).mpr ⟨n, rfl, h1, ?_, ?_⟩]
    · dsimp only
      rw [readAttrs_forward h2 _ sp rest e (by simp; omega) h3]
      rfl
    · intro hh
      exact closing_ne e rest (List.append_eq_nil_iff.mp (List.append_eq_nil_iff.mp hh).2).2
    · intro x hx
      rw [← List.append_assoc] at hx
      by_cases hne : a ++ sp = []
      · rw [hne, List.nil_append] at hx
        exact (closing_head e rest x hx).2
      · rw [head_append hne] at hx
        exact h4 x hx

theorem rawToken_close (T : NameLib) (s rest : Str) (q : QName) :
    rawToken T s = some (.close q, rest) ↔ ∃ n sp, s = lit "</" ++ (n ++ (sp ++ (lit ">" ++ rest))) ∧ QNameText T n q ∧ Blank sp := by
  constructor
  · intro h
    cases s with
    | nil => cases h
    | cons b s =>
      unfold rawToken at h
      dsimp only at h
      by_cases h60 : b = 60#8
      · rw [if_pos h60] at h
        subst h60
        cases s with
        | nil => cases h
        | cons c s =>
          dsimp only at h
          by_cases h47 : c = 47#8
          · rw [if_pos h47] at h
            subst h47
            unfold readClose at h
            cases hn : readQName T s with
            | none => rw [hn] at h; cases h
            | some p =>
              obtain ⟨q', s'⟩ := p
              rw [hn] at h
              dsimp only at h
              obtain ⟨x, hx, hxe⟩ := Option.map_eq_some_iff.mp h
              injection hxe with e1 e2
              injection e1 with e1
              subst e1 e2
              obtain ⟨n, f1, f2, f3, f4⟩ := (readQName_iff T _ s' q').mp hn
              obtain ⟨sp, g1, g2, -⟩ := skipSpace_split s'
              exact ⟨n, sp, by rw [f1, g2, expectByte_iff.mp hx]; rfl, f2, g1⟩
          rw [if_neg h47] at h
          by_cases h63 : c = 63#8
          · rw [if_pos h63] at h
            obtain ⟨x, -, hx⟩ := Option.map_eq_some_iff.mp h
            injection hx with hx; cases hx
          rw [if_neg h63] at h
          by_cases h33 : c = 33#8
          · rw [if_pos h33] at h
            obtain ⟨x, -, hx⟩ := Option.map_eq_some_iff.mp h
            injection hx with hx; cases hx
          rw [if_neg h33] at h
          unfold readStart at h
          cases hn : readQName T (c :: s) with
          | none => rw [hn] at h; cases h
          | some p =>
            rw [hn] at h
            dsimp only at h
            obtain ⟨x, -, hx⟩ := Option.map_eq_some_iff.mp h
            injection hx with hx; cases hx
      · rw [if_neg h60] at h
        obtain ⟨x, -, hx⟩ := Option.map_eq_some_iff.mp h
        injection hx with hx; cases hx
  · rintro ⟨n, sp, rfl, h1, h2⟩
    rw [show lit "</" ++ (n ++ (sp ++ (lit ">" ++ rest))) = 60#8 :: 47#8 :: (n ++ (sp ++ (lit ">" ++ rest))) from rfl]
    unfold rawToken
    dsimp only
    rw [if_pos rfl, if_pos rfl]
    unfold readClose
    have hend : ∀ b, (sp ++ (lit ">" ++ rest)).head? = some b → inName b = false := by
      refine blank_ends h2 ?_
      intro b hb
      have : b = 62#8 := by simpa [lit] using hb.symm
      subst this; decide
    rw [(readQName_iff T _ _ q).mpr ⟨n, rfl, h1, by simp [lit], hend⟩]
    dsimp only
    rw [skipSpace_append h2 (by
      intro b hb
      have : b = 62#8 := by simpa [lit] using hb.symm
      subst this; decide), expectByte_iff.mpr (show lit ">" ++ rest = 62#8 :: rest from rfl)]
    rfl

theorem Misc.head {T : NameLib} {raw : Str} (h : Misc T raw) : ∃ c s, raw = 60#8 :: c :: s ∧ (c = 63#8 ∨ c = 33#8) := by
  cases h with
  | comment => exact ⟨33#8, _, rfl, Or.inr rfl⟩
  | inst => exact ⟨63#8, _, rfl, Or.inl rfl⟩
  | cdata => exact ⟨33#8, _, rfl, Or.inr rfl⟩
  | directive => exact ⟨33#8, _, rfl, Or.inr rfl⟩

theorem TextBytes.head {q : Option Byte} {raw t : Str} (h : TextBytes q raw t) : raw.head? ≠ some 60#8 := by
  cases h with
  | nil => simp
  | byte _ h => simpa using h
  | crlf => simp
  | cr => simp
  | entity => simp

theorem rawToken_other (T : NameLib) (s rest : Str) : rawToken T s = some (.other, rest) ↔
    ∃ raw, s = raw ++ rest ∧ (Misc T raw ∨ TextRun raw ∧ ∀ b, rest.head? = some b → b = 60#8) := by
  constructor
  · intro h
    cases s with
    | nil => cases h
    | cons b s =>
      unfold rawToken at h
      dsimp only at h
      by_cases h60 : b = 60#8
      · rw [if_pos h60] at h
        subst h60
        cases s with
        | nil => cases h
        | cons c s =>
          dsimp only at h
          by_cases h47 : c = 47#8
          · rw [if_pos h47] at h
            unfold readClose at h
            cases hn : readQName T s with
            | none => rw [hn] at h; cases h
            | some p =>
              rw [hn] at h
              dsimp only at h
              obtain ⟨x, -, hx⟩ := Option.map_eq_some_iff.mp h
              injection hx with hx; cases hx
          rw [if_neg h47] at h
          by_cases h63 : c = 63#8
          · rw [if_pos h63] at h
            subst h63
            obtain ⟨x, hx, hxe⟩ := Option.map_eq_some_iff.mp h
            injection hxe with _ hxe
            subst hxe
            obtain ⟨n, sp, data, e1, e2, e3, e4, e5, e6, e7⟩ := (readInst_iff T s x).mp hx
            refine ⟨lit "<?" ++ (n ++ (sp ++ (data ++ lit "?>"))), ?_, Or.inl (.inst e2 e3 e4 e5 e6 e7)⟩
            rw [e1]
            simp [lit]
          rw [if_neg h63] at h
          by_cases h33 : c = 33#8
          · rw [if_pos h33] at h
            subst h33
            obtain ⟨x, hx, hxe⟩ := Option.map_eq_some_iff.mp h
            injection hxe with _ hxe
            subst hxe
            obtain ⟨raw, e1, e2, -⟩ := (readBang_iff T s x).mp hx
            exact ⟨raw, e1, Or.inl e2⟩
          rw [if_neg h33] at h
          unfold readStart at h
          cases hn : readQName T (c :: s) with
          | none => rw [hn] at h; cases h
          | some p =>
            rw [hn] at h
            dsimp only at h
            obtain ⟨x, -, hx⟩ := Option.map_eq_some_iff.mp h
            injection hx with hx; cases hx
      · rw [if_neg h60] at h
        obtain ⟨x, hx, hxe⟩ := Option.map_eq_some_iff.mp h
        injection hxe with _ hxe
        subst hxe
        obtain ⟨raw, e1, e2, e3, e4, e5, e6⟩ := (readText_run _ _ _ (by simp) (by simpa using h60)).mp hx
        exact ⟨raw, e1, Or.inr ⟨⟨e2, e5, _, e3, e4⟩, e6⟩⟩
  · rintro ⟨raw, rfl, h | ⟨⟨h1, h2, out, h3, h4⟩, h5⟩⟩
    · obtain ⟨c, s, hraw, hc⟩ := h.head
      rcases hc with rfl | rfl
      · -- an instruction
        cases h with
        | comment => simp [lit] at hraw
        | cdata => simp [lit] at hraw
        | directive => simp [lit] at hraw
        | @inst n sp data e2 e3 e4 e5 e6 e7 =>
          have : readInst T (n ++ (sp ++ (data ++ (lit "?>" ++ rest)))) = some rest := (readInst_iff T _ rest).mpr ⟨n, sp, data, rfl, e2, e3, e4, e5, e6, e7⟩
          rw [show (lit "<?" ++ (n ++ (sp ++ (data ++ lit "?>")))) ++ rest = 60#8 :: 63#8 :: (n ++ (sp ++ (data ++ (lit "?>" ++ rest)))) by simp [lit]]
          unfold rawToken
          dsimp only
          rw [if_pos rfl, if_neg (by decide), if_pos rfl, this]
          rfl
      · have hb : readBang (s ++ rest) = some rest := by
          refine (readBang_iff T _ rest).mpr ⟨raw, ?_, h, ?_⟩
          · rw [hraw]; rfl
          · rw [hraw]; exact ⟨s, rfl⟩
        rw [hraw]
        rw [List.cons_append, List.cons_append]
        unfold rawToken
        dsimp only
        rw [if_pos rfl, if_neg (by decide), if_neg (by decide), if_pos rfl, hb]
        rfl
    · cases raw with
      | nil => exact absurd rfl h1
      | cons b raw =>
        have h60 : b ≠ 60#8 := by
          intro e
          exact h3.head (by rw [e]; rfl)
        have := (readText_run ((b :: raw) ++ rest) out rest (by simp) (by simpa using h60)).mpr ⟨b :: raw, rfl, h1, h3, h4, h2, h5⟩
        rw [List.cons_append] at this ⊢
        unfold rawToken
        dsimp only
        rw [if_neg h60, this]
        rfl

end Verif.Xml
