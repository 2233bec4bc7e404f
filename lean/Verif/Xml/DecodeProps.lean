import Verif.Xml.TagRead

/-!
# C120: which texts are documents, and what is read of them
-/

namespace Verif.Xml

open Verif.Expr (lit)

/-! ### Name spaces -/

theorem declared_cons (a : QName × Str) (scope : Scope) : declared (a :: scope) =
    if a.1.1 = xmlns then Function.update (declared scope) a.1.2 (some a.2)
    else if a.1 = ([], xmlns) then Function.update (declared scope) [] (some a.2)
    else declared scope := by
  obtain ⟨⟨p, l⟩, v⟩ := a
  have hx : xmlns ≠ [] := by decide
  funext k
  unfold declared
  by_cases h1 : p = xmlns
  · subst h1
    rw [if_pos rfl]
    by_cases hk : k = l
    · subst hk
      rw [Function.update_self, List.find?_cons_of_pos]
      · rfl
      · by_cases h0 : k = [] <;> simp [h0]
    · rw [Function.update_of_ne hk, List.find?_cons_of_neg]
      by_cases h0 : k = []
      · subst h0
        simp only [if_true, Prod.mk.injEq, decide_eq_true_eq, not_or, not_and]
        exact ⟨fun h => absurd h hx, fun _ h => hk h.symm⟩
      · simp only [if_neg h0, Prod.mk.injEq, decide_eq_true_eq, true_and]
        exact fun h => hk h.symm
  · rw [if_neg h1]
    by_cases h2 : p = [] ∧ l = xmlns
    · obtain ⟨rfl, rfl⟩ := h2
      rw [if_pos rfl]
      by_cases hk : k = []
      · subst hk
        rw [Function.update_self, List.find?_cons_of_pos]
        · rfl
        · simp
      · rw [Function.update_of_ne hk, List.find?_cons_of_neg]
        simp only [if_neg hk, Prod.mk.injEq, decide_eq_true_eq]
        exact fun h => hx h.1.symm
    · rw [if_neg (by simpa using h2), List.find?_cons_of_neg]
      by_cases h0 : k = []
      · simp only [if_pos h0, Prod.mk.injEq, decide_eq_true_eq, not_or]
        exact ⟨h2, fun h => h1 h.1⟩
      · simp only [if_neg h0, Prod.mk.injEq, decide_eq_true_eq]
        exact fun h => h1 h.1

theorem declared_nil : declared [] = fun _ => none := rfl

theorem declare_declared (as : List (QName × Str)) : ∀ scope, declare (declared scope) as = declared (as.reverse ++ scope) := by
  unfold declare
  induction as with
  | nil => intro scope; rfl
  | cons a as ih =>
    intro scope
    rw [List.foldl_cons, ← declared_cons, ih, List.reverse_cons, List.append_assoc]
    rfl

/-- The attributes around have names. -/
def Named (T : NameLib) (scope : Scope) : Prop := ∀ a ∈ scope, ∃ n, QNameText T n a.1

theorem AttrsText.named {T : NameLib} {raw : Str} {as : List (QName × Str)} (h : AttrsText T raw as) : ∀ a ∈ as, ∃ n, QNameText T n a.1 := by
  induction h with
  | nil => intro a ha; cases ha
  | cons _ hn _ _ _ _ _ _ ih =>
    intro a ha
    rcases List.mem_cons.mp ha with rfl | ha
    · exact ⟨_, hn⟩
    · exact ih a ha

theorem Named.append {T : NameLib} {raw : Str} {as : List (QName × Str)} {scope : Scope} (h : AttrsText T raw as) (hs : Named T scope) :
    Named T (as.reverse ++ scope) := by
  intro a ha
  rcases List.mem_append.mp ha with ha | ha
  · exact h.named a (List.mem_reverse.mp ha)
  · exact hs a ha

theorem Named.url {T : NameLib} {scope : Scope} (hs : Named T scope) : declared scope xmlURL = none := by
  unfold declared
  rw [Option.map_eq_none_iff, List.find?_eq_none]
  intro a ha
  rw [if_neg (show xmlURL ≠ [] by decide)]
  intro h
  have h : a.1 = (xmlns, xmlURL) := by simpa using h
  obtain ⟨n, hn⟩ := hs a ha
  have hb := hn.name.bytes.2
  have hmem : (47#8 : Byte) ∈ n := by
    have : n = xmlns ++ 58#8 :: xmlURL := by
      rw [h] at hn
      cases hn
      rfl
    rw [this]
    decide
  have := hb _ hmem
  revert this
  decide

theorem translate_scope {T : NameLib} {scope : Scope} (hs : Named T scope) (q : QName) (e : Bool) : translate (declared scope) q e = spaceFor scope q e := by
  obtain ⟨p, l⟩ := q
  unfold translate spaceFor
  have hx : xmlns ≠ [] := by decide
  have hxml : lit "xml" ≠ [] := by decide
  by_cases h1 : p = xmlns
  · rw [if_pos h1, if_pos h1]
  rw [if_neg h1, if_neg h1]
  by_cases h2 : p = lit "xml"
  · have h0 : p ≠ [] := by rw [h2]; exact hxml
    rw [if_neg (fun h => h0 h.1), if_neg (by intro h; injection h with h _; exact h0 h), if_pos h2, if_pos h2, hs.url]
    rfl
  rw [if_neg h2]
  by_cases h0 : p = []
  · subst h0
    simp only [true_and, if_neg h2]
    cases e with
    | false => simp
    | true =>
      by_cases hl : l = xmlns
      · simp [hl]
      · simp [hl]
  · rw [if_neg (fun h => h0 h.1), if_neg (by intro h; injection h with h _; exact h0 h), if_neg h0]
    simp only [if_neg h2]

theorem nodeOf_scope {T : NameLib} {scope : Scope} (hs : Named T scope) (q : QName) (as : List (QName × Str)) (inner : Str) (cs : List Tree) :
    nodeOf (declared scope) q as inner cs = nodeIn scope q as inner cs := by
  unfold nodeOf nodeIn
  rw [translate_scope hs]
  simp only [translate_scope hs]

/-! ### Elements -/

theorem take_sub (a b : Str) : (a ++ b).take ((a ++ b).length - b.length) = a := by
  rw [List.length_append, Nat.add_sub_cancel, List.take_left]

theorem closing_true : closing true = lit "/>" := rfl
theorem closing_false : closing false = lit ">" := rfl

theorem content_back (T : NameLib) : ∀ (n : Nat) (scope : Scope) (q : QName) (s e rest : Str) (cs : List Tree), Named T scope →
    content T n (declared scope) q s = some (cs, e, rest) →
    ∃ body nm sp, s = body ++ e ∧ e = lit "</" ++ (nm ++ (sp ++ (lit ">" ++ rest))) ∧ QNameText T nm q ∧ Blank sp ∧ Content T scope body cs := by
  intro n
  induction n with
  | zero => intro scope q s e rest cs _ h; cases h
  | succ n ih =>
    intro scope q s e rest cs hs h
    unfold content at h
    cases ht : rawToken T s with
    | none => rw [ht] at h; cases h
    | some p =>
      obtain ⟨tok, r⟩ := p
      rw [ht] at h
      cases tok with
      | other =>
        dsimp only at h
        obtain ⟨body, nm, sp, e1, e2, e3, e4, e5⟩ := ih _ _ _ _ _ _ hs h
        obtain ⟨raw, f1, f2⟩ := (rawToken_other T s r).mp ht
        refine ⟨raw ++ body, nm, sp, by rw [f1, e1, List.append_assoc], e2, e3, e4, ?_⟩
        rcases f2 with f2 | ⟨f2, f3⟩
        · exact .misc f2 e5
        · refine .text f2 ?_ e5
          intro b hb
          apply f3
          rw [e1, head_append]
          · exact hb
          · rintro rfl; cases hb
      | close q' =>
        dsimp only at h
        split_ifs at h with hq
        injection h with h
        injection h with a1 a2
        injection a2 with a2 a3
        subst a1 a2 a3 hq
        obtain ⟨nm, sp, g1, g2, g3⟩ := (rawToken_close T s r q').mp ht
        exact ⟨[], nm, sp, rfl, g1, g2, g3, .nil⟩
      | start q' as empty =>
        obtain ⟨nm, a, sp, g1, g2, g3, g4, g5⟩ := (rawToken_start T s r q' as empty).mp ht
        have hs' := hs.append g3
        cases empty with
        | true =>
          dsimp only at h
          obtain ⟨p, hp, hpe⟩ := Option.map_eq_some_iff.mp h
          obtain ⟨cs', e', r'⟩ := p
          injection hpe with a1 a2
          injection a2 with a2 a3
          dsimp only at a1 a2 a3
          subst a2 a3
          obtain ⟨body, nm', sp', e1, e2, e3, e4, e5⟩ := ih _ _ _ _ _ _ hs hp
          refine ⟨60#8 :: (nm ++ (a ++ (sp ++ lit "/>"))) ++ body, nm', sp', ?_, e2, e3, e4, ?_⟩
          · rw [g1, e1, closing_true]; simp
          · rw [← a1, declare_declared, nodeOf_scope hs']
            exact .element (.empty g2 g3 g4 g5) e5
        | false =>
          dsimp only at h
          rw [declare_declared] at h
          cases hc : content T n (declared (as.reverse ++ scope)) q' r with
          | none => rw [hc] at h; cases h
          | some p =>
            obtain ⟨cs1, e1, r1⟩ := p
            rw [hc] at h
            dsimp only at h
            obtain ⟨p, hp, hpe⟩ := Option.map_eq_some_iff.mp h
            obtain ⟨cs', e', r'⟩ := p
            injection hpe with a1 a2
            injection a2 with a2 a3
            dsimp only at a1 a2 a3
            subst a2 a3
            obtain ⟨body1, nm1, sp1, b1, b2, b3, b4, b5⟩ := ih _ _ _ _ _ _ hs' hc
            obtain ⟨body, nm', sp', c1, c2, c3, c4, c5⟩ := ih _ _ _ _ _ _ hs hp
            have hnm : nm1 = nm := b3.unique g2
            subst hnm
            refine ⟨60#8 :: (nm1 ++ (a ++ (sp ++ 62#8 :: (body1 ++ (lit "</" ++ (nm1 ++ (sp1 ++ lit ">"))))))) ++ body, nm', sp', ?_, c2, c3, c4, ?_⟩
            · rw [g1, b1, b2, c1, closing_false]; simp [lit]
            · rw [← a1, nodeOf_scope hs', b1, take_sub]
              exact .element (.full g2 g3 g4 g5 b5 b4) c5

theorem Element.start {T : NameLib} {scope : Scope} {raw : Str} {t : Tree} (h : Element T scope raw t) : ∃ s, raw = 60#8 :: s := by
  cases h with
  | empty => exact ⟨_, rfl⟩
  | full => exact ⟨_, rfl⟩

mutual
theorem element_forward {T : NameLib} {scope : Scope} {raw : Str} {t : Tree} (h : Element T scope raw t) (hs : Named T scope) :
    (∀ (n : Nat) (q : QName) (s : Str), raw.length ≤ n →
      content T (n + 1) (declared scope) q (raw ++ s) = (content T n (declared scope) q s).map fun p => (t :: p.1, p.2)) ∧
    (scope = [] → ∀ (n : Nat) (s : Str), decodeAux T (n + 1) (raw ++ s) = some t) := by
  match h with
  | @Element.empty _ _ nm a sp q' as h1 h2 h3 h4 =>
    have htok : ∀ s, rawToken T (60#8 :: (nm ++ (a ++ (sp ++ lit "/>"))) ++ s) = some (.start q' as true, s) := by
      intro s
      refine (rawToken_start T _ s q' as true).mpr ⟨nm, a, sp, ?_, h1, h2, h3, h4⟩
      rw [closing_true]; simp
    constructor
    · intro n q s hn
      rw [content, htok]
      dsimp only
      rw [declare_declared, nodeOf_scope (hs.append h2)]
    · intro h0 n s
      subst h0
      rw [decodeAux, htok]
      dsimp only
      rw [← declared_nil, declare_declared, nodeOf_scope (hs.append h2)]
  | @Element.full _ _ nm a sp sp' body q' as cs h1 h2 h3 h4 h5 h6 =>
    have htok : ∀ s, rawToken T (60#8 :: (nm ++ (a ++ (sp ++ 62#8 :: (body ++ (lit "</" ++ (nm ++ (sp' ++ lit ">"))))))) ++ s) =
        some (.start q' as false, body ++ (lit "</" ++ (nm ++ (sp' ++ (lit ">" ++ s))))) := by
      intro s
      refine (rawToken_start T _ _ q' as false).mpr ⟨nm, a, sp, ?_, h1, h2, h3, h4⟩
      rw [closing_false]; simp [lit]
    have hin := content_forward h5 (hs.append h2)
    constructor
    · intro n q s hn
      rw [content, htok]
      dsimp only
      rw [declare_declared, hin n q' nm sp' s (by simp at hn; omega) h1 h6]
      dsimp only
      rw [nodeOf_scope (hs.append h2), take_sub]
    · intro h0 n s
      subst h0
      rw [decodeAux, htok]
      dsimp only
      rw [← declared_nil, declare_declared, hin _ q' nm sp' s (by simp; omega) h1 h6]
      dsimp only [Option.map_some]
      rw [nodeOf_scope (hs.append h2), take_sub]
theorem content_forward {T : NameLib} {scope : Scope} {body : Str} {cs : List Tree} (h : Content T scope body cs) (hs : Named T scope) :
    ∀ (n : Nat) (q : QName) (nm sp rest : Str), body.length < n → QNameText T nm q → Blank sp →
      content T n (declared scope) q (body ++ (lit "</" ++ (nm ++ (sp ++ (lit ">" ++ rest))))) =
        some (cs, lit "</" ++ (nm ++ (sp ++ (lit ">" ++ rest))), rest) := by
  match h with
  | .nil =>
    intro n q nm sp rest hn hq hb
    obtain ⟨n, rfl⟩ : ∃ m, n = m + 1 := ⟨n - 1, by omega⟩
    rw [List.nil_append, content, (rawToken_close T _ rest q).mpr ⟨nm, sp, rfl, hq, hb⟩]
    dsimp only
    rw [if_pos rfl]
  | @Content.misc _ _ raw more _ h1 h2 =>
    intro n q nm sp rest hn hq hb
    obtain ⟨n, rfl⟩ : ∃ m, n = m + 1 := ⟨n - 1, by omega⟩
    rw [List.append_assoc, content, (rawToken_other T _ _).mpr ⟨raw, rfl, Or.inl h1⟩]
    dsimp only
    refine content_forward h2 hs n q nm sp rest ?_ hq hb
    obtain ⟨c, s, e, -⟩ := h1.head
    rw [e] at hn
    simp at hn; omega
  | @Content.text _ _ raw more _ h1 h3 h2 =>
    intro n q nm sp rest hn hq hb
    obtain ⟨n, rfl⟩ : ∃ m, n = m + 1 := ⟨n - 1, by omega⟩
    rw [List.append_assoc, content, (rawToken_other T _ _).mpr ⟨raw, rfl, Or.inr ⟨h1, by
      cases more with
      | nil => intro b hb'; simpa [lit] using hb'.symm
      | cons x more => exact h3⟩⟩]
    dsimp only
    refine content_forward h2 hs n q nm sp rest ?_ hq hb
    have : 0 < raw.length := List.length_pos_iff.mpr h1.1
    simp at hn; omega
  | @Content.element _ _ raw more t cs h1 h2 =>
    intro n q nm sp rest hn hq hb
    obtain ⟨n, rfl⟩ : ∃ m, n = m + 1 := ⟨n - 1, by omega⟩
    obtain ⟨s, e⟩ := h1.start
    have : 0 < raw.length := by rw [e]; simp
    rw [List.append_assoc, (element_forward h1 hs).1 n q _ (by simp at hn; omega)]
    rw [content_forward h2 hs n q nm sp rest (by simp at hn; omega) hq hb]
    rfl
end

theorem decode_back (T : NameLib) : ∀ (n : Nat) (s : Str) (t : Tree), decodeAux T n s = some t →
    ∃ pro raw rest, s = pro ++ (raw ++ rest) ∧ Prolog T pro ∧ Element T [] raw t := by
  intro n
  have hs : Named T [] := fun a ha => by cases ha
  induction n with
  | zero => intro s t h; cases h
  | succ n ih =>
    intro s t h
    unfold decodeAux at h
    cases ht : rawToken T s with
    | none => rw [ht] at h; cases h
    | some p =>
      obtain ⟨tok, r⟩ := p
      rw [ht] at h
      cases tok with
      | other =>
        dsimp only at h
        obtain ⟨pro, raw, rest, e1, e2, e3⟩ := ih _ _ h
        obtain ⟨x, f1, f2⟩ := (rawToken_other T s r).mp ht
        refine ⟨x ++ pro, raw, rest, by rw [f1, e1, List.append_assoc], ?_, e3⟩
        rcases f2 with f2 | ⟨f2, f3⟩
        · exact .misc f2 e2
        · refine .text f2 ?_ e2
          intro b hb
          apply f3
          rw [e1, head_append]
          · exact hb
          · rintro rfl; cases hb
      | close q' => cases h
      | start q' as empty =>
        obtain ⟨nm, a, sp, g1, g2, g3, g4, g5⟩ := (rawToken_start T s r q' as empty).mp ht
        have hs' := hs.append g3
        cases empty with
        | true =>
          dsimp only at h
          injection h with h
          rw [← declared_nil, declare_declared, nodeOf_scope hs'] at h
          refine ⟨[], 60#8 :: (nm ++ (a ++ (sp ++ lit "/>"))), r, ?_, .nil, ?_⟩
          · rw [g1, closing_true]; simp
          · rw [← h]; exact .empty g2 g3 g4 g5
        | false =>
          dsimp only at h
          rw [← declared_nil, declare_declared] at h
          obtain ⟨p, hp, hpe⟩ := Option.map_eq_some_iff.mp h
          obtain ⟨cs, e, r'⟩ := p
          dsimp only at hpe
          obtain ⟨body1, nm1, sp1, b1, b2, b3, b4, b5⟩ := content_back T _ _ _ _ _ _ _ hs' hp
          have hnm : nm1 = nm := b3.unique g2
          subst hnm
          refine ⟨[], 60#8 :: (nm1 ++ (a ++ (sp ++ 62#8 :: (body1 ++ (lit "</" ++ (nm1 ++ (sp1 ++ lit ">"))))))), r', ?_, .nil, ?_⟩
          · rw [g1, b1, b2, closing_false]; simp [lit]
          · rw [← hpe, nodeOf_scope hs', b1, take_sub]
            exact .full g2 g3 g4 g5 b5 b4

theorem decode_forward {T : NameLib} {pro : Str} (h : Prolog T pro) : ∀ (n : Nat) (raw rest : Str) (t : Tree), pro.length < n → Element T [] raw t →
    decodeAux T n (pro ++ (raw ++ rest)) = some t := by
  have hs : Named T [] := fun a ha => by cases ha
  induction h with
  | nil =>
    intro n raw rest t hn he
    obtain ⟨n, rfl⟩ : ∃ m, n = m + 1 := ⟨n - 1, by omega⟩
    exact (element_forward he hs).2 rfl n rest
  | @misc x more h1 _ ih =>
    intro n raw rest t hn he
    obtain ⟨n, rfl⟩ : ∃ m, n = m + 1 := ⟨n - 1, by omega⟩
    rw [List.append_assoc, decodeAux, (rawToken_other T _ _).mpr ⟨x, rfl, Or.inl h1⟩]
    dsimp only
    refine ih n raw rest t ?_ he
    obtain ⟨c, s, e, -⟩ := h1.head
    rw [e] at hn
    simp at hn; omega
  | @text x more h1 h3 _ ih =>
    intro n raw rest t hn he
    obtain ⟨n, rfl⟩ : ∃ m, n = m + 1 := ⟨n - 1, by omega⟩
    rw [List.append_assoc, decodeAux, (rawToken_other T _ _).mpr ⟨x, rfl, Or.inr ⟨h1, by
      cases more with
      | nil =>
        obtain ⟨s, e⟩ := he.start
        intro b hb
        rw [e] at hb
        simpa using hb.symm
      | cons y more => exact h3⟩⟩]
    dsimp only
    refine ih n raw rest t ?_ he
    have : 0 < x.length := List.length_pos_iff.mpr h1.1
    simp at hn; omega

/-- C120: a text is read as a document with a root `t` exactly when it is a prolog, then an element whose tree is `t`, then anything. -/
theorem C120_reads (T : NameLib) (s : Str) (t : Tree) :
    decode T s = some t ↔ ∃ pro raw rest, s = pro ++ (raw ++ rest) ∧ Prolog T pro ∧ Element T [] raw t := by
  constructor
  · exact decode_back T _ s t
  · rintro ⟨pro, raw, rest, rfl, h1, h2⟩
    exact decode_forward h1 _ raw rest t (by simp; omega) h2

/-- C120: what an element means is determined by its text. -/
theorem C120_one_meaning (T : NameLib) (raw : Str) (t t' : Tree) (h : Element T [] raw t) (h' : Element T [] raw t') : t = t' := by
  have e : decode T raw = some t := (C120_reads T raw t).mpr ⟨[], raw, [], by simp, .nil, h⟩
  have e' : decode T raw = some t' := (C120_reads T raw t').mpr ⟨[], raw, [], by simp, .nil, h'⟩
  rw [e] at e'
  injection e'

/-- C120: what comes after the root makes no difference. -/
theorem C120_after_root (T : NameLib) (s more : Str) (t : Tree) (h : decode T s = some t) : decode T (s ++ more) = some t := by
  obtain ⟨pro, raw, rest, rfl, h1, h2⟩ := (C120_reads T s t).mp h
  exact (C120_reads T _ t).mpr ⟨pro, raw, rest ++ more, by simp, h1, h2⟩

/-! ### A document ends where its root ends -/

theorem element_once {T : NameLib} {raw raw' rest rest' : Str} {t t' : Tree} (h : Element T [] raw t) (h' : Element T [] raw' t')
    (e : raw ++ rest = raw' ++ rest') : raw = raw' ∧ rest = rest' := by
  have hs : Named T [] := fun a ha => by cases ha
  have key : rest = rest' := by
    have hc := congrArg (content T (raw.length + raw'.length + 1) (declared []) ([], [])) e
    cases h with
    | @empty _ nm a sp q as h1 h2 h3 h4 =>
      have htok : rawToken T (60#8 :: (nm ++ (a ++ (sp ++ lit "/>"))) ++ rest) = some (.start q as true, rest) :=
        (rawToken_start T _ rest q as true).mpr ⟨nm, a, sp, by rw [closing_true]; simp, h1, h2, h3, h4⟩
      rw [e] at htok
      cases h' with
      | @empty _ nm' a' sp' q' as' g1 g2 g3 g4 =>
        have htok' : rawToken T (60#8 :: (nm' ++ (a' ++ (sp' ++ lit "/>"))) ++ rest') = some (.start q' as' true, rest') :=
          (rawToken_start T _ rest' q' as' true).mpr ⟨nm', a', sp', by rw [closing_true]; simp, g1, g2, g3, g4⟩
        rw [htok'] at htok
        injection htok with htok
        injection htok with _ htok
        exact htok.symm
      | @full _ nm' a' sp' sp2 body q' as' cs g1 g2 g3 g4 g5 g6 =>
        have htok' : rawToken T (60#8 :: (nm' ++ (a' ++ (sp' ++ 62#8 :: (body ++ (lit "</" ++ (nm' ++ (sp2 ++ lit ">"))))))) ++ rest') =
            some (.start q' as' false, body ++ (lit "</" ++ (nm' ++ (sp2 ++ (lit ">" ++ rest'))))) :=
          (rawToken_start T _ _ q' as' false).mpr ⟨nm', a', sp', by rw [closing_false]; simp [lit], g1, g2, g3, g4⟩
        rw [htok'] at htok
        injection htok with htok
        injection htok with htok _
        injection htok with _ _ htok
        cases htok
    | @full _ nm a sp sp1 body q as cs h1 h2 h3 h4 h5 h6 =>
      have htok : rawToken T (60#8 :: (nm ++ (a ++ (sp ++ 62#8 :: (body ++ (lit "</" ++ (nm ++ (sp1 ++ lit ">"))))))) ++ rest) =
          some (.start q as false, body ++ (lit "</" ++ (nm ++ (sp1 ++ (lit ">" ++ rest))))) :=
        (rawToken_start T _ _ q as false).mpr ⟨nm, a, sp, by rw [closing_false]; simp [lit], h1, h2, h3, h4⟩
      rw [e] at htok
      cases h' with
      | @empty _ nm' a' sp' q' as' g1 g2 g3 g4 =>
        have htok' : rawToken T (60#8 :: (nm' ++ (a' ++ (sp' ++ lit "/>"))) ++ rest') = some (.start q' as' true, rest') :=
          (rawToken_start T _ rest' q' as' true).mpr ⟨nm', a', sp', by rw [closing_true]; simp, g1, g2, g3, g4⟩
        rw [htok'] at htok
        injection htok with htok
        injection htok with htok _
        injection htok with _ _ htok
        cases htok
      | @full _ nm' a' sp' sp2 body' q' as' cs' g1 g2 g3 g4 g5 g6 =>
        have htok' : rawToken T (60#8 :: (nm' ++ (a' ++ (sp' ++ 62#8 :: (body' ++ (lit "</" ++ (nm' ++ (sp2 ++ lit ">"))))))) ++ rest') =
            some (.start q' as' false, body' ++ (lit "</" ++ (nm' ++ (sp2 ++ (lit ">" ++ rest'))))) :=
          (rawToken_start T _ _ q' as' false).mpr ⟨nm', a', sp', by rw [closing_false]; simp [lit], g1, g2, g3, g4⟩
        rw [htok'] at htok
        injection htok with htok
        injection htok with htok hrest
        injection htok with hq has _
        subst hq has
        have c1 := content_forward h5 (hs.append h2) (body.length + body'.length + 1) q' nm sp1 rest (by omega) h1 h6
        have c2 := content_forward g5 (hs.append h2) (body.length + body'.length + 1) q' nm' sp2 rest' (by omega) g1 g6
        rw [← hrest, c2] at c1
        injection c1 with c1
        injection c1 with _ c1
        injection c1 with _ c1
        exact c1.symm
  refine ⟨?_, key⟩
  subst key
  exact List.append_cancel_right e

theorem prolog_once {T : NameLib} {pro : Str} (h : Prolog T pro) : ∀ {pro' raw raw' rest rest' : Str} {t t' : Tree}, Prolog T pro' →
    Element T [] raw t → Element T [] raw' t' → pro ++ (raw ++ rest) = pro' ++ (raw' ++ rest') → pro = pro' ∧ raw = raw' ∧ rest = rest' := by
  have hstart : ∀ {raw rest : Str} {t : Tree}, Element T [] raw t → ∀ r, rawToken T (raw ++ rest) ≠ some (.other, r) := by
    intro raw rest t he r hr
    cases he with
    | @empty _ nm a sp q as h1 h2 h3 h4 =>
      rw [(rawToken_start T _ rest q as true).mpr ⟨nm, a, sp, by rw [closing_true]; simp, h1, h2, h3, h4⟩] at hr
      injection hr with hr; injection hr with hr; cases hr
    | @full _ nm a sp sp1 body q as cs h1 h2 h3 h4 h5 h6 =>
      rw [(rawToken_start T _ (body ++ (lit "</" ++ (nm ++ (sp1 ++ (lit ">" ++ rest))))) q as false).mpr
        ⟨nm, a, sp, by rw [closing_false]; simp [lit], h1, h2, h3, h4⟩] at hr
      injection hr with hr; injection hr with hr; cases hr
  have htext : ∀ {more raw rest : Str} {t : Tree}, (∀ b, more.head? = some b → b = 60#8) → Element T [] raw t →
      ∀ b, (more ++ (raw ++ rest)).head? = some b → b = 60#8 := by
    intro more raw rest t hm he b hb
    cases more with
    | nil =>
      obtain ⟨s, e⟩ := he.start
      rw [e] at hb
      simpa using hb.symm
    | cons y more => exact hm b hb
  have hpro : ∀ {pro raw rest : Str} {t : Tree}, Prolog T pro → Element T [] raw t → pro = [] ∨
      ∃ x more, pro = x ++ more ∧ Prolog T more ∧ rawToken T (pro ++ (raw ++ rest)) = some (.other, more ++ (raw ++ rest)) := by
    intro pro raw rest t hp he
    cases hp with
    | nil => exact Or.inl rfl
    | @misc x more h1 h2 =>
      exact Or.inr ⟨x, more, rfl, h2, (rawToken_other T _ _).mpr ⟨x, by simp, Or.inl h1⟩⟩
    | @text x more h1 h3 h2 =>
      exact Or.inr ⟨x, more, rfl, h2, (rawToken_other T _ _).mpr ⟨x, by simp, Or.inr ⟨h1, htext h3 he⟩⟩⟩
  have step : ∀ {x more : Str}, (∀ {pro' raw raw' rest rest' : Str} {t t' : Tree}, Prolog T pro' → Element T [] raw t → Element T [] raw' t' →
      more ++ (raw ++ rest) = pro' ++ (raw' ++ rest') → more = pro' ∧ raw = raw' ∧ rest = rest') →
      ∀ {pro' raw raw' rest rest' : Str} {t t' : Tree}, rawToken T ((x ++ more) ++ (raw ++ rest)) = some (.other, more ++ (raw ++ rest)) → Prolog T pro' →
        Element T [] raw t → Element T [] raw' t' → (x ++ more) ++ (raw ++ rest) = pro' ++ (raw' ++ rest') → x ++ more = pro' ∧ raw = raw' ∧ rest = rest' := by
    intro x more ih pro' raw raw' rest rest' t t' htok hp he he' e
    rcases hpro (rest := rest') hp he' with rfl | ⟨x', more', rfl, hm', htok'⟩
    · rw [e, List.nil_append] at htok
      exact absurd htok (hstart he' _)
    · rw [e, htok'] at htok
      injection htok with htok
      injection htok with _ htok
      obtain ⟨rfl, rfl, rfl⟩ := ih hm' he he' htok.symm
      refine ⟨?_, rfl, rfl⟩
      exact List.append_cancel_right e
  induction h with
  | nil =>
    intro pro' raw raw' rest rest' t t' hp he he' e
    rcases hpro (rest := rest') hp he' with rfl | ⟨x', more', rfl, hm', htok'⟩
    · obtain ⟨a, b⟩ := element_once he he' e
      exact ⟨rfl, a, b⟩
    · rw [← e, List.nil_append] at htok'
      exact absurd htok' (hstart he _)
  | @misc x more h1 h2 ih =>
    intro pro' raw raw' rest rest' t t' hp he he' e
    exact step ih ((rawToken_other T _ _).mpr ⟨x, by simp, Or.inl h1⟩) hp he he' e
  | @text x more h1 h3 h2 ih =>
    intro pro' raw raw' rest rest' t t' hp he he' e
    exact step ih ((rawToken_other T _ _).mpr ⟨x, by simp, Or.inr ⟨h1, htext h3 he⟩⟩) hp he he' e

/-- C120: prolog, root and what is after it are the same whichever way a text is divided. -/
theorem C120_division (T : NameLib) (pro raw rest pro' raw' rest' : Str) (t t' : Tree) (hp : Prolog T pro) (h : Element T [] raw t) (hp' : Prolog T pro')
    (h' : Element T [] raw' t') (e : pro ++ (raw ++ rest) = pro' ++ (raw' ++ rest')) : pro = pro' ∧ raw = raw' ∧ rest = rest' :=
  prolog_once hp hp' h h' e

/-- C120: of a document cut short, wherever before the end of its root, nothing is read. -/
theorem C120_cut (T : NameLib) (pro raw : Str) (t : Tree) (hp : Prolog T pro) (h : Element T [] raw t) (k : Nat) (hk : k < (pro ++ raw).length) :
    decode T ((pro ++ raw).take k) = none := by
  cases hd : decode T ((pro ++ raw).take k) with
  | none => rfl
  | some t' =>
    exfalso
    obtain ⟨pro', raw', rest', e, hp', h'⟩ := (C120_reads T _ t').mp hd
    have e2 : pro ++ (raw ++ []) = pro' ++ (raw' ++ (rest' ++ (pro ++ raw).drop k)) := by
      calc pro ++ (raw ++ []) = (pro ++ raw).take k ++ (pro ++ raw).drop k := by rw [List.take_append_drop]; simp
        _ = _ := by rw [e]; simp
    obtain ⟨-, -, e3⟩ := prolog_once hp hp' h h' e2
    have := congrArg List.length e3
    rw [List.length_append, List.length_drop] at this
    simp only [List.length_nil] at this
    omega

section Examples

/-- Names within ASCII. -/
def ascii : NameLib := ⟨fun _ => false, fun _ => false⟩

/-- A document with a declaration, a comment, name spaces, escaped characters and text. -/
def sampleText : Str := lit "<?xml version='1.0' encoding=\"UTF-8\"?>\n<!-- a - b -->\n<r xmlns='u' xmlns:p = \"v\" a='1 &lt; &#x32;'>t<p:c b=''>x &amp; y</p:c ><d/><![CDATA[<]]></r> after"

/-- The root of the sample, its attributes, its children. -/
example : (decode ascii sampleText).map (fun t => [t.name, t.space, t.inner]) =
    some [lit "r", lit "u", lit "t<p:c b=''>x &amp; y</p:c ><d/><![CDATA[<]]>"] := by decide +kernel
example : (decode ascii sampleText).map (fun t => t.attrs.map fun a => [a.1, a.2.1, a.2.2]) =
    some [[lit "xmlns", [], lit "u"], [lit "p", lit "xmlns", lit "v"], [lit "a", [], lit "1 < 2"]] := by decide +kernel
example : (decode ascii sampleText).map (fun t => t.children.map fun c => [c.name, c.space, c.inner]) =
    some [[lit "c", lit "v", lit "x &amp; y"], [lit "d", lit "u", []]] := by decide +kernel

/-- So there is a prolog and an element, of which none may be cut. -/
example : ∃ pro raw rest t, sampleText = pro ++ (raw ++ rest) ∧ Prolog ascii pro ∧ Element ascii [] raw t := by
  have h : (decode ascii sampleText).isSome = true := by decide +kernel
  obtain ⟨t, ht⟩ := Option.isSome_iff_exists.mp h
  obtain ⟨pro, raw, rest, h⟩ := (C120_reads ascii sampleText t).mp ht
  exact ⟨pro, raw, rest, t, h⟩

/-- Not documents: nothing at all, tags that do not match, a bare `&`, a quote missing, `]]>` in text, a control character, version 1.1. -/
example : ([lit "", lit "<a></b>", lit "<a>&</a>", lit "<a b=c/>", lit "<a>]]></a>", lit "<a>\x01</a>", lit "<?xml version='1.1'?><a/>", lit "<a><p:b></b></a>"].all
    fun s => (decode ascii s).isNone) = true := by decide +kernel

end Examples

/-- A parameter without quotes is passed over: the second occurrence tells the version. -/
example : declOk (lit "version= version='1.1'") = false ∧ declOk (lit "version= version='1.0'") = true := by decide +kernel

end Verif.Xml
