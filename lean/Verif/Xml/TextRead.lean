import Verif.Xml.Chars

/-!
# C120: reading texts, comments and instructions
-/

namespace Verif.Xml

open Verif.Expr (lit)

/-! ### Up to the first occurrence -/

theorem prefix_long {p a b : List Byte} (h : p.length ≤ a.length) : p <+: a ++ b ↔ p <+: a :=
  ⟨fun hp => List.prefix_of_prefix_length_le hp (List.prefix_append a b) h, fun hp => hp.trans (List.prefix_append a b)⟩

theorem upTo_iff {stop : List Byte} (hs : stop ≠ []) (s t rest : List Byte) : upTo stop s = some (t, rest) ↔
    s = t ++ (stop ++ rest) ∧ ¬ stop <:+: t ++ stop.dropLast := by
  have hlen : 1 ≤ stop.length := List.length_pos_iff.mpr hs
  have hdl : stop.dropLast.length = stop.length - 1 := List.length_dropLast
  have hbase : ¬ stop <:+: stop.dropLast := by
    intro h
    have := h.length_le
    omega
  induction s generalizing t with
  | nil =>
    unfold upTo
    rw [if_neg (by intro h; exact hs (List.prefix_nil.mp h))]
    constructor
    · intro h; cases h
    · rintro ⟨h, -⟩
      have := congrArg List.length h
      simp at this
      omega
  | cons b s ih =>
    unfold upTo
    by_cases hp : stop <+: b :: s
    · rw [if_pos hp]
      obtain ⟨r, hr⟩ := hp
      have hd : (b :: s).drop stop.length = r := by rw [← hr, List.drop_left]
      rw [hd]
      constructor
      · intro h
        injection h with h
        injection h with h1 h2
        subst h1 h2
        exact ⟨hr.symm, hbase⟩
      · rintro ⟨h1, h2⟩
        cases t with
        | nil =>
          rw [List.nil_append] at h1
          rw [h1] at hr
          rw [List.append_cancel_left hr]
        | cons c t =>
          exfalso
          apply h2
          have : stop <+: (c :: t) ++ stop.dropLast := by
            have hfull : stop <+: ((c :: t) ++ stop.dropLast) ++ ([stop.getLast hs] ++ rest) := by
              rw [List.append_assoc, ← List.append_assoc stop.dropLast, List.dropLast_concat_getLast hs, ← h1, ← hr]
              exact List.prefix_append _ _
            exact (prefix_long (by simp [hdl]; omega)).mp hfull
          exact this.isInfix
    · rw [if_neg hp]
      constructor
      · intro h
        obtain ⟨p, hp', he⟩ := Option.map_eq_some_iff.mp h
        injection he with he1 he2
        subst he1 he2
        obtain ⟨h1, h2⟩ := (ih p.1).mp hp'
        refine ⟨by rw [h1]; rfl, ?_⟩
        rw [List.cons_append, List.infix_cons_iff]
        rintro (h | h)
        · apply hp
          rw [h1]
          have : b :: (p.1 ++ (stop ++ p.2)) = (b :: (p.1 ++ stop.dropLast)) ++ ([stop.getLast hs] ++ p.2) := by
            rw [List.cons_append, List.append_assoc, ← List.append_assoc stop.dropLast, List.dropLast_concat_getLast hs]
          rw [this]
          exact h.trans (List.prefix_append _ _)
        · exact h2 h
      · rintro ⟨h1, h2⟩
        cases t with
        | nil =>
          exact absurd (by rw [h1]; exact List.prefix_append _ _) hp
        | cons c t =>
          rw [List.cons_append] at h1
          injection h1 with h1 h3
          subst h1
          rw [List.cons_append, List.infix_cons_iff, not_or] at h2
          rw [(ih t).mpr ⟨h3, h2.2⟩]
          rfl

/-! ### Text -/

/-- How a text ends: with the document, before a `<`, with the quote. -/
inductive TextEnd : Option Byte → List Byte → List Byte → Prop
  | doc {q : Option Byte} : TextEnd q [] []
  | tag {rest : List Byte} : TextEnd none (60#8 :: rest) (60#8 :: rest)
  | quote {b : Byte} {rest : List Byte} : TextEnd (some b) (b :: rest) rest

theorem infix3 {b0 b1 b : Byte} {raw : List Byte} : lit "]]>" <:+: b0 :: b1 :: b :: raw ↔
    (b0 = 93#8 ∧ b1 = 93#8 ∧ b = 62#8) ∨ lit "]]>" <:+: b1 :: b :: raw := by
  rw [List.infix_cons_iff]
  refine or_congr ?_ Iff.rfl
  rw [show lit "]]>" = [93#8, 93#8, 62#8] from rfl]
  simp only [List.cons_prefix_cons, List.nil_prefix, and_true]
  constructor
  · rintro ⟨rfl, rfl, rfl⟩; exact ⟨rfl, rfl, rfl⟩
  · rintro ⟨rfl, rfl, rfl⟩; exact ⟨rfl, rfl, rfl⟩

theorem infix2 {b0 b1 : Byte} : ¬ lit "]]>" <:+: [b0, b1] := by
  intro h
  have := h.length_le
  rw [show (lit "]]>").length = 3 from rfl] at this
  simp at this

/-- A byte or two that are no bracket do not matter. -/
theorem infix_zero {raw : List Byte} : lit "]]>" <:+: 0#8 :: 0#8 :: raw ↔ lit "]]>" <:+: raw := by
  rw [List.infix_cons_iff, List.infix_cons_iff]
  rw [show lit "]]>" = [93#8, 93#8, 62#8] from rfl]
  simp only [List.cons_prefix_cons]
  simp

theorem textAux_cons (q : Option Byte) (cdata : Bool) (n : Nat) (b0 b1 b : Byte) (s : List Byte) : textAux q cdata (n + 1) b0 b1 (b :: s) =
    if q = none ∧ b0 = 93#8 ∧ b1 = 93#8 ∧ b = 62#8 then (if cdata then some ([], s) else none)
    else if b = 60#8 ∧ cdata = false then (if q = none then some ([], b :: s) else none)
    else if q = some b then some ([], s)
    else if b = 38#8 ∧ cdata = false then
      match entity s with
      | none => none
      | some (r, s) => put (Utf8.encode r) (textAux q cdata n 0#8 0#8 s)
    else put (newline b1 b) (textAux q cdata n b1 b s) := rfl

theorem text_back (q : Option Byte) : ∀ (n : Nat) (b0 b1 : Byte) (s t rest : List Byte), textAux q false n b0 b1 s = some (t, rest) →
    ∃ raw tail, s = raw ++ tail ∧ TextEnd q tail rest ∧ (b1 = 13#8 → TextBytes q (13#8 :: raw) (10#8 :: t)) ∧
      (b1 ≠ 13#8 → TextBytes q raw t) ∧ (q = none → ¬ lit "]]>" <:+: b0 :: b1 :: raw) := by
  intro n
  induction n with
  | zero => intro b0 b1 s t rest h; cases h
  | succ n ih =>
    intro b0 b1 s t rest h
    have hnil : ∀ tail rest, TextEnd q tail rest → ∃ raw tail', tail = raw ++ tail' ∧ TextEnd q tail' rest ∧
        (b1 = 13#8 → TextBytes q (13#8 :: raw) (10#8 :: [])) ∧ (b1 ≠ 13#8 → TextBytes q raw []) ∧ (q = none → ¬ lit "]]>" <:+: b0 :: b1 :: raw) :=
      fun tail rest he => ⟨[], tail, rfl, he, fun _ => .cr (by simp) .nil, fun _ => .nil, fun _ => infix2⟩
    cases s with
    | nil =>
      simp only [textAux, Bool.false_eq_true, if_false] at h
      injection h with h
      injection h with h1 h2
      subst h1 h2
      exact hnil [] [] .doc
    | cons b s =>
      simp only [textAux, and_true, Bool.false_eq_true, if_false] at h
      by_cases hx : q = none ∧ b0 = 93#8 ∧ b1 = 93#8 ∧ b = 62#8
      · rw [if_pos hx] at h; cases h
      rw [if_neg hx] at h
      by_cases hlt : b = 60#8
      · rw [if_pos hlt] at h
        split_ifs at h with hq
        injection h with h
        injection h with h1 h2
        subst hlt h1 h2 hq
        exact hnil _ _ .tag
      rw [if_neg hlt] at h
      by_cases hqb : q = some b
      · rw [if_pos hqb] at h
        injection h with h
        injection h with h1 h2
        subst h1 h2 hqb
        exact hnil _ _ .quote
      rw [if_neg hqb] at h
      by_cases hamp : b = 38#8
      · rw [if_pos hamp] at h
        cases he : entity s with
        | none => rw [he] at h; cases h
        | some p =>
          obtain ⟨r, s1⟩ := p
          rw [he] at h
          dsimp only at h
          obtain ⟨p, hp, hpe⟩ := Option.map_eq_some_iff.mp h
          injection hpe with e1 e2
          subst e1 e2 hamp
          obtain ⟨e, rfl, hent⟩ := (entity_iff s s1 r).mp he
          obtain ⟨raw, tail, h1, h2, -, h4, h5⟩ := ih _ _ _ _ _ hp
          subst h1
          have hT : TextBytes q (38#8 :: e ++ 59#8 :: raw) (Utf8.encode r ++ p.1) := .entity hent (h4 (by decide))
          refine ⟨38#8 :: e ++ 59#8 :: raw, tail, by simp, h2, fun _ => .cr (by simp) hT, fun _ => hT, fun hq => ?_⟩
          have h5' := mt infix_zero.mpr (h5 hq)
          -- no bracket within the entity
          have hmem : ∀ x ∈ 38#8 :: e ++ [59#8], x ≠ 62#8 ∧ x ≠ 93#8 := by
            have hdig : ∀ base x, isDigit base x = true → x ≠ 62#8 ∧ x ≠ 93#8 := by
              intro base x hx
              constructor <;> (rintro rfl; simp [isDigit] at hx)
            intro x hx
            simp only [List.cons_append, List.mem_cons, List.mem_append, List.not_mem_nil, or_false] at hx
            rcases hx with rfl | hx | rfl
            · decide
            · cases hent with
              | lt => revert x; decide
              | gt => revert x; decide
              | amp => revert x; decide
              | apos => revert x; decide
              | quot => revert x; decide
              | decimal _ hd =>
                rcases List.mem_cons.mp hx with rfl | hx
                · decide
                · exact hdig _ _ (hd x hx)
              | hex _ hd =>
                rcases List.mem_cons.mp hx with rfl | hx
                · decide
                · rcases List.mem_cons.mp hx with rfl | hx
                  · decide
                  · exact hdig _ _ (hd x hx)
            · decide
          have hskip : ∀ (l : List Byte) (c0 c1 : Byte), (∀ x ∈ l, x ≠ 62#8 ∧ x ≠ 93#8) → l ≠ [] → ¬ lit "]]>" <:+: raw → ¬ lit "]]>" <:+: c0 :: c1 :: (l ++ raw) := by
            intro l
            induction l with
            | nil => intro _ _ _ h; exact absurd rfl h
            | cons x l ihl =>
              intro c0 c1 hl _ hr
              rw [List.cons_append, infix3, not_or]
              refine ⟨fun hh => (hl x (by simp)).1 hh.2.2, ?_⟩
              by_cases hle : l = []
              · subst hle
                rw [List.nil_append, List.infix_cons_iff, List.infix_cons_iff]
                rw [show lit "]]>" = [93#8, 93#8, 62#8] from rfl] at hr ⊢
                rintro (hh | hh | hh)
                · exact (hl x (by simp)).2 (by simp only [List.cons_prefix_cons] at hh; exact hh.2.1.symm)
                · exact (hl x (by simp)).2 (by simp only [List.cons_prefix_cons] at hh; exact hh.1.symm)
                · exact hr hh
              · exact ihl c1 x (fun y hy => hl y (by simp [hy])) hle hr
          have := hskip (38#8 :: e ++ [59#8]) b0 b1 hmem (by simp) h5'
          simpa using this
      rw [if_neg hamp] at h
      obtain ⟨p, hp, hpe⟩ := Option.map_eq_some_iff.mp h
      injection hpe with e1 e2
      subst e1 e2
      obtain ⟨raw, tail, h1, h2, h3, h4, h5⟩ := ih _ _ _ _ _ hp
      subst h1
      refine ⟨b :: raw, tail, rfl, h2, ?_, ?_, fun hq => ?_⟩
      · rintro rfl
        unfold newline
        by_cases h13 : b = 13#8
        · subst h13
          rw [if_pos rfl]
          exact .cr (by simp) (h3 rfl)
        · rw [if_neg h13]
          by_cases h10 : b = 10#8
          · subst h10
            rw [if_pos ⟨rfl, rfl⟩]
            exact .crlf (h4 h13)
          · rw [if_neg (by simp [h10])]
            exact .cr (by simpa using h10) (.byte hamp hlt h13 hqb (h4 h13))
      · intro hb1
        unfold newline
        by_cases h13 : b = 13#8
        · subst h13
          rw [if_pos rfl]
          exact h3 rfl
        · rw [if_neg h13, if_neg (by simp [hb1])]
          exact .byte hamp hlt h13 hqb (h4 h13)
      · rw [infix3, not_or]
        exact ⟨fun hh => hx ⟨hq, hh⟩, h5 hq⟩

theorem text_forward {q : Option Byte} (hq : ∀ b, q = some b → b = 34#8 ∨ b = 39#8) {raw t : List Byte} (h : TextBytes q raw t) :
    ∀ (n : Nat) (b0 b1 : Byte) (tail rest : List Byte), raw.length < n → (b1 = 13#8 → raw.head? ≠ some 10#8) →
      (q = none → ¬ lit "]]>" <:+: b0 :: b1 :: raw) → TextEnd q tail rest → textAux q false n b0 b1 (raw ++ tail) = some (t, rest) := by
  have hq13 : q ≠ some 13#8 := fun h => by rcases hq _ h with h | h <;> revert h <;> decide
  have hq10 : q ≠ some 10#8 := fun h => by rcases hq _ h with h | h <;> revert h <;> decide
  have hq38 : q ≠ some 38#8 := fun h => by rcases hq _ h with h | h <;> revert h <;> decide
  induction h with
  | nil =>
    intro n b0 b1 tail rest hn _ _ he
    obtain ⟨n, rfl⟩ : ∃ m, n = m + 1 := ⟨n - 1, by simp at hn; omega⟩
    cases he with
    | doc => simp [textAux]
    | tag => simp [textAux]
    | quote =>
      rename_i b _
      have := hq b rfl
      have hb : b ≠ 60#8 := by rintro rfl; revert this; decide
      simp [textAux, hb]
  | @byte b raw out ha hl h13 hqb _ ih =>
    intro n b0 b1 tail rest hn hb1 hin he
    obtain ⟨n, rfl⟩ : ∃ m, n = m + 1 := ⟨n - 1, by simp at hn; omega⟩
    rw [List.cons_append]
    have hx : ¬ (q = none ∧ b0 = 93#8 ∧ b1 = 93#8 ∧ b = 62#8) := fun hh => hin hh.1 (infix3.mpr (Or.inl hh.2))
    simp only [textAux, and_true]
    rw [if_neg hx, if_neg hl, if_neg hqb, if_neg ha]
    have hnl : newline b1 b = [b] := by
      unfold newline
      rw [if_neg h13, if_neg]
      rintro ⟨e1, rfl⟩
      exact hb1 e1 rfl
    rw [hnl, ih n b1 b tail rest (by simp at hn; omega) (fun e => absurd e h13) (fun e hh => hin e (infix3.mpr (Or.inr hh))) he]
    rfl
  | @crlf raw out _ ih =>
    intro n b0 b1 tail rest hn hb1 hin he
    obtain ⟨n, rfl⟩ : ∃ m, n = m + 2 := ⟨n - 2, by simp at hn; omega⟩
    rw [List.cons_append, List.cons_append]
    have hx : ¬ (q = none ∧ b0 = 93#8 ∧ b1 = 93#8 ∧ (13#8 : Byte) = 62#8) := fun hh => absurd hh.2.2.2 (by decide)
    have hx' : ¬ (q = none ∧ b1 = 93#8 ∧ (13#8 : Byte) = 93#8 ∧ (10#8 : Byte) = 62#8) := fun hh => absurd hh.2.2.2 (by decide)
    simp only [textAux, and_true]
    rw [if_neg hx, if_neg (by decide), if_neg hq13, if_neg (by decide), if_neg hx', if_neg (by decide), if_neg hq10, if_neg (by decide)]
    rw [ih n _ _ tail rest (by simp at hn; omega) (fun h => absurd h (by decide))
      (fun e hh => hin e (infix3.mpr (Or.inr (infix3.mpr (Or.inr hh))))) he]
    rfl
  | @cr raw out hh _ ih =>
    intro n b0 b1 tail rest hn hb1 hin he
    obtain ⟨n, rfl⟩ : ∃ m, n = m + 1 := ⟨n - 1, by simp at hn; omega⟩
    rw [List.cons_append]
    have hx : ¬ (q = none ∧ b0 = 93#8 ∧ b1 = 93#8 ∧ (13#8 : Byte) = 62#8) := fun hh => absurd hh.2.2.2 (by decide)
    simp only [textAux, and_true]
    rw [if_neg hx, if_neg (by decide), if_neg hq13, if_neg (by decide)]
    rw [ih n _ _ tail rest (by simp at hn; omega) (fun _ => hh) (fun e hh => hin e (infix3.mpr (Or.inr hh))) he]
    rfl
  | @entity e r raw out hent _ ih =>
    intro n b0 b1 tail rest hn hb1 hin he
    obtain ⟨n, rfl⟩ : ∃ m, n = m + 1 := ⟨n - 1, by simp at hn; omega⟩
    rw [show (38#8 :: e ++ 59#8 :: raw) ++ tail = 38#8 :: (e ++ 59#8 :: (raw ++ tail)) by simp]
    have hx : ¬ (q = none ∧ b0 = 93#8 ∧ b1 = 93#8 ∧ (38#8 : Byte) = 62#8) := fun hh => absurd hh.2.2.2 (by decide)
    simp only [textAux, and_true]
    rw [if_neg hx, if_neg (by decide), if_neg hq38, if_pos trivial, (entity_iff _ (raw ++ tail) r).mpr ⟨e, rfl, hent⟩]
    dsimp only
    rw [ih n _ _ tail rest (by simp at hn; omega) (fun h => absurd h (by decide)) ?_ he]
    · rfl
    · intro e1
      rw [infix_zero]
      intro hh
      exact hin e1 (hh.trans ⟨b0 :: b1 :: 38#8 :: e ++ [59#8], [], by simp⟩)

/-- Text outside quotes. -/
theorem readText_run (s t rest : List Byte) (hs : s ≠ []) (hne : s.head? ≠ some 60#8) : readText none false s = some (t, rest) ↔
    ∃ raw, s = raw ++ rest ∧ raw ≠ [] ∧ TextBytes none raw t ∧ Chars t ∧ ¬ lit "]]>" <:+: raw ∧ ∀ b, rest.head? = some b → b = 60#8 := by
  constructor
  · intro h
    unfold readText at h
    cases ha : textAux none false (s.length + 1) 0#8 0#8 s with
    | none => rw [ha] at h; cases h
    | some p =>
      obtain ⟨t', r⟩ := p
      rw [ha] at h
      simp only [Bool.false_eq_true, if_false] at h
      split_ifs at h with hc
      injection h with h
      injection h with h1 h2
      subst h1 h2
      obtain ⟨raw, tail, e1, e2, -, e4, e5⟩ := text_back none _ _ _ _ _ _ ha
      have e5 := mt infix_zero.mpr (e5 rfl)
      cases e2 with
      | doc =>
        rw [List.append_nil] at e1
        subst e1
        exact ⟨s, by simp, hs, e4 (by decide), (charsOk_iff _).mp hc, e5, by simp⟩
      | tag =>
        refine ⟨raw, e1, ?_, e4 (by decide), (charsOk_iff _).mp hc, e5, by simp⟩
        rintro rfl
        rw [e1] at hne
        exact hne rfl
  · rintro ⟨raw, rfl, h1, h2, h3, h4, h5⟩
    have he : TextEnd none rest rest := by
      cases rest with
      | nil => exact .doc
      | cons b r => have := h5 b rfl; subst this; exact .tag
    have := text_forward (by simp) h2 ((raw ++ rest).length + 1) 0#8 0#8 rest rest (by simp; omega) (fun h => absurd h (by decide))
      (fun _ => mt infix_zero.mp h4) he
    unfold readText
    rw [this]
    simp only [Bool.false_eq_true, if_false]
    rw [if_pos ((charsOk_iff t).mpr h3)]

/-- Text within quotes, when it is not all that is left. -/
theorem readText_quoted (b : Byte) (hb : b = 34#8 ∨ b = 39#8) (s t rest : List Byte) (hr : rest ≠ []) : readText (some b) false s = some (t, rest) ↔
    ∃ raw, s = raw ++ b :: rest ∧ TextBytes (some b) raw t ∧ Chars t := by
  constructor
  · intro h
    unfold readText at h
    cases ha : textAux (some b) false (s.length + 1) 0#8 0#8 s with
    | none => rw [ha] at h; cases h
    | some p =>
      obtain ⟨t', r⟩ := p
      rw [ha] at h
      simp only [Bool.false_eq_true, if_false] at h
      split_ifs at h with hc
      injection h with h
      injection h with h1 h2
      subst h1 h2
      obtain ⟨raw, tail, e1, e2, -, e4, -⟩ := text_back _ _ _ _ _ _ _ ha
      cases e2 with
      | doc => exact absurd rfl hr
      | quote => exact ⟨raw, e1, e4 (by decide), (charsOk_iff _).mp hc⟩
  · rintro ⟨raw, rfl, h1, h2⟩
    have := text_forward (by intro c hc; injection hc with hc; subst hc; exact hb) h1 ((raw ++ b :: rest).length + 1) 0#8 0#8 (b :: rest) rest
      (by simp; omega) (fun h => absurd h (by decide)) (by simp) .quote
    unfold readText
    rw [this]
    simp only [Bool.false_eq_true, if_false]
    rw [if_pos ((charsOk_iff t).mpr h2)]

/-! ### CDATA -/

theorem cdata_back : ∀ (n : Nat) (b0 b1 : Byte) (s t rest : List Byte), textAux none true n b0 b1 s = some (t, rest) →
    ∃ raw, s = raw ++ 62#8 :: rest ∧ (b1 = 13#8 → LineEnds (13#8 :: raw) (10#8 :: t)) ∧ (b1 ≠ 13#8 → LineEnds raw t) ∧
      ¬ lit "]]>" <:+: b0 :: b1 :: raw ∧ [93#8, 93#8] <:+ b0 :: b1 :: raw := by
  intro n
  induction n with
  | zero => intro b0 b1 s t rest h; cases h
  | succ n ih =>
    intro b0 b1 s t rest h
    cases s with
    | nil => simp [textAux] at h
    | cons b s =>
      have hf : ∀ c : Byte, ¬ (b = c ∧ true = false) := fun c hc => by cases hc.2
      rw [textAux_cons] at h
      by_cases hx : (none : Option Byte) = none ∧ b0 = 93#8 ∧ b1 = 93#8 ∧ b = 62#8
      · rw [if_pos hx] at h
        simp only [if_true] at h
        injection h with h
        injection h with h1 h2
        subst h1 h2
        obtain ⟨-, rfl, rfl, rfl⟩ := hx
        exact ⟨[], rfl, fun h => absurd h (by decide), fun _ => .nil, infix2, List.suffix_refl _⟩
      rw [if_neg hx, if_neg (hf _), if_neg (by simp), if_neg (hf _)] at h
      obtain ⟨p, hp, hpe⟩ := Option.map_eq_some_iff.mp h
      injection hpe with e1 e2
      subst e1 e2
      obtain ⟨raw, h1, h3, h4, h5, h6⟩ := ih _ _ _ _ _ hp
      subst h1
      refine ⟨b :: raw, rfl, ?_, ?_, ?_, h6.trans (List.suffix_cons _ _)⟩
      · rintro rfl
        unfold newline
        by_cases h13 : b = 13#8
        · subst h13
          rw [if_pos rfl]
          exact .cr (by simp) (h3 rfl)
        · rw [if_neg h13]
          by_cases h10 : b = 10#8
          · subst h10
            rw [if_pos ⟨rfl, rfl⟩]
            exact .crlf (h4 h13)
          · rw [if_neg (by simp [h10])]
            exact .cr (by simpa using h10) (.byte h13 (h4 h13))
      · intro hb1
        unfold newline
        by_cases h13 : b = 13#8
        · subst h13
          rw [if_pos rfl]
          exact h3 rfl
        · rw [if_neg h13, if_neg (by simp [hb1])]
          exact .byte h13 (h4 h13)
      · rw [infix3, not_or]
        exact ⟨fun hh => hx ⟨rfl, hh⟩, h5⟩

theorem cdata_forward {raw t : List Byte} (h : LineEnds raw t) : ∀ (n : Nat) (b0 b1 : Byte) (rest : List Byte), raw.length < n →
    (b1 = 13#8 → raw.head? ≠ some 10#8) → ¬ lit "]]>" <:+: b0 :: b1 :: raw → [93#8, 93#8] <:+ b0 :: b1 :: raw →
      textAux none true n b0 b1 (raw ++ 62#8 :: rest) = some (t, rest) := by
  have hf : ∀ b c : Byte, ¬ (b = c ∧ true = false) := fun b c hc => by cases hc.2
  have hsuf : ∀ {b0 b1 b : Byte} {raw : List Byte}, [93#8, 93#8] <:+ b0 :: b1 :: b :: raw → [93#8, 93#8] <:+ b1 :: b :: raw := by
    intro b0 b1 b raw h
    rcases List.suffix_cons_iff.mp h with h | h
    · have := congrArg List.length h; simp at this
    · exact h
  induction h with
  | nil =>
    intro n b0 b1 rest hn _ _ hs
    obtain ⟨n, rfl⟩ : ∃ m, n = m + 1 := ⟨n - 1, by simp at hn; omega⟩
    have : b0 = 93#8 ∧ b1 = 93#8 := by
      have := List.IsSuffix.eq_of_length hs (by simp)
      injection this with h1 h2
      injection h2 with h2 _
      exact ⟨h1.symm, h2.symm⟩
    simp [textAux, this]
  | @byte b raw out h13 _ ih =>
    intro n b0 b1 rest hn hb1 hin hs
    obtain ⟨n, rfl⟩ : ∃ m, n = m + 1 := ⟨n - 1, by simp at hn; omega⟩
    rw [List.cons_append]
    rw [textAux_cons]
    rw [if_neg (fun hh => hin (infix3.mpr (Or.inl hh.2))), if_neg (hf _ _), if_neg (by simp), if_neg (hf _ _)]
    have hnl : newline b1 b = [b] := by
      unfold newline
      rw [if_neg h13, if_neg]
      rintro ⟨e1, rfl⟩
      exact hb1 e1 rfl
    rw [hnl, ih n b1 b rest (by simp at hn; omega) (fun e => absurd e h13) (fun hh => hin (infix3.mpr (Or.inr hh))) (hsuf hs)]
    rfl
  | @crlf raw out _ ih =>
    intro n b0 b1 rest hn hb1 hin hs
    obtain ⟨n, rfl⟩ : ∃ m, n = m + 2 := ⟨n - 2, by simp at hn; omega⟩
    rw [List.cons_append, List.cons_append]
    rw [textAux_cons, textAux_cons]
    rw [if_neg (fun hh => absurd hh.2.2.2 (by decide)), if_neg (hf _ _), if_neg (by simp), if_neg (hf _ _),
      if_neg (fun hh => absurd hh.2.2.2 (by decide)), if_neg (hf _ _), if_neg (by simp), if_neg (hf _ _)]
    rw [ih n _ _ rest (by simp at hn; omega) (fun h => absurd h (by decide))
      (fun hh => hin (infix3.mpr (Or.inr (infix3.mpr (Or.inr hh))))) (hsuf (hsuf hs))]
    rfl
  | @cr raw out hh _ ih =>
    intro n b0 b1 rest hn hb1 hin hs
    obtain ⟨n, rfl⟩ : ∃ m, n = m + 1 := ⟨n - 1, by simp at hn; omega⟩
    rw [List.cons_append]
    rw [textAux_cons]
    rw [if_neg (fun hh => absurd hh.2.2.2 (by decide)), if_neg (hf _ _), if_neg (by simp), if_neg (hf _ _)]
    rw [ih n _ _ rest (by simp at hn; omega) (fun _ => hh) (fun hh => hin (infix3.mpr (Or.inr hh))) (hsuf hs)]
    rfl

theorem lineEnds_append {c out : Str} (h : LineEnds c out) : LineEnds (c ++ [93#8, 93#8]) (out ++ [93#8, 93#8]) := by
  induction h with
  | nil => exact .byte (by decide) (.byte (by decide) .nil)
  | byte h _ ih => exact .byte h ih
  | crlf _ ih => exact .crlf ih
  | @cr raw out h _ ih =>
    refine .cr ?_ ih
    cases raw with
    | nil => decide
    | cons b raw => exact h

theorem lineEnds_total (c : Str) : ∃ out, LineEnds c out := by
  induction hn : c.length using Nat.strongRecOn generalizing c with
  | ind n ih =>
    cases c with
    | nil => exact ⟨[], .nil⟩
    | cons b c =>
      obtain ⟨out, ho⟩ := ih c.length (by simp at hn; omega) c rfl
      by_cases h13 : b = 13#8
      · subst h13
        cases c with
        | nil => exact ⟨_, .cr (by simp) ho⟩
        | cons d c =>
          by_cases h10 : d = 10#8
          · subst h10
            obtain ⟨out', ho'⟩ := ih c.length (by simp at hn; omega) c rfl
            exact ⟨_, .crlf ho'⟩
          · exact ⟨_, .cr (by simpa using h10) ho⟩
      · exact ⟨_, .byte h13 ho⟩

theorem lineEnds_unique {c o1 o2 : Str} (h1 : LineEnds c o1) (h2 : LineEnds c o2) : o1 = o2 := by
  induction h1 generalizing o2 with
  | nil => cases h2; rfl
  | byte h _ ih =>
    cases h2 with
    | byte _ h2 => rw [ih h2]
    | crlf => exact absurd rfl h
    | cr => exact absurd rfl h
  | crlf _ ih =>
    cases h2 with
    | byte h => exact absurd rfl h
    | crlf h2 => rw [ih h2]
    | cr h => exact absurd rfl h
  | cr h _ ih =>
    cases h2 with
    | byte h => exact absurd rfl h
    | crlf => exact absurd rfl h
    | cr _ h2 => rw [ih h2]

theorem readText_cdata (s rest : List Byte) : (readText none true s).map Prod.snd = some rest ↔
    ∃ c out, s = c ++ (lit "]]>" ++ rest) ∧ ¬ lit "]]>" <:+: c ∧ LineEnds c out ∧ Chars out := by
  have hcut : ∀ out : Str, (out ++ [93#8, 93#8]).dropLast.dropLast = out := by
    intro out
    rw [show out ++ [93#8, 93#8] = (out ++ [93#8]) ++ [93#8] by simp, List.dropLast_concat, List.dropLast_concat]
  constructor
  · intro h
    obtain ⟨p, hp, rfl⟩ := Option.map_eq_some_iff.mp h
    unfold readText at hp
    cases ha : textAux none true (s.length + 1) 0#8 0#8 s with
    | none => rw [ha] at hp; cases hp
    | some p' =>
      obtain ⟨t', r⟩ := p'
      rw [ha] at hp
      simp only [if_true] at hp
      split_ifs at hp with hc
      injection hp with hp
      subst hp
      obtain ⟨raw, e1, -, e3, e4, e5⟩ := cdata_back _ _ _ _ _ _ ha
      have e3 := e3 (by decide)
      have e4 := mt infix_zero.mpr e4
      have e6 : [93#8, 93#8] <:+ raw := by
        rcases List.suffix_cons_iff.mp e5 with h | h
        · injection h with h; exact absurd h (by decide)
        · rcases List.suffix_cons_iff.mp h with h | h
          · injection h with h; exact absurd h (by decide)
          · exact h
      obtain ⟨c, rfl⟩ := e6
      obtain ⟨out, ho⟩ := lineEnds_total c
      have := lineEnds_unique e3 (lineEnds_append ho)
      subst this
      rw [hcut] at hc
      refine ⟨c, out, ?_, fun hh => e4 (hh.trans ⟨[], [93#8, 93#8], by simp⟩), ho, (charsOk_iff _).mp hc⟩
      rw [e1, show lit "]]>" = [93#8, 93#8, 62#8] from rfl]
      simp
  · rintro ⟨c, out, rfl, h1, h2, h3⟩
    have hin : ¬ lit "]]>" <:+: c ++ [93#8, 93#8] := by
      rintro ⟨a, b, he⟩
      -- the last byte of the pattern is no bracket, so the pattern lies within c
      rcases List.eq_nil_or_concat b with rfl | ⟨b', x, rfl⟩
      · have := congrArg List.getLast? he
        simp [lit] at this
      · rcases List.eq_nil_or_concat b' with rfl | ⟨b'', y, rfl⟩
        · have := congrArg List.dropLast he
          rw [show c ++ [93#8, 93#8] = (c ++ [93#8]) ++ [93#8] by simp] at this
          rw [List.concat_eq_append, ← List.append_assoc, List.dropLast_concat, List.dropLast_concat] at this
          have := congrArg List.getLast? this
          simp [lit] at this
        · apply h1
          refine ⟨a, b'', ?_⟩
          rw [show c ++ [93#8, 93#8] = (c ++ [93#8]) ++ [93#8] by simp, List.concat_eq_append, List.concat_eq_append] at he
          rw [← List.append_assoc, ← List.append_assoc] at he
          have h := congrArg List.dropLast he
          rw [List.dropLast_concat, List.dropLast_concat] at h
          have h := congrArg List.dropLast h
          rw [List.dropLast_concat, List.dropLast_concat] at h
          exact h
    have := cdata_forward (lineEnds_append h2) ((c ++ (lit "]]>" ++ rest)).length + 1) 0#8 0#8 rest (by simp [lit]; omega)
      (fun h => absurd h (by decide)) (mt infix_zero.mp hin) ⟨0#8 :: 0#8 :: c, by simp⟩
    rw [show (c ++ [93#8, 93#8]) ++ 62#8 :: rest = c ++ (lit "]]>" ++ rest) by simp [lit]] at this
    unfold readText
    rw [this]
    simp only [if_true, hcut]
    rw [if_pos ((charsOk_iff out).mpr h3)]
    rfl

end Verif.Xml
