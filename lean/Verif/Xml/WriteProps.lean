import Mathlib.Data.List.Forall2
import Verif.Xml.DecodeProps

/-!
# C120: writing elements

How elements can be written, so that documents can be given by their content. This is a specification: the code writes none.
-/

namespace Verif.Xml

open Verif.Expr (lit)

instance (s : Str) : Decidable (Blank s) := inferInstanceAs (Decidable (∀ b ∈ s, _))

/-- A value within quotes, characters that cannot stand there escaped. -/
def inQuotes (s : Str) : Str :=
  s.flatMap fun b => if b = 38#8 then lit "&amp;" else if b = 60#8 then lit "&lt;" else if b = 62#8 then lit "&gt;" else
    if b = 34#8 then lit "&quot;" else if b = 13#8 then lit "&#13;" else [b]

/-- Attributes, each after a blank. -/
def attrsOf (as : List (Str × Str)) : Str := as.flatMap fun a => 32#8 :: (a.1 ++ 61#8 :: 34#8 :: (inQuotes a.2 ++ [34#8]))

/-- An element with tags around its content. -/
def tag (n : Str) (as : List (Str × Str)) (body : Str) : Str :=
  60#8 :: (n ++ (attrsOf as ++ ([] ++ 62#8 :: (body ++ (lit "</" ++ (n ++ ([] ++ lit ">")))))))

/-- An element without content. -/
def emptyTag (n : Str) (as : List (Str × Str)) : Str := 60#8 :: (n ++ (attrsOf as ++ (lit " " ++ lit "/>")))

/-- Elements with the same blanks before each and after the last. -/
def spaced (ws : Str) (es : List Str) : Str := es.flatMap (fun e => ws ++ e) ++ ws

theorem quoted_text (s : Str) : TextBytes (some 34#8) (inQuotes s) s := by
  unfold inQuotes
  induction s with
  | nil => exact .nil
  | cons b s ih =>
    rw [List.flatMap_cons]
    by_cases h1 : b = 38#8
    · rw [if_pos h1]
      subst h1
      exact TextBytes.entity (q := some 34#8) EntityText.amp ih
    rw [if_neg h1]
    by_cases h2 : b = 60#8
    · rw [if_pos h2]
      subst h2
      exact TextBytes.entity (q := some 34#8) EntityText.lt ih
    rw [if_neg h2]
    by_cases h3 : b = 62#8
    · rw [if_pos h3]
      subst h3
      exact TextBytes.entity (q := some 34#8) EntityText.gt ih
    rw [if_neg h3]
    by_cases h4 : b = 34#8
    · rw [if_pos h4]
      subst h4
      exact TextBytes.entity (q := some 34#8) EntityText.quot ih
    rw [if_neg h4]
    by_cases h5 : b = 13#8
    · rw [if_pos h5]
      subst h5
      exact TextBytes.entity (q := some 34#8) (EntityText.decimal (ds := lit "13") (by decide) (by decide) (by decide)) ih
    rw [if_neg h5]
    exact .byte h1 h2 h5 (by intro h; injection h with h; exact h4 h.symm) ih

/-- A written attribute stands for a name and a value. -/
def Attr (T : NameLib) (a : Str × Str) (q : QName × Str) : Prop := QNameText T a.1 q.1 ∧ a.2 = q.2 ∧ Chars a.2

theorem attrs_text {T : NameLib} {as : List (Str × Str)} {qs : List (QName × Str)} (h : List.Forall₂ (Attr T) as qs) : AttrsText T (attrsOf as) qs := by
  unfold attrsOf
  induction h with
  | nil => exact .nil
  | @cons a q as qs h _ ih =>
    obtain ⟨k, v⟩ := a
    obtain ⟨q, w⟩ := q
    obtain ⟨h1, h2, h3⟩ := h
    dsimp only at h1 h2 h3
    subst h2
    have := AttrsText.cons (T := T) (sp := lit " ") (s1 := []) (s2 := []) (b := 34#8) (by decide) h1 (by decide) (by decide) (Or.inl rfl) (quoted_text v) h3 ih
    rw [List.flatMap_cons]
    convert this using 1
    simp [lit]

theorem attrsOf_head (as : List (Str × Str)) (sp : Str) (hs : Blank sp) : ∀ b, (attrsOf as ++ sp).head? = some b → inName b = false := by
  intro b hb
  cases as with
  | nil => exact blank_ends (rest := []) hs (by simp) b (by rw [List.append_nil]; exact hb)
  | cons a as =>
    have : b = 32#8 := by simpa [attrsOf] using hb.symm
    subst this
    decide

theorem tag_element {T : NameLib} {scope : Scope} {n body : Str} {q : QName} {as : List (Str × Str)} {qs : List (QName × Str)} {cs : List Tree}
    (hn : QNameText T n q) (ha : List.Forall₂ (Attr T) as qs) (hb : Content T (qs.reverse ++ scope) body cs) :
    Element T scope (tag n as body) (nodeIn (qs.reverse ++ scope) q qs body cs) :=
  .full hn (attrs_text ha) (by decide) (attrsOf_head as [] (by decide)) hb (by decide)

theorem emptyTag_element {T : NameLib} {scope : Scope} {n : Str} {q : QName} {as : List (Str × Str)} {qs : List (QName × Str)}
    (hn : QNameText T n q) (ha : List.Forall₂ (Attr T) as qs) : Element T scope (emptyTag n as) (nodeIn (qs.reverse ++ scope) q qs [] []) :=
  .empty hn (attrs_text ha) (by decide) (attrsOf_head as _ (by decide))

/-! ### Text -/

theorem ascii_chars (s : Str) (h : ∀ b ∈ s, b.toNat < 128 ∧ (b = 9#8 ∨ b = 10#8 ∨ b = 13#8 ∨ 32 ≤ b.toNat)) : Chars s := by
  refine ⟨s.map BitVec.toNat, ?_, ?_⟩
  · unfold Utf8.text
    induction s with
    | nil => rfl
    | cons b s ih =>
      rw [List.map_cons, List.flatMap_cons, ← ih (fun x hx => h x (by simp [hx]))]
      have hb := (h b (by simp)).1
      have : Utf8.encode b.toNat = [b] := by
        unfold Utf8.encode
        rw [if_pos (by omega)]
        unfold Utf8.byte
        simp
      rw [this]
      rfl
  · intro r hr
    obtain ⟨b, hb, rfl⟩ := List.mem_map.mp hr
    obtain ⟨h1, h2⟩ := h b hb
    refine ⟨Or.inl (by omega), ?_, by omega, by omega⟩
    rcases h2 with rfl | rfl | rfl | h2
    · exact Or.inl rfl
    · exact Or.inr (Or.inl rfl)
    · exact Or.inr (Or.inr (Or.inl rfl))
    · exact Or.inr (Or.inr (Or.inr h2))

theorem blank_chars {s : Str} (h : Blank s) : Chars s := by
  refine ascii_chars s fun b hb => ?_
  rcases h b hb with rfl | rfl | rfl | rfl <;> decide

/-- A byte below 128 in the code of a character is that character. -/
theorem encode_low {r : Nat} {b : Byte} (hv : Utf8.Valid r) (h : b ∈ Utf8.encode r) (hb : b.toNat < 128) : Utf8.encode r = [b] ∧ r = b.toNat := by
  unfold Utf8.encode at h ⊢
  split at h
  · rename_i hr
    rw [if_pos hr]
    have : b = Utf8.byte r := by simpa using h
    subst this
    exact ⟨rfl, by rw [Utf8.byte_toNat (by omega)]⟩
  · exfalso
    have key : ∀ n, b = Utf8.byte n → 128 ≤ n → n < 256 → False := by
      intro n e h1 h2
      rw [e, Utf8.byte_toNat h2] at hb
      omega
    have hr : r < 0x110000 := by rcases hv with hv | hv <;> omega
    split_ifs at h
    · simp only [List.mem_cons, List.not_mem_nil, or_false] at h
      rcases h with h | h <;> exact key _ h (by omega) (by omega)
    · simp only [List.mem_cons, List.not_mem_nil, or_false] at h
      rcases h with h | h | h <;> exact key _ h (by omega) (by omega)
    · simp only [List.mem_cons, List.not_mem_nil, or_false] at h
      rcases h with h | h | h | h <;> exact key _ h (by omega) (by omega)

theorem lines_prefix {a c out : Str} (ha : 13#8 ∉ a) (h : LineEnds c out) : LineEnds (a ++ c) (a ++ out) := by
  induction a with
  | nil => exact h
  | cons b a ih =>
    simp only [List.mem_cons, not_or] at ha
    exact .byte (Ne.symm ha.1) (ih ha.2)

theorem chars_cons {r : Nat} {rs : List Nat} (h : ∀ x ∈ r :: rs, Utf8.Valid x ∧ (x = 9 ∨ x = 10 ∨ x = 13 ∨ 32 ≤ x) ∧ x ≠ 0xFFFE ∧ x ≠ 0xFFFF) {out : Str}
    (ho : Chars out) : Chars (Utf8.encode r ++ out) := by
  obtain ⟨os, rfl, ho⟩ := ho
  exact ⟨r :: os, by rw [Utf8.text_cons], fun x hx => by
    rcases List.mem_cons.mp hx with rfl | hx
    · exact h x (by simp)
    · exact ho x hx⟩

/-- Text with its line ends as `\n` is still made of allowed characters. -/
theorem lines_chars : ∀ (n : Nat) (rs : List Nat), rs.length ≤ n → (∀ r ∈ rs, Utf8.Valid r ∧ (r = 9 ∨ r = 10 ∨ r = 13 ∨ 32 ≤ r) ∧ r ≠ 0xFFFE ∧ r ≠ 0xFFFF) →
    ∃ out, LineEnds (Utf8.text rs) out ∧ Chars out := by
  have h10 : ∀ x ∈ [10], Utf8.Valid x ∧ (x = 9 ∨ x = 10 ∨ x = 13 ∨ 32 ≤ x) ∧ x ≠ 0xFFFE ∧ x ≠ 0xFFFF := by
    intro x hx
    rw [List.mem_singleton] at hx
    subst hx
    exact ⟨Or.inl (by omega), by omega, by omega, by omega⟩
  intro n
  induction n with
  | zero =>
    intro rs hl _
    have : rs = [] := List.length_eq_zero_iff.mp (by omega)
    subst this
    exact ⟨[], .nil, [], rfl, by simp⟩
  | succ n ih =>
    intro rs hl h
    cases rs with
    | nil => exact ⟨[], .nil, [], rfl, by simp⟩
    | cons r rs =>
      rw [Utf8.text_cons]
      by_cases h13 : r = 13
      · subst h13
        rw [show Utf8.encode 13 = [13#8] from rfl]
        cases rs with
        | nil => exact ⟨[10#8], .cr (by decide) .nil, chars_cons h10 ⟨[], rfl, by simp⟩⟩
        | cons r2 rs =>
          by_cases h10' : r2 = 10
          · subst h10'
            obtain ⟨out, h1, h2⟩ := ih rs (by simp at hl; omega) (fun x hx => h x (by simp [hx]))
            exact ⟨10#8 :: out, by rw [Utf8.text_cons]; exact .crlf h1, chars_cons h10 h2⟩
          · obtain ⟨out, h1, h2⟩ := ih (r2 :: rs) (by simp at hl ⊢; omega) (fun x hx => h x (by simp at hx ⊢; right; exact hx))
            refine ⟨10#8 :: out, .cr ?_ h1, chars_cons h10 h2⟩
            show (Utf8.text (r2 :: rs)).head? ≠ some 10#8
            rw [Utf8.text_cons, head_append (Utf8.encode_ne_nil r2)]
            intro e
            have := (encode_low (h r2 (by simp)).1 (List.mem_of_mem_head? e) (by decide)).2
            exact h10' this
      · obtain ⟨out, h1, h2⟩ := ih rs (by simp at hl; omega) (fun x hx => h x (by simp [hx]))
        refine ⟨Utf8.encode r ++ out, lines_prefix ?_ h1, chars_cons h h2⟩
        intro hm
        exact h13 (encode_low (h r (by simp)).1 hm (by decide)).2

theorem plain_bytes {s out : Str} (h : LineEnds s out) (h1 : 38#8 ∉ s) (h2 : 60#8 ∉ s) : TextBytes none s out := by
  induction h with
  | nil => exact .nil
  | byte hb _ ih =>
    simp only [List.mem_cons, not_or] at h1 h2
    exact .byte (Ne.symm h1.1) (Ne.symm h2.1) hb (by simp) (ih h1.2 h2.2)
  | crlf _ ih =>
    simp only [List.mem_cons, not_or] at h1 h2
    exact .crlf (ih h1.2.2 h2.2.2)
  | cr hh _ ih =>
    simp only [List.mem_cons, not_or] at h1 h2
    exact .cr hh (ih h1.2 h2.2)

/-- Text without `&`, `<` and `>` can stand as it is. -/
theorem plain_run {s : Str} (h0 : s ≠ []) (hc : Chars s) (h1 : 38#8 ∉ s) (h2 : 60#8 ∉ s) (h3 : 62#8 ∉ s) : TextRun s := by
  obtain ⟨rs, rfl, hr⟩ := hc
  obtain ⟨out, ho, hch⟩ := lines_chars _ rs (Nat.le_refl _) hr
  refine ⟨h0, ?_, out, plain_bytes ho h1 h2, hch⟩
  rintro ⟨a, b, e⟩
  apply h3
  rw [← e]
  simp [lit]

theorem blank_run {s : Str} (h0 : s ≠ []) (h : Blank s) : TextRun s := by
  have hno : ∀ b : Byte, (b ≠ 32#8 ∧ b ≠ 9#8 ∧ b ≠ 10#8 ∧ b ≠ 13#8) → b ∉ s := by
    intro b hb hm
    rcases h b hm with e | e | e | e
    · exact hb.1 e
    · exact hb.2.1 e
    · exact hb.2.2.1 e
    · exact hb.2.2.2 e
  exact plain_run h0 (blank_chars h) (hno _ (by decide)) (hno _ (by decide)) (hno _ (by decide))

theorem plain_content (T : NameLib) (scope : Scope) {s : Str} (hc : Chars s) (h1 : 38#8 ∉ s) (h2 : 60#8 ∉ s) (h3 : 62#8 ∉ s) : Content T scope s [] := by
  by_cases h0 : s = []
  · subst h0; exact .nil
  · have := Content.text (T := T) (scope := scope) (plain_run h0 hc h1 h2 h3) (rest := []) (by simp) .nil
    rwa [List.append_nil] at this

theorem blank_content (T : NameLib) (scope : Scope) {ws : Str} (h : Blank ws) : Content T scope ws [] := by
  by_cases h0 : ws = []
  · subst h0; exact .nil
  · have := Content.text (T := T) (scope := scope) (blank_run h0 h) (rest := []) (by simp) .nil
    rwa [List.append_nil] at this

/-- Elements with blanks between them. -/
theorem spaced_content {T : NameLib} {scope : Scope} {ws : Str} (hw : Blank ws) {es : List Str} {ts : List Tree} (h : List.Forall₂ (Element T scope) es ts) :
    Content T scope (spaced ws es) ts := by
  unfold spaced
  induction h with
  | nil => exact blank_content T scope hw
  | @cons e t es ts h1 _ ih =>
    have hin : Content T scope (e ++ (es.flatMap (fun e => ws ++ e) ++ ws)) (t :: ts) := .element h1 ih
    rw [List.flatMap_cons, List.append_assoc, List.append_assoc]
    by_cases h0 : ws = []
    · subst h0
      exact hin
    · refine .text (blank_run h0 hw) ?_ hin
      obtain ⟨s, rfl⟩ := h1.start
      intro b hb
      simpa using hb.symm

/-! ### Name spaces of what is written -/

/-- Attributes that declare no name space. -/
def Undeclaring (qs : List (QName × Str)) : Prop := ∀ a ∈ qs, a.1.1 ≠ xmlns ∧ a.1 ≠ ([], xmlns)

theorem declared_undeclaring {qs : List (QName × Str)} (h : Undeclaring qs) (scope : Scope) : declared (qs ++ scope) = declared scope := by
  induction qs with
  | nil => rfl
  | cons a qs ih =>
    rw [List.cons_append, declared_cons, if_neg (h a (by simp)).1, if_neg (h a (by simp)).2, ih (fun x hx => h x (by simp [hx]))]

theorem declared_inside {qs : List (QName × Str)} (h : Undeclaring qs) (scope : Scope) : declared (qs.reverse ++ scope) = declared scope :=
  declared_undeclaring (fun a ha => h a (List.mem_reverse.mp ha)) scope

end Verif.Xml
