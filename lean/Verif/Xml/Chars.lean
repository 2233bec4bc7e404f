import Verif.Xml.Grammar

/-!
# C120: characters, names and entities
-/

namespace Verif

namespace Utf8

theorem byte_eq {n : Nat} {b : Byte} (h : n = b.toNat) : byte n = b := by
  subst h
  simp [byte]

/-- What decodes without error is the encoding of a scalar value. -/
theorem encode_decode {s : List Byte} (hs : s ≠ []) (h : ¬ ((decode s).1 = runeError ∧ (decode s).2 = 1)) :
    Valid (decode s).1 ∧ s = encode (decode s).1 ++ s.drop (decode s).2 := by
  cases s with
  | nil => exact absurd rfl hs
  | cons b0 s =>
    have l0 := b0.isLt
    revert h
    unfold decode
    dsimp only
    by_cases h0 : b0.toNat < 0x80
    · rw [if_pos h0]
      intro _
      refine ⟨Or.inl (by dsimp only; omega), ?_⟩
      show _ = encode b0.toNat ++ s
      unfold encode
      rw [if_pos h0, byte_eq rfl]
      rfl
    rw [if_neg h0]
    by_cases h1 : b0.toNat < 0xC2 ∨ 0xF4 < b0.toNat
    · rw [if_pos h1]
      intro h; exact absurd ⟨rfl, rfl⟩ h
    rw [if_neg h1]
    cases s with
    | nil => intro h; exact absurd ⟨rfl, rfl⟩ h
    | cons b1 s =>
      have l1 := b1.isLt
      dsimp only
      by_cases h2 : b1.toNat < (accept b0.toNat).1 ∨ (accept b0.toNat).2 < b1.toNat
      · rw [if_pos h2]
        intro h; exact absurd ⟨rfl, rfl⟩ h
      rw [if_neg h2]
      have ha : 0x80 ≤ (accept b0.toNat).1 ∧ (accept b0.toNat).2 ≤ 0xBF := by
        unfold accept; split_ifs <;> simp
      by_cases h3 : b0.toNat < 0xE0
      · rw [if_pos h3]
        intro _
        dsimp only
        have hv : (b0.toNat - 0xC0) * 64 + (b1.toNat - 0x80) < 0x800 := by omega
        refine ⟨Or.inl (by omega), ?_⟩
        unfold encode
        rw [if_neg (by omega), if_pos hv]
        rw [byte_eq (b := b0) (by omega), byte_eq (b := b1) (by omega)]
        rfl
      rw [if_neg h3]
      cases s with
      | nil => intro h; exact absurd ⟨rfl, rfl⟩ h
      | cons b2 s =>
        dsimp only
        by_cases h4 : isCont b2 = true
        · simp only [h4, Bool.not_true, Bool.false_eq_true, if_false]
          have l2 : 0x80 ≤ b2.toNat ∧ b2.toNat ≤ 0xBF := by simpa [isCont] using h4
          by_cases h5 : b0.toNat < 0xF0
          · rw [if_pos h5]
            intro _
            dsimp only
            have hr : 0x800 ≤ (b0.toNat - 0xE0) * 4096 + (b1.toNat - 0x80) * 64 + (b2.toNat - 0x80) := by
              unfold accept at h2; split_ifs at h2 <;> simp at h2 <;> omega
            have hv : Valid ((b0.toNat - 0xE0) * 4096 + (b1.toNat - 0x80) * 64 + (b2.toNat - 0x80)) := by
              unfold Valid
              unfold accept at h2; split_ifs at h2 <;> simp at h2 <;> omega
            refine ⟨hv, ?_⟩
            unfold encode
            rw [if_neg (by omega), if_neg (by omega), if_neg (not_not.mpr hv), if_pos (by omega)]
            rw [byte_eq (b := b0) (by omega), byte_eq (b := b1) (by omega), byte_eq (b := b2) (by omega)]
            rfl
          · rw [if_neg h5]
            cases s with
            | nil => intro h; exact absurd ⟨rfl, rfl⟩ h
            | cons b3 s =>
              dsimp only
              by_cases h6 : isCont b3 = true
              · simp only [h6, Bool.not_true, Bool.false_eq_true, if_false]
                have l3 : 0x80 ≤ b3.toNat ∧ b3.toNat ≤ 0xBF := by simpa [isCont] using h6
                intro _
                have hr : 0x10000 ≤ (b0.toNat - 0xF0) * 262144 + (b1.toNat - 0x80) * 4096 + (b2.toNat - 0x80) * 64 + (b3.toNat - 0x80) := by
                  unfold accept at h2; split_ifs at h2 <;> simp at h2 <;> omega
                have hv : Valid ((b0.toNat - 0xF0) * 262144 + (b1.toNat - 0x80) * 4096 + (b2.toNat - 0x80) * 64 + (b3.toNat - 0x80)) := by
                  unfold Valid
                  unfold accept at h2; split_ifs at h2 <;> simp at h2 <;> omega
                refine ⟨hv, ?_⟩
                unfold encode
                rw [if_neg (by omega), if_neg (by omega), if_neg (not_not.mpr hv), if_neg (by omega)]
                rw [byte_eq (b := b0) (by omega), byte_eq (b := b1) (by omega), byte_eq (b := b2) (by omega), byte_eq (b := b3) (by omega)]
                rfl
              · simp only [h6, Bool.not_false, if_true]
                intro h; exact absurd ⟨trivial, trivial⟩ h
        · simp only [h4, Bool.not_false, if_true]
          intro h; exact absurd ⟨trivial, trivial⟩ h

theorem runesAux_back : ∀ (n : Nat) (s : List Byte), s.length ≤ n → (∀ r ∈ runesAux n s, r ≠ runeError) →
    s = text (runesAux n s) ∧ ∀ r ∈ runesAux n s, Valid r := by
  intro n
  induction n with
  | zero =>
    intro s hs _
    have : s = [] := List.length_eq_zero_iff.mp (by omega)
    subst this
    exact ⟨rfl, by simp [runesAux]⟩
  | succ n ih =>
    intro s hs h
    by_cases he : s = []
    · subst he; exact ⟨rfl, by simp [runesAux]⟩
    have hr : runesAux (n + 1) s = (decode s).1 :: runesAux n (s.drop (decode s).2) := by
      rw [runesAux, if_neg he]
    rw [hr] at h ⊢
    obtain ⟨hv, hd⟩ := encode_decode he (fun hh => h _ (by simp) hh.1)
    have hw := (decode_width he).1
    obtain ⟨h1, h2⟩ := ih (s.drop (decode s).2) (by rw [List.length_drop]; omega) (fun r hm => h r (by simp [hm]))
    constructor
    · rw [text_cons, ← h1]; exact hd
    · intro r hm
      rcases List.mem_cons.mp hm with rfl | hm
      · exact hv
      · exact h2 r hm

/-- A text without runes that stand for errors is the text of its runes. -/
theorem runes_back {s : List Byte} (h : ∀ r ∈ runes s, r ≠ runeError) : s = text (runes s) ∧ ∀ r ∈ runes s, Valid r :=
  runesAux_back s.length s (Nat.le_refl _) h

end Utf8

namespace Xml

open Verif.Expr (lit)

theorem expectByte_iff {b : Byte} {s r : List Byte} : expectByte b s = some r ↔ s = b :: r := by
  cases s with
  | nil => simp [expectByte]
  | cons c s =>
    simp only [expectByte]
    by_cases h : c = b
    · rw [if_pos h]; simp [h]
    · rw [if_neg h]; simp [h]

theorem expectByte_none {b : Byte} {s : List Byte} : expectByte b s = none ↔ s.head? ≠ some b := by
  cases s with
  | nil => simp [expectByte]
  | cons c s =>
    simp only [expectByte]
    by_cases h : c = b
    · rw [if_pos h]; simp [h]
    · rw [if_neg h]; simp [h]

/-! ### Reading while -/

theorem while_append {p : Byte → Bool} {a rest : List Byte} (ha : ∀ b ∈ a, p b = true) (hr : ∀ b, rest.head? = some b → p b = false) :
    (a ++ rest).takeWhile p = a ∧ (a ++ rest).dropWhile p = rest := by
  induction a with
  | nil =>
    cases rest with
    | nil => simp
    | cons b r =>
      have := hr b rfl
      simp [this]
  | cons b a ih =>
    have hb := ha b (by simp)
    have := ih (fun x hx => ha x (by simp [hx]))
    simp [hb, this]

theorem dropWhile_head {p : Byte → Bool} {s : List Byte} {b : Byte} (h : (s.dropWhile p).head? = some b) : p b = false := by
  induction s with
  | nil => simp at h
  | cons c s ih =>
    by_cases hc : p c
    · rw [List.dropWhile_cons_of_pos hc] at h; exact ih h
    · rw [List.dropWhile_cons_of_neg hc] at h
      simp at h; subst h; simpa using hc

theorem takeWhile_mem {p : Byte → Bool} {s : List Byte} {b : Byte} (h : b ∈ s.takeWhile p) : p b = true := by
  induction s with
  | nil => simp at h
  | cons c s ih =>
    by_cases hc : p c
    · rw [List.takeWhile_cons_of_pos hc] at h
      rcases List.mem_cons.mp h with rfl | h
      · exact hc
      · exact ih h
    · rw [List.takeWhile_cons_of_neg hc] at h; cases h

theorem isSpaceByte_iff (b : Byte) : isSpaceByte b = true ↔ b = 32#8 ∨ b = 9#8 ∨ b = 10#8 ∨ b = 13#8 := by
  unfold isSpaceByte
  simp only [Bool.or_eq_true, beq_iff_eq]
  tauto

theorem head_append {a b : Str} (h : a ≠ []) : (a ++ b).head? = a.head? := by
  cases a with
  | nil => exact absurd rfl h
  | cons => rfl

theorem blank_iff (s : Str) : Blank s ↔ ∀ b ∈ s, isSpaceByte b = true := by
  unfold Blank
  exact forall₂_congr fun b _ => (isSpaceByte_iff b).symm

/-- Blanks are skipped, up to what is none. -/
theorem skipSpace_append {sp rest : Str} (h : Blank sp) (hr : ∀ b, rest.head? = some b → isSpaceByte b = false) : skipSpace (sp ++ rest) = rest :=
  (while_append ((blank_iff sp).mp h) hr).2

theorem skipSpace_split (s : Str) : ∃ sp, Blank sp ∧ s = sp ++ skipSpace s ∧ ∀ b, (skipSpace s).head? = some b → isSpaceByte b = false :=
  ⟨s.takeWhile isSpaceByte, (blank_iff _).mpr fun _ h => takeWhile_mem h, (List.takeWhile_append_dropWhile).symm, fun _ h => dropWhile_head h⟩

/-! ### Characters -/

theorem inRange_iff {r : Nat} (h : Utf8.Valid r) : inRange r = true ↔ (r = 9 ∨ r = 10 ∨ r = 13 ∨ 32 ≤ r) ∧ r ≠ 0xFFFE ∧ r ≠ 0xFFFF := by
  unfold Utf8.Valid at h
  unfold inRange
  simp only [Bool.or_eq_true, Bool.and_eq_true, beq_iff_eq, decide_eq_true_eq]
  omega

theorem charsAux_iff : ∀ (n : Nat) (s : List Byte), s.length ≤ n → (charsAux n s = true ↔ Chars s) := by
  intro n
  induction n with
  | zero =>
    intro s hs
    have : s = [] := List.length_eq_zero_iff.mp (by omega)
    subst this
    exact ⟨fun _ => ⟨[], rfl, by simp⟩, fun _ => rfl⟩
  | succ n ih =>
    intro s hs
    by_cases he : s = []
    · subst he
      exact ⟨fun _ => ⟨[], rfl, by simp⟩, fun _ => rfl⟩
    have hemp : s.isEmpty = false := by cases s <;> simp_all
    unfold charsAux
    rw [hemp, Bool.false_or, Bool.and_eq_true, Bool.and_eq_true, Bool.not_eq_true', Bool.and_eq_false_iff]
    have hw := (Utf8.decode_width he).1
    rw [ih _ (by rw [List.length_drop]; omega)]
    constructor
    · rintro ⟨⟨h1, h2⟩, rs, h3, h4⟩
      obtain ⟨hv, hd⟩ := Utf8.encode_decode he (by
        rintro ⟨a, b⟩
        rcases h1 with h1 | h1
        · simp [a] at h1
        · simp [b] at h1)
      refine ⟨(Utf8.decode s).1 :: rs, ?_, ?_⟩
      · rw [Utf8.text_cons, ← h3]; exact hd
      · intro r hr
        rcases List.mem_cons.mp hr with rfl | hr
        · exact ⟨hv, (inRange_iff hv).mp h2⟩
        · exact h4 r hr
    · rintro ⟨rs, h1, h2⟩
      cases rs with
      | nil => exact absurd h1 he
      | cons r rs =>
        have hr := h2 r (by simp)
        rw [Utf8.text_cons] at h1
        have hd := Utf8.decode_encode hr.1 (Utf8.text rs)
        rw [← h1] at hd
        rw [hd]
        refine ⟨⟨?_, (inRange_iff hr.1).mpr hr.2⟩, rs, ?_, fun x hx => h2 x (by simp [hx])⟩
        · by_cases h : r = Utf8.runeError
          · right; subst h; decide
          · left; simpa using h
        · rw [h1, List.drop_left]

theorem charsOk_iff (s : List Byte) : charsOk s = true ↔ Chars s := charsAux_iff _ _ (Nat.le_refl _)

theorem Chars.append {a b : Str} (ha : Chars a) (hb : Chars b) : Chars (a ++ b) := by
  obtain ⟨ra, rfl, h1⟩ := ha
  obtain ⟨rb, rfl, h2⟩ := hb
  refine ⟨ra ++ rb, (Utf8.text_append ra rb).symm, fun r hr => ?_⟩
  rcases List.mem_append.mp hr with hr | hr
  · exact h1 r hr
  · exact h2 r hr

/-! ### Names -/

theorem begins_error (T : NameLib) : T.begins Utf8.runeError = false := by
  unfold NameLib.begins
  rw [if_neg (by decide)]
  simp

theorem follows_error (T : NameLib) : T.follows Utf8.runeError = false := by
  unfold NameLib.follows
  rw [begins_error, if_neg (by decide)]
  simp

theorem isName_iff (T : NameLib) (n : Str) : isName T n = true ↔ IsName T n := by
  unfold isName
  constructor
  · intro h
    cases hr : Utf8.runes n with
    | nil => rw [hr] at h; cases h
    | cons r rs =>
      rw [hr] at h
      rw [Bool.and_eq_true, List.all_eq_true] at h
      have hne : ∀ x ∈ Utf8.runes n, x ≠ Utf8.runeError := by
        intro x hx e
        subst e
        rw [hr] at hx
        rcases List.mem_cons.mp hx with e | hx
        · rw [← e, begins_error] at h; cases h.1
        · have := h.2 _ hx
          rw [follows_error] at this; cases this
      obtain ⟨h1, h2⟩ := Utf8.runes_back hne
      rw [hr] at h1 h2
      exact ⟨r, rs, h1, h2, h.1, h.2⟩
  · rintro ⟨r, rs, rfl, hv, hb, hf⟩
    rw [Utf8.runes_text hv]
    dsimp only
    rw [hb, Bool.true_and, List.all_eq_true]
    exact hf

theorem follows_inName (T : NameLib) {r : Nat} (hv : Utf8.Valid r) (h : T.follows r = true) : ∀ b ∈ Utf8.encode r, inName b = true := by
  intro b hb
  by_cases h8 : r < 0x80
  · unfold Utf8.encode at hb
    rw [if_pos h8, List.mem_singleton] at hb
    subst hb
    unfold NameLib.follows NameLib.begins at h
    rw [if_pos h8, if_pos h8] at h
    unfold inName isNameByte
    rw [Utf8.byte_toNat (by omega)]
    simp only [Bool.or_eq_true, Bool.and_eq_true, beq_iff_eq, decide_eq_true_eq] at h ⊢
    omega
  · have hhi : ∀ n, 128 ≤ n → n < 256 → inName (Utf8.byte n) = true := by
      intro n h1 h2
      unfold inName
      rw [Utf8.byte_toNat h2]
      simp [h1]
    unfold Utf8.Valid at hv
    unfold Utf8.encode at hb
    rw [if_neg h8] at hb
    split_ifs at hb <;> simp only [List.mem_cons, List.not_mem_nil, or_false] at hb <;>
      rcases hb with rfl | rfl | rfl | rfl <;> apply hhi <;> omega

theorem begins_follows (T : NameLib) {r : Nat} (h : T.begins r = true) : T.follows r = true := by
  unfold NameLib.follows
  rw [h, Bool.true_or]

/-- Names are of bytes that names have. -/
theorem IsName.bytes {T : NameLib} {n : Str} (h : IsName T n) : n ≠ [] ∧ ∀ b ∈ n, inName b = true := by
  obtain ⟨r, rs, rfl, hv, hb, hf⟩ := h
  constructor
  · rw [Utf8.text_cons]
    intro e
    exact Utf8.encode_ne_nil r (List.append_eq_nil_iff.mp e).1
  · intro b hm
    obtain ⟨x, hx, hm⟩ := List.mem_flatMap.mp hm
    refine follows_inName T (hv x hx) ?_ b hm
    rcases List.mem_cons.mp hx with rfl | hx
    · exact begins_follows T hb
    · exact hf x hx

/-- Reading a name. -/
theorem readTarget_iff (T : NameLib) (s n rest : Str) : readTarget T s = some (n, rest) ↔
    s = n ++ rest ∧ IsName T n ∧ rest ≠ [] ∧ ∀ b, rest.head? = some b → inName b = false := by
  constructor
  · intro h
    unfold readTarget readName at h
    split_ifs at h with hc
    dsimp only at h
    split_ifs at h with hn
    injection h with h
    injection h with h1 h2
    subst h1 h2
    push Not at hc
    exact ⟨(List.takeWhile_append_dropWhile).symm, (isName_iff T _).mp hn, hc.2, fun b hb => dropWhile_head hb⟩
  · rintro ⟨rfl, hn, hne, hr⟩
    obtain ⟨h1, h2⟩ := while_append (hn.bytes).2 hr
    unfold readTarget readName
    rw [h1, h2, if_neg (by simp [hne, hn.bytes.1])]
    dsimp only
    rw [if_pos ((isName_iff T n).mpr hn)]

theorem QNameText.name {T : NameLib} {n : Str} {q : QName} (h : QNameText T n q) : IsName T n := by cases h <;> assumption

theorem cut_append {p l : Str} (h : 58#8 ∉ p) : (p ++ 58#8 :: l).takeWhile (· != 58#8) = p ∧ (p ++ 58#8 :: l).dropWhile (· != 58#8) = 58#8 :: l := by
  refine while_append (fun b hb => ?_) ?_
  · simp only [bne_iff_ne]; rintro rfl; exact h hb
  · intro b hb; simp at hb; subst hb; simp

theorem qualify_iff (T : NameLib) (n : Str) (q : QName) : QNameText T n q ↔ IsName T n ∧ n.count 58#8 ≤ 1 ∧ qualify n = q := by
  constructor
  · intro h
    refine ⟨h.name, ?_⟩
    cases h with
    | plain hn h =>
      rw [List.count_eq_zero_of_not_mem h]
      exact ⟨by omega, by unfold qualify; rw [if_pos (Or.inl h)]⟩
    | @prefixed p l hn hp hl hcp hcl =>
      rw [List.count_append, List.count_cons_self, List.count_eq_zero_of_not_mem hcp, List.count_eq_zero_of_not_mem hcl]
      refine ⟨by omega, ?_⟩
      unfold qualify
      obtain ⟨e1, e2⟩ := cut_append (l := l) hcp
      rw [e1, e2, if_neg (by simp [hp, hl])]
      rfl
    | @first l hn hcl =>
      rw [List.count_cons_self, List.count_eq_zero_of_not_mem hcl]
      refine ⟨by omega, ?_⟩
      unfold qualify
      rw [if_pos (by simp)]
    | @last p hn hcp =>
      rw [List.count_append, List.count_cons_self, List.count_eq_zero_of_not_mem hcp]
      refine ⟨by simp, ?_⟩
      unfold qualify
      obtain ⟨e1, e2⟩ := cut_append (l := []) hcp
      rw [e2, if_pos (by simp)]
  · rintro ⟨hn, hc, rfl⟩
    by_cases h : 58#8 ∈ n
    · obtain ⟨p, l, rfl, hp⟩ := List.eq_append_cons_of_mem h
      rw [List.count_append, List.count_cons_self, List.count_eq_zero_of_not_mem hp] at hc
      have hl : 58#8 ∉ l := by
        intro hl
        have := List.count_pos_iff.mpr hl
        omega
      obtain ⟨e1, e2⟩ := cut_append (l := l) hp
      unfold qualify
      rw [e1, e2]
      by_cases hpe : p = []
      · subst hpe
        rw [if_pos (by simp)]
        exact .first hn hl
      by_cases hle : l = []
      · subst hle
        rw [if_pos (by simp)]
        exact .last hn hp
      rw [if_neg (by simp [hpe, hle])]
      exact .prefixed hn hpe hle hp hl
    · unfold qualify
      rw [if_pos (Or.inl h)]
      exact .plain hn h

theorem readQName_iff (T : NameLib) (s rest : Str) (q : QName) : readQName T s = some (q, rest) ↔
    ∃ n, s = n ++ rest ∧ QNameText T n q ∧ rest ≠ [] ∧ ∀ b, rest.head? = some b → inName b = false := by
  constructor
  · intro h
    unfold readQName at h
    cases hr : readTarget T s with
    | none => rw [hr] at h; cases h
    | some p =>
      obtain ⟨n, r⟩ := p
      rw [hr] at h
      dsimp only at h
      split_ifs at h with hc
      injection h with h
      injection h with h1 h2
      subst h1 h2
      obtain ⟨h1, h2, h3, h4⟩ := (readTarget_iff T s n r).mp hr
      exact ⟨n, h1, (qualify_iff T n _).mpr ⟨h2, by omega, rfl⟩, h3, h4⟩
  · rintro ⟨n, h1, h2, h3, h4⟩
    obtain ⟨h5, h6, h7⟩ := (qualify_iff T n q).mp h2
    unfold readQName
    rw [(readTarget_iff T s n rest).mpr ⟨h1, h5, h3, h4⟩]
    dsimp only
    rw [if_neg (by omega), h7]

/-- Prefix and local part tell how a name is written. -/
theorem QNameText.unique {T : NameLib} {n m : Str} {q : QName} (h : QNameText T n q) (h' : QNameText T m q) : n = m := by
  have key : ∀ {n q}, QNameText T n q → n = if q.1 = [] then q.2 else q.1 ++ 58#8 :: q.2 := by
    intro n q h
    cases h with
    | plain => simp
    | prefixed _ hp => simp [hp]
    | first => simp
    | last => simp
  rw [key h, key h']

/-! ### Entities -/

theorem entity_name {n : Str} {rest : List Byte} (hn : ∀ b ∈ n, inName b = true) (h35 : n.head? ≠ some 35#8) (hne : n ≠ []) :
    entity (n ++ 59#8 :: rest) = (charNamed n).map fun r => (r, rest) := by
  obtain ⟨h1, h2⟩ := while_append hn (rest := 59#8 :: rest) (by intro b hb; simp at hb; subst hb; decide)
  unfold entity
  rw [expectByte_none.mpr (by rw [head_append hne]; exact h35), h1, h2]
  dsimp only
  rw [expectByte_iff.mpr rfl]

theorem entity_iff (s rest : List Byte) (r : Nat) : entity s = some (r, rest) ↔ ∃ e, s = e ++ 59#8 :: rest ∧ EntityText e r := by
  have hdig : ∀ base, isDigit base 59#8 = false := by intro base; simp [isDigit]
  have number : ∀ base s, charNumber base s = some (r, rest) ↔ ∃ ds, s = ds ++ 59#8 :: rest ∧ ds ≠ [] ∧ (∀ b ∈ ds, isDigit base b = true) ∧
      digitsValue base ds ≤ 0x10FFFF ∧ r = digitsValue base ds := by
    intro base s
    constructor
    · intro h
      unfold charNumber at h
      cases he : expectByte 59#8 (s.dropWhile (isDigit base)) with
      | none => rw [he] at h; cases h
      | some r' =>
        rw [he] at h
        dsimp only at h
        split_ifs at h with hc
        injection h with h
        injection h with h1 h2
        subst h2
        push Not at hc
        refine ⟨s.takeWhile (isDigit base), ?_, hc.1, fun b hb => takeWhile_mem hb, hc.2, h1.symm⟩
        rw [← expectByte_iff.mp he, List.takeWhile_append_dropWhile]
    · rintro ⟨ds, rfl, h1, h2, h3, rfl⟩
      obtain ⟨e1, e2⟩ := while_append h2 (rest := 59#8 :: rest) (by intro b hb; simp at hb; subst hb; exact hdig base)
      unfold charNumber
      rw [e1, e2, expectByte_iff.mpr rfl]
      dsimp only
      rw [if_neg (by simp [h1]; exact h3)]
  constructor
  · intro h
    unfold entity at h
    cases h35 : expectByte 35#8 s with
    | some s1 =>
      rw [h35] at h
      dsimp only at h
      have hs := expectByte_iff.mp h35
      cases h120 : expectByte 120#8 s1 with
      | some s2 =>
        rw [h120] at h
        dsimp only at h
        obtain ⟨ds, e, h1, h2, h3, rfl⟩ := (number 16 s2).mp h
        refine ⟨35#8 :: 120#8 :: ds, ?_, .hex h1 h2 h3⟩
        rw [hs, expectByte_iff.mp h120, e]
        rfl
      | none =>
        rw [h120] at h
        dsimp only at h
        obtain ⟨ds, e, h1, h2, h3, rfl⟩ := (number 10 s1).mp h
        refine ⟨35#8 :: ds, ?_, .decimal h1 h2 h3⟩
        rw [hs, e]
        rfl
    | none =>
      rw [h35] at h
      dsimp only at h
      cases h59 : expectByte 59#8 (s.dropWhile inName) with
      | none => rw [h59] at h; cases h
      | some r' =>
        rw [h59] at h
        dsimp only at h
        obtain ⟨x, hx, he⟩ := Option.map_eq_some_iff.mp h
        injection he with he1 he2
        subst he1 he2
        refine ⟨s.takeWhile inName, ?_, ?_⟩
        · rw [← expectByte_iff.mp h59, List.takeWhile_append_dropWhile]
        · revert hx
          generalize s.takeWhile inName = n
          unfold charNamed
          split_ifs with a b c d e <;> intro hx
          all_goals first | (injection hx with hx; subst hx; subst_vars; constructor) | cases hx
  · rintro ⟨e, rfl, he⟩
    cases he with
    | lt => exact entity_name (n := lit "lt") (by decide) (by decide) (by decide)
    | gt => exact entity_name (n := lit "gt") (by decide) (by decide) (by decide)
    | amp => exact entity_name (n := lit "amp") (by decide) (by decide) (by decide)
    | apos => exact entity_name (n := lit "apos") (by decide) (by decide) (by decide)
    | quot => exact entity_name (n := lit "quot") (by decide) (by decide) (by decide)
    | @decimal ds h1 h2 h3 =>
      unfold entity
      rw [show (35#8 :: ds) ++ 59#8 :: rest = 35#8 :: (ds ++ 59#8 :: rest) from rfl, expectByte_iff.mpr rfl]
      dsimp only
      rw [expectByte_none.mpr ?_]
      · exact (number 10 _).mpr ⟨ds, rfl, h1, h2, h3, rfl⟩
      · rw [head_append h1]
        intro hh
        have := h2 _ (List.mem_of_mem_head? hh)
        revert this; decide
    | @hex ds h1 h2 h3 =>
      unfold entity
      rw [show (35#8 :: 120#8 :: ds) ++ 59#8 :: rest = 35#8 :: 120#8 :: (ds ++ 59#8 :: rest) from rfl, expectByte_iff.mpr rfl]
      dsimp only
      rw [expectByte_iff.mpr rfl]
      exact (number 16 _).mpr ⟨ds, rfl, h1, h2, h3, rfl⟩

end Xml

end Verif
