import Verif.Expr.LogicProps

/-!
# C74, C75: the other text functions

C74, full statement: Contains, StartsWith and EndsWith decide whether the test text occurs; Len is the number of characters; Reverse
turns the characters round and is its own inverse; Trim, TrimLeft and TrimRight remove the white space at both ends, at the start and
at the end.

C75, full statement: Replace puts the replacement text, as it is, in the place of every occurrence of the test text, found from left to
right without overlaps, letter case aside on request, and changes nothing else.
-/

namespace Verif.Expr

variable {P : Prim}

open Val

theorem textTest_eq (test : Str → Str → Bool) (s t : Str) {cv : Val P} {c : Bool} (hc : IgnoreCase cv c) :
    textTest test (.string s) (.string t) cv = .ok (.boolean (test (fold P (!c) s) (fold P (!c) t))) := by
  cases hc with
  | none u => rfl
  | some => cases c <;> rfl

/-- Contains, StartsWith and EndsWith: the test text occurs somewhere, at the start, at the end; letter case is folded on request. -/
theorem C74_tests (s t : Str) {cv : Val P} {c : Bool} (hc : IgnoreCase cv c) :
    (∃ b, call .contains [.string s, .string t, cv] = .ok (.boolean b) ∧
      (b = true ↔ ∃ pre post, fold P (!c) s = pre ++ fold P (!c) t ++ post)) ∧
    (∃ b, call .startsWith [.string s, .string t, cv] = .ok (.boolean b) ∧ (b = true ↔ ∃ post, fold P (!c) s = fold P (!c) t ++ post)) ∧
    (∃ b, call .endsWith [.string s, .string t, cv] = .ok (.boolean b) ∧ (b = true ↔ ∃ pre, fold P (!c) s = pre ++ fold P (!c) t)) :=
  ⟨⟨_, textTest_eq containsStr s t hc, containsStr_iff⟩, ⟨_, textTest_eq hasPrefix s t hc, hasPrefix_iff⟩,
    ⟨_, textTest_eq hasSuffix s t hc, hasSuffix_iff⟩⟩

example : call (P := Toy.prim) .startsWith [.string (lit "Banana"), .string (lit "bAN"), .boolean true] = .ok (.boolean true) := rfl
example : call (P := Toy.prim) .endsWith [.string (lit "Banana"), .string (lit "ban"), .boolean true] = .ok (.boolean false) := rfl

/-- Without the third argument letter case matters; a null source gives null, a null test text false. -/
theorem C74_tests_default (s t : Str) (f : Fn) (hf : f ∈ [Fn.contains, .startsWith, .endsWith]) :
    call (P := P) f [.string s, .string t] = call f [.string s, .string t, .boolean false] ∧
    (∀ cv : Val P, call f [.null .string, .string t, cv] = .ok (.null .boolean)) ∧
    (∀ cv : Val P, call f [.string s, .null .string, cv] = .ok (.boolean false)) := by
  cases f <;> first
    | exact absurd hf (by decide)
    | exact ⟨rfl, fun _ => rfl, fun _ => rfl⟩

/-! ### Len -/

theorem runesAux_ascii (s : Str) : (∀ b ∈ s, b.toNat < 128) → ∀ n, s.length ≤ n → Utf8.runesAux n s = s.map BitVec.toNat := by
  induction s with
  | nil => intro _ n _; cases n <;> simp [Utf8.runesAux]
  | cons b s ih =>
    intro h n hn
    obtain ⟨m, rfl⟩ : ∃ m, n = m + 1 := ⟨n - 1, by simp at hn; omega⟩
    have hb := h b (by simp)
    have hd : Utf8.decode (b :: s) = (b.toNat, 1) := by
      unfold Utf8.decode
      dsimp only
      rw [if_pos hb]
    rw [Utf8.runesAux, if_neg (by simp), hd]
    dsimp only
    rw [List.drop_succ_cons, List.drop_zero, ih (fun x hx => h x (by simp [hx])) m (by simpa using hn), List.map_cons]

/-- Partial: Len is the number of characters of an ASCII text. Missing: other texts, see the next theorem. -/
theorem C74_len_partial (s : Str) (ha : ∀ b ∈ s, b.toNat < 128) (hl : s.length < 2 ^ 31) :
    ∃ r : BitVec 32, call (P := P) .len [.string s] = .ok (.int32 r) ∧ r.toInt = (Utf8.runes s).length := by
  refine ⟨_, rfl, ?_⟩
  rw [small32 hl, Utf8.runes, runesAux_ascii s ha _ (Nat.le_refl _), List.length_map]

example : ∀ b ∈ lit "Freq.", b.toNat < 128 := by decide

/-- Len in general: the number of bytes. -/
theorem C74_len_bytes (s : Str) (hl : s.length < 2 ^ 31) :
    ∃ r : BitVec 32, call (P := P) .len [.string s] = .ok (.int32 r) ∧ r.toInt = s.length :=
  ⟨_, rfl, small32 hl⟩

/-- Refuted: Len counts bytes. The text `é` has one character and its length is given as 2. -/
theorem C74_len_false : Utf8.runes (Utf8.text [0xE9]) = [0xE9] ∧
    call (P := P) .len [.string (Utf8.text [0xE9])] = .ok (.int32 2) := ⟨by decide, rfl⟩

/-! ### Reverse -/

/-- Partial: Reverse turns the characters of a well formed text round, and twice it gives the text back. Missing: texts that are not
UTF-8, see the next theorem. -/
theorem C74_reverse_partial {rs : List Nat} (h : ∀ r ∈ rs, Utf8.Valid r) :
    call (P := P) .reverse [.string (Utf8.text rs)] = .ok (.string (Utf8.text rs.reverse)) ∧
    (call (P := P) .reverse [.string (Utf8.text rs)] >>= fun v => call .reverse [v]) = .ok (.string (Utf8.text rs)) := by
  have one : ∀ rs : List Nat, (∀ r ∈ rs, Utf8.Valid r) →
      call (P := P) .reverse [.string (Utf8.text rs)] = .ok (.string (Utf8.text rs.reverse)) := by
    intro rs h
    show Res.ok (Val.string (reverseRunes (Utf8.text rs))) = _
    rw [reverseRunes, Utf8.runes_text h]
  refine ⟨one rs h, ?_⟩
  rw [one rs h]
  show call .reverse [.string (Utf8.text rs.reverse)] = _
  rw [one rs.reverse (fun r hr => h r (List.mem_reverse.1 hr)), List.reverse_reverse]

/-- `aé€😀` -/
example : (∀ r ∈ [0x61, 0xE9, 0x20AC, 0x1F600], Utf8.Valid r) ∧
    Utf8.text [0x61, 0xE9, 0x20AC, 0x1F600] = [0x61#8, 0xC3#8, 0xA9#8, 0xE2#8, 0x82#8, 0xAC#8, 0xF0#8, 0x9F#8, 0x98#8, 0x80#8] := by decide

/-- Refuted: a byte that is no UTF-8 comes back as the three bytes of U+FFFD. -/
theorem C74_reverse_false : call (P := P) .reverse [.string [0xFF#8]] = .ok (.string [0xEF#8, 0xBF#8, 0xBD#8]) := rfl

/-! ### Trim -/

/-- The characters without the white space at the start. -/
def withoutStart (rs : List Nat) : List Nat := rs.dropWhile Utf8.isSpace

/-- The characters without the white space at the end. -/
def withoutEnd (rs : List Nat) : List Nat := (rs.reverse.dropWhile Utf8.isSpace).reverse

theorem withoutStart_sub {rs : List Nat} {r : Nat} (h : r ∈ withoutStart rs) : r ∈ rs := (List.dropWhile_sublist _).subset h

/-- Trim removes the white space at both ends of a well formed text, and nothing else: what it removes is white space, what it leaves
neither starts nor ends with any. -/
theorem C74_trim {rs : List Nat} (h : ∀ r ∈ rs, Utf8.Valid r) :
    ∃ pre mid post, rs = pre ++ mid ++ post ∧ call (P := P) .trim [.string (Utf8.text rs)] = .ok (.string (Utf8.text mid)) ∧
      (∀ r ∈ pre ++ post, Utf8.isSpace r = true) ∧ (∀ r ∈ mid.head?, Utf8.isSpace r = false) ∧
      (∀ r ∈ mid.getLast?, Utf8.isSpace r = false) := by
  have h1 : call (P := P) .trim [.string (Utf8.text rs)] = .ok (.string (Utf8.text (withoutEnd (withoutStart rs)))) := by
    show Res.ok (Val.string (Utf8.trimSpace (Utf8.text rs))) = _
    rw [Utf8.trimSpace, Utf8.trimLeft_text _ h, Utf8.trimRight_text]
    · rfl
    · exact fun r hr => h r (withoutStart_sub hr)
  have hs : rs = rs.takeWhile Utf8.isSpace ++ withoutStart rs := List.takeWhile_append_dropWhile.symm
  have he : withoutStart rs = withoutEnd (withoutStart rs) ++ ((withoutStart rs).reverse.takeWhile Utf8.isSpace).reverse := by
    have := List.takeWhile_append_dropWhile (p := Utf8.isSpace) (l := (withoutStart rs).reverse)
    rw [withoutEnd, ← List.reverse_append, this, List.reverse_reverse]
  refine ⟨rs.takeWhile Utf8.isSpace, withoutEnd (withoutStart rs), ((withoutStart rs).reverse.takeWhile Utf8.isSpace).reverse, ?_, h1, ?_, ?_, ?_⟩
  · rw [List.append_assoc, ← he, ← hs]
  · intro r hr
    rcases List.mem_append.1 hr with hr | hr
    · exact (List.all_eq_true.1 List.all_takeWhile) r hr
    · exact (List.all_eq_true.1 List.all_takeWhile) r (List.mem_reverse.1 hr)
  · intro r hr
    cases hm : withoutEnd (withoutStart rs) with
    | nil => rw [hm] at hr; cases hr
    | cons m ms =>
      rw [hm] at hr
      cases hr
      have h2 : withoutStart rs = r :: (ms ++ ((withoutStart rs).reverse.takeWhile Utf8.isSpace).reverse) := by
        rw [hm] at he
        exact he
      have := List.head?_dropWhile_not Utf8.isSpace rs
      rw [show rs.dropWhile Utf8.isSpace = withoutStart rs from rfl, h2] at this
      simpa using this
  · intro r hr
    rw [withoutEnd, List.getLast?_reverse] at hr
    have := List.head?_dropWhile_not Utf8.isSpace (withoutStart rs).reverse
    rw [show ((withoutStart rs).reverse.dropWhile Utf8.isSpace).head? = some r from hr] at this
    simpa using this

/-- A no-break space, a tab, `a`, an em space. -/
example : call (P := P) .trim [.string (Utf8.text [0xA0, 9, 0x61, 0x2003])] = .ok (.string (Utf8.text [0x61])) := by
  show Res.ok (Val.string (Utf8.trimSpace (Utf8.text [0xA0, 9, 0x61, 0x2003]))) = _
  rw [show Utf8.trimSpace (Utf8.text [0xA0, 9, 0x61, 0x2003]) = Utf8.text [0x61] by decide]

/-- A character on which Trim and the other two agree: no white space beyond ASCII, and not U+FFFD. -/
def Plain (r : Nat) : Prop := r ≠ Utf8.runeError ∧ (Utf8.isSpace r = true → r < 128)

theorem plain_cut {r : Nat} (h : Plain r) : inWhitespace r = Utf8.isSpace r := by
  obtain ⟨h1, h2⟩ := h
  have e1 : (r == Utf8.runeError) = false := by simpa using h1
  cases hs : Utf8.isSpace r with
  | true =>
    have := h2 hs
    unfold Utf8.isSpace at hs
    unfold inWhitespace
    simp only [Bool.or_eq_true, Bool.and_eq_true, decide_eq_true_eq, beq_iff_eq] at hs ⊢
    omega
  | false =>
    unfold Utf8.isSpace at hs
    unfold inWhitespace
    simp only [Bool.or_eq_false_iff] at hs ⊢
    exact ⟨⟨hs.1.1.1.1.1.1.1.1.1.1, hs.1.1.1.1.1.1.1.1.1.2⟩, e1⟩

theorem dropWhile_congr {α : Type _} {p q : α → Bool} : ∀ {l : List α}, (∀ a ∈ l, p a = q a) → l.dropWhile p = l.dropWhile q
  | [], _ => rfl
  | a :: l, h => by
    rw [List.dropWhile_cons, List.dropWhile_cons, h a (by simp), dropWhile_congr fun x hx => h x (by simp [hx])]

/-- Partial: TrimLeft and TrimRight remove the white space at one end of a text of plain characters, so that the one after the other
does what Trim does. Missing: other characters, see the next theorem. -/
theorem C74_trim_ends_partial {rs : List Nat} (h : ∀ r ∈ rs, Utf8.Valid r ∧ Plain r) :
    call (P := P) .trimLeft [.string (Utf8.text rs)] = .ok (.string (Utf8.text (withoutStart rs))) ∧
    call (P := P) .trimRight [.string (Utf8.text rs)] = .ok (.string (Utf8.text (withoutEnd rs))) ∧
    (call (P := P) .trimLeft [.string (Utf8.text rs)] >>= fun v => call .trimRight [v]) = call .trim [.string (Utf8.text rs)] := by
  have left : call (P := P) .trimLeft [.string (Utf8.text rs)] = .ok (.string (Utf8.text (withoutStart rs))) := by
    show Res.ok (Val.string (Utf8.trimLeft inWhitespace (Utf8.text rs))) = _
    rw [Utf8.trimLeft_text _ fun r hr => (h r hr).1, dropWhile_congr fun r hr => plain_cut (h r hr).2]
    rfl
  have right : ∀ rs : List Nat, (∀ r ∈ rs, Utf8.Valid r ∧ Plain r) →
      call (P := P) .trimRight [.string (Utf8.text rs)] = .ok (.string (Utf8.text (withoutEnd rs))) := by
    intro rs h
    show Res.ok (Val.string (Utf8.trimRight inWhitespace (Utf8.text rs))) = _
    rw [Utf8.trimRight_text _ fun r hr => (h r hr).1, dropWhile_congr fun r hr => plain_cut (h r (List.mem_reverse.1 hr)).2]
    rfl
  refine ⟨left, right rs h, ?_⟩
  rw [left]
  show call .trimRight [.string (Utf8.text (withoutStart rs))] = Res.ok (Val.string (Utf8.trimSpace (Utf8.text rs)))
  rw [right _ fun r hr => h r (withoutStart_sub hr), Utf8.trimSpace, Utf8.trimLeft_text _ fun r hr => (h r hr).1,
    Utf8.trimRight_text (rs := rs.dropWhile Utf8.isSpace) _ fun r hr => (h r (withoutStart_sub hr)).1]
  rfl

example : ∀ r ∈ [0x20, 0x61, 0xE9, 0x0A], Utf8.Valid r ∧ Plain r := by
  intro r hr
  simp only [List.mem_cons, List.not_mem_nil, or_false] at hr
  rcases hr with rfl | rfl | rfl | rfl <;> exact ⟨by decide, by decide, by decide⟩

/-- Refuted: a no-break space (U+00A0) at the start is removed by Trim but not by TrimLeft, at the end not by TrimRight. -/
theorem C74_trim_ends_false :
    call (P := P) .trim [.string (Utf8.text [0xA0, 0x61])] = .ok (.string (lit "a")) ∧
    call (P := P) .trimLeft [.string (Utf8.text [0xA0, 0x61])] = .ok (.string (Utf8.text [0xA0, 0x61])) ∧
    call (P := P) .trimRight [.string (Utf8.text [0x61, 0xA0])] = .ok (.string (Utf8.text [0x61, 0xA0])) := ⟨rfl, rfl, rfl⟩

/-- Refuted: TrimLeft and TrimRight remove characters that are no white space: U+FFFD, and every byte that is no UTF-8. -/
theorem C74_trim_loses :
    call (P := P) .trimLeft [.string (Utf8.text [0xFFFD, 0x61])] = .ok (.string (lit "a")) ∧
    call (P := P) .trim [.string (Utf8.text [0xFFFD, 0x61])] = .ok (.string (Utf8.text [0xFFFD, 0x61])) ∧
    call (P := P) .trimRight [.string [0x61#8, 0xE9#8]] = .ok (.string (lit "a")) := ⟨rfl, rfl, rfl⟩

/-! ## C75: Replace -/

/-- The parts written one after the other with a text between them. -/
def joinWith (t : Str) : List Str → Str
  | [] => []
  | [p] => p
  | p :: q :: ps => p ++ t ++ joinWith t (q :: ps)

/-- The parts that the occurrences of `t`, found from left to right without overlaps, leave of a text: none starts within a part. -/
def LeftParts (t : Str) : List Str → Prop
  | [] => False
  | [p] => ∀ j, ¬ OccursAt p t j
  | p :: q :: ps => (∀ j < p.length, ¬ OccursAt (p ++ t) t j) ∧ LeftParts t (q :: ps)

theorem replaceFrom_none {t : Str} (ht : t ≠ []) (r : Str) : ∀ (s : Str), (∀ j, ¬ OccursAt s t j) → replaceFrom s t r = s
  | [], _ => by rw [replaceFrom]
  | b :: s, h => by
    have h0 : hasPrefix (b :: s) t = false := by
      cases hp : hasPrefix (b :: s) t with
      | false => rfl
      | true => exact absurd (occursAt_zero.2 hp) (h 0)
    rw [replaceFrom, h0, if_neg (by decide), replaceFrom_none ht r s fun j hj => h (j + 1) (occursAt_succ.2 hj)]

theorem replaceFrom_hit {t : Str} (ht : t ≠ []) (r rest : Str) : replaceFrom (t ++ rest) t r = r ++ replaceFrom rest t r := by
  cases t with
  | nil => exact absurd rfl ht
  | cons b t =>
    rw [List.cons_append, replaceFrom, if_pos (hasPrefix_iff.2 ⟨rest, (List.cons_append ..).symm⟩)]
    congr 2
    simp

theorem occursAt_local {p t rest : Str} {j : Nat} (hj : j < p.length) (h : OccursAt (p ++ t ++ rest) t j) : OccursAt (p ++ t) t j := by
  obtain ⟨pre, post, he, hl⟩ := h
  have hle : (pre ++ t).length ≤ (p ++ t).length := by
    rw [List.length_append, List.length_append]
    omega
  have h1 : (p ++ t ++ rest).take (p ++ t).length = p ++ t := List.take_left
  have h2 : (pre ++ t ++ post).take (p ++ t).length = pre ++ t ++ post.take ((p ++ t).length - (pre ++ t).length) := by
    rw [List.take_append, List.take_of_length_le hle]
  refine ⟨pre, post.take ((p ++ t).length - (pre ++ t).length), ?_, hl⟩
  rw [← h2, ← he, h1]

theorem replaceFrom_part {t : Str} (ht : t ≠ []) (r rest : Str) : ∀ (p : Str), (∀ j < p.length, ¬ OccursAt (p ++ t) t j) →
    replaceFrom (p ++ t ++ rest) t r = p ++ r ++ replaceFrom rest t r
  | [], _ => by simpa using replaceFrom_hit ht r rest
  | b :: p, h => by
    have h0 : hasPrefix (b :: p ++ t ++ rest) t = false := by
      cases hp : hasPrefix (b :: p ++ t ++ rest) t with
      | false => rfl
      | true => exact absurd (occursAt_local (by simp) (occursAt_zero.2 hp)) (h 0 (by simp))
    rw [show b :: p ++ t ++ rest = b :: (p ++ t ++ rest) by simp] at h0 ⊢
    rw [replaceFrom, h0, if_neg (by decide), replaceFrom_part ht r rest p fun j hj ho => h (j + 1) (by simpa using hj) (occursAt_succ.2 ho)]
    simp

theorem replaceFrom_parts {t : Str} (ht : t ≠ []) (r : Str) : ∀ (ps : List Str), LeftParts t ps →
    replaceFrom (joinWith t ps) t r = joinWith r ps
  | [], h => h.elim
  | [p], h => replaceFrom_none ht r p h
  | p :: q :: ps, h => by
    rw [joinWith, replaceFrom_part ht r _ p h.1, replaceFrom_parts ht r (q :: ps) h.2, joinWith]

/-- Replace, minding letter case: the parts between the occurrences stay, each occurrence becomes the replacement text. -/
theorem C75_replace {t : Str} (ht : t ≠ []) (r : Str) {ps : List Str} (h : LeftParts t ps) {cv : Val P} (hc : IgnoreCase cv false) :
    call .replace [.string (joinWith t ps), .string t, .string r, cv] = .ok (.string (joinWith r ps)) := by
  have : ∀ s : Str, call (P := P) .replace [.string s, .string t, .string r, cv] = .ok (.string (replaceFrom s t r)) := by
    intro s
    have hr : replaceAll s t r = replaceFrom s t r := if_neg ht
    cases hc <;> (show Res.ok (Val.string (replaceAll s t r)) = _; rw [hr])
  rw [this, replaceFrom_parts ht r ps h]

theorem first_occurrence {s t : Str} : (∃ j, OccursAt s t j ∧ ∀ i < j, ¬ OccursAt s t i) ∨ ∀ j, ¬ OccursAt s t j := by
  cases h : index? s t with
  | none => exact .inr (index?_none.1 h)
  | some i => exact .inl ⟨i, index?_some.1 h⟩

/-- Every text has such parts, so that the theorem above says what Replace does to any text; the parts are determined by it. -/
theorem C75_parts {t : Str} (ht : t ≠ []) : ∀ (s : Str), ∃ ps, LeftParts t ps ∧ joinWith t ps = s ∧
    ∀ qs, LeftParts t qs → joinWith t qs = s → qs = ps := by
  intro s
  induction hn : s.length using Nat.strongRecOn generalizing s with
  | _ n ih =>
    subst hn
    have htl : 0 < t.length := List.length_pos_iff.2 ht
    -- what a list of parts says about the first occurrence
    have part_first : ∀ p q qs, LeftParts t (p :: q :: qs) → joinWith t (p :: q :: qs) = s →
        OccursAt s t p.length ∧ ∀ i < p.length, ¬ OccursAt s t i := by
      intro p q qs hl hs
      refine ⟨⟨p, joinWith t (q :: qs), by rw [← hs, joinWith], rfl⟩, fun i hi ho => ?_⟩
      rw [← hs, joinWith] at ho
      exact hl.1 i hi (occursAt_local hi ho)
    rcases first_occurrence (s := s) (t := t) with ⟨j, ho, hf⟩ | hnone
    · obtain ⟨pre, post, he, hj⟩ := ho
      have hlt : post.length < s.length := by
        rw [he, List.length_append, List.length_append]
        omega
      obtain ⟨ps, hps, hjoin, huniq⟩ := ih post.length hlt post rfl
      obtain ⟨q, qs, rfl⟩ : ∃ q qs, ps = q :: qs := by
        cases ps with
        | nil => exact hps.elim
        | cons q qs => exact ⟨q, qs, rfl⟩
      refine ⟨pre :: q :: qs, ⟨fun i hi hoc => ?_, hps⟩, by rw [joinWith, hjoin, he], ?_⟩
      · obtain ⟨a, b, hab, hla⟩ := hoc
        exact hf i (by omega) ⟨a, b ++ post, by rw [he, hab, List.append_assoc], hla⟩
      · intro rs hrs hrj
        match rs, hrs, hrj with
        | [p], hrs, hrj =>
          have : p = s := hrj
          rw [this] at hrs
          exact absurd ⟨pre, post, he, hj⟩ (hrs j)
        | p :: r :: rs, hrs, hrj =>
          obtain ⟨h1, h2⟩ := part_first p r rs hrs hrj
          have hlen : p.length = pre.length := by
            rcases Nat.lt_trichotomy p.length pre.length with hlt' | heq | hgt
            · exact absurd h1 (hf _ (by omega))
            · exact heq
            · exact absurd ⟨pre, post, he, rfl⟩ (h2 _ hgt)
          rw [joinWith, he, List.append_assoc, List.append_assoc] at hrj
          obtain ⟨hp, hrest⟩ := List.append_inj hrj hlen
          have hrest' := List.append_cancel_left hrest
          rw [hp, huniq (r :: rs) hrs.2 hrest']
    · refine ⟨[s], hnone, rfl, ?_⟩
      intro rs hrs hrj
      match rs, hrs, hrj with
      | [p], _, hrj => rw [show p = s from hrj]
      | p :: r :: rs, hrs, hrj => exact absurd (part_first p r rs hrs hrj).1 (hnone _)

/-- In `aaa-aa` the occurrences of `aa` are found at 0 and at 4. -/
example : call (P := P) .replace [.string (lit "aaa-aa"), .string (lit "aa"), .string (lit "$x")] = .ok (.string (lit "$xa-$x")) := by
  show Res.ok (Val.string (replaceFrom (lit "aaa-aa") (lit "aa") (lit "$x"))) = _
  simp [lit, replaceFrom, hasPrefix, List.isPrefixOf]
example : LeftParts (lit "b") [lit "a", lit "", lit "c"] := by
  refine ⟨fun j hj h => ?_, fun j hj => absurd hj (Nat.not_lt_zero j), fun j h => ?_⟩
  · have : j = 0 := by simpa [lit] using hj
    subst this
    exact absurd (occursAt_zero.1 h) (by decide)
  · exact index?_none.1 (by decide) j h

/-- A text cut up into what stands between the matches of another one and these matches, and what follows the last. -/
def cutUp (last : Str) : List (Str × Str) → Str
  | [] => last
  | (p, m) :: ps => p ++ m ++ cutUp last ps

/-- Where the matches stand. -/
def offsets (pos : Nat) : List (Str × Str) → List (Nat × Nat)
  | [] => []
  | (p, m) :: ps => (pos + p.length, pos + p.length + m.length) :: offsets (pos + p.length + m.length) ps

/-- The pieces with a text in the place of each match. -/
def putFor (f : Str → Str) (last : Str) : List (Str × Str) → Str
  | [] => last
  | (p, m) :: ps => p ++ f m ++ putFor f last ps

theorem splice_pieces (template last : Str) : ∀ (ps : List (Str × Str)) (pre : Str),
    splice P (pre ++ cutUp last ps) template pre.length (offsets pre.length ps) =
      putFor (fun m => expand P m template.length template) last ps
  | [], pre => by simp [offsets, splice, cutUp, putFor]
  | (p, m) :: ps, pre => by
    have h1 : ((pre ++ cutUp last ((p, m) :: ps)).take (pre.length + p.length)).drop pre.length = p := by
      rw [cutUp, ← List.append_assoc, ← List.append_assoc, ← List.length_append, List.append_assoc, List.take_left, List.drop_left]
    have h2 : ((pre ++ cutUp last ((p, m) :: ps)).take (pre.length + p.length + m.length)).drop (pre.length + p.length) = m := by
      rw [cutUp, ← List.append_assoc, ← List.append_assoc, ← List.length_append, ← List.length_append, List.take_left, List.drop_left]
    have h3 : pre ++ cutUp last ((p, m) :: ps) = (pre ++ p ++ m) ++ cutUp last ps := by
      rw [cutUp, ← List.append_assoc, ← List.append_assoc]
    have ih := splice_pieces template last ps (pre ++ p ++ m)
    rw [offsets, splice, h1, h2, putFor, h3]
    rw [List.length_append, List.length_append] at ih
    rw [ih]

theorem expand_plain {r : Str} (h : 36#8 ∉ r) (m : Str) : ∀ n, expand P m n r = r
  | 0 => rfl
  | n + 1 => by rw [expand, index?_byte_none h]

theorem replace_fold {s t r : Str} {ms : List (Nat × Nat)} (h : P.foldMatches s t = some ms) :
    call (P := P) .replace [.string s, .string t, .string r, .boolean true] = .ok (.string (splice P s r 0 ms)) := by
  show (do return Val.string (← replaceFold P s t r)) = _
  rw [replaceFold, h]
  rfl

/-- A text that makes no regular expression is refused when letter case is to be left aside, and replaced as it stands when it is not. -/
theorem C75_not_compiled {s t : Str} (h : P.foldMatches s t = none) (r : Str) :
    call (P := P) .replace [.string s, .string t, .string r, .boolean true] = .err ∧
    call (P := P) .replace [.string s, .string t, .string r, .boolean false] = .ok (.string (replaceAll s t r)) := by
  refine ⟨?_, rfl⟩
  show (do return Val.string (← replaceFold P s t r)) = _
  rw [replaceFold, h]
  rfl

example : Toy.prim.foldMatches (lit "x") [0xFF#8] = none := by decide

/-- Partial: Replace with letter case aside puts the replacement text in the place of each match and leaves the rest, when the
replacement contains no dollar sign. Missing: a replacement with one, see the next theorem. -/
theorem C75_ignore_case_partial {r : Str} (hr : 36#8 ∉ r) (t last : Str) (ps : List (Str × Str))
    (hm : P.foldMatches (cutUp last ps) t = some (offsets 0 ps)) :
    call (P := P) .replace [.string (cutUp last ps), .string t, .string r, .boolean true] = .ok (.string (putFor (fun _ => r) last ps)) := by
  have h := splice_pieces (P := P) r last ps []
  rw [List.nil_append, List.length_nil] at h
  rw [replace_fold hm, h]
  simp only [expand_plain hr]

/-- `xABy` cut up by `ab`. -/
example : Toy.prim.foldMatches (cutUp (lit "y") [(lit "x", lit "AB")]) (lit "ab") = some (offsets 0 [(lit "x", lit "AB")]) := by decide

/-- Refuted: letter case aside the replacement is a template. Of `$5` nothing remains, `$$` gives one dollar sign and `$0` the text that
was to be replaced, whereas all three are put in as they are when letter case matters. -/
theorem C75_ignore_case_false (t p m last : Str) (hm : P.foldMatches (p ++ m ++ last) t = some [(p.length, p.length + m.length)]) :
    call (P := P) .replace [.string (p ++ m ++ last), .string t, .string (lit "$5"), .boolean true] = .ok (.string (p ++ last)) ∧
    call (P := P) .replace [.string (p ++ m ++ last), .string t, .string (lit "$$"), .boolean true] = .ok (.string (p ++ lit "$" ++ last)) ∧
    call (P := P) .replace [.string (p ++ m ++ last), .string t, .string (lit "$0"), .boolean true] = .ok (.string (p ++ m ++ last)) := by
  have h : ∀ r : Str, call (P := P) .replace [.string (p ++ m ++ last), .string t, .string r, .boolean true] =
      .ok (.string (p ++ expand P m r.length r ++ last)) := by
    intro r
    have h := splice_pieces (P := P) r last [(p, m)] []
    rw [List.nil_append, List.length_nil] at h
    rw [replace_fold hm]
    simp only [cutUp, offsets, putFor, Nat.zero_add] at h
    rw [h]
  rw [h, h, h]
  have e1 : expand P m (lit "$5").length (lit "$5") = [] := rfl
  have e2 : expand P m (lit "$$").length (lit "$$") = lit "$" := rfl
  have e3 : expand P m (lit "$0").length (lit "$0") = m := by
    show [] ++ (m ++ []) = m
    simp
  rw [e1, e2, e3, List.append_nil]
  exact ⟨rfl, rfl, rfl⟩

example : Toy.prim.foldMatches (lit "x" ++ lit "AB" ++ lit "y") (lit "ab") = some [((lit "x").length, (lit "x").length + (lit "AB").length)] := by
  decide

theorem afterRunes_text (r : Str) (rs : List Nat) (h : ∀ c ∈ rs, Utf8.Valid c) : ∀ n, (Utf8.text rs).length ≤ n →
    afterRunes r n (Utf8.text rs) = rs.flatMap fun c => Utf8.encode c ++ r := by
  induction rs with
  | nil => intro n _; cases n <;> simp [afterRunes, Utf8.text]
  | cons c rs ih =>
    intro n hn
    have hl := (Utf8.encode_length c).1
    rw [Utf8.text_cons, List.length_append] at hn
    obtain ⟨k, rfl⟩ : ∃ k, n = k + 1 := ⟨n - 1, by omega⟩
    rw [afterRunes, Utf8.text_cons, if_neg (by simp [Utf8.encode_ne_nil]), Utf8.decode_encode (h c (by simp))]
    dsimp only
    rw [List.take_left, List.drop_left, ih (fun x hx => h x (by simp [hx])) k (by omega)]
    simp

/-- An empty test text is found before the first character and after each one. -/
theorem C75_replace_empty (r : Str) {rs : List Nat} (h : ∀ c ∈ rs, Utf8.Valid c) :
    call (P := P) .replace [.string (Utf8.text rs), .string [], .string r] =
      .ok (.string (r ++ rs.flatMap fun c => Utf8.encode c ++ r)) := by
  show Res.ok (Val.string (r ++ afterRunes r (Utf8.text rs).length (Utf8.text rs))) = _
  rw [afterRunes_text r rs h _ (Nat.le_refl _)]

end Verif.Expr
