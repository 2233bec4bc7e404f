import Verif.Lib.RegexpProps
import Verif.Expr.LikeProps

/-!
# C140: patterns as they are written
-/

namespace Verif.Regexp

open Verif.Expr

variable {R : Lib.Rest}

/-! ## Plain texts -/

/-- A character that has no meaning of its own in a pattern. -/
def Plain (c : Nat) : Prop := c < 128 ∧ c ∉ [40, 41, 124, 42, 43, 63, 123, 94, 36, 46, 91, 92]

instance (c : Nat) : Decidable (Plain c) := by unfold Plain; infer_instance

/-- The expression for a text. -/
def lits (s : List Nat) : Rx := s.foldr (fun c r => .cat (.set false [(c, c)]) r) .eps

/-- Reading a pattern gives these parts, whatever is allowed for its length. -/
def Toks (s : List Nat) (ks : List Tok) : Prop := ∀ n, s.length ≤ n → toks n s = .ok ks

theorem toks_nil : Toks [] [] := fun n _ => by cases n <;> rfl

theorem toks_cons {c : Nat} {s s' : List Nat} {k : Tok} {ks : List Tok} (h : next c s = .ok (k, s')) (hl : s'.length ≤ s.length) (ht : Toks s' ks) :
    Toks (c :: s) (k :: ks) := by
  intro n hn
  match n, hn with
  | n + 1, hn =>
    rw [toks, h]
    dsimp only
    rw [ht n (by simp at hn; omega)]

theorem next_plain {c : Nat} (h : c ∉ [40, 41, 124, 42, 43, 63, 123, 94, 36, 46, 91, 92]) (s : List Nat) :
    next c s = .ok (.atom (.set false [(c, c)]), s) := by
  simp only [List.mem_cons, List.not_mem_nil, or_false, not_or] at h
  unfold next
  grind

theorem toks_plain : ∀ {s : List Nat}, (∀ c ∈ s, Plain c) → Toks s (s.map fun c => .atom (.set false [(c, c)]))
  | [], _ => toks_nil
  | c :: s, h => toks_cons (next_plain (h c (by simp)).2 s) (Nat.le_refl _) (toks_plain fun c hc => h c (by simp [hc]))

theorem build_atoms (f : Nat → Rx) : ∀ (s : List Nat) (outer : List Frame) (fr : Frame) (ks : List Tok) (b : Bool), s ≠ [] →
    build (s.map (fun c => .atom (f c)) ++ ks) outer fr b = build ks outer { fr with items := (s.map f).reverse ++ fr.items } false
  | [c], outer, fr, ks, b, _ => by simp [build]
  | c :: d :: s, outer, fr, ks, b, _ => by
    rw [List.map_cons, List.cons_append, build, build_atoms f (d :: s) _ _ _ _ (by simp)]
    simp

theorem concat_reverse (s : List Rx) : concat s.reverse = s.foldr (fun x r => .cat x r) .eps := by
  rw [concat, List.foldl_reverse]

theorem parse_plain {s : List Nat} (h : ∀ c ∈ s, Plain c) : parse s = .ok (lits s) := by
  unfold parse
  rw [toks_plain h _ (Nat.le_refl _)]
  dsimp only
  by_cases hs : s = []
  · subst hs; rfl
  · have := build_atoms (fun c => .set false [(c, c)]) s [] ⟨[], []⟩ [] false hs
    rw [List.append_nil] at this
    rw [this]
    rw [build]
    dsimp only [alternate, List.foldl_nil]
    rw [List.append_nil, concat_reverse, lits, List.foldr_map]

theorem compile_plain {p : Str} (h : ∀ b ∈ p, Plain b.toNat) (hl : p.length ≤ 1000) : compile p = .ok (lits (p.map BitVec.toNat)) := by
  have hr := Lib.runes_ascii fun b hb => (h b hb).1
  unfold compile
  rw [hr, if_neg, if_neg]
  · refine parse_plain fun c hc => ?_
    obtain ⟨b, hb, rfl⟩ := List.mem_map.1 hc
    exact h b hb
  · rintro (h' | h')
    · omega
    · obtain ⟨b, hb, hb'⟩ := List.mem_map.1 h'
      have := (h b hb).1
      omega
  · rw [not_not, Lib.text_of_ascii]
    · rw [List.map_map]
      conv => rhs; rw [← List.map_id p]
      exact List.map_congr_left fun b _ => by simp
    · intro c hc
      obtain ⟨b, hb, rfl⟩ := List.mem_map.1 hc
      exact (h b hb).1

theorem decode_low {b : Byte} {s : Str} (h : b.toNat < 128) : Utf8.decode (b :: s) = (b.toNat, 1) := by
  unfold Utf8.decode
  dsimp only
  rw [if_pos h]

/-- A character of ASCII is a byte. -/
theorem decode_is_low {s : Str} (h : (Utf8.decode s).1 < 128) : ∃ b s', s = b :: s' ∧ b.toNat < 128 := by
  match s with
  | [] => simp [Utf8.decode, Utf8.runeError] at h
  | b :: s' =>
    refine ⟨b, s', rfl, ?_⟩
    refine Nat.lt_of_not_le fun hb => ?_
    revert h
    unfold Utf8.decode Utf8.runeError Utf8.accept
    repeat' (first | split | (dsimp only; split))
    all_goals (dsimp only; grind)

/-- The bytes of a character after the first are beyond ASCII. -/
theorem decode_tail {s : Str} {m : Nat} (h0 : 0 < m) (h : m < (Utf8.decode s).2) : ∃ b, s[m]? = some b ∧ 128 ≤ b.toNat := by
  revert h
  unfold Utf8.decode Utf8.accept Utf8.isCont
  repeat' (first | split | (dsimp only; split))
  all_goals (dsimp only; intro h; first | omega | skip)
  all_goals (have hm : m = 1 ∨ m = 2 ∨ m = 3 := by omega)
  all_goals (rcases hm with rfl | rfl | rfl <;> first | omega | (simp at *; grind))

/-- A byte of ASCII begins a character, even in a text that is no UTF-8. -/
theorem boundary_ascii {t : Str} {i : Nat} {b : Byte} (hb : t[i]? = some b) (hl : b.toNat < 128) : Boundary t i := by
  have hi : i < t.length := (List.getElem?_eq_some_iff.1 hb).1
  have key : ∀ n k, Boundary t k → k ≤ i → i - k ≤ n → Boundary t i := by
    intro n
    induction n with
    | zero =>
      intro k hk hki hn
      have : k = i := by omega
      exact this ▸ hk
    | succ n ih =>
      intro k hk hki hn
      by_cases he : k = i
      · exact he ▸ hk
      · have hw := width_pos (t := t) (i := k) (by omega)
        by_cases hn' : k + (Utf8.decode (t.drop k)).2 ≤ i
        · exact ih _ (hk.step (by omega)) hn' (by omega)
        · obtain ⟨c, hc, hc'⟩ := decode_tail (s := t.drop k) (m := i - k) (by omega) (by omega)
          rw [List.getElem?_drop, show k + (i - k) = i by omega, hb] at hc
          cases hc
          omega
  exact key i 0 .zero (by omega) (by omega)

theorem between_lits {t : Str} : ∀ {p : Str} {i j : Nat}, (∀ b ∈ p, b.toNat < 128) → i ≤ t.length →
    (Between t (lits (p.map BitVec.toNat)) i j ↔ j = i + p.length ∧ p <+: t.drop i)
  | [], i, j, _, _ => by simp [lits, Between]
  | b :: p, i, j, h, hi => by
    have hb := h b (by simp)
    have ih : ∀ {i j : Nat}, i ≤ t.length → _ := fun {i j} => between_lits (p := p) (i := i) (j := j) fun c hc => h c (by simp [hc])
    show (∃ k, (i < t.length ∧ _ ∧ k = _) ∧ Between t (lits (p.map BitVec.toNat)) k j) ↔ _
    constructor
    · rintro ⟨k, ⟨hl, hc, rfl⟩, hj⟩
      have hc : (Utf8.decode (t.drop i)).1 = b.toNat := by simp at hc; omega
      obtain ⟨b', s', hs, hlow⟩ := decode_is_low (s := t.drop i) (by omega)
      rw [hs, decode_low hlow] at hc
      have hbb : b' = b := BitVec.eq_of_toNat_eq hc
      subst hbb
      rw [hs, decode_low hlow] at hj
      obtain ⟨hj, hp⟩ := (ih (by omega)).1 hj
      have hd : t.drop (i + 1) = s' := by rw [← List.drop_drop, hs]; rfl
      rw [hd] at hp
      refine ⟨by simp only [List.length_cons]; omega, ?_⟩
      rw [hs]
      exact List.prefix_cons_inj b' |>.2 hp
    · rintro ⟨rfl, hp⟩
      obtain ⟨s', hs⟩ : ∃ s', t.drop i = b :: s' := by
        obtain ⟨w, hw⟩ := hp
        exact ⟨p ++ w, hw.symm⟩
      have hl : i < t.length := by
        have := congrArg List.length hs
        simp at this
        omega
      rw [hs, decode_low hb]
      refine ⟨i + 1, ⟨hl, by simp, rfl⟩, (ih (by omega)).2 ⟨by simp only [List.length_cons]; omega, ?_⟩⟩
      have hd : t.drop (i + 1) = s' := by rw [← List.drop_drop, hs]; rfl
      rw [hd]
      rw [hs] at hp
      exact (List.prefix_cons_inj b).1 hp

theorem plain_somewhere {p t : Str} (h : ∀ b ∈ p, b.toNat < 128) :
    (∃ i j, Boundary t i ∧ Between t (lits (p.map BitVec.toNat)) i j) ↔ ∃ pre post, t = pre ++ p ++ post := by
  constructor
  · rintro ⟨i, j, hi, hb⟩
    obtain ⟨_, w, hw⟩ := (between_lits h hi.le).1 hb
    exact ⟨t.take i, w, by rw [List.append_assoc, hw, List.take_append_drop]⟩
  · rintro ⟨pre, post, rfl⟩
    match p, h with
    | [], h => exact ⟨0, 0, .zero, (between_lits h (by omega)).2 ⟨rfl, List.nil_prefix⟩⟩
    | b :: p, h =>
      exact ⟨pre.length, pre.length + (b :: p).length, boundary_ascii (b := b) (by simp) (h b (by simp)),
        (between_lits h (by simp)).2 ⟨rfl, post, by simp⟩⟩

/-- C140, a plain text as a pattern: `RegExMatch` tells if the text contains it, and `RegExVal` returns it or the empty text. -/
theorem C140_literal {p t : Str} (h : ∀ b ∈ p, Plain b.toNat) (hl : p.length ≤ 1000) :
    (fnRegEx (P := Lib.go R.withRegexp) (.string p) (.string t) false = .ok (.boolean true) ∧
        fnRegEx (P := Lib.go R.withRegexp) (.string p) (.string t) true = .ok (.string p) ∧ ∃ pre post, t = pre ++ p ++ post) ∨
      fnRegEx (P := Lib.go R.withRegexp) (.string p) (.string t) false = .ok (.boolean false) ∧
        fnRegEx (P := Lib.go R.withRegexp) (.string p) (.string t) true = .ok (.string []) ∧ ¬ ∃ pre post, t = pre ++ p ++ post := by
  have hlow : ∀ b ∈ p, b.toNat < 128 := fun b hb => (h b hb).1
  obtain ⟨b, hm, hb⟩ := C140_match_partial (R := R) (t := t) (compile_plain h hl)
  obtain ⟨v, hv, hv'⟩ := C140_value (R := R) (t := t) (compile_plain h hl)
  rw [plain_somewhere hlow] at hb
  rcases hv' with ⟨i, j, hi, hbt, hij, hj, rfl, _⟩ | ⟨hno, rfl⟩
  · have hs := (plain_somewhere hlow).1 ⟨i, j, hi, hbt⟩
    obtain ⟨rfl, w, hw⟩ := (between_lits hlow hi.le).1 hbt
    have hval : (t.take (i + p.length)).drop i = p := by
      rw [List.drop_take, ← hw]
      simp
    rw [hval] at hv
    rw [hb.2 hs] at hm
    exact .inl ⟨hm, hv, hs⟩
  · have hs : ¬ ∃ pre post, t = pre ++ p ++ post := by
      rw [← plain_somewhere hlow]
      rintro ⟨i, j, hi, hbt⟩
      exact hno i hi j hbt
    have : b = false := by
      cases b with
      | false => rfl
      | true => exact absurd (hb.1 rfl) hs
    rw [this] at hm
    exact .inr ⟨hm, hv, hs⟩

example : ∀ b ∈ lit "PPA:12]", Plain b.toNat := by decide +kernel

/-! ## Every expression can be written -/

/-- A character in a class. -/
def writeChar (c : Nat) : List Nat := if c < 128 ∧ alnum c = false then [92, c] else [c]

/-- A class. -/
def writeSet (neg : Bool) (rs : List (Nat × Nat)) : List Nat :=
  91 :: (if neg then [94] else []) ++ (rs.flatMap fun r => writeChar r.1 ++ 45 :: writeChar r.2) ++ [93]

/-- In parentheses. -/
def paren (s : List Nat) : List Nat := 40 :: s ++ [41]

/-- An expression, its parts in parentheses. -/
def write : Rx → List Nat
  | .eps => []
  | .set neg rs => writeSet neg rs
  | .first => [94]
  | .last => [36]
  | .word neg => [92, if neg then 66 else 98]
  | .cat a b => paren (write a) ++ paren (write b)
  | .alt a b => paren (write a) ++ 124 :: paren (write b)
  | .star g a => paren (write a) ++ 42 :: (if g then [] else [63])
  | .plus g a => paren (write a) ++ 43 :: (if g then [] else [63])
  | .opt g a => paren (write a) ++ 63 :: (if g then [] else [63])

/-- The expressions that can be written: a set has at least one range, and the ends of ranges are characters other than U+FFFD, in order. -/
def Rx.Wf : Rx → Prop
  | .set _ rs => rs ≠ [] ∧ ∀ r ∈ rs, r.1 ≤ r.2 ∧ Utf8.Valid r.1 ∧ Utf8.Valid r.2 ∧ r.1 ≠ 0xFFFD ∧ r.2 ≠ 0xFFFD
  | .cat a b => a.Wf ∧ b.Wf
  | .alt a b => a.Wf ∧ b.Wf
  | .star _ a => a.Wf
  | .plus _ a => a.Wf
  | .opt _ a => a.Wf
  | _ => True

/-- The parts of what is written. -/
def parts : Rx → List Tok
  | .eps => []
  | .set neg rs => [.atom (.set neg rs)]
  | .first => [.atom .first]
  | .last => [.atom .last]
  | .word neg => [.atom (.word neg)]
  | .cat a b => .lparen :: parts a ++ .rparen :: .lparen :: parts b ++ [.rparen]
  | .alt a b => .lparen :: parts a ++ .rparen :: .bar :: .lparen :: parts b ++ [.rparen]
  | .star g a => .lparen :: parts a ++ [.rparen, .rep 42 g]
  | .plus g a => .lparen :: parts a ++ [.rparen, .rep 43 g]
  | .opt g a => .lparen :: parts a ++ [.rparen, .rep 63 g]

/-- What is read back. -/
def back : Rx → Rx
  | .eps => .eps
  | .cat a b => .cat (back a) (.cat (back b) .eps)
  | .alt a b => .alt (.cat (back a) .eps) (.cat (back b) .eps)
  | .star g a => .cat (.star g (back a)) .eps
  | .plus g a => .cat (.plus g (back a)) .eps
  | .opt g a => .cat (.opt g (back a)) .eps
  | r => .cat r .eps

theorem writeChar_cases (c : Nat) : (writeChar c = [92, c] ∧ c < 128 ∧ alnum c = false) ∨ writeChar c = [c] ∧ (128 ≤ c ∨ alnum c = true) := by
  unfold writeChar
  split
  · exact .inl ⟨rfl, ‹_›⟩
  · refine .inr ⟨rfl, ?_⟩
    cases h : alnum c <;> simp_all

theorem classChar_write (c : Nat) (s : List Nat) : classChar (writeChar c ++ s) = .ok (c, s) := by
  rcases writeChar_cases c with ⟨h, hl, ha⟩ | ⟨h, ha⟩
  · rw [h]
    show (match escape c with | .ok c => Read.ok (c, s) | .bad => .bad | .open_ => .open_) = _
    unfold escape
    rw [if_pos ⟨hl, ha⟩]
  · rw [h]
    have hne : c ≠ 92 := by
      rintro rfl
      rcases ha with ha | ha
      · omega
      · exact absurd ha (by decide)
    show classChar (c :: s) = _
    unfold classChar
    split <;> simp_all

/-- The first of the characters that are written. -/
theorem writeChar_head (c : Nat) : ∃ d w, writeChar c = d :: w ∧ d ≠ 93 ∧ d ≠ 94 ∧ d ≠ 91 := by
  rcases writeChar_cases c with ⟨h, hl, ha⟩ | ⟨h, ha⟩
  · exact ⟨92, [c], h, by decide, by decide, by decide⟩
  · refine ⟨c, [], h, ?_, ?_, ?_⟩ <;> (rintro rfl; revert ha; decide)

theorem perlClass_none {c : Nat} (ha : alnum c = false) : perlClass c = none := by
  unfold perlClass
  unfold alnum at ha
  simp at ha
  grind

theorem class_plain (c : Nat) (s : List Nat) : classOpen (writeChar c ++ s) = false ∧ classEscape (writeChar c ++ s) = none := by
  rcases writeChar_cases c with ⟨h, hl, ha⟩ | ⟨h, ha⟩
  · rw [h]
    refine ⟨?_, ?_⟩
    · show decide (c = 112 ∨ c = 80) = false
      rw [decide_eq_false_iff_not]
      rintro (rfl | rfl) <;> exact absurd ha (by decide)
    · show (perlClass c).map _ = none
      rw [perlClass_none ha]
      rfl
  · rw [h]
    have h1 : c ≠ 92 := by rintro rfl; revert ha; decide
    have h2 : c ≠ 91 := by rintro rfl; revert ha; decide
    refine ⟨?_, ?_⟩
    · show classOpen (c :: s) = false
      unfold classOpen
      split <;> simp_all
    · show classEscape (c :: s) = none
      unfold classEscape
      split <;> simp_all

theorem rangeEnd_write {lo hi : Nat} (h : lo ≤ hi) (s : List Nat) : rangeEnd lo (45 :: writeChar hi ++ s) = .ok (hi, s) := by
  obtain ⟨d, w, hw, h93, _⟩ := writeChar_head hi
  have hc := classChar_write hi s
  rw [hw] at hc ⊢
  show (if d = 93 then _ else match classChar (d :: (w ++ s)) with
    | .ok (hi, s) => if hi < lo then Read.bad else .ok (hi, s)
    | .bad => .bad
    | .open_ => .open_) = _
  rw [if_neg h93]
  rw [List.cons_append] at hc
  rw [hc]
  dsimp only
  rw [if_neg (by omega)]

theorem classRanges_write : ∀ (rs acc : List (Nat × Nat)) (start : Bool) (s : List Nat) (n : Nat), (∀ r ∈ rs, r.1 ≤ r.2) → rs.length + 1 ≤ n →
    (start = true → rs ≠ []) →
    classRanges n start acc ((rs.flatMap fun r => writeChar r.1 ++ 45 :: writeChar r.2) ++ 93 :: s) = .ok (acc ++ rs, s)
  | [], acc, start, s, n, _, hn, hs => by
    match n, hn with
    | n + 1, _ =>
      have : start = false := by
        cases start with
        | false => rfl
        | true => exact absurd rfl (hs rfl)
      subst this
      simp [classRanges]
  | r :: rs, acc, start, s, n, h, hn, _ => by
    match n, hn with
    | n + 1, hn =>
      have ht : ((r :: rs).flatMap fun r => writeChar r.1 ++ 45 :: writeChar r.2) ++ 93 :: s =
          writeChar r.1 ++ (45 :: writeChar r.2 ++ ((rs.flatMap fun r => writeChar r.1 ++ 45 :: writeChar r.2) ++ 93 :: s)) := by simp
      rw [ht, classRanges]
      obtain ⟨d, w, hw, h93, _⟩ := writeChar_head r.1
      rw [if_neg (by rw [hw]; simp [h93]), if_neg (by rw [(class_plain _ _).1]; simp), (class_plain _ _).2]
      dsimp only
      rw [classChar_write]
      dsimp only
      rw [rangeEnd_write (h r (by simp))]
      dsimp only
      rw [classRanges_write rs _ false s n (fun r hr => h r (by simp [hr])) (by simp at hn; omega) (by simp)]
      simp

theorem flatMap_le (rs : List (Nat × Nat)) : rs.length ≤ (rs.flatMap fun r => writeChar r.1 ++ 45 :: writeChar r.2).length := by
  induction rs with
  | nil => simp
  | cons r rs ih => simp; omega

theorem classRest_write (neg : Bool) {rs : List (Nat × Nat)} (hne : rs ≠ []) (h : ∀ r ∈ rs, r.1 ≤ r.2) (s : List Nat) :
    classRest ((if neg then [94] else []) ++ (rs.flatMap fun r => writeChar r.1 ++ 45 :: writeChar r.2) ++ 93 :: s) = .ok (.set neg rs, s) := by
  have hl := flatMap_le rs
  cases neg with
  | true =>
    show (match classRanges _ true [] ((rs.flatMap fun r => writeChar r.1 ++ 45 :: writeChar r.2) ++ 93 :: s) with
      | .ok (rs, s) => Read.ok (Rx.set true rs, s)
      | .bad => .bad
      | .open_ => .open_) = _
    rw [classRanges_write rs [] true s _ h (by simp; omega) fun _ => hne]
    rfl
  | false =>
    obtain ⟨d, w, hw, _, h94, _⟩ : ∃ d w, (rs.flatMap fun r => writeChar r.1 ++ 45 :: writeChar r.2) ++ 93 :: s = d :: w ∧ d ≠ 93 ∧ d ≠ 94 ∧ d ≠ 91 := by
      match rs, hne with
      | r :: rs, _ =>
        obtain ⟨d, w, hw, hd⟩ := writeChar_head r.1
        exact ⟨d, _, by rw [List.flatMap_cons, hw]; rfl, hd⟩
    have hc := classRanges_write rs [] true s (d :: w).length.succ h (by rw [← hw]; simp; omega) fun _ => hne
    rw [hw] at hc
    rw [if_neg (by simp), List.nil_append, hw]
    unfold classRest
    split
    · simp_all
    · rw [show (d :: w).length + 1 = (d :: w).length.succ from rfl, hc]
      rfl

theorem next_set (neg : Bool) {rs : List (Nat × Nat)} (hne : rs ≠ []) (h : ∀ r ∈ rs, r.1 ≤ r.2) (s : List Nat) {ks : List Tok} (ht : Toks s ks) :
    Toks (writeSet neg rs ++ s) (.atom (.set neg rs) :: ks) := by
  have hc := classRest_write neg hne h s
  have : writeSet neg rs ++ s = 91 :: ((if neg then [94] else []) ++ (rs.flatMap fun r => writeChar r.1 ++ 45 :: writeChar r.2) ++ 93 :: s) := by
    simp [writeSet]
  rw [this]
  refine toks_cons (s' := s) ?_ (by simp; omega) ht
  unfold next
  simp only [Nat.reduceEqDiff, if_false, or_self, if_true]
  rw [hc]

theorem write_head (r : Rx) (s : List Nat) : (write r ++ 41 :: s).head? ≠ some 63 := by
  cases r <;> simp [write, writeSet, paren]

theorem toks_paren {r : Rx} {s : List Nat} {ks : List Tok} (h : Toks (write r ++ 41 :: s) (parts r ++ .rparen :: ks)) :
    Toks (paren (write r) ++ s) (.lparen :: parts r ++ .rparen :: ks) := by
  have : paren (write r) ++ s = 40 :: (write r ++ 41 :: s) := by simp [paren]
  rw [this]
  refine toks_cons (s' := write r ++ 41 :: s) ?_ (Nat.le_refl _) h
  unfold next
  rw [if_pos rfl, if_neg (write_head r s)]

theorem toks_close {s : List Nat} {ks : List Tok} (h : Toks s ks) : Toks (41 :: s) (.rparen :: ks) := toks_cons rfl (Nat.le_refl _) h

theorem toks_rep {kind : Nat} (hk : kind = 42 ∨ kind = 43 ∨ kind = 63) (g : Bool) {s : List Nat} {ks : List Tok} (h : Toks (41 :: s) ks) :
    Toks (kind :: (if g then [] else [63]) ++ 41 :: s) (.rep kind g :: ks) := by
  cases g with
  | true =>
    refine toks_cons (s := 41 :: s) (s' := 41 :: s) ?_ (by simp) h
    rcases hk with rfl | rfl | rfl <;> rfl
  | false =>
    refine toks_cons (s := 63 :: 41 :: s) (s' := 41 :: s) ?_ (by simp) h
    rcases hk with rfl | rfl | rfl <;> rfl

/-- Reading what was written gives its parts. -/
theorem toks_write : ∀ (r : Rx), r.Wf → ∀ (s : List Nat) (ks : List Tok), Toks (41 :: s) ks → Toks (write r ++ 41 :: s) (parts r ++ ks)
  | .eps, _, _, _, h => h
  | .set neg rs, hw, s, ks, h => next_set neg hw.1 (fun r hr => (hw.2 r hr).1) _ h
  | .first, _, _, _, h => toks_cons rfl (Nat.le_refl _) h
  | .last, _, _, _, h => toks_cons rfl (Nat.le_refl _) h
  | .word neg, _, s, ks, h => by
    cases neg
    · exact toks_cons (s := 98 :: 41 :: s) (s' := 41 :: s) rfl (by simp) h
    · exact toks_cons (s := 66 :: 41 :: s) (s' := 41 :: s) rfl (by simp) h
  | .cat a b, hw, s, ks, h => by
    have h2 := toks_paren (toks_write b hw.2 _ _ (toks_close h))
    have h1 := toks_paren (toks_write a hw.1 _ _ (toks_close h2))
    simpa [write, parts] using h1
  | .alt a b, hw, s, ks, h => by
    have h2 := toks_paren (toks_write b hw.2 _ _ (toks_close h))
    have h3 : Toks (124 :: (paren (write b) ++ 41 :: s)) _ := toks_cons (k := .bar) rfl (Nat.le_refl _) h2
    have h1 := toks_paren (toks_write a hw.1 _ _ (toks_close h3))
    simpa [write, parts] using h1
  | .star g a, hw, s, ks, h => by
    have h1 := toks_paren (toks_write a hw _ _ (toks_close (toks_rep (kind := 42) (by simp) g h)))
    simpa [write, parts] using h1
  | .plus g a, hw, s, ks, h => by
    have h1 := toks_paren (toks_write a hw _ _ (toks_close (toks_rep (kind := 43) (by simp) g h)))
    simpa [write, parts] using h1
  | .opt g a, hw, s, ks, h => by
    have h1 := toks_paren (toks_write a hw _ _ (toks_close (toks_rep (kind := 63) (by simp) g h)))
    simpa [write, parts] using h1

/-- The parser makes of the parts in parentheses what is read back. -/
theorem build_paren : ∀ (r : Rx) (outer : List Frame) (f : Frame) (ks : List Tok) (b : Bool),
    build (.lparen :: parts r ++ .rparen :: ks) outer f b = build ks outer { f with items := back r :: f.items } false
  | .eps, outer, f, ks, b => rfl
  | .set neg rs, outer, f, ks, b => rfl
  | .first, outer, f, ks, b => rfl
  | .last, outer, f, ks, b => rfl
  | .word _, outer, f, ks, b => rfl
  | .cat x y, outer, f, ks, b => by
    have h1 := build_paren x (f :: outer) ⟨[], []⟩ (.lparen :: parts y ++ .rparen :: .rparen :: ks) false
    have h2 := build_paren y (f :: outer) ⟨[], [back x]⟩ (.rparen :: ks) false
    simp only [parts, List.cons_append, List.append_assoc, List.nil_append] at h1 h2 ⊢
    rw [build, h1, h2]
    rfl
  | .alt x y, outer, f, ks, b => by
    have h1 := build_paren x (f :: outer) ⟨[], []⟩ (.bar :: .lparen :: parts y ++ .rparen :: .rparen :: ks) false
    have h2 := build_paren y (f :: outer) ⟨[concat [back x]], []⟩ (.rparen :: ks) false
    simp only [parts, List.cons_append, List.append_assoc, List.nil_append] at h1 h2 ⊢
    rw [build, h1, build, h2]
    rfl
  | .star g x, outer, f, ks, b => by
    have h1 := build_paren x (f :: outer) ⟨[], []⟩ (.rep 42 g :: .rparen :: ks) false
    simp only [parts, List.cons_append, List.append_assoc, List.nil_append] at h1 ⊢
    rw [build, h1]
    rfl
  | .plus g x, outer, f, ks, b => by
    have h1 := build_paren x (f :: outer) ⟨[], []⟩ (.rep 43 g :: .rparen :: ks) false
    simp only [parts, List.cons_append, List.append_assoc, List.nil_append] at h1 ⊢
    rw [build, h1]
    rfl
  | .opt g x, outer, f, ks, b => by
    have h1 := build_paren x (f :: outer) ⟨[], []⟩ (.rep 63 g :: .rparen :: ks) false
    simp only [parts, List.cons_append, List.append_assoc, List.nil_append] at h1 ⊢
    rw [build, h1]
    rfl

theorem ends_cat_eps (t : Str) (r : Rx) : ends t (.cat r .eps) = ends t r := by
  funext i
  rw [ends]
  show (ends t r i).flatMap (fun i => [i]) = _
  simp

/-- What is read back is searched for in the same way. -/
theorem ends_back (t : Str) : ∀ r, ends t (back r) = ends t r
  | .eps => rfl
  | .set _ _ => ends_cat_eps t _
  | .first => ends_cat_eps t _
  | .last => ends_cat_eps t _
  | .word _ => ends_cat_eps t _
  | .cat a b => by
    funext i
    rw [back, ends, ends, ends_back t a, ends_cat_eps, ends_back t b]
  | .alt a b => by
    funext i
    show ends t (.cat (back a) .eps) i ++ ends t (.cat (back b) .eps) i = ends t a i ++ ends t b i
    rw [ends_cat_eps, ends_cat_eps, ends_back t a, ends_back t b]
  | .star g a => by
    rw [back, ends_cat_eps]
    funext i
    rw [ends, ends, ends_back t a]
  | .plus g a => by
    rw [back, ends_cat_eps]
    funext i
    rw [ends, ends, ends_back t a]
  | .opt g a => by
    rw [back, ends_cat_eps]
    funext i
    rw [ends, ends, ends_back t a]

/-- The characters that may be in a pattern that is not left open. -/
def Char (c : Nat) : Prop := Utf8.Valid c ∧ c ≠ 0xFFFD

theorem char_low {c : Nat} (h : c < 128) : Char c := by
  unfold Char Utf8.Valid
  omega

theorem writeChar_char {c : Nat} (h : Char c) : ∀ d ∈ writeChar c, Char d := by
  rcases writeChar_cases c with ⟨hw, _⟩ | ⟨hw, _⟩ <;> rw [hw] <;> simp [h, char_low]

theorem paren_char {s : List Nat} (h : ∀ c ∈ s, Char c) : ∀ c ∈ paren s, Char c := by
  intro c hc
  simp only [paren, List.cons_append, List.mem_cons, List.mem_append, List.not_mem_nil, or_false] at hc
  rcases hc with rfl | hc | rfl
  · exact char_low (by decide)
  · exact h c hc
  · exact char_low (by decide)

theorem rep_char (kind : Nat) (hk : kind < 128) (g : Bool) {s : List Nat} (h : ∀ c ∈ s, Char c) :
    ∀ c ∈ s ++ kind :: (if g then [] else [63]), Char c := by
  intro c hc
  rcases List.mem_append.1 hc with hc | hc
  · exact h c hc
  · cases g <;> simp at hc <;> rcases hc with rfl | rfl <;> exact char_low (by omega)

theorem write_char : ∀ (r : Rx), r.Wf → ∀ c ∈ write r, Char c
  | .eps, _, c, hc => by cases hc
  | .set neg rs, hw, c, hc => by
    simp only [write, writeSet, List.cons_append, List.mem_cons, List.mem_append, List.mem_flatMap, List.not_mem_nil, or_false] at hc
    rcases hc with rfl | (hc | ⟨r, hr, hc | rfl | hc⟩) | rfl
    · exact char_low (by decide)
    · cases neg <;> simp at hc
      subst hc
      exact char_low (by decide)
    · obtain ⟨_, h1, _, h3, _⟩ := hw.2 r hr
      exact writeChar_char ⟨h1, h3⟩ c hc
    · exact char_low (by decide)
    · obtain ⟨_, _, h1, _, h3⟩ := hw.2 r hr
      exact writeChar_char ⟨h1, h3⟩ c hc
    · exact char_low (by decide)
  | .first, _, c, hc => by simp [write] at hc; subst hc; exact char_low (by decide)
  | .last, _, c, hc => by simp [write] at hc; subst hc; exact char_low (by decide)
  | .word neg, _, c, hc => by
    cases neg <;> simp [write] at hc <;> rcases hc with rfl | rfl <;> exact char_low (by decide)
  | .cat a b, hw, c, hc => by
    rcases List.mem_append.1 hc with hc | hc
    · exact paren_char (write_char a hw.1) c hc
    · exact paren_char (write_char b hw.2) c hc
  | .alt a b, hw, c, hc => by
    rcases List.mem_append.1 hc with hc | hc
    · exact paren_char (write_char a hw.1) c hc
    · rcases List.mem_cons.1 hc with rfl | hc
      · exact char_low (by decide)
      · exact paren_char (write_char b hw.2) c hc
  | .star g a, hw, c, hc => rep_char 42 (by decide) g (paren_char (write_char a hw)) c hc
  | .plus g a, hw, c, hc => rep_char 43 (by decide) g (paren_char (write_char a hw)) c hc
  | .opt g a, hw, c, hc => rep_char 63 (by decide) g (paren_char (write_char a hw)) c hc

theorem compile_text {s : List Nat} (h : ∀ c ∈ s, Char c) (hl : (Utf8.text s).length ≤ 1000) : compile (Utf8.text s) = parse s := by
  have hr := Utf8.runes_text fun c hc => (h c hc).1
  unfold compile
  rw [hr, if_neg (by simp), if_neg]
  rintro (h' | h')
  · omega
  · exact (h _ h').2 rfl

theorem parse_paren {r : Rx} (hw : r.Wf) : parse (paren (write r)) = .ok (.cat (back r) .eps) := by
  have ht := toks_paren (r := r) (s := []) (toks_write r hw _ _ (toks_close toks_nil))
  rw [List.append_nil] at ht
  unfold parse
  rw [ht _ (Nat.le_refl _)]
  dsimp only
  rw [build_paren]
  rfl

theorem parse_whole {r : Rx} (hw : r.Wf) : parse (94 :: paren (write r) ++ [36]) = .ok (.cat .first (.cat (back r) (.cat .last .eps))) := by
  have hd : Toks [36] [.atom .last] := toks_cons rfl (Nat.le_refl _) toks_nil
  have ht := toks_paren (r := r) (toks_write r hw _ _ (toks_close hd))
  have ht : Toks (94 :: (paren (write r) ++ [36])) _ := toks_cons (k := .atom .first) rfl (Nat.le_refl _) ht
  unfold parse
  rw [List.cons_append, ht _ (Nat.le_refl _)]
  dsimp only
  rw [build, build_paren]
  rfl

theorem between_back {t : Str} {r : Rx} {i j : Nat} (hi : i ≤ t.length) : Between t (back r) i j ↔ Between t r i j := by
  rw [← mem_ends _ i hi, ends_back, mem_ends r i hi]

/-- C140, every expression can be written: the pattern is accepted, and searching for it is searching for the expression. -/
theorem C140_written {r : Rx} (hw : r.Wf) (hl : (Utf8.text (paren (write r))).length ≤ 1000) :
    ∃ r', compile (Utf8.text (paren (write r))) = .ok r' ∧
      ∀ t, find t r' = find t r ∧ ∀ i j, i ≤ t.length → (Between t r' i j ↔ Between t r i j) := by
  refine ⟨.cat (back r) .eps, ?_, fun t => ?_⟩
  · rw [compile_text (paren_char (write_char r hw)) hl, parse_paren hw]
  · have he : ends t (.cat (back r) .eps) = ends t r := by rw [ends_cat_eps, ends_back]
    refine ⟨?_, fun i j hi => ?_⟩
    · have : ∀ n i, search t (.cat (back r) .eps) n i = search t r n i := by
        intro n
        induction n with
        | zero => intro i; rfl
        | succ n ih =>
          intro i
          rw [search, search, he]
          cases ends t r i with
          | nil => dsimp only; rw [ih]
          | cons => rfl
      exact this _ _
    · rw [← mem_ends _ i hi, he, mem_ends r i hi]

/-- C140, the whole text: between `^` and `$` an expression has to match all of it. -/
theorem C140_whole {r : Rx} (hw : r.Wf) (hl : (Utf8.text (94 :: paren (write r) ++ [36])).length ≤ 1000) (t : Str) :
    ∃ b, fnRegEx (P := Lib.go R.withRegexp) (.string (Utf8.text (94 :: paren (write r) ++ [36]))) (.string t) false = .ok (.boolean b) ∧
      (b = true ↔ Between t r 0 t.length) := by
  have hc : ∀ c ∈ 94 :: paren (write r) ++ [36], Char c := by
    intro c hc
    simp only [List.cons_append, List.mem_cons, List.mem_append, List.not_mem_nil, or_false] at hc
    rcases hc with rfl | hc | rfl
    · exact char_low (by decide)
    · exact paren_char (write_char r hw) c hc
    · exact char_low (by decide)
  obtain ⟨b, hm, hb⟩ := C140_match_partial (R := R) (t := t) ((compile_text hc hl).trans (parse_whole hw))
  refine ⟨b, hm, hb.trans ?_⟩
  constructor
  · rintro ⟨i, j, hi, k, ⟨rfl, rfl⟩, m, hm, n, ⟨rfl, rfl⟩, _⟩
    exact (between_back (Nat.zero_le _)).1 hm
  · intro h
    exact ⟨0, t.length, .zero, 0, ⟨rfl, rfl⟩, t.length, (between_back (Nat.zero_le _)).2 h, t.length, ⟨rfl, rfl⟩, rfl⟩

/-- C140, not every result can be told from no match: a pattern that matches the empty text, and one that matches nowhere, both give the empty text. -/
theorem C140_value_false : ∃ p q t : Str,
    fnRegEx (P := Lib.go R.withRegexp) (.string p) (.string t) true = fnRegEx (P := Lib.go R.withRegexp) (.string q) (.string t) true ∧
    fnRegEx (P := Lib.go R.withRegexp) (.string p) (.string t) false = .ok (.boolean true) ∧
    fnRegEx (P := Lib.go R.withRegexp) (.string q) (.string t) false = .ok (.boolean false) := by
  refine ⟨lit "x*", lit "x", lit "ab", ?_, ?_, ?_⟩
  · rw [value_eq (r := .cat (.star true (.set false [(120, 120)])) .eps) (by decide +kernel), value_eq (r := .cat (.set false [(120, 120)]) .eps) (by decide +kernel)]
    exact congrArg (fun v : Str => (Res.ok (Val.string v) : Res (Val (Lib.go R.withRegexp)))) (by decide +kernel)
  · have := find_ok (R := R) (p := lit "x*") (t := lit "ab") (r := .cat (.star true (.set false [(120, 120)])) .eps) (by decide +kernel)
    simp only [fnRegEx, Val.type, Val.isNull, Val.stringValue]
    simp [this]
    decide +kernel
  · have := find_ok (R := R) (p := lit "x") (t := lit "ab") (r := .cat (.set false [(120, 120)]) .eps) (by decide +kernel)
    simp only [fnRegEx, Val.type, Val.isNull, Val.stringValue]
    simp [this]
    decide +kernel

/-- C140, the matched text is not the longest: an alternative that matches is preferred to a later, longer one. -/
theorem C140_longest_false : ∃ (p t : Str) (r : Rx) (i j : Nat), compile p = .ok r ∧ Boundary t i ∧ Between t r i j ∧
    ∃ v : Str, fnRegEx (P := Lib.go R.withRegexp) (.string p) (.string t) true = .ok (.string v) ∧ v.length < j - i ∧
      ∃ j', Between t r i j' ∧ v = (t.take j').drop i := by
  have hr : compile (lit "a|ab") = .ok (.alt (.cat (.set false [(97, 97)]) .eps) (.cat (.set false [(97, 97)]) (.cat (.set false [(98, 98)]) .eps))) := by
    decide +kernel
  refine ⟨lit "a|ab", lit "ab", _, 0, 2, hr, .zero, (mem_ends _ 0 (by decide) 2).1 (by decide +kernel), lit "a", ?_, by decide, 1,
    (mem_ends _ 0 (by decide) 1).1 (by decide +kernel), by decide⟩
  rw [value_eq hr]
  exact congrArg (fun v : Str => (Res.ok (Val.string v) : Res (Val (Lib.go R.withRegexp)))) (by decide +kernel)

/-! ## Concrete cases -/

/-- Meeting the hypotheses: phase angles of a device, a pattern with groups, a class, repetition and `$`. -/
example : ∃ r, compile (lit "^(PPA|SHELBY)-[A-Z_\\d]+(:PA\\d+)?$") = .ok r ∧ find (lit "SHELBY-BUS_1:PA12") r = some (0, 17) ∧
    find (lit "SHELBY-BUS_1:PM12") r = none := by
  refine ⟨_, rfl, ?_, ?_⟩ <;> decide +kernel

/-- A run in the middle of a text: the first whole number. -/
example : compile (lit "\\d+") = .ok (.cat (.plus true (.set false [(48, 57)])) .eps) ∧ find (lit "PPA:12-34") (.plus true (.set false [(48, 57)])) = some (4, 6) := by
  refine ⟨?_, ?_⟩ <;> decide +kernel

/-- What is refused. -/
example : ∀ p ∈ ["a**", "*a", "(a", "a)", "[a", "[b-a]", "a|*", "\\", "\\y", "(*)"], compile (lit p) = .bad := by decide +kernel

/-- An expression that can be written. -/
example : (Rx.cat (.star false (.set true [(48, 57), (0xE9, 0xE9)])) (.alt (.word true) .eps)).Wf ∧
    Utf8.text (paren (write (.cat (.star false (.set true [(48, 57), (93, 122)])) (.alt (.word true) .eps)))) = lit "((([^0-9\\]-z])*?)((\\B)|()))" := by
  refine ⟨?_, by decide +kernel⟩
  simp [Rx.Wf, Utf8.Valid]

end Verif.Regexp
