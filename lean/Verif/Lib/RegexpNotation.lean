import Verif.Lib.RegexpText
import Verif.Lib.RegexpOrder

/-!
# C140: what the signs of a pattern mean
-/

namespace Verif.Regexp

open Verif.Expr

variable {R : Lib.Rest}

/-- The sets that a letter after a backslash stands for: digits, white space, word characters, and the others. -/
def letters : List (Nat × List (Nat × Nat)) :=
  [(100, [(48, 57)]), (115, [(9, 10), (12, 13), (32, 32)]), (119, [(48, 57), (65, 90), (95, 95), (97, 122)]),
    (68, [(0, 47), (58, 0x10FFFF)]), (83, [(0, 8), (11, 11), (14, 31), (33, 0x10FFFF)]),
    (87, [(0, 47), (58, 64), (91, 94), (96, 96), (123, 0x10FFFF)])]

/-- A capital stands for the characters that its small letter does not. -/
theorem letters_complement : ∀ c ≤ 0x10FFFF,
    (inSet false [(0, 47), (58, 0x10FFFF)] c = !inSet false [(48, 57)] c) ∧
    (inSet false [(0, 8), (11, 11), (14, 31), (33, 0x10FFFF)] c = !inSet false [(9, 10), (12, 13), (32, 32)] c) ∧
    (inSet false [(0, 47), (58, 64), (91, 94), (96, 96), (123, 0x10FFFF)] c = !inSet false [(48, 57), (65, 90), (95, 95), (97, 122)] c) := by
  intro c hc
  simp only [inSet, List.any_cons, List.any_nil, Bool.or_false, Bool.false_bne]
  refine ⟨?_, ?_, ?_⟩ <;> (rw [Bool.eq_iff_iff]; simp; omega)

/-- What is in brackets: a character, a range, or a set by its letter. -/
inductive Part : List Nat → List (Nat × Nat) → Prop
  | one {c : Nat} (h : c ∉ [45, 91, 92, 93, 94]) : Part [c] [(c, c)]
  | range {lo hi : Nat} (h : lo ∉ [45, 91, 92, 93, 94]) (h' : hi ∉ [45, 91, 92, 93, 94]) (hle : lo ≤ hi) : Part [lo, 45, hi] [(lo, hi)]
  | letter {c : Nat} {rs : List (Nat × Nat)} (h : (c, rs) ∈ letters) : Part [92, c] rs

/-- The signs of a pattern and what they stand for. In brackets a closing bracket stands for itself at the start and a hyphen at the end. -/
inductive Sign : List Nat → Rx → Prop
  | plain {c : Nat} (h : c ∉ [40, 41, 124, 42, 43, 63, 123, 94, 36, 46, 91, 92]) : Sign [c] (.set false [(c, c)])
  | any : Sign [46] (.set true [(10, 10)])
  | quoted {c : Nat} (h : c < 128) (h' : ¬ (48 ≤ c ∧ c ≤ 57 ∨ 65 ≤ c ∧ c ≤ 90 ∨ 97 ≤ c ∧ c ≤ 122)) : Sign [92, c] (.set false [(c, c)])
  | control {c d : Nat} (h : (c, d) ∈ [(97, 7), (102, 12), (110, 10), (114, 13), (116, 9), (118, 11)]) : Sign [92, c] (.set false [(d, d)])
  | letter {c : Nat} {rs : List (Nat × Nat)} (h : (c, rs) ∈ letters) : Sign [92, c] (.set false rs)
  | first : Sign [94] .first
  | start : Sign [92, 65] .first
  | last : Sign [36] .last
  | stop : Sign [92, 122] .last
  | word : Sign [92, 98] (.word false)
  | inner : Sign [92, 66] (.word true)
  | bracket (neg closing hyphen : Bool) {ps : List (List Nat × List (Nat × Nat))} (h : closing = true ∨ ps ≠ [] ∨ hyphen = true) (hp : ∀ p ∈ ps, Part p.1 p.2) :
      Sign (91 :: (if neg then [94] else []) ++ (if closing then [93] else []) ++ ps.flatMap Prod.fst ++ (if hyphen then [45] else []) ++ [93])
        (.set neg ((if closing then [(93, 93)] else []) ++ ps.flatMap Prod.snd ++ (if hyphen then [(45, 45)] else [])))

/-- A sign, by itself or repeated. -/
inductive Item : List Nat → Rx → Prop
  | once {s : List Nat} {r : Rx} (h : Sign s r) : Item s r
  | star {s : List Nat} {r : Rx} (h : Sign s r) : Item (s ++ [42]) (.star true r)
  | plus {s : List Nat} {r : Rx} (h : Sign s r) : Item (s ++ [43]) (.plus true r)
  | opt {s : List Nat} {r : Rx} (h : Sign s r) : Item (s ++ [63]) (.opt true r)
  | starFew {s : List Nat} {r : Rx} (h : Sign s r) : Item (s ++ [42, 63]) (.star false r)
  | plusFew {s : List Nat} {r : Rx} (h : Sign s r) : Item (s ++ [43, 63]) (.plus false r)
  | optFew {s : List Nat} {r : Rx} (h : Sign s r) : Item (s ++ [63, 63]) (.opt false r)

/-! ## Brackets -/

theorem perlClass_letters {c : Nat} {rs : List (Nat × Nat)} (h : (c, rs) ∈ letters) : perlClass c = some rs := by
  simp only [letters, List.mem_cons, List.not_mem_nil, or_false, Prod.mk.injEq] at h
  rcases h with ⟨rfl, rfl⟩ | ⟨rfl, rfl⟩ | ⟨rfl, rfl⟩ | ⟨rfl, rfl⟩ | ⟨rfl, rfl⟩ | ⟨rfl, rfl⟩ <;> rfl

theorem part_head {s : List Nat} {rs : List (Nat × Nat)} (h : Part s rs) : ∃ d w, s = d :: w ∧ d ≠ 93 ∧ d ≠ 94 ∧ d ≠ 45 := by
  cases h with
  | one h => exact ⟨_, [], rfl, by simp at h; omega, by simp at h; omega, by simp at h; omega⟩
  | range h h' hle => exact ⟨_, _, rfl, by simp at h; omega, by simp at h; omega, by simp at h; omega⟩
  | letter h => exact ⟨92, _, rfl, by decide, by decide, by decide⟩

theorem classChar_plain {c : Nat} (h : c ≠ 92) (s : List Nat) : classChar (c :: s) = .ok (c, s) := by
  unfold classChar
  split <;> simp_all

theorem classOpen_plain {c : Nat} (h : c ≠ 92) (h' : c ≠ 91) (s : List Nat) : classOpen (c :: s) = false := by
  unfold classOpen
  split <;> simp_all

theorem classEscape_plain {c : Nat} (h : c ≠ 92) (s : List Nat) : classEscape (c :: s) = none := by
  unfold classEscape
  split <;> simp_all

theorem rangeEnd_none {lo d : Nat} (h : d ≠ 45) (s : List Nat) : rangeEnd lo (d :: s) = .ok (lo, d :: s) := by
  unfold rangeEnd
  split <;> simp_all

theorem rangeEnd_some {lo hi : Nat} (h : hi ≠ 93) (h' : hi ≠ 92) (hle : lo ≤ hi) (s : List Nat) : rangeEnd lo (45 :: hi :: s) = .ok (hi, s) := by
  show (if hi = 93 then _ else match classChar (hi :: s) with
    | .ok (hi, s) => if hi < lo then Read.bad else .ok (hi, s)
    | .bad => .bad
    | .open_ => .open_) = _
  rw [if_neg h, classChar_plain h']
  dsimp only
  rw [if_neg (by omega)]

theorem rangeEnd_parts {u : List Nat} (hu : ∀ lo, rangeEnd lo u = .ok (lo, u)) {ps : List (List Nat × List (Nat × Nat))} (h : ∀ p ∈ ps, Part p.1 p.2) (lo : Nat) :
    rangeEnd lo (ps.flatMap Prod.fst ++ u) = .ok (lo, ps.flatMap Prod.fst ++ u) := by
  match ps, h with
  | [], _ => exact hu lo
  | p :: ps, h =>
    obtain ⟨d, w, hw, _, _, hd⟩ := part_head (h p (by simp))
    rw [List.flatMap_cons, hw]
    exact rangeEnd_none hd _

theorem classRanges_run {u : List Nat} (hu : ∀ lo, rangeEnd lo u = .ok (lo, u)) : ∀ (ps : List (List Nat × List (Nat × Nat))) (acc : List (Nat × Nat)) (start : Bool) (m : Nat),
    (∀ p ∈ ps, Part p.1 p.2) →
    classRanges (m + ps.length) start acc (ps.flatMap Prod.fst ++ u) = classRanges m (start && ps.isEmpty) (acc ++ ps.flatMap Prod.snd) u
  | [], acc, start, m, _ => by simp
  | (w, rs) :: ps, acc, start, m, h => by
    have h' : ∀ p ∈ ps, Part p.1 p.2 := fun p hp => h p (by simp [hp])
    have ih := fun acc => classRanges_run hu ps acc false m h'
    simp only [Bool.false_and] at ih
    have hr := rangeEnd_parts hu h'
    have hp : Part w rs := h (w, rs) (by simp)
    rw [List.flatMap_cons, List.flatMap_cons, List.append_assoc, ← List.append_assoc acc, List.length_cons, ← Nat.add_assoc, List.isEmpty_cons, Bool.and_false]
    generalize ps.flatMap Prod.fst ++ u = rest at ih hr ⊢
    cases hp with
    | one hc =>
      simp only [List.mem_cons, List.not_mem_nil, or_false, not_or] at hc
      obtain ⟨_, h91, h92, h93, _⟩ := hc
      show classRanges (m + ps.length + 1) start acc (_ :: rest) = _
      rw [classRanges, if_neg (by simp [h93]), if_neg (by rw [classOpen_plain h92 h91]; simp), classEscape_plain h92]
      dsimp only
      rw [classChar_plain h92]
      dsimp only
      rw [hr]
      dsimp only
      exact ih _
    | range hc hc' hle =>
      simp only [List.mem_cons, List.not_mem_nil, or_false, not_or] at hc hc'
      obtain ⟨_, h91, h92, h93, _⟩ := hc
      obtain ⟨_, g91, g92, g93, _⟩ := hc'
      show classRanges (m + ps.length + 1) start acc (_ :: 45 :: _ :: rest) = _
      rw [classRanges, if_neg (by simp [h93]), if_neg (by rw [classOpen_plain h92 h91]; simp), classEscape_plain h92]
      dsimp only
      rw [classChar_plain h92]
      dsimp only
      rw [rangeEnd_some g93 g92 hle]
      dsimp only
      exact ih _
    | @letter c rs hc =>
      show classRanges (m + ps.length + 1) start acc (92 :: c :: rest) = _
      have ho : classOpen (92 :: c :: rest) = false := by
        show decide (c = 112 ∨ c = 80) = false
        simp only [letters, List.mem_cons, List.not_mem_nil, or_false, Prod.mk.injEq] at hc
        rw [decide_eq_false_iff_not]
        omega
      have he : classEscape (92 :: c :: rest) = some (rs, rest) := by
        show (perlClass c).map _ = _
        rw [perlClass_letters hc]
        rfl
      rw [classRanges, if_neg (by simp), if_neg (by rw [ho]; simp), he]
      dsimp only
      exact ih _

/-- What a bracket may end with: nothing or a hyphen. -/
theorem classRanges_end (hyphen : Bool) (acc : List (Nat × Nat)) (start : Bool) (s : List Nat) (m : Nat) (h : start = true → hyphen = true) :
    (∀ lo, rangeEnd lo ((if hyphen then [45] else []) ++ 93 :: s) = .ok (lo, (if hyphen then [45] else []) ++ 93 :: s)) ∧
    classRanges (m + 1 + hyphen.toNat) start acc ((if hyphen then [45] else []) ++ 93 :: s) = .ok (acc ++ (if hyphen then [(45, 45)] else []), s) := by
  cases hyphen with
  | false =>
    have : start = false := by
      cases start with
      | false => rfl
      | true => exact absurd (h rfl) (by simp)
    subst this
    refine ⟨fun lo => rangeEnd_none (by decide) s, ?_⟩
    show classRanges (m + 1) false acc (93 :: s) = _
    rw [classRanges]
    simp
  | true =>
    refine ⟨fun lo => rfl, ?_⟩
    show classRanges (m + 2) start acc (45 :: 93 :: s) = _
    rw [classRanges, if_neg (by simp), if_neg (by rw [classOpen_plain (by decide) (by decide)]; simp), classEscape_plain (by decide)]
    dsimp only
    rw [classChar_plain (by decide)]
    dsimp only
    rw [rangeEnd_none (by decide)]
    dsimp only
    rw [classRanges, if_pos ⟨rfl, rfl⟩]
    rfl

/-- What is between the brackets, the circumflex aside: possibly a closing bracket, the parts, possibly a hyphen. -/
def inner (closing : Bool) (ps : List (List Nat × List (Nat × Nat))) (hyphen : Bool) : List Nat :=
  (if closing then [93] else []) ++ ps.flatMap Prod.fst ++ (if hyphen then [45] else [])

theorem classRanges_inner (closing hyphen : Bool) {ps : List (List Nat × List (Nat × Nat))} (h : ∀ p ∈ ps, Part p.1 p.2) (s : List Nat)
    (hne : closing = true ∨ ps ≠ [] ∨ hyphen = true) (m : Nat) :
    classRanges (m + 1 + hyphen.toNat + closing.toNat + ps.length) true [] (inner closing ps hyphen ++ 93 :: s) =
      .ok ((if closing then [(93, 93)] else []) ++ ps.flatMap Prod.snd ++ (if hyphen then [(45, 45)] else []), s) := by
  have hu := (classRanges_end hyphen [] false s 0 (by simp)).1
  cases closing with
  | false =>
    unfold inner
    simp only [if_neg (show ¬ false = true by simp), List.nil_append, List.append_assoc]
    rw [classRanges_run hu ps [] true _ h, List.nil_append]
    refine (classRanges_end hyphen _ _ s m fun he => ?_).2
    rcases hne with hne | hne | hne
    · cases hne
    · cases ps with
      | nil => exact absurd rfl hne
      | cons p ps => simp at he
    · exact hne
  | true =>
    unfold inner
    simp only [if_true, List.append_assoc, List.cons_append, List.nil_append]
    rw [show m + 1 + hyphen.toNat + true.toNat + ps.length = (m + 1 + hyphen.toNat + ps.length) + 1 by simp; omega, classRanges, if_neg (by simp),
      if_neg (by rw [classOpen_plain (by decide) (by decide)]; simp), classEscape_plain (by decide)]
    dsimp only
    rw [classChar_plain (by decide)]
    dsimp only
    rw [rangeEnd_parts hu h]
    dsimp only
    rw [classRanges_run hu ps _ false _ h, (classRanges_end hyphen _ _ s m (by simp)).2]
    simp

theorem parts_le : ∀ {ps : List (List Nat × List (Nat × Nat))}, (∀ p ∈ ps, Part p.1 p.2) → ps.length ≤ (ps.flatMap Prod.fst).length
  | [], _ => Nat.le_refl _
  | p :: ps, h => by
    obtain ⟨d, w, hw, _⟩ := part_head (h p (by simp))
    have := parts_le (ps := ps) fun p hp => h p (by simp [hp])
    simp [hw]
    simp at this
    omega

theorem classRest_parts (neg closing hyphen : Bool) {ps : List (List Nat × List (Nat × Nat))} (hne : closing = true ∨ ps ≠ [] ∨ hyphen = true)
    (h : ∀ p ∈ ps, Part p.1 p.2) (s : List Nat) :
    classRest ((if neg then [94] else []) ++ inner closing ps hyphen ++ 93 :: s) =
      .ok (.set neg ((if closing then [(93, 93)] else []) ++ ps.flatMap Prod.snd ++ (if hyphen then [(45, 45)] else [])), s) := by
  have hl := parts_le h
  obtain ⟨d, w, hw, h94⟩ : ∃ d w, inner closing ps hyphen ++ 93 :: s = d :: w ∧ d ≠ 94 := by
    unfold inner
    cases closing with
    | true => exact ⟨93, _, rfl, by decide⟩
    | false =>
      match ps, h with
      | [], _ =>
        cases hyphen with
        | true => exact ⟨45, _, rfl, by decide⟩
        | false => exact ⟨93, _, rfl, by decide⟩
      | p :: ps, h =>
        obtain ⟨d, w, hw, _, hd, _⟩ := part_head (h p (by simp))
        exact ⟨d, _, by rw [List.flatMap_cons, hw]; rfl, hd⟩
  have hlen : ps.length + 1 + hyphen.toNat + closing.toNat ≤ (inner closing ps hyphen ++ 93 :: s).length := by
    unfold inner
    cases closing <;> cases hyphen <;> simp at hl ⊢ <;> omega
  have hc := classRanges_inner closing hyphen h s hne ((inner closing ps hyphen ++ 93 :: s).length + 1 - (1 + hyphen.toNat + closing.toNat + ps.length))
  rw [show (inner closing ps hyphen ++ 93 :: s).length + 1 - (1 + hyphen.toNat + closing.toNat + ps.length) + 1 + hyphen.toNat + closing.toNat + ps.length =
    (inner closing ps hyphen ++ 93 :: s).length + 1 by omega] at hc
  cases neg with
  | true =>
    show (match classRanges ((inner closing ps hyphen ++ 93 :: s).length + 1) true [] (inner closing ps hyphen ++ 93 :: s) with
      | .ok (rs, s) => Read.ok (Rx.set true rs, s)
      | .bad => .bad
      | .open_ => .open_) = _
    rw [hc]
  | false =>
    rw [if_neg (by simp), List.nil_append]
    rw [hw] at hc ⊢
    unfold classRest
    split
    · simp_all
    · rw [hc]

/-! ## Signs -/

theorem toks_sign {w : List Nat} {r : Rx} (h : Sign w r) {s : List Nat} {ks : List Tok} (ht : Toks s ks) : Toks (w ++ s) (.atom r :: ks) := by
  cases h with
  | plain h => exact toks_cons (next_plain h s) (Nat.le_refl _) ht
  | any => exact toks_cons rfl (Nat.le_refl _) ht
  | quoted h h' =>
    rename_i c
    refine toks_cons (s := c :: s) (s' := s) ?_ (by simp) ht
    have ha : alnum c = false := by
      unfold alnum
      simp
      omega
    have he : escaped c = .ok (.set false [(c, c)]) := by
      unfold escaped
      rw [if_neg (by omega), if_neg (by omega), if_neg (by omega), if_neg (by omega), if_neg (by omega), perlClass_none ha]
      unfold escape
      rw [if_pos ⟨h, ha⟩]
    unfold next
    simp only [Nat.reduceEqDiff, if_false, or_self, if_true]
    rw [he]
  | control h =>
    rename_i c d
    simp only [List.mem_cons, List.not_mem_nil, or_false, Prod.mk.injEq] at h
    refine toks_cons (s := c :: s) (s' := s) ?_ (by simp) ht
    rcases h with ⟨rfl, rfl⟩ | ⟨rfl, rfl⟩ | ⟨rfl, rfl⟩ | ⟨rfl, rfl⟩ | ⟨rfl, rfl⟩ | ⟨rfl, rfl⟩ <;> rfl
  | letter h =>
    rename_i c rs
    simp only [letters, List.mem_cons, List.not_mem_nil, or_false, Prod.mk.injEq] at h
    refine toks_cons (s := c :: s) (s' := s) ?_ (by simp) ht
    rcases h with ⟨rfl, rfl⟩ | ⟨rfl, rfl⟩ | ⟨rfl, rfl⟩ | ⟨rfl, rfl⟩ | ⟨rfl, rfl⟩ | ⟨rfl, rfl⟩ <;> rfl
  | first => exact toks_cons rfl (Nat.le_refl _) ht
  | start => exact toks_cons (s := 65 :: s) (s' := s) rfl (by simp) ht
  | last => exact toks_cons rfl (Nat.le_refl _) ht
  | stop => exact toks_cons (s := 122 :: s) (s' := s) rfl (by simp) ht
  | word => exact toks_cons (s := 98 :: s) (s' := s) rfl (by simp) ht
  | inner => exact toks_cons (s := 66 :: s) (s' := s) rfl (by simp) ht
  | bracket neg closing hyphen hne hp =>
    rename_i ps
    have hc := classRest_parts neg closing hyphen hne hp s
    have : 91 :: (if neg then [94] else []) ++ (if closing then [93] else []) ++ ps.flatMap Prod.fst ++ (if hyphen then [45] else []) ++ [93] ++ s =
        91 :: ((if neg then [94] else []) ++ inner closing ps hyphen ++ 93 :: s) := by unfold inner; simp
    rw [this]
    refine toks_cons (s' := s) ?_ (by simp; omega) ht
    unfold next
    simp only [Nat.reduceEqDiff, if_false, or_self, if_true]
    rw [hc]

theorem sign_head {w : List Nat} {r : Rx} (h : Sign w r) (s : List Nat) : (w ++ s).head? ≠ some 63 := by
  cases h with
  | plain h => simp at h ⊢; omega
  | _ => simp

theorem item_head {w : List Nat} {r : Rx} (h : Item w r) (s : List Nat) : (w ++ s).head? ≠ some 63 := by
  cases h <;> (try rw [List.append_assoc]) <;> exact sign_head ‹_› _

/-- The parts of an item: the sign and the repetition. -/
theorem toks_item {w : List Nat} {r : Rx} (h : Item w r) {s : List Nat} {ks : List Tok} (hs : s.head? ≠ some 63) (ht : Toks s ks) :
    ∃ is, Toks (w ++ s) (is ++ ks) ∧ ∀ outer alts items b, build (is ++ ks) outer ⟨alts, items⟩ b = build ks outer ⟨alts, r :: items⟩ false ∨
      build (is ++ ks) outer ⟨alts, items⟩ b = build ks outer ⟨alts, r :: items⟩ true := by
  have greedy : ∀ kind, kind = 42 ∨ kind = 43 ∨ kind = 63 → Toks (kind :: s) (.rep kind true :: ks) := by
    intro kind hk
    refine toks_cons (s' := s) ?_ (Nat.le_refl _) ht
    have : repeated kind s = (.rep kind true, s) := by
      unfold repeated
      split <;> simp_all
    rcases hk with rfl | rfl | rfl <;> exact congrArg Read.ok this
  have few : ∀ kind, kind = 42 ∨ kind = 43 ∨ kind = 63 → Toks (kind :: 63 :: s) (.rep kind false :: ks) := by
    intro kind hk
    refine toks_cons (s' := s) ?_ (by simp) ht
    rcases hk with rfl | rfl | rfl <;> rfl
  cases h with
  | once h => exact ⟨[.atom r], toks_sign h ht, fun outer alts items b => .inl rfl⟩
  | star h => exact ⟨[.atom _, .rep 42 true], by simpa using toks_sign h (greedy 42 (by simp)), fun outer alts items b => .inr rfl⟩
  | plus h => exact ⟨[.atom _, .rep 43 true], by simpa using toks_sign h (greedy 43 (by simp)), fun outer alts items b => .inr rfl⟩
  | opt h => exact ⟨[.atom _, .rep 63 true], by simpa using toks_sign h (greedy 63 (by simp)), fun outer alts items b => .inr rfl⟩
  | starFew h => exact ⟨[.atom _, .rep 42 false], by simpa using toks_sign h (few 42 (by simp)), fun outer alts items b => .inr rfl⟩
  | plusFew h => exact ⟨[.atom _, .rep 43 false], by simpa using toks_sign h (few 43 (by simp)), fun outer alts items b => .inr rfl⟩
  | optFew h => exact ⟨[.atom _, .rep 63 false], by simpa using toks_sign h (few 63 (by simp)), fun outer alts items b => .inr rfl⟩

theorem toks_items : ∀ {ws : List (List Nat × Rx)}, (∀ w ∈ ws, Item w.1 w.2) →
    ∃ ks, Toks (ws.flatMap Prod.fst) ks ∧ ∀ alts items b, build ks [] ⟨alts, items⟩ b = some (alternate ⟨alts, (ws.map Prod.snd).reverse ++ items⟩)
  | [], _ => ⟨[], toks_nil, fun alts items b => rfl⟩
  | w :: ws, h => by
    obtain ⟨ks, ht, hb⟩ := toks_items (ws := ws) fun w hw => h w (by simp [hw])
    have hs : (ws.flatMap Prod.fst).head? ≠ some 63 := by
      match ws, h with
      | [], _ => simp
      | v :: ws, h =>
        rw [List.flatMap_cons]
        exact item_head (h v (by simp)) _
    obtain ⟨is, hi, hb'⟩ := toks_item (h w (by simp)) hs ht
    refine ⟨is ++ ks, by rw [List.flatMap_cons]; exact hi, fun alts items b => ?_⟩
    rcases hb' [] alts items b with he | he <;> rw [he, hb] <;> simp

theorem parse_items {ws : List (List Nat × Rx)} (h : ∀ w ∈ ws, Item w.1 w.2) :
    parse (ws.flatMap Prod.fst) = .ok ((ws.map Prod.snd).foldr (fun x r => .cat x r) .eps) := by
  obtain ⟨ks, ht, hb⟩ := toks_items h
  unfold parse
  rw [ht _ (Nat.le_refl _)]
  dsimp only
  rw [hb, List.append_nil]
  dsimp only [alternate, List.foldl_nil]
  rw [concat_reverse]

/-- C140, the signs: a pattern made of signs, each by itself or repeated, matches exactly the texts that are made of what its signs stand for, one after the other. -/
theorem C140_signs {ws : List (List Nat × Rx)} (h : ∀ w ∈ ws, Item w.1 w.2) (hc : ∀ c ∈ ws.flatMap Prod.fst, Utf8.Valid c ∧ c ≠ 0xFFFD)
    (hl : (Utf8.text (ws.flatMap Prod.fst)).length ≤ 1000) (t : Str) :
    ∃ b, fnRegEx (P := Lib.go R.withRegexp) (.string (Utf8.text (ws.flatMap Prod.fst))) (.string t) false = .ok (.boolean b) ∧
      (b = true ↔ ∃ places : List Nat, places.length = ws.length + 1 ∧ (∃ i, places.head? = some i ∧ Boundary t i) ∧
        ∀ k (hk : k < ws.length), ∃ i j, places[k]? = some i ∧ places[k + 1]? = some j ∧ Between t ws[k].2 i j) := by
  obtain ⟨b, hm, hb⟩ := C140_match_partial (R := R) (t := t) ((compile_text hc hl).trans (parse_items h))
  refine ⟨b, hm, hb.trans ?_⟩
  have key : ∀ (rs : List (List Nat × Rx)) (i : Nat), (∃ j, Between t ((rs.map Prod.snd).foldr (fun x r => .cat x r) .eps) i j) ↔
      ∃ places : List Nat, places.length = rs.length + 1 ∧ places.head? = some i ∧
        ∀ k (hk : k < rs.length), ∃ i j, places[k]? = some i ∧ places[k + 1]? = some j ∧ Between t rs[k].2 i j := by
    intro rs
    induction rs with
    | nil =>
      intro i
      refine ⟨fun _ => ⟨[i], rfl, rfl, fun k hk => absurd hk (by simp)⟩, fun _ => ⟨i, rfl⟩⟩
    | cons w rs ih =>
      intro i
      constructor
      · rintro ⟨j, m, h1, h2⟩
        obtain ⟨places, hlen, hhd, hp⟩ := (ih m).1 ⟨j, h2⟩
        refine ⟨i :: places, by simp [hlen], rfl, fun k hk => ?_⟩
        match k, hk with
        | 0, _ => exact ⟨i, m, rfl, by rw [List.getElem?_cons_succ, ← List.head?_eq_getElem?]; exact hhd, h1⟩
        | k + 1, hk =>
          obtain ⟨a, c, ha, hc, hac⟩ := hp k (by simpa using hk)
          exact ⟨a, c, by simpa using ha, by simpa using hc, by simpa using hac⟩
      · rintro ⟨places, hlen, hhd, hp⟩
        match places, hlen, hhd with
        | p :: places, hlen, hhd =>
          have : p = i := by simpa using hhd
          subst this
          obtain ⟨a, m, ha, hm, h1⟩ := hp 0 (by simp)
          have : p = a := by simpa using ha
          subst this
          have hm : places.head? = some m := by
            rw [List.head?_eq_getElem?]
            simpa using hm
          obtain ⟨j, hj⟩ := (ih m).2 ⟨places, by simpa using hlen, hm, fun k hk => by
            obtain ⟨a, c, ha, hc, hac⟩ := hp (k + 1) (by simpa using hk)
            exact ⟨a, c, by simpa using ha, by simpa using hc, by simpa using hac⟩⟩
          exact ⟨j, m, h1, hj⟩
  constructor
  · rintro ⟨i, j, hi, hj⟩
    obtain ⟨places, hlen, hhd, hp⟩ := (key ws i).1 ⟨j, hj⟩
    exact ⟨places, hlen, ⟨i, hhd, hi⟩, hp⟩
  · rintro ⟨places, hlen, ⟨i, hhd, hi⟩, hp⟩
    obtain ⟨j, hj⟩ := (key ws i).2 ⟨places, hlen, hhd, hp⟩
    exact ⟨i, j, hi, hj⟩

/-- A pattern made of signs: `^[A-Z\d_]+\.\w*?$`. -/
example : ∃ ws : List (List Nat × Rx), (∀ w ∈ ws, Item w.1 w.2) ∧ Utf8.text (ws.flatMap Prod.fst) = lit "^[A-Z\\d_]+\\.\\w*?$" := by
  refine ⟨[([94], .first), ([91, 65, 45, 90, 92, 100, 95, 93, 43], .plus true (.set false [(65, 90), (48, 57), (95, 95)])), ([92, 46], .set false [(46, 46)]),
    ([92, 119, 42, 63], .star false (.set false [(48, 57), (65, 90), (95, 95), (97, 122)])), ([36], .last)], ?_, by decide +kernel⟩
  have hb : Sign [91, 65, 45, 90, 92, 100, 95, 93] (.set false [(65, 90), (48, 57), (95, 95)]) :=
    Sign.bracket false false false (ps := [([65, 45, 90], [(65, 90)]), ([92, 100], [(48, 57)]), ([95], [(95, 95)])]) (by simp) (by
      intro p hp
      simp only [List.mem_cons, List.not_mem_nil, or_false] at hp
      rcases hp with rfl | rfl | rfl
      · exact .range (by decide) (by decide) (by decide)
      · exact .letter (by decide)
      · exact .one (by decide))
  intro w hw
  simp only [List.mem_cons, List.not_mem_nil, or_false] at hw
  rcases hw with rfl | rfl | rfl | rfl | rfl
  · exact .once .first
  · exact .plus hb
  · exact .once (.quoted (by decide) (by decide))
  · exact .starFew (.letter (c := 119) (by decide))
  · exact .once .last

/-- A closing bracket at the start, a hyphen at the end: `[^]a-f-]`. -/
example : Sign [91, 94, 93, 97, 45, 102, 45, 93] (.set true [(93, 93), (97, 102), (45, 45)]) :=
  Sign.bracket true true true (ps := [([97, 45, 102], [(97, 102)])]) (by simp) (by
    intro p hp
    simp only [List.mem_cons, List.not_mem_nil, or_false] at hp
    subst hp
    exact .range (by decide) (by decide) (by decide))

end Verif.Regexp
