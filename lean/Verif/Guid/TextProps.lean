import Verif.Guid.Text
import Verif.Guid.Props

/-!
# C99: the text of a Guid
-/

set_option linter.dupNamespace false

namespace Verif.Guid

/-- The bytes of an ASCII text. -/
def ascii (s : String) : List Byte := s.toList.map fun c => BitVec.ofNat 8 c.toNat

/-- A hexadecimal digit and its value. -/
def Digit (b : Byte) (n : Nat) : Prop := (ascii "0123456789abcdef")[n]? = some b ∨ (ascii "0123456789ABCDEF")[n]? = some b

/-- Digits, two for each byte. -/
inductive Pairs : List Byte → List Byte → Prop
  | nil : Pairs [] []
  | cons {a b x y t g} : Digit a x → Digit b y → Pairs t g → Pairs (a :: b :: t) (BitVec.ofNat 8 (16 * x + y) :: g)

/-- The standard text: groups of 8, 4, 4, 4 and 12 digits with dashes between them. -/
def Grouped (t : List Byte) (g : Guid) : Prop :=
  ∃ t1 t2 t3 t4 t5, t = t1 ++ ascii "-" ++ t2 ++ ascii "-" ++ t3 ++ ascii "-" ++ t4 ++ ascii "-" ++ t5 ∧
    Pairs t1 (g.bytes.take 4) ∧ Pairs t2 ((g.bytes.drop 4).take 2) ∧ Pairs t3 ((g.bytes.drop 6).take 2) ∧
    Pairs t4 ((g.bytes.drop 8).take 2) ∧ Pairs t5 (g.bytes.drop 10)

/-! ## Digits -/

theorem digit_iff (b : Byte) (n : Nat) : Digit b n ↔ xvalue b ≠ 255#8 ∧ n = (xvalue b).toNat := by
  have key : ∀ b : Byte, ∀ n < 17, (Digit b n ↔ xvalue b ≠ 255#8 ∧ n = (xvalue b).toNat) := by
    unfold Digit
    decide +kernel
  have hv : ∀ b : Byte, xvalue b ≠ 255#8 → (xvalue b).toNat < 16 := by decide +kernel
  by_cases hn : n < 17
  · exact key b n hn
  · constructor
    · intro h
      unfold Digit at h
      have e1 : (ascii "0123456789abcdef")[n]? = none := List.getElem?_eq_none (by
        rw [show (ascii "0123456789abcdef").length = 16 from rfl]; omega)
      have e2 : (ascii "0123456789ABCDEF")[n]? = none := List.getElem?_eq_none (by
        rw [show (ascii "0123456789ABCDEF").length = 16 from rfl]; omega)
      rw [e1, e2] at h
      rcases h with h | h <;> cases h
    · rintro ⟨h1, h2⟩
      have := hv b h1
      omega

theorem xtob_value (a b : Byte) (ha : xvalue a ≠ 255#8) (hb : xvalue b ≠ 255#8) :
    (xvalue a <<< 4) ||| xvalue b = BitVec.ofNat 8 (16 * (xvalue a).toNat + (xvalue b).toNat) := by
  have hv : ∀ b : Byte, xvalue b ≠ 255#8 → (xvalue b).toNat < 16 := by decide +kernel
  have key : ∀ x < 16, ∀ y < 16, ((BitVec.ofNat 8 x) <<< 4) ||| BitVec.ofNat 8 y = BitVec.ofNat 8 (16 * x + y) := by decide
  have := key _ (hv a ha) _ (hv b hb)
  rwa [BitVec.ofNat_toNat, BitVec.ofNat_toNat, BitVec.setWidth_eq, BitVec.setWidth_eq] at this

theorem xtob_iff (a b v : Byte) : xtob a b = (v, true) ↔ ∃ x y, Digit a x ∧ Digit b y ∧ v = BitVec.ofNat 8 (16 * x + y) := by
  unfold xtob
  simp only [Prod.mk.injEq, Bool.and_eq_true, decide_eq_true_eq]
  constructor
  · rintro ⟨h1, h2, h3⟩
    exact ⟨_, _, (digit_iff a _).mpr ⟨h2, rfl⟩, (digit_iff b _).mpr ⟨h3, rfl⟩, by rw [← h1, xtob_value a b h2 h3]⟩
  · rintro ⟨x, y, h1, h2, h3⟩
    rw [digit_iff] at h1 h2
    exact ⟨by rw [xtob_value a b h1.1 h2.1, h3, h1.2, h2.2], h1.1, h2.1⟩

theorem Pairs.length {t g : List Byte} (h : Pairs t g) : t.length = 2 * g.length := by
  induction h with
  | nil => rfl
  | cons _ _ _ ih => simp [ih]; omega

theorem Pairs.append {t g u k : List Byte} (h : Pairs t g) (h' : Pairs u k) : Pairs (t ++ u) (g ++ k) := by
  induction h with
  | nil => exact h'
  | cons h1 h2 _ ih => exact .cons h1 h2 ih

/-- Digits read one after the other. -/
theorem readPairs_iff (early : Bool) (s : List Byte) (is : List Nat) (l : List Byte) :
    readPairs early s is = (l, true) ↔ Pairs (is.flatMap fun i => [s.getD i 0, s.getD (i + 1) 0]) l := by
  induction is generalizing l with
  | nil =>
    rw [readPairs]
    constructor
    · intro h
      injection h with h _
      subst h
      exact .nil
    · intro h
      cases h
      rfl
  | cons i is ih =>
    rw [readPairs]
    simp only [List.flatMap_cons, List.cons_append, List.nil_append]
    constructor
    · intro h
      split at h
      · rename_i hv
        injection h with h1 h2
        have h3 := (ih _).mp (show readPairs early s is = ((readPairs early s is).1, true) by rw [← h2])
        obtain ⟨x, y, hx, hy, e⟩ := (xtob_iff _ _ _).mp (show xtob (s.getD i 0) (s.getD (i + 1) 0) =
          ((xtob (s.getD i 0) (s.getD (i + 1) 0)).1, true) by rw [← hv])
        rw [← h1, e]
        exact .cons hx hy h3
      · injection h with _ h
        cases h
    · intro h
      cases h with
      | @cons _ _ x y _ g hx hy h =>
        have e := (xtob_iff (s.getD i 0) (s.getD (i + 1) 0) _).mpr ⟨x, y, hx, hy, rfl⟩
        have h3 := (ih _).mpr h
        simp only [e, h3, if_true]

theorem fill_eq (g : Guid) (l : List Byte) (h : l.length = 16) : fill l = g ↔ l = g.bytes := by
  have : (fill l).bytes = l := by
    show (l ++ List.replicate 16 0#8).take 16 = l
    rw [← h, List.take_left']
    exact h.symm ▸ rfl
  constructor
  · rintro rfl; exact this.symm
  · intro e
    cases g with
    | mk b hb =>
      dsimp only at e
      subst e
      cases hf : fill l with
      | mk c hc => rw [hf] at this; dsimp only at this; subst this; rfl

/-! ## The two shapes -/

theorem readPairs_length (early : Bool) (s : List Byte) (is : List Nat) (h : (readPairs early s is).2 = true) :
    (readPairs early s is).1.length = is.length := by
  have := (readPairs_iff early s is _).mp (show readPairs early s is = ((readPairs early s is).1, true) by rw [← h])
  have hl := this.length
  have key : ∀ is : List Nat, (is.flatMap fun i => [s.getD i 0, s.getD (i + 1) 0]).length = 2 * is.length := by
    intro is
    induction is with
    | nil => rfl
    | cons i is ih => rw [List.flatMap_cons, List.length_append, ih, List.length_cons]; simp; omega
  rw [key] at hl
  omega

theorem exists32 (l : List Byte) (h : l.length = 32) : l = packed.flatMap fun i => [l.getD i 0, l.getD (i + 1) 0] := by
  apply List.ext_getElem
  · rw [h]; rfl
  · intro i h1 h2
    have : i < 32 := by omega
    have key : ∀ f : Nat → Byte, ∀ i < 32, (packed.flatMap fun i => [f i, f (i + 1)])[i]? = some (f i) := by
      intro f i hi
      have h32 : (packed.flatMap fun i => [f i, f (i + 1)]) = (List.range 32).map f := rfl
      rw [h32]
      simp [hi]
    have hk := key (fun i => l.getD i 0) i this
    rw [List.getElem?_eq_getElem h2] at hk
    injection hk with hk
    rw [hk]
    simp [List.getD_eq_getElem?_getD, List.getElem?_eq_getElem h1]

theorem parse_packed (s : List Byte) (h : s.length = 32) (g : Guid) :
    (fill (readPairs true s packed).1, (readPairs true s packed).2) = (g, true) ↔ Pairs s g.bytes := by
  have e := exists32 s h
  constructor
  · intro hp
    injection hp with h1 h2
    have hl := readPairs_length true s packed h2
    rw [fill_eq g _ hl] at h1
    have := (readPairs_iff true s packed g.bytes).mp (Prod.ext h1 h2)
    rw [← e] at this
    exact this
  · intro hp
    rw [e] at hp
    have := (readPairs_iff true s packed g.bytes).mpr hp
    rw [this]
    rw [(fill_eq g g.bytes g.len).mpr rfl]

/-- Cutting at a position with a known byte. -/
theorem cut (s : List Byte) (n : Nat) (h : n < s.length) (b : Byte) (hb : s.getD n 0 = b) : s = s.take n ++ b :: s.drop (n + 1) := by
  have : s[n] = b := by rw [← hb, List.getD_eq_getElem?_getD, List.getElem?_eq_getElem h]; rfl
  rw [← this, ← List.drop_eq_getElem_cons h, List.take_append_drop]

theorem Pairs.split {t : List Byte} {g k : List Byte} (h : Pairs t (g ++ k)) :
    Pairs (t.take (2 * g.length)) g ∧ Pairs (t.drop (2 * g.length)) k := by
  induction g generalizing t with
  | nil => exact ⟨by simpa using Pairs.nil, by simpa using h⟩
  | cons b g ih =>
    rw [List.cons_append] at h
    cases h with
    | @cons a c x y t' _ hx hy h =>
      have := ih h
      rw [List.length_cons, show 2 * (g.length + 1) = 2 * g.length + 1 + 1 by omega]
      simp only [List.take_succ_cons, List.drop_succ_cons]
      exact ⟨.cons hx hy this.1, this.2⟩

theorem dashed_digits (s : List Byte) (h : s.length = 36) :
    (dashed.flatMap fun i => [s.getD i 0, s.getD (i + 1) 0]) =
      s.take 8 ++ (s.drop 9).take 4 ++ (s.drop 14).take 4 ++ (s.drop 19).take 4 ++ s.drop 24 := by
  apply List.ext_getElem
  · simp [h, dashed]
  · intro i h1 h2
    have hi : i < 32 := h1
    have key : ∀ f : Nat → Byte, (dashed.flatMap fun i => [f i, f (i + 1)]) =
      (List.range 8).map f ++ (List.range 4).map (fun i => f (9 + i)) ++ (List.range 4).map (fun i => f (14 + i)) ++
        (List.range 4).map (fun i => f (19 + i)) ++ (List.range 12).map (fun i => f (24 + i)) := fun f => rfl
    have part : ∀ a n : Nat, a + n ≤ 36 → (List.range n).map (fun i => s.getD (a + i) 0) = (s.drop a).take n := by
      intro a n han
      apply List.ext_getElem
      · simp [h]; omega
      · intro j j1 j2
        have hj : a + j < s.length := by simp at j1; omega
        simp [List.getD_eq_getElem?_getD, List.getElem?_eq_getElem hj]
    have e : (dashed.flatMap fun i => [s.getD i 0, s.getD (i + 1) 0]) =
      s.take 8 ++ (s.drop 9).take 4 ++ (s.drop 14).take 4 ++ (s.drop 19).take 4 ++ s.drop 24 := by
      rw [key (fun i => s.getD i 0), part 9 4 (by omega), part 14 4 (by omega), part 19 4 (by omega), part 24 12 (by omega)]
      have p0 := part 0 8 (by omega)
      simp only [Nat.zero_add, List.drop_zero] at p0
      rw [p0, List.take_of_length_le (l := s.drop 24) (by simp [h])]
    simp only [e]

theorem bytes_split (g : Guid) : g.bytes = g.bytes.take 4 ++ ((g.bytes.drop 4).take 2 ++ ((g.bytes.drop 6).take 2 ++
    ((g.bytes.drop 8).take 2 ++ g.bytes.drop 10))) := by
  obtain ⟨b, hb⟩ := g
  obtain ⟨b0, b1, b2, b3, b4, b5, b6, b7, b8, b9, b10, b11, b12, b13, b14, b15, rest, rfl⟩ := exists16 b (by omega)
  rfl

theorem parseDashed_iff (s : List Byte) (h : s.length = 36) (g : Guid) : parseDashed s = (g, true) ↔ Grouped s g := by
  have hg := g.len
  have hdash : ascii "-" = [45#8] := rfl
  constructor
  · intro hp
    unfold parseDashed at hp
    split at hp
    · injection hp with _ hp; cases hp
    · rename_i hd
      simp only [not_or, ne_eq, not_not] at hd
      obtain ⟨d1, d2, d3, d4⟩ := hd
      injection hp with h1 h2
      have hl := readPairs_length false s dashed h2
      rw [fill_eq g _ hl] at h1
      have hps := (readPairs_iff false s dashed g.bytes).mp (Prod.ext h1 h2)
      rw [dashed_digits s h, bytes_split g, List.append_assoc, List.append_assoc, List.append_assoc] at hps
      obtain ⟨p1, r1⟩ := hps.split
      have l1 : 2 * (g.bytes.take 4).length = 8 := by simp [hg]
      rw [l1, List.take_left' (by simp [h])] at p1
      rw [l1, List.drop_left' (by simp [h])] at r1
      obtain ⟨p2, r2⟩ := r1.split
      have l2 : 2 * ((g.bytes.drop 4).take 2).length = 4 := by simp [hg]
      rw [l2, List.take_left' (by simp [h])] at p2
      rw [l2, List.drop_left' (by simp [h])] at r2
      obtain ⟨p3, r3⟩ := r2.split
      have l3 : 2 * ((g.bytes.drop 6).take 2).length = 4 := by simp [hg]
      rw [l3, List.take_left' (by simp [h])] at p3
      rw [l3, List.drop_left' (by simp [h])] at r3
      obtain ⟨p4, p5⟩ := r3.split
      have l4 : 2 * ((g.bytes.drop 8).take 2).length = 4 := by simp [hg]
      rw [l4, List.take_left' (by simp [h])] at p4
      rw [l4, List.drop_left' (by simp [h])] at p5
      refine ⟨_, _, _, _, _, ?_, p1, p2, p3, p4, p5⟩
      have c1 := cut s 8 (by omega) _ d1
      have c2 := cut (s.drop 9) 4 (by simp [h]) 45#8 (by simpa [List.getD_eq_getElem?_getD] using d2)
      have c3 := cut (s.drop 14) 4 (by simp [h]) 45#8 (by simpa [List.getD_eq_getElem?_getD] using d3)
      have c4 := cut (s.drop 19) 4 (by simp [h]) 45#8 (by simpa [List.getD_eq_getElem?_getD] using d4)
      rw [List.drop_drop] at c2 c3 c4
      conv_lhs => rw [c1, c2, c3, c4]
      simp [hdash]
  · rintro ⟨t1, t2, t3, t4, t5, rfl, p1, p2, p3, p4, p5⟩
    have l1 : t1.length = 8 := by have := p1.length; simp [hg] at this; omega
    have l2 : t2.length = 4 := by have := p2.length; simp [hg] at this; omega
    have l3 : t3.length = 4 := by have := p3.length; simp [hg] at this; omega
    have l4 : t4.length = 4 := by have := p4.length; simp [hg] at this; omega
    have l5 : t5.length = 12 := by have := p5.length; simp [hg] at this; omega
    obtain ⟨s, hs⟩ : ∃ s, s = t1 ++ ascii "-" ++ t2 ++ ascii "-" ++ t3 ++ ascii "-" ++ t4 ++ ascii "-" ++ t5 := ⟨_, rfl⟩
    rw [← hs] at h ⊢
    have e0 : s = t1 ++ (45#8 :: (t2 ++ (45#8 :: (t3 ++ (45#8 :: (t4 ++ (45#8 :: t5))))))) := by
      rw [hs, hdash]; simp
    have e1 : s.take 8 = t1 := by rw [e0, List.take_left' l1]
    have f1 : s.drop 8 = 45#8 :: (t2 ++ (45#8 :: (t3 ++ (45#8 :: (t4 ++ (45#8 :: t5)))))) := by rw [e0, List.drop_left' l1]
    have f2 : s.drop 9 = t2 ++ (45#8 :: (t3 ++ (45#8 :: (t4 ++ (45#8 :: t5))))) := by
      rw [show 9 = 8 + 1 from rfl, ← List.drop_drop, f1]; rfl
    have f3 : s.drop 13 = 45#8 :: (t3 ++ (45#8 :: (t4 ++ (45#8 :: t5)))) := by
      rw [show 13 = 9 + 4 from rfl, ← List.drop_drop, f2, List.drop_left' l2]
    have f4 : s.drop 14 = t3 ++ (45#8 :: (t4 ++ (45#8 :: t5))) := by
      rw [show 14 = 13 + 1 from rfl, ← List.drop_drop, f3]; rfl
    have f5 : s.drop 18 = 45#8 :: (t4 ++ (45#8 :: t5)) := by
      rw [show 18 = 14 + 4 from rfl, ← List.drop_drop, f4, List.drop_left' l3]
    have f6 : s.drop 19 = t4 ++ (45#8 :: t5) := by
      rw [show 19 = 18 + 1 from rfl, ← List.drop_drop, f5]; rfl
    have f7 : s.drop 23 = 45#8 :: t5 := by
      rw [show 23 = 19 + 4 from rfl, ← List.drop_drop, f6, List.drop_left' l4]
    have f8 : s.drop 24 = t5 := by
      rw [show 24 = 23 + 1 from rfl, ← List.drop_drop, f7]; rfl
    have at_ : ∀ n (b : Byte) (r : List Byte), s.drop n = b :: r → s.getD n 0 = b := by
      intro n b r hb
      have : (s.drop n)[0]? = some b := by rw [hb]; rfl
      rw [List.getElem?_drop, Nat.add_zero] at this
      rw [List.getD_eq_getElem?_getD, this]; rfl
    have hps : Pairs (dashed.flatMap fun i => [s.getD i 0, s.getD (i + 1) 0]) g.bytes := by
      rw [dashed_digits s h, e1, f2, f4, f6, f8, List.take_left' l2, List.take_left' l3, List.take_left' l4, bytes_split g,
        List.append_assoc, List.append_assoc, List.append_assoc]
      exact p1.append (p2.append (p3.append (p4.append p5)))
    have hr := (readPairs_iff false s dashed g.bytes).mpr hps
    unfold parseDashed
    rw [if_neg (by
      rw [at_ 8 _ _ f1, at_ 13 _ _ f3, at_ 18 _ _ f5, at_ 23 _ _ f7]
      simp), hr, (fill_eq g g.bytes g.len).mpr rfl]

theorem Grouped.length {t : List Byte} {g : Guid} (h : Grouped t g) : t.length = 36 := by
  have hg := g.len
  obtain ⟨t1, t2, t3, t4, t5, rfl, p1, p2, p3, p4, p5⟩ := h
  have l1 := p1.length
  have l2 := p2.length
  have l3 := p3.length
  have l4 := p4.length
  have l5 := p5.length
  simp [hg] at l1 l2 l3 l4 l5
  simp [ascii, l1, l2, l3, l4, l5]

/-! ## C99 -/

/-- C99, which texts: `Parse` succeeds with a Guid exactly for its standard text, that text between any two bytes, that text after `urn:uuid:`, and
its 32 digits without dashes, with letters of either case throughout. -/
theorem C99_accepts_partial (s : List Byte) (g : Guid) :
    parse s = (g, true) ↔ Grouped s g ∨ (∃ a b t, s = a :: (t ++ [b]) ∧ Grouped t g) ∨
      (∃ u t, s = u ++ t ∧ u.map lowerByte = ascii "urn:uuid:" ∧ Grouped t g) ∨ Pairs s g.bytes := by
  have hg := g.len
  have hurn : ascii "urn:uuid:" = urn := rfl
  have hbad : ∀ e : Guid, ¬ ((e, false) = (g, true)) := by
    intro e h
    injection h with _ h
    cases h
  -- the lengths of the four forms
  have k1 : Grouped s g → s.length = 36 := Grouped.length
  have k2 : (∃ a b t, s = a :: (t ++ [b]) ∧ Grouped t g) → s.length = 38 := by
    rintro ⟨a, b, t, rfl, h⟩
    simp [h.length]
  have k3 : (∃ u t, s = u ++ t ∧ u.map lowerByte = ascii "urn:uuid:" ∧ Grouped t g) → s.length = 45 := by
    rintro ⟨u, t, rfl, h1, h2⟩
    have : u.length = 9 := by rw [← List.length_map (f := lowerByte), h1]; rfl
    simp [h2.length, this]
  have k4 : Pairs s g.bytes → s.length = 32 := by
    intro h
    rw [h.length, hg]
  unfold parse
  split
  · rename_i h
    rw [parseDashed_iff s h]
    constructor
    · exact Or.inl
    · rintro (h' | h' | h' | h')
      · exact h'
      · have := k2 h'; omega
      · have := k3 h'; omega
      · have := k4 h'; omega
  · rename_i h0
    split
    · rename_i h
      split
      · rename_i hu
        constructor
        · intro hc; exact absurd hc (hbad _)
        · rintro (h' | h' | ⟨u, t, rfl, h1, h2⟩ | h')
          · have := k1 h'; omega
          · have := k2 h'; omega
          · have : u.length = 9 := by rw [← List.length_map (f := lowerByte), h1]; rfl
            rw [List.take_left' this] at hu
            exact absurd h1 hu
          · have := k4 h'; omega
      · rename_i hu
        rw [parseDashed_iff _ (by simp [h])]
        constructor
        · intro h'
          exact Or.inr (Or.inr (Or.inl ⟨s.take 9, s.drop 9, (List.take_append_drop 9 s).symm, not_not.mp hu, h'⟩))
        · rintro (h' | h' | ⟨u, t, rfl, h1, h2⟩ | h')
          · have := k1 h'; omega
          · have := k2 h'; omega
          · have : u.length = 9 := by rw [← List.length_map (f := lowerByte), h1]; rfl
            rwa [List.drop_left' this]
          · have := k4 h'; omega
    · rename_i h1
      split
      · rename_i h
        -- only the middle 36 bytes count
        obtain ⟨a, u, rfl⟩ : ∃ a u, s = a :: u := by
          cases s with
          | nil => cases h
          | cons a u => exact ⟨a, u, rfl⟩
        have hu : u.length = 37 := by simpa using h
        obtain ⟨t, b, rfl⟩ : ∃ t b, u = t ++ [b] := by
          have hne : u ≠ [] := by intro hc; rw [hc] at hu; cases hu
          exact ⟨u.dropLast, u.getLast hne, (List.dropLast_concat_getLast hne).symm⟩
        have ht : t.length = 36 := by simpa using hu
        have hex : parseDashed ((a :: (t ++ [b])).drop 1) = parseDashed t := by
          have hget : ∀ n < 36, (t ++ [b]).getD n 0 = t.getD n 0 := by
            intro n hn
            rw [List.getD_eq_getElem?_getD, List.getD_eq_getElem?_getD, List.getElem?_append_left (by omega)]
          have hpairs : ∀ is : List Nat, (∀ i ∈ is, i + 1 < 36) → readPairs false (t ++ [b]) is = readPairs false t is := by
            intro is
            induction is with
            | nil => intro _; rfl
            | cons i is ih =>
              intro hi
              have hi0 := hi i (by simp)
              rw [readPairs, readPairs, hget i (by omega), hget (i + 1) (by omega), ih (fun j hj => hi j (by simp [hj]))]
          show parseDashed (t ++ [b]) = parseDashed t
          unfold parseDashed
          rw [hget 8 (by omega), hget 13 (by omega), hget 18 (by omega), hget 23 (by omega), hpairs dashed (by decide)]
        rw [hex, parseDashed_iff t ht]
        constructor
        · intro h'
          exact Or.inr (Or.inl ⟨a, b, t, rfl, h'⟩)
        · rintro (h' | ⟨a', b', t', e, h'⟩ | h' | h')
          · have := k1 h'; omega
          · injection e with e1 e2
            have := List.append_inj_left' e2 rfl
            rw [this]; exact h'
          · have := k3 h'; omega
          · have := k4 h'; omega
      · rename_i h2
        split
        · rename_i h
          rw [parse_packed s h]
          constructor
          · intro h'; exact Or.inr (Or.inr (Or.inr h'))
          · rintro (h' | h' | h' | h')
            · have := k1 h'; omega
            · have := k2 h'; omega
            · have := k3 h'; omega
            · exact h'
        · rename_i h3
          constructor
          · intro hc; exact absurd hc (hbad _)
          · rintro (h' | h' | h' | h')
            · exact absurd (k1 h') h0
            · exact absurd (k2 h') h2
            · exact absurd (k3 h') h1
            · exact absurd (k4 h') h3

/-- The digits `hex.Encode` writes. -/
theorem hexBytes_pairs (l : List Byte) : Pairs (hexBytes l) l := by
  induction l with
  | nil => exact .nil
  | cons b l ih =>
    have key : ∀ n < 16, Digit (hexDigit n) n := by
      unfold Digit
      decide
    have h1 := key (b.toNat / 16) (by have := b.isLt; omega)
    have h2 := key (b.toNat % 16) (by omega)
    have e : b = BitVec.ofNat 8 (16 * (b.toNat / 16) + b.toNat % 16) := by
      rw [Nat.div_add_mod, BitVec.ofNat_toNat, BitVec.setWidth_eq]
    have := Pairs.cons h1 h2 ih
    rw [← e] at this
    exact this

theorem hexBytes_lower (l : List Byte) : ∀ b ∈ hexBytes l, b ∈ ascii "0123456789abcdef" := by
  induction l with
  | nil => simp [hexBytes]
  | cons c l ih =>
    have key : ∀ n < 16, hexDigit n ∈ ascii "0123456789abcdef" := by decide
    intro b hb
    rw [hexBytes, List.mem_cons, List.mem_cons] at hb
    rcases hb with rfl | rfl | hb
    · exact key _ (by have := c.isLt; omega)
    · exact key _ (by omega)
    · exact ih b hb

/-- C99, text: `String` gives the standard text in braces, in lower case. -/
theorem C99_text (g : Guid) : ∃ t, toString g = ascii "{" ++ t ++ ascii "}" ∧ Grouped t g ∧
    ∀ b ∈ t, b ∈ ascii "0123456789abcdef" ∨ b ∈ ascii "-" := by
  refine ⟨uuidString g, rfl, ⟨_, _, _, _, _, ?_, hexBytes_pairs _, hexBytes_pairs _, hexBytes_pairs _, hexBytes_pairs _, hexBytes_pairs _⟩, ?_⟩
  · simp [uuidString, ascii]
  · intro b hb
    have hd : ascii "-" = [45#8] := rfl
    rw [hd, List.mem_singleton]
    simp only [uuidString, List.mem_append, List.mem_cons] at hb
    rcases hb with hb | hb | hb | hb | hb | hb | hb | hb | hb
    all_goals first | exact Or.inr hb | exact Or.inl (hexBytes_lower _ b hb)

/-- C99, round trip: the text of a Guid reads back as that Guid. -/
theorem C99_round_trip (g : Guid) : parse (toString g) = (g, true) := by
  obtain ⟨t, h1, h2, _⟩ := C99_text g
  rw [C99_accepts_partial]
  exact Or.inr (Or.inl ⟨_, _, t, by rw [h1]; rfl, h2⟩)

/-- C99, distinct: different Guids have different texts. -/
theorem C99_distinct (g h : Guid) (e : toString g = toString h) : g = h := by
  have h1 := C99_round_trip g
  rw [e, C99_round_trip h] at h1
  injection h1 with h1 _
  exact h1.symm

/-- C99 fails for the delimiters: any two bytes around the text are taken for braces. -/
theorem C99_delimiters_false (g : Guid) (a b : Byte) : parse (a :: (uuidString g ++ [b])) = (g, true) := by
  obtain ⟨t, h1, h2, _⟩ := C99_text g
  rw [C99_accepts_partial]
  refine Or.inr (Or.inl ⟨a, b, uuidString g, rfl, ?_⟩)
  have : uuidString g = t := by
    have e : 123#8 :: (uuidString g ++ [125#8]) = 123#8 :: (t ++ [125#8]) := h1
    injection e with _ e
    exact List.append_inj_left' e rfl
  rw [this]
  exact h2

/-- C99 fails on errors: a text that is no Guid still gives one, made of the bytes read so far. `ValueExpression.Convert` and the XML reader use it
(ValueExpression.go L556, DataSet.go L310). -/
theorem C99_error_false : ∃ g : Guid, parse (ascii "12345678-9abc-def0-1234-56789abcdefg") = (g, false) ∧ g ≠ empty ∧
    parse (ascii "12345678-9abc-def0-1234-56789abcde00") = (g, true) :=
  ⟨⟨[0x12, 0x34, 0x56, 0x78, 0x9a, 0xbc, 0xde, 0xf0, 0x12, 0x34, 0x56, 0x78, 0x9a, 0xbc, 0xde, 0], rfl⟩, by decide +kernel, by decide, by decide +kernel⟩

/-- The forms. -/
example : (parse (ascii "urn:UUID:12345678-9ABC-def0-1234-56789abcdef0")).2 = true ∧ (parse (ascii "123456789abcdef0123456789abcdef0")).2 = true ∧
    (parse (ascii "{12345678-9abc-def0-1234-56789abcdef0}")).2 = true ∧ (parse (ascii "12345678-9abc-def0-123456789abcdef0")).2 = false := by
  decide +kernel

end Verif.Guid
