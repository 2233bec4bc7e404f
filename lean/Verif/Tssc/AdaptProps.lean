import Verif.Tssc.CodeProps
import Mathlib.Tactic.Linarith

/-!
# The adaptive code chooses the shortest code (C61)
-/

set_option linter.unusedSimpArgs false

namespace Verif.Tssc

/-- Number of bits state `c` uses for a code word. -/
def codeLength (c : CodeState) (code : Nat) : Nat :=
  match codeBits c code with
  | .ok bits => bits.length
  | _ => 0

/-- Number of bits state `c` would use for code words that occurred `stats[i]` times each. -/
def cost (c : CodeState) (stats : List Nat) : Nat :=
  (stats.zipIdx.map fun p => p.1 * codeLength c p.2).sum

/-! ## Sums -/

/-- Weighted sum with weights by position. -/
def wsum (l : List Nat) (k : Nat) (f : Nat → Int) : Int :=
  ((l.zipIdx k).map fun p => (p.1 : Int) * f p.2).sum

theorem wsum_cons (a : Nat) (l : List Nat) (k : Nat) (f : Nat → Int) :
    wsum (a :: l) k f = a * f k + wsum l (k + 1) f := by
  simp [wsum, List.zipIdx_cons]

theorem wsum_const (l : List Nat) (k : Nat) (x : Int) : wsum l k (fun _ => x) = x * l.sum := by
  induction l generalizing k with
  | nil => simp [wsum]
  | cons a l ih => rw [wsum_cons, ih]; push_cast [List.sum_cons]; ring

/-- The count at a position, zero outside. -/
def cnt (l : List Nat) (i : Nat) : Nat := (l[i]?).getD 0

theorem wsum_ite (l : List Nat) (k a : Nat) (x : Int) (g : Nat → Int) :
    wsum l k (fun i => if i = a then x else g i) =
      wsum l k g + (if k ≤ a then (cnt l (a - k) : Int) else 0) * (x - g a) := by
  induction l generalizing k with
  | nil => simp [wsum, cnt]
  | cons b l ih =>
    rw [wsum_cons, wsum_cons, ih]
    by_cases h1 : k = a
    · subst h1
      simp [cnt]
      ring
    · by_cases h2 : k ≤ a
      · have h3 : k + 1 ≤ a := by omega
        have h4 : a - k = (a - (k + 1)) + 1 := by omega
        simp only [h1, h2, h3, if_true, if_false, cnt, h4, List.getElem?_cons_succ]
        ring
      · have h3 : ¬ k + 1 ≤ a := by omega
        simp only [h1, h2, h3, if_false]
        ring

theorem wsum_ite0 (l : List Nat) (a : Nat) (x : Int) (g : Nat → Int) :
    wsum l 0 (fun i => if i = a then x else g i) = wsum l 0 g + (cnt l a : Int) * (x - g a) := by
  rw [wsum_ite]
  simp

theorem wsum_nonneg (l : List Nat) (k : Nat) (f : Nat → Int) (h : ∀ i, 0 ≤ f i) : 0 ≤ wsum l k f := by
  induction l generalizing k with
  | nil => simp [wsum]
  | cons a l ih =>
    rw [wsum_cons]
    have := ih (k + 1)
    have := Int.mul_nonneg (Int.natCast_nonneg a) (h k)
    omega

theorem cnt_two (l : List Nat) (a b : Nat) (h : a ≠ b) : cnt l a + cnt l b ≤ l.sum := by
  have h1 := wsum_nonneg l 0 (fun i => if i = a then 0 else if i = b then 0 else 1)
    (by intro i; repeat' split
        all_goals omega)
  rw [wsum_ite0 l a 0 (fun i => if i = b then 0 else 1), wsum_ite0 l b 0 (fun _ => 1), wsum_const,
    if_neg h] at h1
  omega

theorem cost_eq (c : CodeState) (l : List Nat) :
    (cost c l : Int) = wsum l 0 (fun i => (codeLength c i : Int)) := by
  unfold cost wsum
  induction (l.zipIdx) with
  | nil => rfl
  | cons a r ih => simp [ih]

/-! ## The three most frequent code words -/

/-- What `top3` knows after looking at the counters `n`. -/
structure TopInv (n : Nat → Nat) (t : Top3) : Prop where
  ord12 : t.count2 ≤ t.count1
  ord23 : t.count3 ≤ t.count2
  is1 : 0 < t.count1 → n t.code1 = t.count1
  is2 : 0 < t.count2 → n t.code2 = t.count2
  is3 : 0 < t.count3 → n t.code3 = t.count3
  ne12 : 0 < t.count2 → t.code1 ≠ t.code2
  ne13 : 0 < t.count3 → t.code1 ≠ t.code3
  ne23 : 0 < t.count3 → t.code2 ≠ t.code3
  rest : ∀ i, (0 < t.count1 → i ≠ t.code1) → (0 < t.count2 → i ≠ t.code2) →
    (0 < t.count3 → i ≠ t.code3) → n i ≤ t.count3

theorem topInv_step (n : Nat → Nat) (t : Top3) (k a : Nat) (h : TopInv n t) (hk : ∀ i, k ≤ i → n i = 0) :
    TopInv (fun i => if i = k then a else n i) (top3Step t (a, k)) := by
  obtain ⟨o12, o23, i1, i2, i3, n12, n13, n23, r⟩ := h
  have ne1 : 0 < t.count1 → t.code1 ≠ k := by
    intro hp he; have := i1 hp; rw [hk _ (by omega)] at this; omega
  have ne2 : 0 < t.count2 → t.code2 ≠ k := by
    intro hp he; have := i2 hp; rw [hk _ (by omega)] at this; omega
  have ne3 : 0 < t.count3 → t.code3 ≠ k := by
    intro hp he; have := i3 hp; rw [hk _ (by omega)] at this; omega
  unfold top3Step
  dsimp only
  split
  · split
    · constructor <;> dsimp only
      · omega
      · omega
      · intro _; simp
      · intro hp; rw [if_neg (ne1 hp)]; exact i1 hp
      · intro hp; rw [if_neg (ne2 hp)]; exact i2 hp
      · intro hp; exact (ne1 hp).symm
      · intro hp; exact (ne2 hp).symm
      · intro hp; exact n12 hp
      · intro i h1 h2 h3
        split
        · rename_i he; exact absurd he (h1 (by omega))
        · have := r i h2 h3
          by_cases hp : 0 < t.count3
          · by_cases he : i = t.code3
            · subst he; have := i3 hp; omega
            · have := this (fun _ => he); omega
          · have := this (fun h => absurd h hp); omega
    · split
      · constructor <;> dsimp only
        · omega
        · omega
        · intro hp; rw [if_neg (ne1 hp)]; exact i1 hp
        · intro _; simp
        · intro hp; rw [if_neg (ne2 hp)]; exact i2 hp
        · intro hp; exact ne1 (by omega)
        · intro hp; exact n12 hp
        · intro hp; exact (ne2 hp).symm
        · intro i h1 h2 h3
          split
          · rename_i he; exact absurd he (h2 (by omega))
          · have := r i h1 h3
            by_cases hp : 0 < t.count3
            · by_cases he : i = t.code3
              · subst he; have := i3 hp; omega
              · have := this (fun _ => he); omega
            · have := this (fun h => absurd h hp); omega
      · constructor <;> dsimp only
        · omega
        · omega
        · intro hp; rw [if_neg (ne1 hp)]; exact i1 hp
        · intro hp; rw [if_neg (ne2 hp)]; exact i2 hp
        · intro _; simp
        · intro hp; exact n12 hp
        · intro hp; exact ne1 (by omega)
        · intro hp; exact ne2 (by omega)
        · intro i h1 h2 h3
          split
          · rename_i he; exact absurd he (h3 (by omega))
          · have := r i h1 h2
            by_cases hp : 0 < t.count3
            · by_cases he : i = t.code3
              · subst he; have := i3 hp; omega
              · have := this (fun _ => he); omega
            · have := this (fun h => absurd h hp); omega
  · constructor <;> dsimp only
    · omega
    · omega
    · intro hp; rw [if_neg (ne1 hp)]; exact i1 hp
    · intro hp; rw [if_neg (ne2 hp)]; exact i2 hp
    · intro hp; rw [if_neg (ne3 hp)]; exact i3 hp
    · exact n12
    · exact n13
    · exact n23
    · intro i h1 h2 h3
      split
      · omega
      · exact r i h1 h2 h3

theorem topInv (l : List Nat) : TopInv (cnt l) (top3 l) := by
  unfold top3
  have key : ∀ (r : List Nat) (k : Nat) (n : Nat → Nat) (t : Top3), TopInv n t → (∀ i, k ≤ i → n i = 0) →
      TopInv (fun i => if k ≤ i then cnt r (i - k) else n i) ((r.zipIdx k).foldl top3Step t) := by
    intro r
    induction r with
    | nil =>
      intro k n t h hk
      simp only [List.zipIdx_nil, List.foldl_nil]
      have : (fun i => if k ≤ i then cnt [] (i - k) else n i) = n := by
        funext i
        split
        · rename_i hi; rw [hk i hi]; simp [cnt]
        · rfl
      rw [this]; exact h
    | cons a r ih =>
      intro k n t h hk
      rw [List.zipIdx_cons, List.foldl_cons]
      have := ih (k + 1) _ _ (topInv_step n t k a h hk) (by
        intro i hi
        rw [if_neg (by omega)]
        exact hk i (by omega))
      have e : (fun i => if k + 1 ≤ i then cnt r (i - (k + 1)) else if i = k then a else n i) =
          (fun i => if k ≤ i then cnt (a :: r) (i - k) else n i) := by
        funext i
        by_cases h1 : i = k
        · subst h1; simp [cnt]
        · by_cases h2 : k + 1 ≤ i
          · have h3 : k ≤ i := by omega
            have h4 : i - k = (i - (k + 1)) + 1 := by omega
            simp only [h2, h3, if_true, cnt, h4, List.getElem?_cons_succ]
          · have h3 : ¬ k ≤ i := by omega
            simp only [h1, h2, h3, if_false]
      rw [← e]
      exact this
  have := key l 0 (fun _ => 0) ⟨0, 0, 1, 0, 2, 0, 0⟩
    (by constructor <;> simp) (fun _ _ => rfl)
  simpa using this

theorem top_one {n : Nat → Nat} {t : Top3} (h : TopInv n t) (i : Nat) : n i ≤ t.count1 := by
  obtain ⟨o12, o23, i1, i2, i3, n12, n13, n23, r⟩ := h
  by_cases h1 : 0 < t.count1 ∧ i = t.code1
  · obtain ⟨hp, rfl⟩ := h1; have := i1 hp; omega
  by_cases h2 : 0 < t.count2 ∧ i = t.code2
  · obtain ⟨hp, rfl⟩ := h2; have := i2 hp; omega
  by_cases h3 : 0 < t.count3 ∧ i = t.code3
  · obtain ⟨hp, rfl⟩ := h3; have := i3 hp; omega
  have := r i (fun hp he => h1 ⟨hp, he⟩) (fun hp he => h2 ⟨hp, he⟩) (fun hp he => h3 ⟨hp, he⟩)
  omega

/-- Each count is at most the third, or is the one of a recorded code word. -/
theorem top_cases {n : Nat → Nat} {t : Top3} (h : TopInv n t) (i : Nat) :
    n i ≤ t.count3 ∨ (i = t.code1 ∧ n i = t.count1) ∨ (i = t.code2 ∧ n i = t.count2) ∨
      (i = t.code3 ∧ n i = t.count3) := by
  obtain ⟨o12, o23, i1, i2, i3, n12, n13, n23, r⟩ := h
  by_cases h1 : 0 < t.count1 ∧ i = t.code1
  · obtain ⟨hp, rfl⟩ := h1; have := i1 hp; simp [this]
  by_cases h2 : 0 < t.count2 ∧ i = t.code2
  · obtain ⟨hp, rfl⟩ := h2; have := i2 hp; simp [this]
  by_cases h3 : 0 < t.count3 ∧ i = t.code3
  · obtain ⟨hp, rfl⟩ := h3; have := i3 hp; simp [this]
  exact .inl (r i (fun hp he => h1 ⟨hp, he⟩) (fun hp he => h2 ⟨hp, he⟩) (fun hp he => h3 ⟨hp, he⟩))

theorem top_two {n : Nat → Nat} {t : Top3} (h : TopInv n t) (i j : Nat) (hij : i ≠ j) :
    n i + n j ≤ t.count1 + t.count2 := by
  have := h.ord12
  have := h.ord23
  rcases top_cases h i with a | ⟨a, b⟩ | ⟨a, b⟩ | ⟨a, b⟩ <;>
  rcases top_cases h j with c | ⟨c, d⟩ | ⟨c, d⟩ | ⟨c, d⟩ <;> omega

theorem top_three {n : Nat → Nat} {t : Top3} (h : TopInv n t) (i j k : Nat) (hij : i ≠ j) (hik : i ≠ k)
    (hjk : j ≠ k) : n i + n j + n k ≤ t.count1 + t.count2 + t.count3 := by
  have := h.ord12
  have := h.ord23
  rcases top_cases h i with a | ⟨a, b⟩ | ⟨a, b⟩ | ⟨a, b⟩ <;>
  rcases top_cases h j with c | ⟨c, d⟩ | ⟨c, d⟩ | ⟨c, d⟩ <;>
  rcases top_cases h k with e | ⟨e, f⟩ | ⟨e, f⟩ | ⟨e, f⟩ <;> omega

/-! ## Costs of the modes -/

theorem bitsOf_length (v n : Nat) : (bitsOf v n).length = n := by
  induction n with
  | zero => rfl
  | succ n ih => simp [bitsOf, ih]

theorem cost_mode1 (c : CodeState) (l : List Nat) (h : c.mode = 1) : (cost c l : Int) = 5 * l.sum := by
  rw [cost_eq, ← wsum_const l 0]
  congr 1
  funext i
  simp [codeLength, codeBits, h, bitsOf_length]

theorem len2 (c : CodeState) (h : c.mode = 2) :
    (fun i => (codeLength c i : Int)) = fun i => if i = c.mode21 then 1 else 6 := by
  funext i
  by_cases hi : i = c.mode21
  · simp [codeLength, codeBits, h, hi, bitsOf_length]
  · simp [codeLength, codeBits, h, hi, bitsOf_length]

theorem len3 (c : CodeState) (h : c.mode = 3) :
    (fun i => (codeLength c i : Int)) =
      fun i => if i = c.mode31 then 1 else if i = c.mode301 then 2 else 7 := by
  funext i
  by_cases hi : i = c.mode31
  · simp [codeLength, codeBits, h, hi, bitsOf_length]
  · by_cases hj : i = c.mode301
    · subst hj; simp [codeLength, codeBits, h, hi, bitsOf_length]
    · simp [codeLength, codeBits, h, hi, hj, bitsOf_length]

theorem len4 (c : CodeState) (h : c.mode = 4) :
    (fun i => (codeLength c i : Int)) =
      fun i => if i = c.mode41 then 1 else if i = c.mode401 then 2 else
        if i = c.mode4001 then 3 else 8 := by
  funext i
  by_cases hi : i = c.mode41
  · simp [codeLength, codeBits, h, hi, bitsOf_length]
  · by_cases hj : i = c.mode401
    · subst hj; simp [codeLength, codeBits, h, hi, bitsOf_length]
    · by_cases hk : i = c.mode4001
      · subst hk; simp [codeLength, codeBits, h, hi, hj, bitsOf_length]
      · simp [codeLength, codeBits, h, hi, hj, hk, bitsOf_length]

theorem cost_mode2 (c : CodeState) (l : List Nat) (h : c.mode = 2) :
    (cost c l : Int) = 6 * l.sum - 5 * cnt l c.mode21 := by
  rw [cost_eq, len2 c h, wsum_ite0 l _ 1 (fun _ => 6), wsum_const]
  ring

theorem cost_mode3 (c : CodeState) (l : List Nat) (h : c.mode = 3) :
    (cost c l : Int) = 7 * l.sum - 6 * cnt l c.mode31 -
      (if c.mode31 = c.mode301 then 0 else 5 * (cnt l c.mode301 : Int)) := by
  rw [cost_eq, len3 c h, wsum_ite0 l _ 1 (fun i => if i = c.mode301 then 2 else 7),
    wsum_ite0 l _ 2 (fun _ => 7), wsum_const]
  split
  · rename_i he; rw [he]; ring
  · ring

theorem cost_mode4 (c : CodeState) (l : List Nat) (h : c.mode = 4) :
    (cost c l : Int) = 8 * l.sum - 7 * cnt l c.mode41 -
      (if c.mode41 = c.mode401 then 0 else 6 * (cnt l c.mode401 : Int)) -
      (if c.mode41 = c.mode4001 ∨ c.mode401 = c.mode4001 then 0 else 5 * (cnt l c.mode4001 : Int)) := by
  rw [cost_eq, len4 c h,
    wsum_ite0 l _ 1 (fun i => if i = c.mode401 then 2 else if i = c.mode4001 then 3 else 8),
    wsum_ite0 l _ 2 (fun i => if i = c.mode4001 then 3 else 8),
    wsum_ite0 l _ 3 (fun _ => 8), wsum_const]
  by_cases h1 : c.mode41 = c.mode401
  · by_cases h2 : c.mode401 = c.mode4001
    · simp only [h1, h2]; simp; ring
    · simp only [h1, h2]; simp; ring
  · by_cases h2 : c.mode401 = c.mode4001
    · have h3 : ¬ c.mode41 = c.mode4001 := by rw [← h2]; exact h1
      simp only [h1, h2, h3]; simp; ring
    · by_cases h3 : c.mode41 = c.mode4001
      · have h4 : ¬ c.mode4001 = c.mode401 := fun e => h2 e.symm
        simp only [h2, h3, h4]; simp; ring
      · simp only [h1, h2, h3]; simp; ring

/-- No mode and no choice of short codes is cheaper than the smallest of the four computed sizes. -/
theorem cost_ge (l : List Nat) (d : CodeState) (h1 : 1 ≤ d.mode) (h2 : d.mode ≤ 4) :
    min (min (mode1Size (top3 l)) (mode2Size (top3 l))) (min (mode3Size (top3 l)) (mode4Size (top3 l))) ≤
      (cost d l : Int) := by
  have ti := topInv l
  have tt := top3_total l
  have t1 := top_one ti
  have o1 := ti.ord12
  have o2 := ti.ord23
  have hm : d.mode = 1 ∨ d.mode = 2 ∨ d.mode = 3 ∨ d.mode = 4 := by omega
  simp only [mode1Size, mode2Size, mode3Size, mode4Size, tt]
  rcases hm with hm | hm | hm | hm
  · rw [cost_mode1 d l hm]; omega
  · rw [cost_mode2 d l hm]
    have := t1 d.mode21
    omega
  · rw [cost_mode3 d l hm]
    have := t1 d.mode31
    split
    · omega
    · rename_i hne
      have := top_two ti _ _ hne
      omega
  · rw [cost_mode4 d l hm]
    have := t1 d.mode41
    have := t1 d.mode4001
    split
    · split
      · omega
      · rename_i hn
        rw [not_or] at hn
        have := top_two ti _ _ hn.1
        omega
    · rename_i hne
      have := top_two ti _ _ hne
      split
      · omega
      · rename_i hn
        rw [not_or] at hn
        have := top_three ti _ _ _ hne hn.1 hn.2
        omega

/-- **C61.** When the code is adapted, the new mode with its short codes encodes the code words counted
since the last change in the fewest bits: no mode with any choice of short codes would have used
fewer. The counters restart at zero. -/
theorem C61_adapt_optimal (c c' : CodeState) (hsum : c.stats.sum ≤ 101) (h : adaptCommands c = .ok c') :
    (∀ d : CodeState, 1 ≤ d.mode → d.mode ≤ 4 → cost c' c.stats ≤ cost d c.stats) ∧
      c'.stats = List.replicate c.stats.length 0 ∧ c'.sent = 0 := by
  have ti := topInv c.stats
  have tt := top3_total c.stats
  have o1 := ti.ord12
  have o2 := ti.ord23
  have hstats : c.stats.map (fun _ => 0) = List.replicate c.stats.length 0 := List.map_const'
  have key : ∀ d : CodeState, 1 ≤ d.mode → d.mode ≤ 4 → (cost c' c.stats : Int) =
      min (min (mode1Size (top3 c.stats)) (mode2Size (top3 c.stats)))
        (min (mode3Size (top3 c.stats)) (mode4Size (top3 c.stats))) →
      cost c' c.stats ≤ cost d c.stats := by
    intro d h1 h2 he
    have := cost_ge c.stats d h1 h2
    omega
  unfold adaptCommands at h
  dsimp only at h
  simp only [goMin_eq] at h
  have hm1 : mode1Size (top3 c.stats) ≤ 2147483647 := by
    unfold mode1Size
    omega
  have i1 := ti.is1
  have i2 := ti.is2
  have i3 := ti.is3
  have n12 := ti.ne12
  have n13 := ti.ne13
  have n23 := ti.ne23
  have l1 := top_one ti (top3 c.stats).code1
  split at h
  · rename_i hmin
    cases h
    refine ⟨fun d h1 h2 => key d h1 h2 ?_, hstats, rfl⟩
    rw [cost_mode1 _ _ rfl]
    simp only [mode1Size, mode2Size, mode3Size, mode4Size, tt] at *
    omega
  split at h
  · rename_i hmin0 hmin
    cases h
    refine ⟨fun d h1 h2 => key d h1 h2 ?_, hstats, rfl⟩
    rw [cost_mode2 _ _ rfl]
    dsimp only
    simp only [mode1Size, mode2Size, mode3Size, mode4Size, tt] at *
    omega
  split at h
  · rename_i hmin1 hmin0 hmin
    cases h
    refine ⟨fun d h1 h2 => key d h1 h2 ?_, hstats, rfl⟩
    rw [cost_mode3 _ _ rfl]
    dsimp only
    simp only [mode1Size, mode2Size, mode3Size, mode4Size, tt] at *
    have hp : 0 < (top3 c.stats).count2 := by
      have := cnt_two c.stats (top3 c.stats).code1 ((top3 c.stats).code1 + 1) (by omega)
      by_cases h1 : 0 < (top3 c.stats).count1
      · rw [i1 h1] at this
        omega
      · omega
    have := n12 hp
    rw [if_neg this, i1 (by omega), i2 hp]
    omega
  split at h
  · rename_i hmin2 hmin1 hmin0 hmin
    cases h
    refine ⟨fun d h1 h2 => key d h1 h2 ?_, hstats, rfl⟩
    rw [cost_mode4 _ _ rfl]
    dsimp only
    simp only [mode1Size, mode2Size, mode3Size, mode4Size, tt] at *
    have hp : 0 < (top3 c.stats).count3 := by
      by_cases h2 : 0 < (top3 c.stats).count2
      · have := cnt_two c.stats _ _ (n12 h2)
        rw [i1 (by omega), i2 h2] at this
        omega
      · have := cnt_two c.stats (top3 c.stats).code1 ((top3 c.stats).code1 + 1) (by omega)
        by_cases h1 : 0 < (top3 c.stats).count1
        · rw [i1 h1] at this
          omega
        · omega
    rw [if_neg (n12 (by omega)), if_neg (by rw [not_or]; exact ⟨n13 hp, n23 hp⟩), i1 (by omega),
      i2 (by omega), i3 hp]
    omega
  · cases h

theorem adapt_startup {c c' : CodeState} (h : adaptCommands c = .ok c') :
    c'.startupMode = c.startupMode := by
  unfold adaptCommands at h
  dsimp only at h
  repeat' split at h
  all_goals cases h
  all_goals rfl

/-- **C61, schedule.** In a consistent state a code word changes nothing but the counters until the number of
code words since the last change exceeds 5 (first time), 20 (second time) or 100 (afterwards); then the code is
adapted to the counters including this code word. -/
theorem C61_schedule (c c' : CodeState) (hc : c.Valid) (code : Nat) (hcode : code < 32)
    (h : updatedCodeStatistics c code = .ok c') :
    (c.sent < adaptAfter c.startupMode →
      c' = { c with sent := c.sent + 1, stats := c.stats.set code (cnt c.stats code + 1) }) ∧
    (c.sent = adaptAfter c.startupMode → c'.sent = 0 ∧ c'.startupMode = min 2 (c.startupMode + 1) ∧
      ∀ d : CodeState, 1 ≤ d.mode → d.mode ≤ 4 →
        cost c' (c.stats.set code (cnt c.stats code + 1)) ≤
          cost d (c.stats.set code (cnt c.stats code + 1))) := by
  have hsum := hc.counted
  have hb := hc.bounded
  have hle : adaptAfter c.startupMode ≤ 100 := by
    unfold adaptAfter; split <;> omega
  have hn : c.stats[code]? = some (cnt c.stats code) := by
    rw [cnt, List.getElem?_eq_getElem (by rw [hc.counters]; exact hcode)]; rfl
  have hn100 := le_sum_of_getElem? _ _ _ hn
  have hset := sum_set_succ _ _ _ hn
  have hmod : (cnt c.stats code + 1) % 256 = cnt c.stats code + 1 := by omega
  have hst := hc.startup
  unfold updatedCodeStatistics at h
  rw [hn] at h
  dsimp only at h
  rw [hmod] at h
  have hsm : c.startupMode = 0 ∨ c.startupMode = 1 ∨ c.startupMode = 2 := by omega
  rcases hsm with hsm | hsm | hsm
  · simp only [hsm, adaptAfter] at *
    constructor
    · intro hlt
      rw [if_neg (by omega), if_neg (by omega), if_neg (by omega)] at h
      cases h; simp
    · intro he
      rw [if_pos ⟨trivial, by omega⟩] at h
      obtain ⟨o, _, z⟩ := C61_adapt_optimal _ _ (by dsimp only; omega) h
      exact ⟨z, by rw [adapt_startup h]; rfl, o⟩
  · simp only [hsm, adaptAfter] at *
    constructor
    · intro hlt
      rw [if_neg (by omega), if_neg (by omega), if_neg (by omega)] at h
      cases h; simp
    · intro he
      rw [if_neg (by omega), if_pos ⟨trivial, by omega⟩] at h
      obtain ⟨o, _, z⟩ := C61_adapt_optimal _ _ (by dsimp only; omega) h
      exact ⟨z, by rw [adapt_startup h]; rfl, o⟩
  · simp only [hsm, adaptAfter] at *
    constructor
    · intro hlt
      rw [if_neg (by omega), if_neg (by omega), if_neg (by omega)] at h
      cases h; simp
    · intro he
      rw [if_neg (by omega), if_neg (by omega), if_pos ⟨trivial, by omega⟩] at h
      obtain ⟨o, _, z⟩ := C61_adapt_optimal _ _ (by dsimp only; omega) h
      exact ⟨z, by rw [adapt_startup h]; dsimp only; omega, o⟩

/-- Non-trivial case: six code words, three distinct, lead to mode 4. -/
example : (adaptCommands
      { CodeState.new with stats := (((List.replicate 32 0).set 31 4).set 1 1).set 17 1, sent := 6 } >>= fun c' =>
    .ok c'.mode) = .ok 4 := by decide +kernel

end Verif.Tssc
