import Verif.Lib.RegexpProps

/-!
# C140: which match is preferred

A match is described by the choices made on its way: at `|` the left or the right alternative, at a repetition to go on or not. `Path` says which choices lead
where; of two ways the one is preferred that has made the preferred choice where they part.
-/

namespace Verif.Regexp

open Verif.Expr

/-- The ways through a repetition of at least one round; a round that takes nothing is the last. `false` is the preferred choice: to go on if greedy, to stop if not. -/
inductive Rounds (g : Bool) (P : Nat → List Bool → Nat → Prop) : Nat → List Bool → Nat → Prop
  | stay {i : Nat} {p : List Bool} (h : P i p i) : Rounds g P i p i
  | stop {i k : Nat} {p : List Bool} (h : P i p k) (hk : i < k) : Rounds g P i (p ++ [g]) k
  | more {i k j : Nat} {p q : List Bool} (h : P i p k) (hk : i < k) (hq : Rounds g P k q j) : Rounds g P i (p ++ (!g) :: q) j

/-- The choices that lead from a position to another. -/
def Path (t : Str) : Rx → Nat → List Bool → Nat → Prop
  | .cat a b, i, p, j => ∃ q k q', p = q ++ q' ∧ Path t a i q k ∧ Path t b k q' j
  | .alt a b, i, p, j => (∃ q, p = false :: q ∧ Path t a i q j) ∨ ∃ q, p = true :: q ∧ Path t b i q j
  | .opt g a, i, p, j => (∃ q, p = (!g) :: q ∧ Path t a i q j) ∨ p = [g] ∧ j = i
  | .plus g a, i, p, j => Rounds g (Path t a) i p j
  | .star g a, i, p, j => (∃ q, p = (!g) :: q ∧ Rounds g (Path t a) i q j) ∨ p = [g] ∧ j = i
  | r, i, p, j => p = [] ∧ Between t r i j

/-- Where two ways part, the first has made the preferred choice. -/
def Before (p q : List Bool) : Prop := ∃ c x y, p = c ++ false :: x ∧ q = c ++ true :: y

theorem Before.append {p q : List Bool} (h : Before p q) (x y : List Bool) : Before (p ++ x) (q ++ y) := by
  obtain ⟨c, u, v, rfl, rfl⟩ := h
  exact ⟨c, u ++ x, v ++ y, by simp, by simp⟩

theorem Before.prepend {p q : List Bool} (h : Before p q) (c : List Bool) : Before (c ++ p) (c ++ q) := by
  obtain ⟨d, u, v, rfl, rfl⟩ := h
  exact ⟨c ++ d, u, v, by simp, by simp⟩

theorem before_choice (x y : List Bool) : Before (false :: x) (true :: y) := ⟨[], x, y, rfl, rfl⟩

/-- The list with the ways to the ends of a repetition. -/
def roundsOf (g : Bool) (x : Nat → List (List Bool × Nat)) : Nat → Nat → List (List Bool × Nat)
  | 0, _ => []
  | n + 1, i => (x i).flatMap fun w =>
    if i < w.2 then
      (if g then (roundsOf g x n w.2).map (fun v => (w.1 ++ false :: v.1, v.2)) ++ [(w.1 ++ [true], w.2)]
        else (w.1 ++ [false], w.2) :: (roundsOf g x n w.2).map (fun v => (w.1 ++ true :: v.1, v.2)))
    else [w]

/-- The list of the ends with the ways to them. -/
def ways (t : Str) : Rx → Nat → List (List Bool × Nat)
  | .cat a b, i => (ways t a i).flatMap fun w => (ways t b w.2).map fun v => (w.1 ++ v.1, v.2)
  | .alt a b, i => (ways t a i).map (fun w => (false :: w.1, w.2)) ++ (ways t b i).map fun w => (true :: w.1, w.2)
  | .opt g a, i =>
    if g then (ways t a i).map (fun w => (false :: w.1, w.2)) ++ [([true], i)] else ([false], i) :: (ways t a i).map fun w => (true :: w.1, w.2)
  | .plus g a, i => roundsOf g (ways t a) (t.length + 1 - i) i
  | .star g a, i =>
    if g then (roundsOf g (ways t a) (t.length + 1 - i) i).map (fun w => (false :: w.1, w.2)) ++ [([true], i)]
      else ([false], i) :: (roundsOf g (ways t a) (t.length + 1 - i) i).map fun w => (true :: w.1, w.2)
  | r, i => (ends t r i).map fun j => ([], j)

theorem roundsOf_ends (g : Bool) {x : Nat → List (List Bool × Nat)} {y : Nat → List Nat} (h : ∀ i, (x i).map Prod.snd = y i) :
    ∀ n i, (roundsOf g x n i).map Prod.snd = loop g y n i
  | 0, _ => rfl
  | n + 1, i => by
    rw [roundsOf, loop, List.map_flatMap, ← h i, List.flatMap_map]
    refine List.flatMap_congr fun w _ => ?_
    have ih := roundsOf_ends g h n w.2
    split
    · cases g <;> simp [← ih, Function.comp_def]
    · rfl

theorem ways_ends (t : Str) : ∀ r i, (ways t r i).map Prod.snd = ends t r i
  | .eps, i => by simp [ways, Function.comp_def]
  | .set _ _, i => by simp [ways, Function.comp_def]
  | .first, i => by simp [ways, Function.comp_def]
  | .last, i => by simp [ways, Function.comp_def]
  | .word _, i => by simp [ways, Function.comp_def]
  | .cat a b, i => by
    rw [ways, ends, List.map_flatMap, ← ways_ends t a i, List.flatMap_map]
    refine List.flatMap_congr fun w _ => ?_
    rw [← ways_ends t b w.2]
    simp [Function.comp_def]
  | .alt a b, i => by
    rw [ways, ends, ← ways_ends t a i, ← ways_ends t b i]
    simp [Function.comp_def]
  | .opt g a, i => by
    rw [ways, ends, ← ways_ends t a i]
    cases g <;> simp [Function.comp_def]
  | .plus g a, i => by
    rw [ways, ends]
    exact roundsOf_ends g (ways_ends t a) _ _
  | .star g a, i => by
    rw [ways, ends, ← roundsOf_ends g (ways_ends t a)]
    cases g <;> simp [Function.comp_def]

theorem mem_roundsOf {g : Bool} {x : Nat → List (List Bool × Nat)} {P : Nat → List Bool → Nat → Prop} {L : Nat}
    (hx : ∀ i, i ≤ L → ∀ p j, (p, j) ∈ x i ↔ P i p j) (hP : ∀ i p j, i ≤ L → P i p j → i ≤ j ∧ j ≤ L) :
    ∀ n i, i ≤ L → L + 1 - i ≤ n → ∀ p j, (p, j) ∈ roundsOf g x n i ↔ Rounds g P i p j
  | 0, i, hi, hn, _, _ => by omega
  | n + 1, i, hi, hn, p, j => by
    rw [roundsOf, List.mem_flatMap]
    constructor
    · rintro ⟨⟨q, k⟩, hw, hp⟩
      have hq := (hx i hi q k).1 hw
      have hle := hP _ _ _ hi hq
      dsimp only at hp
      split at hp
      · rename_i hk
        have ih := mem_roundsOf (g := g) hx hP n k hle.2 (by omega)
        have hp : (∃ v, v ∈ roundsOf g x n k ∧ (q ++ (!g) :: v.1, v.2) = (p, j)) ∨ (p, j) = (q ++ [g], k) := by
          cases g <;> simp at hp ⊢ <;> grind
        rcases hp with ⟨⟨v, m⟩, hv, he⟩ | he
        · cases he
          exact .more hq hk ((ih _ _).1 hv)
        · cases he
          exact .stop hq hk
      · rename_i hk
        rw [List.mem_singleton] at hp
        cases hp
        have : j = i := by omega
        subst this
        exact .stay hq
    · intro h
      cases h with
      | stay h => exact ⟨(p, i), (hx i hi _ _).2 h, by simp⟩
      | stop h hk =>
        rename_i q
        refine ⟨(q, j), (hx i hi _ _).2 h, ?_⟩
        dsimp only
        rw [if_pos hk]
        cases g <;> simp
      | more h hk hq =>
        rename_i k q q'
        have hle := hP _ _ _ hi h
        have ih := (mem_roundsOf hx hP n k hle.2 (by omega) _ _).2 hq
        refine ⟨(q, k), (hx i hi _ _).2 h, ?_⟩
        dsimp only
        rw [if_pos hk]
        cases g <;> simp <;> exact ih

theorem Path.le {t : Str} {r : Rx} {i j : Nat} {p : List Bool} (h : (p, j) ∈ ways t r i) (hi : i ≤ t.length) : i ≤ j ∧ j ≤ t.length := by
  refine Between.le ((mem_ends r i hi j).1 ?_) hi
  rw [← ways_ends]
  exact List.mem_map.2 ⟨_, h, rfl⟩

theorem mem_leaf {t : Str} {r : Rx} {i : Nat} (hi : i ≤ t.length) (p : List Bool) (j : Nat) :
    (p, j) ∈ (ends t r i).map (fun j => (([] : List Bool), j)) ↔ p = [] ∧ Between t r i j := by
  rw [List.mem_map, ← mem_ends r i hi]
  constructor
  · rintro ⟨k, hk, he⟩
    cases he
    exact ⟨rfl, hk⟩
  · rintro ⟨rfl, h⟩
    exact ⟨j, h, rfl⟩

theorem mem_ways {t : Str} : ∀ (r : Rx) (i : Nat), i ≤ t.length → ∀ p j, (p, j) ∈ ways t r i ↔ Path t r i p j
  | .eps, i, hi, p, j => mem_leaf hi p j
  | .set _ _, i, hi, p, j => mem_leaf hi p j
  | .first, i, hi, p, j => mem_leaf hi p j
  | .last, i, hi, p, j => mem_leaf hi p j
  | .word _, i, hi, p, j => mem_leaf hi p j
  | .cat a b, i, hi, p, j => by
    rw [ways, Path, List.mem_flatMap]
    constructor
    · rintro ⟨⟨q, k⟩, hw, hv⟩
      obtain ⟨⟨q', m⟩, hv', he⟩ := List.mem_map.1 hv
      cases he
      exact ⟨q, k, q', rfl, (mem_ways a i hi _ _).1 hw, (mem_ways b k (Path.le hw hi).2 _ _).1 hv'⟩
    · rintro ⟨q, k, q', rfl, ha, hb⟩
      have hw := (mem_ways a i hi _ _).2 ha
      exact ⟨(q, k), hw, List.mem_map.2 ⟨(q', j), (mem_ways b k (Path.le hw hi).2 _ _).2 hb, rfl⟩⟩
  | .alt a b, i, hi, p, j => by
    have ha := mem_ways a i hi
    have hb := mem_ways b i hi
    simp only [ways, Path, List.mem_append, List.mem_map, Prod.exists, Prod.mk.injEq]
    grind
  | .opt g a, i, hi, p, j => by
    have ha := mem_ways a i hi
    cases g <;> simp [ways, Path] <;> grind
  | .plus g a, i, hi, p, j => by
    exact mem_roundsOf (fun i hi p j => mem_ways a i hi p j) (fun i p j hi h => Path.le ((mem_ways a i hi p j).2 h) hi) _ i hi (by omega) p j
  | .star g a, i, hi, p, j => by
    have ha := mem_roundsOf (g := g) (fun i hi p j => mem_ways a i hi p j) (fun i p j hi h => Path.le ((mem_ways a i hi p j).2 h) hi)
      (t.length + 1 - i) i hi (by omega)
    cases g <;> simp [ways, Path] <;> grind

theorem pairwise_roundsOf {g : Bool} {x : Nat → List (List Bool × Nat)} {L : Nat} (hx : ∀ i, i ≤ L → (x i).Pairwise fun v w => Before v.1 w.1)
    (hL : ∀ i, i ≤ L → ∀ w ∈ x i, w.2 ≤ L) :
    ∀ n i, i ≤ L → (roundsOf g x n i).Pairwise fun v w => Before v.1 w.1
  | 0, _, _ => List.Pairwise.nil
  | n + 1, i, hi => by
    rw [roundsOf, List.pairwise_flatMap]
    constructor
    · intro w hw
      have ih := pairwise_roundsOf (g := g) hx hL n w.2 (hL i hi w hw)
      split
      · cases g
        · rw [if_neg (by simp), List.pairwise_cons, List.pairwise_map]
          refine ⟨fun v hv => ?_, ih.imp fun h => ?_⟩
          · obtain ⟨u, _, rfl⟩ := List.mem_map.1 hv
            exact (before_choice _ _).prepend _
          · exact Before.prepend (p := true :: _) (q := true :: _) (h.prepend [true]) _
        · rw [if_pos rfl, List.pairwise_append, List.pairwise_map]
          refine ⟨ih.imp fun h => ?_, List.pairwise_singleton _ _, fun v hv u hu => ?_⟩
          · exact Before.prepend (p := false :: _) (q := false :: _) (h.prepend [false]) _
          · obtain ⟨u', _, rfl⟩ := List.mem_map.1 hv
            rw [List.mem_singleton] at hu
            subst hu
            exact (before_choice _ _).prepend _
      · exact List.pairwise_singleton _ _
    · refine (hx i hi).imp fun {v w} h a ha b hb => ?_
      have key : ∀ (w : List Bool × Nat) (a : List Bool × Nat), (a ∈ if i < w.2 then
          (if g then (roundsOf g x n w.2).map (fun v => (w.1 ++ false :: v.1, v.2)) ++ [(w.1 ++ [true], w.2)]
            else (w.1 ++ [false], w.2) :: (roundsOf g x n w.2).map (fun v => (w.1 ++ true :: v.1, v.2)))
          else [w]) → ∃ c, a.1 = w.1 ++ c := by
        intro w a ha
        split at ha
        · cases g <;> simp at ha <;> grind
        · simp at ha
          exact ⟨[], by simp [ha]⟩
      obtain ⟨c, hc⟩ := key v a ha
      obtain ⟨d, hd⟩ := key w b hb
      rw [hc, hd]
      exact h.append c d

theorem pairwise_choice {v w : List (List Bool × Nat)} (hv : v.Pairwise fun v w => Before v.1 w.1) (hw : w.Pairwise fun v w => Before v.1 w.1) :
    (v.map (fun w => (false :: w.1, w.2)) ++ w.map fun w => (true :: w.1, w.2)).Pairwise fun v w => Before v.1 w.1 := by
  rw [List.pairwise_append, List.pairwise_map, List.pairwise_map]
  refine ⟨hv.imp fun h => h.prepend [false], hw.imp fun h => h.prepend [true], fun a ha b hb => ?_⟩
  obtain ⟨_, _, rfl⟩ := List.mem_map.1 ha
  obtain ⟨_, _, rfl⟩ := List.mem_map.1 hb
  exact before_choice _ _

theorem pairwise_single (i : Nat) : [(([] : List Bool), i)].Pairwise fun v w => Before v.1 w.1 := List.pairwise_singleton _ _

theorem pairwise_leaf {l : List Nat} (h : l.length ≤ 1) : (l.map fun j => (([] : List Bool), j)).Pairwise fun v w => Before v.1 w.1 := by
  match l, h with
  | [], _ => exact List.Pairwise.nil
  | [j], _ => exact pairwise_single j

theorem pairwise_ways {t : Str} : ∀ (r : Rx) (i : Nat), i ≤ t.length → (ways t r i).Pairwise fun v w => Before v.1 w.1
  | .eps, i, hi => pairwise_single i
  | .set _ _, i, hi => pairwise_leaf (by rw [ends]; split <;> simp)
  | .first, i, hi => pairwise_leaf (by rw [ends]; split <;> simp)
  | .last, i, hi => pairwise_leaf (by rw [ends]; split <;> simp)
  | .word _, i, hi => pairwise_leaf (by rw [ends]; split <;> simp)
  | .cat a b, i, hi => by
    rw [ways, List.pairwise_flatMap]
    constructor
    · rintro ⟨q, k⟩ hw
      rw [List.pairwise_map]
      exact (pairwise_ways b k (Path.le hw hi).2).imp fun h => h.prepend q
    · refine (pairwise_ways a i hi).imp fun h u hu v hv => ?_
      obtain ⟨_, _, rfl⟩ := List.mem_map.1 hu
      obtain ⟨_, _, rfl⟩ := List.mem_map.1 hv
      exact h.append _ _
  | .alt a b, i, hi => pairwise_choice (pairwise_ways a i hi) (pairwise_ways b i hi)
  | .opt g a, i, hi => by
    cases g
    · exact pairwise_choice (pairwise_single i) (pairwise_ways a i hi)
    · exact pairwise_choice (pairwise_ways a i hi) (pairwise_single i)
  | .plus g a, i, hi =>
    pairwise_roundsOf (fun i hi => pairwise_ways a i hi) (fun i hi w hw => (Path.le (p := w.1) (j := w.2) hw hi).2) _ i hi
  | .star g a, i, hi => by
    have h := pairwise_roundsOf (g := g) (fun i hi => pairwise_ways a i hi) (fun i hi w hw => (Path.le (p := w.1) (j := w.2) hw hi).2) (t.length + 1 - i) i hi
    cases g
    · exact pairwise_choice (pairwise_single i) h
    · exact pairwise_choice h (pairwise_single i)

/-- C140, which of the matches at the first place: the one that has made the preferred choice wherever it parts from another, the left alternative before the right one,
going on before stopping if greedy and stopping before going on if not. -/
theorem C140_preferred {t : Str} {r : Rx} {i j : Nat} (h : find t r = some (i, j)) :
    ∃ p, Path t r i p j ∧ ∀ p' j', Path t r i p' j' → p' = p ∧ j' = j ∨ Before p p' := by
  obtain ⟨hi, _, hh, _⟩ := find_some h
  have hp := pairwise_ways r i hi.le
  have hm := fun p j => mem_ways r i hi.le p j
  rw [← ways_ends] at hh
  cases hw : ways t r i with
  | nil => rw [hw] at hh; cases hh
  | cons w ws =>
    rw [hw] at hh hp hm
    have hj : w.2 = j := by simpa using hh
    refine ⟨w.1, (hm w.1 j).1 (by rw [← hj]; simp), fun p' j' h' => ?_⟩
    rcases List.mem_cons.1 ((hm p' j').2 h') with he | hin
    · left
      rw [← he]
      exact ⟨rfl, by rw [← hj, ← he]⟩
    · exact .inr ((List.pairwise_cons.1 hp).1 _ hin)

/-- There is a way to every match. -/
theorem path_iff {t : Str} {r : Rx} {i j : Nat} (hi : i ≤ t.length) : (∃ p, Path t r i p j) ↔ Between t r i j := by
  rw [← mem_ends r i hi, ← ways_ends, List.mem_map]
  constructor
  · rintro ⟨p, hp⟩
    exact ⟨(p, j), (mem_ways r i hi p j).2 hp, rfl⟩
  · rintro ⟨⟨p, k⟩, hw, rfl⟩
    exact ⟨p, (mem_ways r i hi p k).1 hw⟩

/-- A greedy and a reluctant repetition: `<.*>` and `<.*?>`. -/
example : compile (lit "<.*>") = .ok (.cat (.set false [(60, 60)]) (.cat (.star true (.set true [(10, 10)])) (.cat (.set false [(62, 62)]) .eps))) ∧
    find (lit "<a><b>") (.cat (.set false [(60, 60)]) (.cat (.star true (.set true [(10, 10)])) (.cat (.set false [(62, 62)]) .eps))) = some (0, 6) ∧
    find (lit "<a><b>") (.cat (.set false [(60, 60)]) (.cat (.star false (.set true [(10, 10)])) (.cat (.set false [(62, 62)]) .eps))) = some (0, 3) := by
  refine ⟨?_, ?_, ?_⟩ <;> decide +kernel

end Verif.Regexp
