import Verif.Lib.Double
import Verif.HashSet.Model

/-!
# Sets of any comparable type (property C143)

`HashSet[T comparable]` (hashset/HashSet.go L34) takes floating-point numbers and structures of them too, for which `==` is no equality: a NaN is not
equal to itself, and 0 is equal to -0. Here the functions of `Verif.HashSet.Model` over a Go map that compares its keys by such an `==`.
As there, the list of the keys stands for a map in any order of iteration; a nil map and keys that are interfaces (whose comparison can panic) are not modelled.
-/

namespace Verif.HashSet.Comparable

/-- What is taken of the `==` of a comparable type without interfaces: what holds of `==` for numbers, texts, pointers, and arrays and structures of these.
(hashset/HashSet.go L34) -/
structure Comparison {T : Type} (eqv : T → T → Bool) : Prop where
  symm : ∀ a b, eqv a b = true → eqv b a = true
  trans : ∀ a b c, eqv a b = true → eqv b c = true → eqv a c = true

variable {T : Type} (eqv : T → T → Bool)

/-- `_, ok := hs[item]` (hashset/HashSet.go L95-98) -/
def contains (hs : List T) (item : T) : Bool := hs.any fun k => eqv k item

/-- `delete(hs, item)` (hashset/HashSet.go L59, L89, L117) -/
def delete (hs : List T) (item : T) : List T := hs.filter fun k => !eqv k item

/-- hashset/HashSet.go L46-53. The key is stored as it is: no equal one is there. -/
def add (hs : List T) (item : T) : List T × Bool :=
  if contains eqv hs item then (hs, false) else (item :: hs, true)

/-- hashset/HashSet.go L57-64 -/
def remove (hs : List T) (item : T) : List T × Bool :=
  if contains eqv hs item then (delete eqv hs item, true) else (hs, false)

/-- Loop body of hashset/HashSet.go L71-75: the set and the number removed so far. -/
def removeWhereBody (predicate : T → Bool) (s : List T × Nat) (k : T) : List T × Nat :=
  if predicate k && (remove eqv s.1 k).2 then ((remove eqv s.1 k).1, s.2 + 1) else s

/-- hashset/HashSet.go L68-78 -/
def removeWhere (hs : List T) (predicate : T → Bool) : List T × Nat :=
  hs.foldl (removeWhereBody eqv predicate) (hs, 0)

/-- hashset/HashSet.go L87-91. The compiler clears a map at once for this loop only where the keys are equal to themselves. -/
def clear (hs : List T) : List T := hs.foldl (delete eqv) hs

/-- hashset/HashSet.go L115-119 -/
def exceptWith (hs other : List T) : List T := other.foldl (delete eqv) hs

/-- hashset/HashSet.go L171-175 -/
def unionWith (hs other : List T) : List T := other.foldl (fun s v => (add eqv s v).1) hs

/-- hashset/HashSet.go L38-42 -/
def newHashSet (items : List T) : List T := unionWith eqv [] items

/-- Loop body of hashset/HashSet.go L134-138. -/
def toggle (s : List T) (v : T) : List T :=
  if (remove eqv s v).2 then (remove eqv s v).1 else (add eqv (remove eqv s v).1 v).1

/-- hashset/HashSet.go L127-139 -/
def symmetricExceptWith (hs other : List T) : List T :=
  if hs.isEmpty then unionWith eqv hs other else other.foldl (toggle eqv) hs

/-- Loop body of hashset/HashSet.go L163-167. -/
def intersectBody (other : List T) (s : List T) (k : T) : List T :=
  if contains eqv other k then s else (remove eqv s k).1

/-- hashset/HashSet.go L152-168 -/
def intersectWithSet (hs other : List T) : List T :=
  if hs.isEmpty then hs
  else if other.isEmpty then clear eqv hs
  else hs.foldl (intersectBody eqv other) hs

/-- hashset/HashSet.go L147-149 -/
def intersectWith (hs other : List T) : List T := intersectWithSet eqv hs (newHashSet eqv other)

/-- hashset/HashSet.go L184-196, L200-202 -/
def setEquals (hs other : List T) : Bool := if hs.length ≠ other.length then false else other.all (contains eqv hs)

/-- hashset/HashSet.go L234-252 -/
def isSubsetOfSet (hs other : List T) : Bool :=
  if hs.isEmpty then true else if hs.length > other.length then false else hs.all (contains eqv other)

/-- hashset/HashSet.go L284-302, L306-308 -/
def isSupersetOf (hs other : List T) : Bool :=
  if other.isEmpty then true else if other.length > hs.length then false else other.all (contains eqv hs)

/-- hashset/HashSet.go L206-218, L222-224 -/
def overlaps (hs other : List T) : Bool := if hs.isEmpty then false else other.any (contains eqv hs)

/-- hashset/HashSet.go L262-280 -/
def isProperSubsetOfSet (hs other : List T) : Bool :=
  if hs.isEmpty then decide (other.length > 0) else if hs.length ≥ other.length then false else hs.all (contains eqv other)

/-- hashset/HashSet.go L312-335, L339-341 -/
def isProperSupersetOf (hs other : List T) : Bool :=
  if hs.isEmpty then true
  else if other.isEmpty then true
  else if other.length ≥ hs.length then false
  else other.all (contains eqv hs)

/-- One operation on the set (hashset/HashSet.go L46-175). -/
def step (hs : List T) : Op T → List T × Ret
  | .add x => ((add eqv hs x).1, .bool (add eqv hs x).2)
  | .remove x => ((remove eqv hs x).1, .bool (remove eqv hs x).2)
  | .removeWhere p => ((removeWhere eqv hs p).1, .count (removeWhere eqv hs p).2)
  | .clear => (clear eqv hs, .none)
  | .unionWith l => (unionWith eqv hs l, .none)
  | .intersectWith l => (intersectWith eqv hs l, .none)
  | .exceptWith l => (exceptWith eqv hs l, .none)
  | .symmetricExceptWith l => (symmetricExceptWith eqv hs l, .none)

/-- A history of operations, collecting the returned values (hashset/HashSet.go L38-340). -/
def run (hs : List T) : List (Op T) → List T × List Ret
  | [] => (hs, [])
  | op :: ops => ((run (step eqv hs op).1 ops).1, (step eqv hs op).2 :: (run (step eqv hs op).1 ops).2)

/-! ## What is claimed -/

/-- What a set is: which values are in it, and how many that are not equal to themselves have been put into it. -/
structure Abstract (T : Type) where
  mem : T → Prop
  odd : Nat

/-- The number of values of a list that are not equal to themselves. -/
def odds (l : List T) : Nat := (l.filter fun x => !eqv x x).length

/-- The set of values `S`, equal ones counted once, has `n` of them. -/
def Size (S : T → Prop) (n : Nat) : Prop :=
  ∃ reps : List T, reps.length = n ∧ reps.Pairwise (fun a b => eqv a b = false) ∧ (∀ r ∈ reps, eqv r r = true) ∧ ∀ y, S y ↔ ∃ r ∈ reps, eqv r y = true

/-- What an operation does to a set. -/
def after (s : Abstract T) : Op T → Abstract T
  | .add x => ⟨fun y => s.mem y ∨ eqv x y, s.odd + odds eqv [x]⟩
  | .remove x => ⟨fun y => s.mem y ∧ ¬ eqv x y, s.odd⟩
  | .removeWhere p => ⟨fun y => s.mem y ∧ ¬ p y, s.odd⟩
  | .clear => ⟨fun _ => False, s.odd⟩
  | .unionWith l => ⟨fun y => s.mem y ∨ ∃ x ∈ l, eqv x y, s.odd + odds eqv l⟩
  | .intersectWith l => ⟨fun y => s.mem y ∧ ∃ x ∈ l, eqv x y, s.odd⟩
  | .exceptWith l => ⟨fun y => s.mem y ∧ ¬ ∃ x ∈ l, eqv x y, s.odd⟩
  | .symmetricExceptWith l => ⟨fun y => ¬ (s.mem y ↔ ∃ x ∈ l, eqv x y), s.odd + odds eqv l⟩

/-- What an operation returns. -/
def Returns (s : Abstract T) : Op T → Ret → Prop
  | .add x, r => ∃ b, r = .bool b ∧ (b = true ↔ ¬ s.mem x)
  | .remove x, r => ∃ b, r = .bool b ∧ (b = true ↔ s.mem x)
  | .removeWhere p, r => ∃ n, r = .count n ∧ Size eqv (fun y => s.mem y ∧ p y) n
  | _, r => r = .none

/-- The arguments taken: a predicate treats equal values alike; a slice for SymmetricExceptWith has no two equal values (see C06). -/
def Fine : Op T → Prop
  | .removeWhere p => ∀ a b, eqv a b = true → p a = p b
  | .symmetricExceptWith l => l.Pairwise fun a b => eqv a b = false
  | _ => True

/-- What a history does and returns. -/
def Meant (s : Abstract T) : List (Op T) → List Ret → Abstract T → Prop
  | [], rs, t => rs = [] ∧ t = s
  | op :: ops, rs, t => ∃ r rs', rs = r :: rs' ∧ Returns eqv s op r ∧ Meant (after eqv s op) ops rs' t

/-! ## Proofs -/

/-- The list holds the set. -/
structure Holds (hs : List T) (s : Abstract T) : Prop where
  apart : hs.Pairwise fun a b => eqv a b = false
  mem : ∀ y, s.mem y ↔ ∃ k ∈ hs, eqv k y = true
  odd : odds eqv hs = s.odd

variable {eqv}

theorem contains_iff (hs : List T) (x : T) : contains eqv hs x = true ↔ ∃ k ∈ hs, eqv k x = true := by
  simp [contains]

theorem odds_delete (C : Comparison eqv) (hs : List T) (x : T) : odds eqv (delete eqv hs x) = odds eqv hs := by
  unfold odds delete
  rw [List.filter_filter]
  congr 1
  apply List.filter_congr
  intro k _
  cases h : eqv k x with
  | false => simp
  | true => simp [C.trans k x k h (C.symm k x h)]

theorem has_delete (C : Comparison eqv) (hs : List T) (x y : T) :
    (∃ k ∈ delete eqv hs x, eqv k y = true) ↔ (∃ k ∈ hs, eqv k y = true) ∧ ¬ eqv x y = true := by
  unfold delete
  simp only [List.mem_filter, Bool.not_eq_eq_eq_not, Bool.not_true]
  constructor
  · rintro ⟨k, ⟨hk, h1⟩, h2⟩
    refine ⟨⟨k, hk, h2⟩, fun h => ?_⟩
    have := C.trans k y x h2 (C.symm x y h)
    simp [h1] at this
  · rintro ⟨⟨k, hk, h2⟩, h⟩
    refine ⟨k, ⟨hk, ?_⟩, h2⟩
    cases h1 : eqv k x with
    | false => rfl
    | true => exact absurd (C.trans x k y (C.symm k x h1) h2) h

theorem holds_delete (C : Comparison eqv) {hs : List T} {s : Abstract T} (h : Holds eqv hs s) (x : T) :
    Holds eqv (delete eqv hs x) ⟨fun y => s.mem y ∧ ¬ eqv x y, s.odd⟩ where
  apart := h.apart.filter _
  mem y := by rw [has_delete C, ← h.mem]
  odd := by rw [odds_delete C, h.odd]

theorem Holds.congr {hs : List T} {s t : Abstract T} (h : Holds eqv hs s) (hm : ∀ y, s.mem y ↔ t.mem y) (ho : s.odd = t.odd) : Holds eqv hs t where
  apart := h.apart
  mem y := by rw [← hm, h.mem]
  odd := by rw [h.odd, ho]

theorem Holds.eqv_mem (C : Comparison eqv) {hs : List T} {s : Abstract T} (h : Holds eqv hs s) {x y : T} (hxy : eqv x y = true) : s.mem x ↔ s.mem y := by
  rw [h.mem, h.mem]
  exact ⟨fun ⟨k, hk, e⟩ => ⟨k, hk, C.trans k x y e hxy⟩, fun ⟨k, hk, e⟩ => ⟨k, hk, C.trans k y x e (C.symm x y hxy)⟩⟩

theorem contains_mem {hs : List T} {s : Abstract T} (h : Holds eqv hs s) (x : T) : contains eqv hs x = true ↔ s.mem x := by
  rw [contains_iff, h.mem]

theorem holds_remove (C : Comparison eqv) {hs : List T} {s : Abstract T} (h : Holds eqv hs s) (x : T) :
    Holds eqv (remove eqv hs x).1 ⟨fun y => s.mem y ∧ ¬ eqv x y, s.odd⟩ := by
  unfold remove
  split
  · exact holds_delete C h x
  · rename_i hx
    rw [contains_mem h] at hx
    exact h.congr (fun y => ⟨fun hy => ⟨hy, fun e => hx ((h.eqv_mem C e).2 hy)⟩, fun hy => hy.1⟩) rfl

theorem remove_snd {hs : List T} {s : Abstract T} (h : Holds eqv hs s) (x : T) : (remove eqv hs x).2 = true ↔ s.mem x := by
  unfold remove
  rw [← contains_mem h]
  split <;> simp_all

theorem odds_cons (x : T) (l : List T) : odds eqv (x :: l) = odds eqv [x] + odds eqv l := by
  unfold odds
  rw [← List.length_append, ← List.filter_append]
  rfl

theorem holds_add (C : Comparison eqv) {hs : List T} {s : Abstract T} (h : Holds eqv hs s) (x : T) :
    Holds eqv (add eqv hs x).1 ⟨fun y => s.mem y ∨ eqv x y, s.odd + odds eqv [x]⟩ := by
  unfold add
  split
  · rename_i hx
    have hxx : eqv x x = true := by
      obtain ⟨k, _, e⟩ := (contains_iff hs x).1 hx
      exact C.trans x k x (C.symm k x e) e
    rw [contains_mem h] at hx
    refine h.congr (fun y => ⟨.inl, fun hy => hy.elim id fun e => (h.eqv_mem C e).1 hx⟩) ?_
    simp [odds, hxx]
  · rename_i hx
    refine ⟨List.pairwise_cons.2 ⟨fun k hk => ?_, h.apart⟩, fun y => ?_, ?_⟩
    · cases e : eqv x k with
      | false => rfl
      | true => exact absurd ((contains_iff hs x).2 ⟨k, hk, C.symm x k e⟩) hx
    · show s.mem y ∨ eqv x y = true ↔ _
      rw [h.mem]
      simp only [List.mem_cons, exists_eq_or_imp]
      exact or_comm
    · rw [odds_cons, h.odd]
      exact Nat.add_comm _ _

theorem add_snd {hs : List T} {s : Abstract T} (h : Holds eqv hs s) (x : T) : (add eqv hs x).2 = true ↔ ¬ s.mem x := by
  unfold add
  rw [← contains_mem h]
  split <;> simp_all

theorem holds_deletes (C : Comparison eqv) (l : List T) {hs : List T} {s : Abstract T} (h : Holds eqv hs s) :
    Holds eqv (l.foldl (delete eqv) hs) ⟨fun y => s.mem y ∧ ¬ ∃ x ∈ l, eqv x y, s.odd⟩ := by
  induction l generalizing hs s with
  | nil => exact h.congr (fun y => by simp) rfl
  | cons x l ih =>
    refine (ih (holds_delete C h x)).congr (fun y => ?_) rfl
    simp only [List.mem_cons, exists_eq_or_imp, not_or]
    exact and_assoc

theorem holds_union (C : Comparison eqv) (l : List T) {hs : List T} {s : Abstract T} (h : Holds eqv hs s) :
    Holds eqv (unionWith eqv hs l) ⟨fun y => s.mem y ∨ ∃ x ∈ l, eqv x y, s.odd + odds eqv l⟩ := by
  unfold unionWith
  induction l generalizing hs s with
  | nil => exact h.congr (fun y => by simp) (by simp [odds])
  | cons x l ih =>
    refine (ih (holds_add C h x)).congr (fun y => ?_) ?_
    · simp only [List.mem_cons, exists_eq_or_imp]
      exact or_assoc
    · rw [odds_cons x l]
      exact Nat.add_assoc _ _ _

theorem holds_nil : Holds eqv [] ⟨fun _ => False, 0⟩ := ⟨.nil, by simp, rfl⟩

theorem holds_new (C : Comparison eqv) (l : List T) : Holds eqv (newHashSet eqv l) ⟨fun y => ∃ x ∈ l, eqv x y, odds eqv l⟩ :=
  (holds_union C l holds_nil).congr (fun y => by simp) (by simp)

theorem holds_clear (C : Comparison eqv) {hs : List T} {s : Abstract T} (h : Holds eqv hs s) : Holds eqv (clear eqv hs) ⟨fun _ => False, s.odd⟩ :=
  (holds_deletes C hs h).congr (fun y => by
    show s.mem y ∧ _ ↔ _
    rw [h.mem]
    exact ⟨fun h => h.2 h.1, False.elim⟩) rfl

theorem toggle_holds (C : Comparison eqv) {hs : List T} {s : Abstract T} (h : Holds eqv hs s) (x : T) :
    Holds eqv (toggle eqv hs x) ⟨fun y => ¬ (s.mem y ↔ eqv x y = true), s.odd + odds eqv [x]⟩ := by
  unfold toggle
  by_cases hx : s.mem x
  · rw [if_pos ((remove_snd h x).2 hx)]
    refine (holds_remove C h x).congr (fun y => ?_) ?_
    · show s.mem y ∧ _ ↔ ¬ (s.mem y ↔ _)
      have := fun e => (h.eqv_mem (x := x) (y := y) C e).1 hx
      tauto
    · have hxx : eqv x x = true := by
        obtain ⟨k, _, e⟩ := (h.mem x).1 hx
        exact C.trans x k x (C.symm k x e) e
      simp [odds, hxx]
  · rw [if_neg (fun e => hx ((remove_snd h x).1 e))]
    refine (holds_add C (holds_remove C h x) x).congr (fun y => ?_) rfl
    show (s.mem y ∧ _) ∨ _ ↔ ¬ (s.mem y ↔ _)
    have := fun e => mt (h.eqv_mem (x := x) (y := y) C e).2 hx
    tauto

theorem holds_toggles (C : Comparison eqv) (l : List T) {hs : List T} {s : Abstract T} (h : Holds eqv hs s) (hl : l.Pairwise fun a b => eqv a b = false) :
    Holds eqv (l.foldl (toggle eqv) hs) ⟨fun y => ¬ (s.mem y ↔ ∃ x ∈ l, eqv x y), s.odd + odds eqv l⟩ := by
  induction l generalizing hs s with
  | nil => exact h.congr (fun y => by simp) (by simp [odds])
  | cons x l ih =>
    rw [List.pairwise_cons] at hl
    refine (ih (toggle_holds C h x) hl.2).congr (fun y => ?_) ?_
    · simp only [List.mem_cons, exists_eq_or_imp]
      show ¬ (¬ (s.mem y ↔ _) ↔ _) ↔ _
      have : eqv x y = true → ¬ ∃ z ∈ l, eqv z y = true := by
        rintro e ⟨z, hz, e'⟩
        have h1 := hl.1 z hz
        rw [C.trans x y z e (C.symm z y e')] at h1
        cases h1
      generalize (∃ z ∈ l, eqv z y = true) = q at this ⊢
      by_cases a : s.mem y <;> by_cases b : eqv x y = true <;> by_cases c : q <;> simp_all
    · rw [odds_cons x l]
      exact Nat.add_assoc _ _ _

theorem holds_intersect (C : Comparison eqv) (other l : List T) {hs : List T} {s : Abstract T} (h : Holds eqv hs s) :
    Holds eqv (l.foldl (intersectBody eqv other) hs) ⟨fun y => s.mem y ∧ ¬ ∃ k ∈ l, eqv k y ∧ ¬ contains eqv other k, s.odd⟩ := by
  induction l generalizing hs s with
  | nil => exact h.congr (fun y => by simp) rfl
  | cons x l ih =>
    rw [List.foldl_cons]
    unfold intersectBody
    split
    · rename_i hx
      exact (ih h).congr (fun y => by simp [hx]) rfl
    · rename_i hx
      refine (ih (holds_remove C h x)).congr (fun y => ?_) rfl
      simp only [List.mem_cons, exists_eq_or_imp, not_or, hx]
      tauto

theorem holds_intersectSet (C : Comparison eqv) {hs other : List T} {s t : Abstract T} (h : Holds eqv hs s) (ho : Holds eqv other t) :
    Holds eqv (intersectWithSet eqv hs other) ⟨fun y => s.mem y ∧ t.mem y, s.odd⟩ := by
  unfold intersectWithSet
  split
  · rename_i he
    cases List.isEmpty_iff.1 he
    exact h.congr (fun y => ⟨fun hy => absurd ((h.mem y).1 hy) (by simp), fun hy => hy.1⟩) rfl
  · split
    · rename_i he
      cases List.isEmpty_iff.1 he
      exact (holds_clear C h).congr (fun y => ⟨False.elim, fun hy => absurd ((ho.mem y).1 hy.2) (by simp)⟩) rfl
    · refine (holds_intersect C other hs h).congr (fun y => and_congr_right fun hy => ?_) rfl
      constructor
      · intro hn
        obtain ⟨k, hk, e⟩ := (h.mem y).1 hy
        by_contra hc
        exact hn ⟨k, hk, e, fun hc' => hc ((ho.eqv_mem C e).1 ((contains_mem ho k).1 hc'))⟩
      · rintro ht ⟨k, _, e, hc⟩
        exact hc ((contains_mem ho k).2 ((ho.eqv_mem C e).2 ht))

theorem holds_removeWhere (C : Comparison eqv) (p : T → Bool) (l : List T) {hs : List T} {s : Abstract T} (n : Nat)
    (h : Holds eqv hs s) (hl : l.Pairwise fun a b => eqv a b = false) (hin : ∀ k ∈ l, eqv k k = true → s.mem k) :
    Holds eqv (l.foldl (removeWhereBody eqv p) (hs, n)).1 ⟨fun y => s.mem y ∧ ¬ ∃ k ∈ l, eqv k y ∧ p k, s.odd⟩ ∧
    (l.foldl (removeWhereBody eqv p) (hs, n)).2 = n + (l.filter fun k => p k && eqv k k).length := by
  induction l generalizing hs s n with
  | nil => exact ⟨h.congr (fun y => by simp) rfl, by simp⟩
  | cons x l ih =>
    rw [List.pairwise_cons] at hl
    rw [List.foldl_cons]
    have self : s.mem x → eqv x x = true := fun hx => by
      obtain ⟨k, _, e⟩ := (h.mem x).1 hx
      exact C.trans x k x (C.symm k x e) e
    by_cases hx : (p x && (remove eqv hs x).2) = true
    · rw [show removeWhereBody eqv p (hs, n) x = ((remove eqv hs x).1, n + 1) from if_pos hx]
      simp only [Bool.and_eq_true] at hx
      have hm := (remove_snd h x).1 hx.2
      obtain ⟨i1, i2⟩ := ih (n + 1) (holds_remove C h x) hl.2 (fun k hk e => ⟨hin k (List.mem_cons_of_mem _ hk) e, by simp [hl.1 k hk]⟩)
      refine ⟨i1.congr (fun y => ?_) rfl, ?_⟩
      · simp only [List.mem_cons, exists_eq_or_imp, not_or, hx.1, and_true]
        exact and_assoc
      · rw [i2, List.filter_cons_of_pos (by simp [hx.1, self hm])]
        simp only [List.length_cons]
        omega
    · rw [show removeWhereBody eqv p (hs, n) x = (hs, n) from if_neg hx]
      simp only [Bool.and_eq_true, not_and] at hx
      obtain ⟨i1, i2⟩ := ih n h hl.2 (fun k hk e => hin k (List.mem_cons_of_mem _ hk) e)
      have hno : p x = true → ¬ eqv x x = true := fun hpx e => hx hpx ((remove_snd h x).2 (hin x (by simp) e))
      refine ⟨i1.congr (fun y => ?_) rfl, ?_⟩
      · simp only [List.mem_cons, exists_eq_or_imp, not_or]
        refine and_congr_right fun hy => ⟨fun hn => ⟨fun ⟨e, hpx⟩ => hno hpx (C.trans x y x e (C.symm x y e)), hn⟩, fun hn => hn.2⟩
      · rw [i2, List.filter_cons_of_neg (by
          simp only [Bool.and_eq_true, not_and]
          exact hno)]

theorem size_filter (C : Comparison eqv) {hs : List T} {s : Abstract T} (h : Holds eqv hs s) (p : T → Bool) (hp : ∀ a b, eqv a b = true → p a = p b) :
    Size eqv (fun y => s.mem y ∧ p y) (hs.filter fun k => p k && eqv k k).length := by
  refine ⟨_, rfl, h.apart.filter _, fun r hr => ?_, fun y => ?_⟩
  · simp only [List.mem_filter, Bool.and_eq_true] at hr
    exact hr.2.2
  · show s.mem y ∧ p y = true ↔ _
    rw [h.mem]
    simp only [List.mem_filter, Bool.and_eq_true]
    constructor
    · rintro ⟨⟨k, hk, e⟩, hy⟩
      exact ⟨k, ⟨hk, (hp k y e).trans hy, C.trans k y k e (C.symm k y e)⟩, e⟩
    · rintro ⟨k, ⟨hk, hpk, _⟩, e⟩
      exact ⟨⟨k, hk, e⟩, (hp k y e).symm.trans hpk⟩

theorem holds_step (C : Comparison eqv) {hs : List T} {s : Abstract T} (h : Holds eqv hs s) (op : Op T) (hop : Fine eqv op) :
    Holds eqv (step eqv hs op).1 (after eqv s op) ∧ Returns eqv s op (step eqv hs op).2 := by
  cases op with
  | add x => exact ⟨holds_add C h x, _, rfl, add_snd h x⟩
  | remove x => exact ⟨holds_remove C h x, _, rfl, remove_snd h x⟩
  | removeWhere p =>
    obtain ⟨i1, i2⟩ := holds_removeWhere C p hs 0 h h.apart (fun k hk e => (h.mem k).2 ⟨k, hk, e⟩)
    refine ⟨i1.congr (fun y => and_congr_right fun hy => ?_) rfl, _, rfl, ?_⟩
    · constructor
      · intro hn hpy
        obtain ⟨k, hk, e⟩ := (h.mem y).1 hy
        exact hn ⟨k, hk, e, (hop k y e).trans hpy⟩
      · rintro hn ⟨k, _, e, hpk⟩
        exact hn ((hop k y e).symm.trans hpk)
    · have := size_filter C h p hop
      rw [Nat.zero_add] at i2
      unfold removeWhere
      rw [i2]
      exact this
  | clear => exact ⟨holds_clear C h, rfl⟩
  | unionWith l => exact ⟨holds_union C l h, rfl⟩
  | intersectWith l => exact ⟨holds_intersectSet C h (holds_new C l), rfl⟩
  | exceptWith l => exact ⟨holds_deletes C l h, rfl⟩
  | symmetricExceptWith l =>
    refine ⟨?_, rfl⟩
    show Holds eqv (symmetricExceptWith eqv hs l) _
    unfold symmetricExceptWith
    split
    · rename_i he
      cases List.isEmpty_iff.1 he
      refine (holds_union C l h).congr (fun y => ?_) rfl
      have hy : ¬ s.mem y := fun hy => absurd ((h.mem y).1 hy) (by simp)
      show s.mem y ∨ _ ↔ ¬ (s.mem y ↔ _)
      simp [hy]
    · exact holds_toggles C l h hop

theorem holds_run (C : Comparison eqv) (ops : List (Op T)) {hs : List T} {s : Abstract T} (h : Holds eqv hs s) (hops : ∀ op ∈ ops, Fine eqv op) :
    ∃ t, Holds eqv (run eqv hs ops).1 t ∧ Meant eqv s ops (run eqv hs ops).2 t := by
  induction ops generalizing hs s with
  | nil => exact ⟨s, h, rfl, rfl⟩
  | cons op ops ih =>
    obtain ⟨h1, h2⟩ := holds_step C h op (hops op (by simp))
    obtain ⟨t, i1, i2⟩ := ih h1 (fun o ho => hops o (List.mem_cons_of_mem _ ho))
    exact ⟨t, i1, _, _, rfl, h2, i2⟩

theorem length_odds (hs : List T) : hs.length = (hs.filter fun k => eqv k k).length + odds eqv hs := by
  unfold odds
  induction hs with
  | nil => rfl
  | cons x l ih => cases h : eqv x x <;> simp [h] <;> omega

theorem hs_size (C : Comparison eqv) {hs : List T} {s : Abstract T} (h : Holds eqv hs s) : Size eqv s.mem (hs.filter fun k => eqv k k).length := by
  have := size_filter C h (fun _ => true) (fun _ _ _ => rfl)
  simpa using this

/-- C143: **a HashSet of any comparable type is a set up to `==`, with one member more for every value put into it that is not equal to itself**: after any
history, what Contains, Add, Remove and RemoveWhere return is what the set operations make of the values, equal ones counted as one; a NaN is never in
the set, and each that was put in counts in the length for good. -/
theorem C143_comparable_partial (C : Comparison eqv) (items : List T) (ops : List (Op T)) (hops : ∀ op ∈ ops, Fine eqv op) : ∃ t : Abstract T,
    Meant eqv ⟨fun y => ∃ x ∈ items, eqv x y, odds eqv items⟩ ops (run eqv (newHashSet eqv items) ops).2 t ∧
    (∀ y, contains eqv (run eqv (newHashSet eqv items) ops).1 y = true ↔ t.mem y) ∧
    (∀ y, eqv y y = false → contains eqv (run eqv (newHashSet eqv items) ops).1 y = false) ∧
    ∃ n, Size eqv t.mem n ∧ (run eqv (newHashSet eqv items) ops).1.length = n + t.odd := by
  obtain ⟨t, h, hm⟩ := holds_run C ops (holds_new C items) hops
  refine ⟨t, hm, contains_mem h, fun y hy => ?_, _, hs_size C h, ?_⟩
  · rw [← Bool.not_eq_true, contains_iff]
    rintro ⟨k, _, e⟩
    rw [C.trans y k y (C.symm k y e) e] at hy
    cases hy
  · rw [length_odds (eqv := eqv), h.odd]

/-- C143, false: **Clear does not empty a set with a NaN**: what stays are the values not equal to themselves, all of them. (That no other operation removes one
is in `C143_comparable_partial`.) -/
theorem C143_clear_false (C : Comparison eqv) (items : List T) : (clear eqv (newHashSet eqv items)).length = odds eqv items := by
  have h := holds_clear C (holds_new C items)
  rw [length_odds (eqv := eqv), h.odd, List.filter_eq_nil_iff.2, List.length_nil, Nat.zero_add]
  intro k hk e
  exact (h.mem k).2 ⟨k, hk, e⟩

/-- C143, false: **a set with a NaN is neither equal to, nor a subset or superset of, itself**; exactly then. -/
theorem C143_self_false (C : Comparison eqv) (items : List T) :
    (setEquals eqv (newHashSet eqv items) (newHashSet eqv items) = true ↔ odds eqv items = 0) ∧
    (isSubsetOfSet eqv (newHashSet eqv items) (newHashSet eqv items) = true ↔ odds eqv items = 0) ∧
    (isSupersetOf eqv (newHashSet eqv items) (newHashSet eqv items) = true ↔ odds eqv items = 0) := by
  have h := holds_new C items
  have key : (newHashSet eqv items).all (contains eqv (newHashSet eqv items)) = true ↔ odds eqv items = 0 := by
    have ho := h.odd
    simp only at ho
    rw [← ho, List.all_eq_true]
    unfold odds
    rw [List.length_eq_zero_iff, List.filter_eq_nil_iff]
    refine forall₂_congr fun k hk => ?_
    rw [contains_iff]
    simp only [Bool.not_eq_eq_eq_not, Bool.not_true, Bool.not_eq_false]
    exact ⟨fun ⟨j, _, e⟩ => C.trans k j k (C.symm j k e) e, fun e => ⟨k, hk, e⟩⟩
  have nil : (newHashSet eqv items).isEmpty = true → odds eqv items = 0 := by
    intro e
    have ho := h.odd
    rw [List.isEmpty_iff.1 e] at ho
    exact ho.symm
  unfold setEquals isSubsetOfSet isSupersetOf
  refine ⟨by simpa using key, ?_, ?_⟩ <;>
  · split
    · rename_i e
      exact iff_of_true rfl (nil e)
    · simpa using key

/-- Of two lists without equal values, of which the first has its values in the second, the first is not longer, and as long only if the second has its values in the
first. -/
theorem length_le (C : Comparison eqv) {A B : List T} (hA : A.Pairwise fun a b => eqv a b = false) (h : ∀ a ∈ A, ∃ b ∈ B, eqv b a = true) :
    A.length ≤ B.length ∧ (B.length ≤ A.length → ∀ b ∈ B, ∃ a ∈ A, eqv a b = true) := by
  classical
  choose! f hf using h
  have hn : (A.map f).Nodup := by
    rw [List.Nodup, List.pairwise_map]
    refine hA.imp_of_mem fun {a b} ha hb hab e => ?_
    have := C.trans a (f a) b (C.symm _ _ (hf a ha).2) (e ▸ (hf b hb).2)
    rw [this] at hab
    cases hab
  have hs : A.map f ⊆ B := by
    intro x hx
    obtain ⟨a, ha, rfl⟩ := List.mem_map.1 hx
    exact (hf a ha).1
  have sp := hn.subperm hs
  refine ⟨by simpa using sp.length_le, fun hle b hb => ?_⟩
  have hp := sp.perm_of_length_le (by simpa using hle)
  obtain ⟨a, ha, rfl⟩ := List.mem_map.1 (hp.mem_iff.2 hb)
  exact ⟨a, ha, C.symm _ _ (hf a ha).2⟩

theorem all_contains (C : Comparison eqv) (A B : List T) :
    A.all (contains eqv B) = true ↔ odds eqv A = 0 ∧ ∀ y, (∃ a ∈ A, eqv a y = true) → ∃ b ∈ B, eqv b y = true := by
  unfold odds
  rw [List.all_eq_true, List.length_eq_zero_iff, List.filter_eq_nil_iff]
  simp only [contains_iff, Bool.not_eq_eq_eq_not, Bool.not_true, Bool.not_eq_false]
  constructor
  · intro h
    refine ⟨fun a ha => ?_, fun y ⟨a, ha, e⟩ => ?_⟩
    · obtain ⟨b, _, e⟩ := h a ha
      exact C.trans a b a (C.symm b a e) e
    · obtain ⟨b, hb, e'⟩ := h a ha
      exact ⟨b, hb, C.trans b a y e' e⟩
  · exact fun h a ha => h.2 a ⟨a, ha, h.1 a ha⟩

theorem size_le (C : Comparison eqv) {A B : List T} (hA : A.Pairwise fun a b => eqv a b = false) (h : A.all (contains eqv B) = true) :
    A.length ≤ B.length ∧ (B.length ≤ A.length → odds eqv B = 0 ∧ ∀ y, (∃ b ∈ B, eqv b y = true) → ∃ a ∈ A, eqv a y = true) := by
  simp only [List.all_eq_true, contains_iff] at h
  obtain ⟨h1, h2⟩ := length_le C hA h
  refine ⟨h1, fun hle => (all_contains C B A).1 ?_⟩
  simp only [List.all_eq_true, contains_iff]
  exact h2 hle

theorem odds_nil_iff (l : List T) : odds eqv l = 0 ↔ ∀ k ∈ l, eqv k k = true := by
  unfold odds
  rw [List.length_eq_zero_iff, List.filter_eq_nil_iff]
  simp

/-- C143: **the relations of two sets are those of their values up to `==`, and none with a NaN in it**: exactly when each is reported, for all sets. A set is in
another only if it has no NaN; an empty set is reported as a proper superset of everything (see C07). -/
theorem C143_relations (C : Comparison eqv) (hs other : List T) (hh : hs.Pairwise fun a b => eqv a b = false) (ho : other.Pairwise fun a b => eqv a b = false) :
    let S := fun y => ∃ k ∈ hs, eqv k y = true
    let O := fun y => ∃ k ∈ other, eqv k y = true
    let odd := fun l => ∃ k ∈ l, eqv k k = false
    (overlaps eqv hs other = true ↔ ∃ y, S y ∧ O y) ∧
    (isSubsetOfSet eqv hs other = true ↔ ¬ odd hs ∧ ∀ y, S y → O y) ∧
    (isSupersetOf eqv hs other = true ↔ ¬ odd other ∧ ∀ y, O y → S y) ∧
    (setEquals eqv hs other = true ↔ ¬ odd hs ∧ ¬ odd other ∧ ∀ y, S y ↔ O y) ∧
    (isProperSubsetOfSet eqv hs other = true ↔ ¬ odd hs ∧ (∀ y, S y → O y) ∧ (odd other ∨ ∃ y, O y ∧ ¬ S y)) ∧
    (isProperSupersetOf eqv hs other = true ↔ hs = [] ∨ ¬ odd other ∧ (∀ y, O y → S y) ∧ (odd hs ∨ ∃ y, S y ∧ ¬ O y)) := by
  intro S O odd
  have hodd : ∀ l : List T, odds eqv l = 0 ↔ ¬ odd l := fun l => by
    rw [odds_nil_iff]
    simp [odd]
  have sub : hs.all (contains eqv other) = true ↔ ¬ odd hs ∧ ∀ y, S y → O y := by rw [all_contains C, hodd]
  have sup : other.all (contains eqv hs) = true ↔ ¬ odd other ∧ ∀ y, O y → S y := by rw [all_contains C, hodd]
  have emp : hs.isEmpty = true → ¬ odd hs ∧ ∀ y, S y → O y := fun e => by
    rw [List.isEmpty_iff] at e
    subst e
    simp [odd, S]
  have emp' : other.isEmpty = true → ¬ odd other ∧ ∀ y, O y → S y := fun e => by
    rw [List.isEmpty_iff] at e
    subst e
    simp [odd, O]
  -- a proper part is shorter, and the other way round
  have proper : ∀ A B : List T, A.Pairwise (fun a b => eqv a b = false) → B.Pairwise (fun a b => eqv a b = false) → A.all (contains eqv B) = true →
      (A.length < B.length ↔ odd B ∨ ∃ y, (∃ b ∈ B, eqv b y = true) ∧ ¬ ∃ a ∈ A, eqv a y = true) := by
    intro A B hA hB hAB
    constructor
    · intro hlt
      by_contra hc
      rw [not_or, ← hodd] at hc
      have : B.all (contains eqv A) = true := (all_contains C B A).2 ⟨hc.1, fun y hy => by
        by_contra hn
        exact hc.2 ⟨y, hy, hn⟩⟩
      have := (size_le C hB this).1
      omega
    · intro h
      by_contra hc
      obtain ⟨h1, h2⟩ := (size_le C hA hAB).2 (by omega)
      rcases h with h | ⟨y, hy, hn⟩
      · exact (hodd B).1 h1 h
      · exact hn (h2 y hy)
  refine ⟨?_, ?_, ?_, ?_, ?_, ?_⟩
  · unfold overlaps
    constructor
    · intro h
      split at h
      · cases h
      · rw [List.any_eq_true] at h
        obtain ⟨x, hx, hc⟩ := h
        obtain ⟨k, hk, e⟩ := (contains_iff hs x).1 hc
        exact ⟨x, ⟨k, hk, e⟩, x, hx, C.trans x k x (C.symm k x e) e⟩
    · rintro ⟨y, ⟨k, hk, e⟩, j, hj, e'⟩
      rw [if_neg (by
        rw [List.isEmpty_iff]
        rintro rfl
        cases hk), List.any_eq_true]
      exact ⟨j, hj, (contains_iff hs j).2 ⟨k, hk, C.trans k y j e (C.symm j y e')⟩⟩
  · unfold isSubsetOfSet
    split
    · rename_i e
      exact iff_of_true rfl (emp e)
    · rw [← sub]
      split
      · rename_i hlt
        refine iff_of_false (by simp) fun h => ?_
        have := (size_le C hh h).1
        omega
      · rfl
  · unfold isSupersetOf
    split
    · rename_i e
      exact iff_of_true rfl (emp' e)
    · rw [← sup]
      split
      · rename_i hlt
        refine iff_of_false (by simp) fun h => ?_
        have := (size_le C ho h).1
        omega
      · rfl
  · unfold setEquals
    split
    · rename_i hne
      refine iff_of_false (by simp) fun ⟨h1, h2, h3⟩ => hne ?_
      have a := (size_le C hh (sub.2 ⟨h1, fun y => (h3 y).1⟩)).1
      have b := (size_le C ho (sup.2 ⟨h2, fun y => (h3 y).2⟩)).1
      omega
    · rename_i heq
      constructor
      · intro h
        obtain ⟨h1, h2⟩ := (size_le C ho h).2 (by omega)
        exact ⟨(hodd hs).1 h1, (sup.1 h).1, fun y => ⟨h2 y, (sup.1 h).2 y⟩⟩
      · exact fun ⟨_, h2, h3⟩ => sup.2 ⟨h2, fun y => (h3 y).2⟩
  · rw [← and_assoc, ← sub]
    unfold isProperSubsetOfSet
    split
    · rename_i e
      have ha : hs.all (contains eqv other) = true := sub.2 (emp e)
      have hp := proper hs other hh ho ha
      rw [decide_eq_true_eq, and_iff_right ha, ← hp, List.isEmpty_iff.1 e]
      exact Iff.rfl
    · split
      · rename_i hge
        refine iff_of_false (by simp) fun ⟨h1, h2⟩ => ?_
        have := (proper hs other hh ho h1).2 h2
        omega
      · rename_i hlt
        exact ⟨fun h => ⟨h, (proper hs other hh ho h).1 (by omega)⟩, fun h => h.1⟩
  · rw [← and_assoc, ← sup]
    unfold isProperSupersetOf
    split
    · rename_i e
      exact iff_of_true rfl (.inl (List.isEmpty_iff.1 e))
    · rename_i hne
      rw [List.isEmpty_iff] at hne
      rw [or_iff_right hne]
      split
      · rename_i e
        have ha : other.all (contains eqv hs) = true := sup.2 (emp' e)
        refine iff_of_true rfl ⟨ha, (proper other hs ho hh ha).1 ?_⟩
        rw [List.isEmpty_iff.1 e]
        exact List.length_pos_iff.2 hne
      · split
        · rename_i hge
          refine iff_of_false (by simp) fun ⟨h1, h2⟩ => ?_
          have := (proper other hs ho hh h1).2 h2
          omega
        · rename_i hlt
          exact ⟨fun h => ⟨h, (proper other hs ho hh h).1 (by omega)⟩, fun h => h.1⟩

/-! ## Floating-point numbers -/

open Verif.Lib in
theorem comparison_double {m w : Nat} : Comparison (Bin.eq_ (m := m) (w := w)) where
  symm a b h := by
    simp only [Bin.eq_, Bool.and_eq_true, decide_eq_true_eq, Bool.not_eq_eq_eq_not, Bool.not_true, decide_eq_false_iff_not] at h ⊢
    exact ⟨⟨h.1.2, h.1.1⟩, h.2.symm⟩
  trans a b c h h' := by
    simp only [Bin.eq_, Bool.and_eq_true, decide_eq_true_eq, Bool.not_eq_eq_eq_not, Bool.not_true, decide_eq_false_iff_not] at h h' ⊢
    exact ⟨⟨h.1.1, h'.1.2⟩, h.2.trans h'.2⟩

open Verif.Lib in
example : let s := newHashSet Bin.eq_ [(Bin.nan : Double), Bin.zero false, Bin.zero true, Bin.nan]
    s.length = 3 ∧ contains Bin.eq_ s Bin.nan = false ∧ contains Bin.eq_ s (Bin.zero true) = true ∧ (clear Bin.eq_ s).length = 2 ∧
    (run Bin.eq_ s [.add Bin.nan, .remove Bin.nan, .removeWhere fun _ => true]).2 = [.bool true, .bool false, .count 1] ∧
    ∀ op ∈ [Op.add (Bin.nan : Double), .remove Bin.nan, .removeWhere fun _ => true, .symmetricExceptWith [Bin.nan, Bin.nan]], Fine Bin.eq_ op := by
  refine ⟨by decide +kernel, by decide +kernel, by decide +kernel, by decide +kernel, by decide +kernel, fun op ho => ?_⟩
  simp only [List.mem_cons, List.not_mem_nil, or_false] at ho
  rcases ho with rfl | rfl | rfl | rfl
  · trivial
  · trivial
  · exact fun _ _ _ => rfl
  · simp only [Fine, List.pairwise_cons, List.mem_cons, List.not_mem_nil, or_false, forall_eq, false_imp_iff, implies_true, List.Pairwise.nil, and_self, and_true]
    decide +kernel

open Verif.Lib in
example : let A := [(Bin.zero false : Double), Bin.inf true]
    let B := [(Bin.nan : Double), Bin.inf true, Bin.zero true]
    A.Pairwise (fun a b => Bin.eq_ a b = false) ∧ B.Pairwise (fun a b => Bin.eq_ a b = false) ∧ isSubsetOfSet Bin.eq_ A B = true ∧ isSupersetOf Bin.eq_ B A = true ∧
    isSubsetOfSet Bin.eq_ B B = false ∧ setEquals Bin.eq_ A [Bin.inf true, Bin.zero true] = true ∧ isProperSubsetOfSet Bin.eq_ A B = true ∧
    isProperSupersetOf Bin.eq_ B A = true ∧ overlaps Bin.eq_ B [Bin.nan] = false := by decide +kernel

end Verif.HashSet.Comparable
