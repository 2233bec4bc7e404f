import Verif.HashSet.Model
import Mathlib.Data.Finset.SymmDiff
import Mathlib.Data.Finset.Card
import Mathlib.Data.List.Dedup
import Mathlib.Algebra.Group.Nat.Even

/-!
# Properties of HashSet (C06, C07)

Specification: mathematical finite sets (`Finset`).
-/

namespace Verif.HashSet

variable {T : Type} [DecidableEq T]

/-- What the operations mean on mathematical sets, with the documented return values. -/
def specStep (s : Finset T) : Op T → Finset T × Ret
  | .add x => (insert x s, .bool (decide (x ∉ s)))
  | .remove x => (s.erase x, .bool (decide (x ∈ s)))
  | .removeWhere p => (s.filter (fun x => p x = false), .count (s.filter (fun x => p x = true)).card)
  | .clear => (∅, .none)
  | .unionWith l => (s ∪ l.toFinset, .none)
  | .intersectWith l => (s ∩ l.toFinset, .none)
  | .exceptWith l => (s \ l.toFinset, .none)
  | .symmetricExceptWith l => (symmDiff s l.toFinset, .none)

/-- A history on mathematical sets. -/
def specRun (s : Finset T) : List (Op T) → Finset T × List Ret
  | [] => (s, [])
  | op :: ops =>
    let r := specStep s op
    let rest := specRun r.1 ops
    (rest.1, r.2 :: rest.2)

/-- Slices given to SymmetricExceptWith have no repeated elements. -/
def Op.argOk : Op T → Prop
  | .symmetricExceptWith l => l.Nodup
  | _ => True

@[simp] theorem contains_iff (hs : List T) (x : T) : contains hs x = true ↔ x ∈ hs := by
  simp [contains]

theorem contains_false_iff (hs : List T) (x : T) : contains hs x = false ↔ x ∉ hs := by
  rw [← Bool.not_eq_true, contains_iff]

theorem mem_delete (hs : List T) (x y : T) : y ∈ delete hs x ↔ y ∈ hs ∧ y ≠ x := by
  simp [delete]

theorem nodup_delete {hs : List T} (h : hs.Nodup) (x : T) : (delete hs x).Nodup :=
  h.filter _

theorem mem_add (hs : List T) (x y : T) : y ∈ (add hs x).1 ↔ y = x ∨ y ∈ hs := by
  unfold add
  split
  · rename_i h
    rw [contains_iff] at h
    constructor
    · exact Or.inr
    · rintro (rfl | h')
      · exact h
      · exact h'
  · simp

theorem nodup_add {hs : List T} (h : hs.Nodup) (x : T) : (add hs x).1.Nodup := by
  unfold add
  split
  · exact h
  · rename_i h2
    rw [contains_iff] at h2
    exact List.nodup_cons.mpr ⟨h2, h⟩

theorem mem_remove (hs : List T) (x y : T) : y ∈ (remove hs x).1 ↔ y ∈ hs ∧ y ≠ x := by
  unfold remove
  split
  · exact mem_delete hs x y
  · rename_i h
    rw [contains_iff] at h
    constructor
    · intro hy
      exact ⟨hy, fun e => h (e ▸ hy)⟩
    · exact And.left

theorem nodup_remove {hs : List T} (h : hs.Nodup) (x : T) : (remove hs x).1.Nodup := by
  unfold remove
  split
  · exact nodup_delete h x
  · exact h

theorem remove_snd (hs : List T) (x : T) : (remove hs x).2 = decide (x ∈ hs) := by
  unfold remove
  by_cases h : x ∈ hs
  · simp [h]
  · simp [h, (contains_false_iff hs x).mpr h]

theorem mem_foldl_delete (l hs : List T) (y : T) :
    y ∈ l.foldl delete hs ↔ y ∈ hs ∧ y ∉ l := by
  induction l generalizing hs with
  | nil => simp
  | cons x l ih => rw [List.foldl_cons, ih, mem_delete, List.mem_cons]; tauto

theorem nodup_foldl_delete (l : List T) {hs : List T} (h : hs.Nodup) :
    (l.foldl delete hs).Nodup := by
  induction l generalizing hs with
  | nil => exact h
  | cons x l ih => exact ih (nodup_delete h x)

theorem mem_unionWith (hs l : List T) (y : T) : y ∈ unionWith hs l ↔ y ∈ hs ∨ y ∈ l := by
  unfold unionWith
  induction l generalizing hs with
  | nil => simp
  | cons x l ih => rw [List.foldl_cons, ih, mem_add, List.mem_cons]; tauto

theorem nodup_unionWith (l : List T) {hs : List T} (h : hs.Nodup) : (unionWith hs l).Nodup := by
  unfold unionWith
  induction l generalizing hs with
  | nil => exact h
  | cons x l ih => exact ih (nodup_add h x)

theorem mem_newHashSet (l : List T) (y : T) : y ∈ newHashSet l ↔ y ∈ l := by
  unfold newHashSet; rw [mem_unionWith]; simp

theorem nodup_newHashSet (l : List T) : (newHashSet l).Nodup := nodup_unionWith l List.nodup_nil

theorem mem_intersectWithSet (hs other : List T) (y : T) :
    y ∈ intersectWithSet hs other ↔ y ∈ hs ∧ y ∈ other := by
  unfold intersectWithSet
  split
  · rename_i h
    have : hs = [] := List.length_eq_zero_iff.mp (by simpa using h)
    simp [this]
  · split
    · rename_i h
      have : other = [] := List.length_eq_zero_iff.mp (by simpa using h)
      subst this
      unfold clear
      rw [mem_foldl_delete]; simp
    · have key : ∀ (l s : List T), y ∈ l.foldl (fun s k => if !contains other k then (remove s k).1 else s) s
          ↔ y ∈ s ∧ (y ∈ l → y ∈ other) := by
        intro l
        induction l with
        | nil => simp
        | cons x l ih =>
          intro s
          rw [List.foldl_cons, ih]
          by_cases hx : x ∈ other
          · have : contains other x = true := (contains_iff other x).mpr hx
            simp only [this, Bool.not_true, Bool.false_eq_true, if_false, List.mem_cons]
            constructor
            · rintro ⟨h1, h2⟩
              refine ⟨h1, ?_⟩
              rintro (rfl | h3)
              · exact hx
              · exact h2 h3
            · rintro ⟨h1, h2⟩
              exact ⟨h1, fun h3 => h2 (Or.inr h3)⟩
          · have : contains other x = false := (contains_false_iff other x).mpr hx
            simp only [this, Bool.not_false, if_true, List.mem_cons, mem_remove]
            constructor
            · rintro ⟨⟨h1, h3⟩, h2⟩
              refine ⟨h1, ?_⟩
              rintro (rfl | h4)
              · exact absurd rfl h3
              · exact h2 h4
            · rintro ⟨h1, h2⟩
              refine ⟨⟨h1, ?_⟩, fun h4 => h2 (Or.inr h4)⟩
              rintro rfl
              exact hx (h2 (Or.inl rfl))
      rw [key]
      tauto

theorem nodup_intersectWithSet {hs : List T} (h : hs.Nodup) (other : List T) :
    (intersectWithSet hs other).Nodup := by
  unfold intersectWithSet
  split
  · exact h
  · split
    · exact nodup_foldl_delete hs h
    · have key : ∀ (l s : List T), s.Nodup →
          (l.foldl (fun s k => if !contains other k then (remove s k).1 else s) s).Nodup := by
        intro l
        induction l with
        | nil => intro s hs; exact hs
        | cons x l ih =>
          intro s hs
          apply ih
          dsimp only
          split
          · exact nodup_remove hs x
          · exact hs
      exact key hs hs h

/-- The toggling loop of SymmetricExceptWith: each occurrence flips membership. -/
theorem mem_toggle (l hs : List T) (y : T) :
    y ∈ l.foldl (fun s v => let r := remove s v; if !r.2 then (add r.1 v).1 else r.1) hs
      ↔ (y ∈ hs ↔ Even (l.count y)) := by
  induction l generalizing hs with
  | nil => simp
  | cons x l ih =>
    rw [List.foldl_cons, ih]
    by_cases hxy : x = y
    · subst hxy
      rw [List.count_cons_self, Nat.even_add_one]
      by_cases hx : x ∈ hs
      · simp only [remove_snd, hx, decide_true, Bool.not_true, Bool.false_eq_true, if_false,
          mem_remove, ne_eq, not_true_eq_false, and_false]
        tauto
      · simp only [remove_snd, hx, decide_false, Bool.not_false, if_true, mem_add]
        tauto
    · rw [List.count_cons_of_ne hxy]
      have hyx : y ≠ x := fun e => hxy e.symm
      by_cases hx : x ∈ hs
      · simp only [remove_snd, hx, decide_true, Bool.not_true, Bool.false_eq_true, if_false,
          mem_remove, ne_eq, hyx, not_false_eq_true, and_true]
      · simp only [remove_snd, hx, decide_false, Bool.not_false, if_true, mem_add, mem_remove,
          ne_eq, hyx, not_false_eq_true, and_true, false_or]

theorem nodup_toggle (l : List T) {hs : List T} (h : hs.Nodup) :
    (l.foldl (fun s v => let r := remove s v; if !r.2 then (add r.1 v).1 else r.1) hs).Nodup := by
  induction l generalizing hs with
  | nil => exact h
  | cons x l ih =>
    apply ih
    dsimp only
    split
    · exact nodup_add (nodup_remove h x) x
    · exact nodup_remove h x

theorem nodup_symm (l : List T) {hs : List T} (h : hs.Nodup) : (symmetricExceptWith hs l).Nodup := by
  unfold symmetricExceptWith
  split
  · exact nodup_unionWith l h
  · exact nodup_toggle l h

omit [DecidableEq T] in
theorem isEmpty_iff (hs : List T) : isEmpty hs = true ↔ hs = [] := by
  simp [isEmpty]

theorem removeWhere_eq {hs : List T} (h : hs.Nodup) (p : T → Bool) :
    (removeWhere hs p).1.Nodup ∧ (∀ y, y ∈ (removeWhere hs p).1 ↔ y ∈ hs ∧ p y = false) ∧
    (removeWhere hs p).2 = (hs.filter p).length := by
  unfold removeWhere
  have key : ∀ (l s : List T) (n : Nat), l.Nodup → s.Nodup → (∀ y ∈ l, y ∈ s) →
      let r := l.foldl (removeWhereBody p) (s, n)
      r.1.Nodup ∧ (∀ y, y ∈ r.1 ↔ y ∈ s ∧ (y ∈ l → p y = false)) ∧
        r.2 = n + (l.filter p).length := by
    intro l
    induction l with
    | nil => intro s n _ hs _; simp [hs]
    | cons x l ih =>
      intro s n hl hs hsub
      rw [List.nodup_cons] at hl
      simp only [List.foldl_cons]
      by_cases hp : p x = true
      · have hx : x ∈ s := hsub x (by simp)
        have hb : removeWhereBody p (s, n) x = ((remove s x).1, n + 1) := by
          simp [removeWhereBody, hp, remove_snd, hx]
        rw [hb]
        have hsub' : ∀ y ∈ l, y ∈ (remove s x).1 := by
          intro y hy
          rw [mem_remove]
          exact ⟨hsub y (by simp [hy]), fun e => hl.1 (e ▸ hy)⟩
        obtain ⟨h1, h2, h3⟩ := ih (remove s x).1 (n + 1) hl.2 (nodup_remove hs x) hsub'
        refine ⟨h1, ?_, ?_⟩
        · intro y
          rw [h2, mem_remove, List.mem_cons]
          constructor
          · rintro ⟨⟨h4, h5⟩, h6⟩
            refine ⟨h4, ?_⟩
            rintro (rfl | h7)
            · exact absurd rfl h5
            · exact h6 h7
          · rintro ⟨h4, h5⟩
            refine ⟨⟨h4, ?_⟩, fun h6 => h5 (Or.inr h6)⟩
            rintro rfl
            have := h5 (Or.inl rfl)
            rw [hp] at this
            exact absurd this (by decide)
        · rw [h3, List.filter_cons_of_pos hp, List.length_cons]
          omega
      · simp only [Bool.not_eq_true] at hp
        have hb : removeWhereBody p (s, n) x = (s, n) := by
          simp [removeWhereBody, hp]
        rw [hb]
        obtain ⟨h1, h2, h3⟩ := ih s n hl.2 hs (fun y hy => hsub y (by simp [hy]))
        refine ⟨h1, ?_, ?_⟩
        · intro y
          rw [h2, List.mem_cons]
          constructor
          · rintro ⟨h4, h5⟩
            refine ⟨h4, ?_⟩
            rintro (rfl | h6)
            · exact hp
            · exact h5 h6
          · rintro ⟨h4, h5⟩
            exact ⟨h4, fun h6 => h5 (Or.inr h6)⟩
        · rw [h3, List.filter_cons_of_neg (by simp [hp])]
  obtain ⟨h1, h2, h3⟩ := key hs hs 0 h h (fun y hy => hy)
  refine ⟨h1, ?_, by simpa using h3⟩
  intro y
  rw [h2]
  tauto

theorem step_refines {hs : List T} (h : hs.Nodup) (op : Op T) (hop : op.argOk) :
    (step hs op).1.Nodup ∧ (step hs op).1.toFinset = (specStep hs.toFinset op).1 ∧
      (step hs op).2 = (specStep hs.toFinset op).2 := by
  cases op with
  | add x =>
    refine ⟨nodup_add h x, ?_, ?_⟩
    · ext y; simp [step, specStep, mem_add]
    · simp only [step, specStep, add]
      by_cases hx : x ∈ hs
      · simp [hx]
      · simp [hx, (contains_false_iff hs x).mpr hx]
  | remove x =>
    refine ⟨nodup_remove h x, ?_, ?_⟩
    · ext y; simp [step, specStep, mem_remove, and_comm]
    · simp [step, specStep, remove_snd]
  | removeWhere p =>
    obtain ⟨h1, h2, h3⟩ := removeWhere_eq h p
    refine ⟨h1, ?_, ?_⟩
    · ext y; simp [step, specStep, h2]
    · simp only [step, specStep, h3]
      rw [← List.toFinset_filter, List.toFinset_card_of_nodup (h.filter _)]
  | clear =>
    refine ⟨nodup_foldl_delete hs h, ?_, rfl⟩
    ext y; simp [step, specStep, clear, mem_foldl_delete]
  | unionWith l =>
    refine ⟨nodup_unionWith l h, ?_, rfl⟩
    ext y; simp [step, specStep, mem_unionWith]
  | intersectWith l =>
    refine ⟨nodup_intersectWithSet h _, ?_, rfl⟩
    ext y; simp [step, specStep, intersectWith, mem_intersectWithSet, mem_newHashSet]
  | exceptWith l =>
    refine ⟨nodup_foldl_delete l h, ?_, rfl⟩
    ext y; simp [step, specStep, exceptWith, mem_foldl_delete]
  | symmetricExceptWith l =>
    refine ⟨nodup_symm l h, ?_, rfl⟩
    ext y
    simp only [step, specStep, List.mem_toFinset, Finset.mem_symmDiff]
    unfold symmetricExceptWith
    split
    · rename_i he
      rw [isEmpty_iff] at he
      subst he
      simp [mem_unionWith]
    · rw [mem_toggle]
      by_cases hy : y ∈ l
      · rw [List.count_eq_one_of_mem hop hy]
        simp [hy]
      · rw [List.count_eq_zero_of_not_mem hy]
        simp [hy]

/-- **C06.** Over any history of operations (slices passed to SymmetricExceptWith having no repeated
elements), from any set in any iteration order: the returned values are those of the
mathematical set operations, the resulting set is the mathematical result, and its length is the
cardinality. -/
theorem C06_history_refines (hs : List T) (h : hs.Nodup) (ops : List (Op T))
    (hops : ∀ op ∈ ops, op.argOk) :
    (run hs ops).2 = (specRun hs.toFinset ops).2 ∧
    (∀ x, contains (run hs ops).1 x = true ↔ x ∈ (specRun hs.toFinset ops).1) ∧
    (run hs ops).1.length = (specRun hs.toFinset ops).1.card := by
  have main : ∀ (ops : List (Op T)) (hs : List T), hs.Nodup → (∀ op ∈ ops, op.argOk) →
      (run hs ops).1.Nodup ∧ (run hs ops).1.toFinset = (specRun hs.toFinset ops).1 ∧
      (run hs ops).2 = (specRun hs.toFinset ops).2 := by
    intro ops
    induction ops with
    | nil => intro hs h _; exact ⟨h, rfl, rfl⟩
    | cons op ops ih =>
      intro hs h hops
      obtain ⟨h1, h2, h3⟩ := step_refines h op (hops op (by simp))
      obtain ⟨h4, h5, h6⟩ := ih (step hs op).1 h1 (fun o ho => hops o (by simp [ho]))
      rw [h2] at h5 h6
      refine ⟨h4, h5, ?_⟩
      simp only [run, specRun]
      rw [h3, h6]
  obtain ⟨h1, h2, h3⟩ := main ops hs h hops
  refine ⟨h3, ?_, ?_⟩
  · intro x
    rw [contains_iff, ← h2, List.mem_toFinset]
  · rw [← h2, List.toFinset_card_of_nodup h1]

/-- A history with every operation that satisfies the hypotheses. -/
example : ([3, 1, 2] : List Nat).Nodup ∧
    ∀ op ∈ ([.add 7, .removeWhere (fun n => n % 2 == 1), .symmetricExceptWith [2, 9],
      .unionWith [4, 4], .exceptWith [9], .intersectWith [4, 5], .remove 4, .clear] : List (Op Nat)),
      op.argOk := by
  refine ⟨by decide, ?_⟩
  simp [Op.argOk]

/-- **C06 (repeated elements).** On a non-empty set, SymmetricExceptWith with repeated elements toggles
membership once per occurrence. -/
theorem C06_symmetric_counts (hs other : List T) (h : hs ≠ []) (x : T) :
    contains (symmetricExceptWith hs other) x = true ↔
      (x ∈ hs ↔ Even (other.count x)) := by
  rw [contains_iff]
  unfold symmetricExceptWith
  rw [if_neg (by rw [isEmpty_iff]; exact h), mem_toggle]

/-- So the mathematical symmetric difference is not computed when the slice repeats an element. -/
theorem C06_symmetric_duplicates_false :
    ¬ (∀ (hs other : List Nat), hs.Nodup → ∀ x, contains (symmetricExceptWith hs other) x = true ↔
      x ∈ symmDiff hs.toFinset other.toFinset) := by
  intro h
  exact absurd (h [1] [2, 2] (by decide) 2) (by decide)

/-- **C07 (always right).** Overlaps, IsSubsetOf and IsProperSubsetOf decide the mathematical relation for
every slice, repeated elements included. -/
theorem C07_overlaps_subset (hs other : List T) (h : hs.Nodup) :
    (overlaps hs other = true ↔ (hs.toFinset ∩ other.toFinset).Nonempty) ∧
    (isSubsetOf hs other = true ↔ hs.toFinset ⊆ other.toFinset) ∧
    (isProperSubsetOf hs other = true ↔ hs.toFinset ⊂ other.toFinset) := by
  have hcard : (newHashSet other).length = other.toFinset.card := by
    rw [← List.toFinset_card_of_nodup (nodup_newHashSet other)]
    congr 1
    ext y; simp [mem_newHashSet]
  have hscard : hs.length = hs.toFinset.card := (List.toFinset_card_of_nodup h).symm
  have hall : (hs.all (contains (newHashSet other)) = true) ↔ hs.toFinset ⊆ other.toFinset := by
    rw [List.all_eq_true, Finset.subset_iff]
    simp [mem_newHashSet]
  refine ⟨?_, ?_, ?_⟩
  · unfold overlaps
    by_cases he : hs = []
    · subst he; simp [isEmpty]
    · rw [if_neg (by rw [isEmpty_iff]; exact he), List.any_eq_true]
      constructor
      · rintro ⟨x, hx, hc⟩
        exact ⟨x, by simpa using ⟨(contains_iff hs x).mp hc, hx⟩⟩
      · rintro ⟨x, hx⟩
        simp only [Finset.mem_inter, List.mem_toFinset] at hx
        exact ⟨x, hx.2, (contains_iff hs x).mpr hx.1⟩
  · unfold isSubsetOf isSubsetOfSet
    by_cases he : hs = []
    · subst he; simp [isEmpty]
    · rw [if_neg (by rw [isEmpty_iff]; exact he)]
      split
      · rename_i hlt
        constructor
        · intro hf; exact absurd hf (by decide)
        · intro hs'
          have := Finset.card_le_card hs'
          omega
      · exact hall
  · unfold isProperSubsetOf isProperSubsetOfSet
    by_cases he : hs = []
    · subst he
      simp only [isEmpty, List.length_nil, BEq.rfl, if_true, decide_eq_true_iff, hcard,
        List.toFinset_nil]
      rw [gt_iff_lt, Finset.card_pos, Finset.empty_ssubset]
    · rw [if_neg (by rw [isEmpty_iff]; exact he)]
      split
      · rename_i hge
        constructor
        · intro hf; exact absurd hf (by decide)
        · intro hs'
          have := Finset.card_lt_card hs'
          omega
      · rename_i hlt
        rw [hall]
        constructor
        · intro hsub
          refine Finset.ssubset_iff_subset_ne.mpr ⟨hsub, ?_⟩
          intro heq
          rw [heq] at hscard
          omega
        · exact fun h => h.subset

example : ([3, 1, 2] : List Nat).Nodup := by decide

/-- **C07, refuted for an empty receiver.** The empty set claims to be a proper superset of everything. -/
theorem C07_properSuperset_empty_false :
    ¬ (∀ (hs other : List Nat), hs.Nodup → other.Nodup →
      (isProperSupersetOf hs other = true ↔ other.toFinset ⊂ hs.toFinset)) := by
  intro h
  exact absurd (h [] [1] (by decide) (by decide)) (by decide)

/-- **C07, refuted for repeated elements.** SetEquals, IsSupersetOf and IsProperSupersetOf compare the
length of the slice, so a slice that repeats an element is misjudged. -/
theorem C07_duplicates_false :
    ¬ (∀ (hs other : List Nat), hs.Nodup →
        (setEquals hs other = true ↔ hs.toFinset = other.toFinset)) ∧
    ¬ (∀ (hs other : List Nat), hs.Nodup →
        (isSupersetOf hs other = true ↔ other.toFinset ⊆ hs.toFinset)) ∧
    ¬ (∀ (hs other : List Nat), hs.Nodup → hs ≠ [] →
        (isProperSupersetOf hs other = true ↔ other.toFinset ⊂ hs.toFinset)) := by
  refine ⟨?_, ?_, ?_⟩
  · intro h; exact absurd (h [1] [1, 1] (by decide)) (by decide)
  · intro h; exact absurd (h [1] [1, 1] (by decide)) (by decide)
  · intro h; exact absurd (h [1, 2] [1, 1] (by decide) (by decide)) (by decide)

/-- SetEquals errs in the other direction too: it accepts a slice with a repeated element that misses an element of the set. -/
theorem C07_setEquals_accepts_smaller : setEquals [1, 2] [1, 1] = true := by decide

/-- **C07, partial.** For slices without repeated elements (in particular for every `...Set` variant,
which passes the keys of a set), SetEquals and IsSupersetOf decide the mathematical relation, and
IsProperSupersetOf does when the receiver is not empty. Missing: slices with repeated elements and the
empty receiver of IsProperSupersetOf, where the code is wrong. -/
theorem C07_relations_nodup_partial (hs other : List T) (h : hs.Nodup) (ho : other.Nodup) :
    (setEquals hs other = true ↔ hs.toFinset = other.toFinset) ∧
    (isSupersetOf hs other = true ↔ other.toFinset ⊆ hs.toFinset) ∧
    (hs ≠ [] → (isProperSupersetOf hs other = true ↔ other.toFinset ⊂ hs.toFinset)) := by
  have hscard : hs.length = hs.toFinset.card := (List.toFinset_card_of_nodup h).symm
  have hocard : other.length = other.toFinset.card := (List.toFinset_card_of_nodup ho).symm
  have hall : (other.all (contains hs) = true) ↔ other.toFinset ⊆ hs.toFinset := by
    rw [List.all_eq_true, Finset.subset_iff]; simp
  refine ⟨?_, ?_, ?_⟩
  · unfold setEquals
    split
    · rename_i hne
      constructor
      · intro hf; exact absurd hf (by decide)
      · intro he; rw [he] at hscard; omega
    · rename_i heq
      rw [hall]
      constructor
      · intro hsub
        exact (Finset.eq_of_subset_of_card_le hsub (by omega)).symm
      · intro he; rw [he]
  · unfold isSupersetOf
    split
    · rename_i h0
      have : other = [] := List.length_eq_zero_iff.mp (by simpa using h0)
      subst this; simp
    · split
      · constructor
        · intro hf; exact absurd hf (by decide)
        · intro hsub
          have := Finset.card_le_card hsub
          omega
      · exact hall
  · intro hne
    unfold isProperSupersetOf
    rw [if_neg (by rw [isEmpty_iff]; exact hne)]
    split
    · rename_i h0
      have : other = [] := List.length_eq_zero_iff.mp (by simpa using h0)
      subst this
      simp only [List.toFinset_nil, true_iff, Finset.empty_ssubset]
      rw [← Finset.card_pos, ← hscard]
      exact List.length_pos_iff.mpr hne
    · split
      · constructor
        · intro hf; exact absurd hf (by decide)
        · intro hsub
          have := Finset.card_lt_card hsub
          omega
      · rw [hall]
        constructor
        · intro hsub
          refine Finset.ssubset_iff_subset_ne.mpr ⟨hsub, ?_⟩
          intro heq
          rw [heq] at hocard
          omega
        · exact fun h => h.subset

example : ([3, 1, 2] : List Nat).Nodup ∧ ([1, 3] : List Nat).Nodup ∧ ([3, 1, 2] : List Nat) ≠ [] := by
  decide

/-- **C07, every slice.** What the three relations decide when elements are repeated too: the number of elements of the
slice, repetitions counted, is compared with the size of the set. -/
theorem C07_relations_exact (hs other : List T) (h : hs.Nodup) :
    (setEquals hs other = true ↔ other.length = hs.toFinset.card ∧ other.toFinset ⊆ hs.toFinset) ∧
    (isSupersetOf hs other = true ↔ other.length ≤ hs.toFinset.card ∧ other.toFinset ⊆ hs.toFinset) ∧
    (isProperSupersetOf hs other = true ↔
      hs.toFinset = ∅ ∨ (other.length < hs.toFinset.card ∧ other.toFinset ⊆ hs.toFinset)) := by
  have hscard : hs.length = hs.toFinset.card := (List.toFinset_card_of_nodup h).symm
  have hall : (other.all (contains hs) = true) ↔ other.toFinset ⊆ hs.toFinset := by
    rw [List.all_eq_true, Finset.subset_iff]; simp
  rw [← hscard, ← hall]
  refine ⟨?_, ?_, ?_⟩
  · unfold setEquals
    by_cases he : hs.length = other.length
    · rw [if_neg (by simpa using he)]; simp [he]
    · rw [if_pos he]; simp; omega
  · unfold isSupersetOf
    cases other with
    | nil => simp
    | cons x xs =>
      rw [if_neg (by simp)]
      by_cases hl : (x :: xs).length > hs.length
      · rw [if_pos hl]
        constructor
        · intro hf; cases hf
        · intro hf; omega
      · rw [if_neg hl]
        exact ⟨fun h => ⟨by omega, h⟩, fun h => h.2⟩
  · unfold isProperSupersetOf
    by_cases he : hs = []
    · subst he
      simp [isEmpty]
    · rw [if_neg (by rw [isEmpty_iff]; exact he)]
      have hpos : 0 < hs.length := List.length_pos_iff.mpr he
      have hne : hs.toFinset ≠ ∅ := by simpa using he
      simp only [hne, false_or]
      cases other with
      | nil => simpa using hpos
      | cons x xs =>
        rw [if_neg (by simp)]
        by_cases hl : (x :: xs).length ≥ hs.length
        · rw [if_pos hl]
          constructor
          · intro hf; cases hf
          · intro hf; omega
        · rw [if_neg hl]
          exact ⟨fun h => ⟨by omega, h⟩, fun h => h.2⟩

/-- A set, and slices with repetitions that are accepted and refused. -/
example : ([3, 1, 2] : List Nat).Nodup ∧ isSupersetOf [3, 1, 2] [1, 1, 3] = true ∧
    isSupersetOf [3, 1, 2] [1, 1, 3, 3] = false ∧ setEquals [3, 1, 2] [1, 1, 3] = true := by decide

end Verif.HashSet
