import Verif.Table.OrderProps

/-!
# C41, C42, C43: row limits, filtering and TOP with ORDER BY
-/

set_option linter.dupNamespace false

namespace Verif.Table

open Verif.Expr

variable {P : Prim}

/-- The rows of a table that are not nil, in order. -/
def present? (rows : List (Option (Row P))) : List (Row P) := rows.filterMap id

/-! ### C41 -/

theorem rowsWhereLoop_all (predicate : Row P → Bool) {limit : Int} (h : limit < 0) (rows : List (Option (Row P))) (acc : List (Row P)) :
    rowsWhereLoop predicate limit rows acc = acc ++ (present? rows).filter predicate := by
  induction rows generalizing acc with
  | nil => simp [rowsWhereLoop, present?]
  | cons row rows ih =>
    cases row with
    | none => simp only [rowsWhereLoop]; rw [ih]; simp [present?]
    | some r =>
      simp only [rowsWhereLoop]
      split
      · rename_i hp
        rw [if_neg (by omega), ih]
        simp [present?, hp]
      · rename_i hp
        rw [ih]
        simp [present?, hp]

theorem rowsWhereLoop_limit (predicate : Row P → Bool) {limit : Nat} (rows : List (Option (Row P))) (acc : List (Row P))
    (h : acc.length < limit) : rowsWhereLoop predicate limit rows acc = (acc ++ (present? rows).filter predicate).take limit := by
  induction rows generalizing acc with
  | nil => simp [rowsWhereLoop, present?, List.take_of_length_le (Nat.le_of_lt h)]
  | cons row rows ih =>
    cases row with
    | none => simp only [rowsWhereLoop]; rw [ih _ h]; simp [present?]
    | some r =>
      simp only [rowsWhereLoop]
      split
      · rename_i hp
        split
        · rename_i hl
          simp only [List.length_append, List.length_singleton] at hl
          have : (acc ++ [r]).length = limit := by simp; omega
          rw [show acc ++ (present? (some r :: rows)).filter predicate = (acc ++ [r]) ++ (present? rows).filter predicate by
            simp [present?, hp]]
          rw [List.take_append_of_le_length (by omega), List.take_of_length_le (by omega)]
        · rename_i hl
          rw [ih _ (by simp only [List.length_append, List.length_singleton] at hl ⊢; omega)]
          simp [present?, hp]
      · rename_i hp
        rw [ih _ h]
        simp [present?, hp]

/-- C41 (partial: every limit but 0). `RowsWhere` gives the first `limit` matching rows in table order, all of them when the limit is
negative. Missing: limit 0, see `C41_zero_false`. -/
theorem C41_rows_where_partial (t : Table P) (predicate : Row P → Bool) (limit : Int) (h : limit ≠ 0) :
    t.rowsWhere predicate limit =
      if limit < 0 then (present? t.rows).filter predicate else ((present? t.rows).filter predicate).take limit.toNat := by
  unfold Table.rowsWhere
  split
  · rename_i hl
    rw [rowsWhereLoop_all predicate hl]
    rfl
  · rename_i hl
    have := rowsWhereLoop_limit predicate (limit := limit.toNat) t.rows [] (by simp; omega)
    rw [show ((limit.toNat : Nat) : Int) = limit by omega] at this
    rw [this]
    rfl

/-- With limit 0 `RowsWhere` gives the first matching row, if there is one, instead of none. -/
theorem C41_zero_false (t : Table P) (predicate : Row P → Bool) :
    t.rowsWhere predicate 0 = ((present? t.rows).filter predicate).take 1 := by
  unfold Table.rowsWhere
  have key : ∀ rows : List (Option (Row P)), rowsWhereLoop predicate 0 rows [] = ((present? rows).filter predicate).take 1 := by
    intro rows
    induction rows with
    | nil => rfl
    | cons row rows ih =>
      cases row with
      | none => simp only [rowsWhereLoop]; rw [ih]; simp [present?]
      | some r =>
        simp only [rowsWhereLoop]
        split
        · rename_i hp
          simp [present?, hp]
        · rename_i hp
          rw [ih]
          simp [present?, hp]
  exact key t.rows

/-- `DataTable.Select` with limit 0 is the same as with no limit. -/
theorem C41_select_zero_false (sort : Sorter P) (t : Table P) (depth : Nat) (parsed : Option (Tree P × List OrderBy)) :
    t.select sort depth parsed 0 = t.select sort depth parsed (-1) := rfl

/-! ### C42 -/

theorem selectLoop_all {ev : Row P → Res (Val P)} {pred : Val P → Res Bool} {hit : Row P → Bool} {applyLimit : Bool} {top : Int}
    (hno : applyLimit = false ∨ top < 0) (rows : List (Option (Row P))) (acc : List (Row P))
    (h : ∀ r ∈ present? rows, (ev r >>= pred) = .ok (hit r)) :
    selectLoop ev pred applyLimit top rows acc = .ok (acc ++ (present? rows).filter hit) := by
  induction rows generalizing acc with
  | nil => simp [selectLoop, present?]
  | cons row rows ih =>
    have hc : ¬ (applyLimit = true ∧ top > -1 ∧ (acc.length : Int) ≥ top) := by
      rintro ⟨h1, h2, -⟩
      rcases hno with h3 | h3
      · rw [h1] at h3; cases h3
      · omega
    simp only [selectLoop]
    rw [if_neg hc]
    cases row with
    | none => exact ih _ (fun r hr => h r (by simpa [present?] using hr))
    | some r =>
      obtain ⟨v, hv, hp⟩ := Res.bind_eq_ok.mp (h r (by simp [present?]))
      dsimp only
      rw [hv]
      simp only [Res.bind_ok]
      rw [hp]
      simp only [Res.bind_ok]
      rw [ih _ (fun r hr => h r (by simp only [present?] at hr; simp [present?, hr]))]
      cases hh : hit r <;> simp [present?, hh]

theorem selectLoop_limit {ev : Row P → Res (Val P)} {pred : Val P → Res Bool} {hit : Row P → Bool} {top : Nat}
    (rows : List (Option (Row P))) (acc : List (Row P)) (ha : acc.length ≤ top)
    (h : ∀ r ∈ present? rows, (ev r >>= pred) = .ok (hit r)) :
    selectLoop ev pred true top rows acc = .ok ((acc ++ (present? rows).filter hit).take top) := by
  induction rows generalizing acc with
  | nil => simp [selectLoop, present?, List.take_of_length_le ha]
  | cons row rows ih =>
    simp only [selectLoop]
    split
    · rename_i hl
      rw [List.take_append_of_le_length (by omega), List.take_of_length_le ha]
    · rename_i hl
      have hl : acc.length < top := by
        by_cases hlt : acc.length < top
        · exact hlt
        · exact absurd ⟨trivial, by omega, by omega⟩ hl
      cases row with
      | none => exact ih _ ha (fun r hr => h r (by simpa [present?] using hr))
      | some r =>
        obtain ⟨v, hv, hp⟩ := Res.bind_eq_ok.mp (h r (by simp [present?]))
        dsimp only
        rw [hv]
        simp only [Res.bind_ok]
        rw [hp]
        simp only [Res.bind_ok]
        rw [ih _ (by cases hit r <;> simp <;> omega) (fun r hr => h r (by simp only [present?] at hr; simp [present?, hr]))]
        cases hh : hit r <;> simp [present?, hh]

/-- The value is the Boolean `true`. -/
def isTrue : Res (Val P) → Bool
  | .ok (.boolean true) => true
  | _ => false

theorem select_step {v : Res (Val P)} (h : v = .ok (.null .boolean) ∨ ∃ b, v = .ok (.boolean b)) :
    (v >>= selectPredicate) = .ok (isTrue v) := by
  rcases h with rfl | ⟨b, rfl⟩
  · rfl
  · cases b <;> rfl

/-- A limit as `TOP` understands it: none when negative. -/
def cut (top : Int) (rows : List (Row P)) : List (Row P) := if top < 0 then rows else rows.take top.toNat

theorem select_loop {f : Filter P} {t : Table P} {depth : Nat}
    (h : ∀ r ∈ present? t.rows, f.evaluate t depth r = .ok (.null .boolean) ∨ ∃ b, f.evaluate t depth r = .ok (.boolean b)) :
    selectLoop (f.evaluate t depth) selectPredicate true f.topLimit t.rows [] =
      .ok (cut f.topLimit ((present? t.rows).filter fun r => isTrue (f.evaluate t depth r))) := by
  have hs := fun r hr => select_step (h r hr)
  unfold cut
  split
  · rename_i hl
    rw [selectLoop_all (.inr hl) _ _ hs]
    rfl
  · rename_i hl
    have := selectLoop_limit (top := f.topLimit.toNat) t.rows [] (by simp) hs
    rw [show ((f.topLimit.toNat : Nat) : Int) = f.topLimit by omega] at this
    rw [this]
    rfl

/-- C42 (partial: for rows whose result has type Boolean). Without ORDER BY a filter gives exactly the rows for which its expression is
`true`, in table order and cut off at the TOP limit; a null of type Boolean excludes the row. Missing: nulls of another type, which is
what comparing with a null yields, make the selection fail, see `C42_null_false`. -/
theorem C42_select_partial (sort : Sorter P) (f : Filter P) (t : Table P) (depth : Nat) (ho : f.orderBy = [])
    (h : ∀ r ∈ present? t.rows, f.evaluate t depth r = .ok (.null .boolean) ∨ ∃ b, f.evaluate t depth r = .ok (.boolean b)) :
    f.select sort t depth = .ok (cut f.topLimit ((present? t.rows).filter fun r => isTrue (f.evaluate t depth r))) := by
  unfold Filter.select Filter.selectWhere
  rw [select_loop h]
  simp [ho]

/-- What a selection returns are rows of the table, in table order and each at most as often as in the table, whatever the
expression. -/
theorem C42_sublist (sort : Sorter P) (f : Filter P) (t : Table P) (depth : Nat) (ho : f.orderBy = []) {rows : List (Row P)}
    (h : f.select sort t depth = .ok rows) :
    rows.Sublist (present? t.rows) ∧ ∀ r ∈ rows, f.evaluate t depth r = .ok (.boolean true) := by
  have loop : ∀ (src : List (Option (Row P))) acc rows, selectLoop (f.evaluate t depth) selectPredicate true f.topLimit src acc = .ok rows →
      ∃ more, rows = acc ++ more ∧ more.Sublist (present? src) ∧ ∀ r ∈ more, f.evaluate t depth r = .ok (.boolean true) := by
    intro src
    induction src with
    | nil =>
      intro acc rows h
      injection h with h
      exact ⟨[], by simp [h], by simp [present?], by simp⟩
    | cons row src ih =>
      intro acc rows h
      simp only [selectLoop] at h
      split at h
      · injection h with h
        exact ⟨[], by simp [h], by simp, by simp⟩
      · cases row with
        | none =>
          obtain ⟨more, h1, h2, h3⟩ := ih _ _ h
          exact ⟨more, h1, by simpa [present?] using h2, h3⟩
        | some r =>
          obtain ⟨v, hv, h⟩ := Res.bind_eq_ok.mp h
          obtain ⟨b, hb, h⟩ := Res.bind_eq_ok.mp h
          obtain ⟨more, h1, h2, h3⟩ := ih _ _ h
          cases b with
          | false =>
            refine ⟨more, by simpa using h1, ?_, h3⟩
            simp only [present?, List.filterMap_cons, id_eq] at h2 ⊢
            exact List.Sublist.cons _ h2
          | true =>
            refine ⟨r :: more, by simpa using h1, ?_, ?_⟩
            · simp only [present?, List.filterMap_cons, id_eq] at h2 ⊢
              exact List.Sublist.cons_cons _ h2
            · intro x hx
              rcases List.mem_cons.mp hx with rfl | hx
              · rw [hv]
                unfold selectPredicate at hb
                split at hb
                · cases hb
                · rename_i ht
                  cases v <;> first
                    | (cases hb; done)
                    | (injection hb with hb; subst hb; rfl)
              · exact h3 x hx
  unfold Filter.select Filter.selectWhere at h
  obtain ⟨m, hm, h⟩ := Res.bind_eq_ok.mp h
  obtain ⟨more, h1, h2, h3⟩ := loop _ _ _ hm
  rw [if_neg (by simp [ho])] at h
  injection h with h
  subst h
  rw [h1]
  exact ⟨by simpa using h2, by simpa using h3⟩

/-- C42: an expression that is not of type Boolean for the first row makes the whole selection fail, unless TOP is 0. -/
theorem C42_not_boolean (sort : Sorter P) (f : Filter P) (t : Table P) (depth : Nat) {r : Row P} {rows : List (Option (Row P))}
    (hr : t.rows = some r :: rows) (ht : f.topLimit ≠ 0) {v : Val P} (hv : f.evaluate t depth r = .ok v) (hb : v.type ≠ .boolean) :
    f.select sort t depth = .err := by
  unfold Filter.select Filter.selectWhere
  rw [hr]
  simp only [selectLoop]
  rw [if_neg (by simp; omega)]
  rw [hv]
  simp only [Res.bind_ok]
  unfold selectPredicate
  rw [if_pos hb]
  rfl

/-! ### Sorting -/

/-- What `sort.Slice` promises: when the comparison yields truth values that are a strict weak order on the elements, the result is a
permutation in which no element comes before an earlier one. -/
def SortSlice (sort : Sorter P) : Prop :=
  ∀ (less : Row P → Row P → Res Bool) (lt : Row P → Row P → Bool) (rows : List (Row P)),
    (∀ a ∈ rows, ∀ b ∈ rows, less a b = .ok (lt a b)) → StrictWeak (· ∈ rows) lt →
    ∃ out, sort less rows = .ok out ∧ out.Perm rows ∧ out.Pairwise fun a b => lt b a = false

/-- C44 (partial, as `C44_order_partial`). Sorting rows that can be read, by any terms, yields a permutation of them in which no pair is
out of order. -/
theorem C44_sorted_partial {sort : Sorter P} (hs : SortSlice sort) (L : OrderLaws P) (t : Table P) (depth : Nat) (terms : List OrderBy)
    (rows : List (Row P)) (hr : ∀ r ∈ rows, Sortable t depth terms r) :
    ∃ out, sort (fun l r => less t depth l r terms) rows = .ok out ∧ out.Perm rows ∧
      out.Pairwise fun a b => less t depth b a terms = .ok false := by
  obtain ⟨lt, h1, h2⟩ := C44_order_partial L t depth terms
  obtain ⟨out, e, hp, hw⟩ := hs (fun l r => less t depth l r terms) lt rows (fun a ha b hb => h1 a b (hr a ha) (hr b hb))
    ⟨fun a ha => h2.irrefl a (hr a ha), fun a b c ha hb hc => h2.trans a b c (hr a ha) (hr b hb) (hr c hc),
     fun a b c ha hb hc => h2.unordered a b c (hr a ha) (hr b hb) (hr c hc)⟩
  refine ⟨out, e, hp, ?_⟩
  refine hw.imp_of_mem ?_
  intro a b ha hb hab
  rw [h1 b a (hr b (hp.mem_iff.mp hb)) (hr a (hp.mem_iff.mp ha)), hab]

/-! ### C43 -/

/-- What a filter with ORDER BY and TOP gives: the first matches in table order, sorted. -/
theorem select_sorted {sort : Sorter P} (hs : SortSlice sort) (L : OrderLaws P) (f : Filter P) (t : Table P) (depth : Nat)
    (h : ∀ r ∈ present? t.rows, f.evaluate t depth r = .ok (.null .boolean) ∨ ∃ b, f.evaluate t depth r = .ok (.boolean b))
    (hr : ∀ r ∈ present? t.rows, Sortable t depth f.orderBy r) :
    ∃ out, f.select sort t depth = .ok out ∧
      out.Perm (cut f.topLimit ((present? t.rows).filter fun r => isTrue (f.evaluate t depth r))) ∧
      out.Pairwise fun a b => less t depth b a f.orderBy = .ok false := by
  unfold Filter.select Filter.selectWhere
  rw [select_loop h]
  generalize hm : cut f.topLimit ((present? t.rows).filter fun r => isTrue (f.evaluate t depth r)) = m
  have hsub : ∀ r ∈ m, Sortable t depth f.orderBy r := by
    intro r hr'
    apply hr
    rw [← hm] at hr'
    unfold cut at hr'
    split at hr'
    · exact (List.mem_filter.mp hr').1
    · exact (List.mem_filter.mp (List.mem_of_mem_take hr')).1
  simp only [Res.bind_ok]
  split
  · exact C44_sorted_partial hs L t depth f.orderBy m hsub
  · rename_i hn
    refine ⟨m, rfl, List.Perm.refl _, ?_⟩
    by_cases hl : m.length > 0
    · have : f.orderBy = [] := by
        cases ho : f.orderBy with
        | nil => rfl
        | cons o os => exact absurd ⟨trivial, hl, by simp [ho]⟩ hn
      rw [this]
      exact List.pairwise_iff_forall_sublist.mpr (fun _ => rfl)
    · have : m = [] := List.length_eq_zero_iff.mp (by omega)
      subst this
      exact List.Pairwise.nil

/-- C43 (partial: TOP at least the number of matches, or none). Then the result is the full matching set sorted by the ordering terms.
Missing: a TOP below the number of matches, where `select_sorted` gives the first matches in table order, see `C43_top_false`. -/
theorem C43_select_partial {sort : Sorter P} (hs : SortSlice sort) (L : OrderLaws P) (f : Filter P) (t : Table P) (depth : Nat)
    (h : ∀ r ∈ present? t.rows, f.evaluate t depth r = .ok (.null .boolean) ∨ ∃ b, f.evaluate t depth r = .ok (.boolean b))
    (hr : ∀ r ∈ present? t.rows, Sortable t depth f.orderBy r)
    (htop : f.topLimit < 0 ∨ (((present? t.rows).filter fun r => isTrue (f.evaluate t depth r)).length : Int) ≤ f.topLimit) :
    ∃ out, f.select sort t depth = .ok out ∧ out.Perm ((present? t.rows).filter fun r => isTrue (f.evaluate t depth r)) ∧
      out.Pairwise fun a b => less t depth b a f.orderBy = .ok false := by
  obtain ⟨out, h1, h2, h3⟩ := select_sorted hs L f t depth h hr
  refine ⟨out, h1, ?_, h3⟩
  unfold cut at h2
  split at h2
  · exact h2
  · rename_i hn
    rwa [List.take_of_length_le (by omega)] at h2

/-! ### Cases -/

/-- Insertion sort, as a `Sorter`. -/
def insertSorted (less : Row P → Row P → Res Bool) (x : Row P) : List (Row P) → Res (List (Row P))
  | [] => .ok [x]
  | y :: ys => do
    if ← less y x then return y :: (← insertSorted less x ys) else return x :: y :: ys

def insertionSort : Sorter P := fun less rows => rows.foldr (fun x acc => acc >>= insertSorted less x) (.ok [])

theorem insertSorted_spec {less : Row P → Row P → Res Bool} {lt : Row P → Row P → Bool} {S : Row P → Prop}
    (hl : ∀ a b, S a → S b → less a b = .ok (lt a b)) (hw : StrictWeak S lt) (x : Row P) (ys : List (Row P)) (hx : S x) (hy : ∀ y ∈ ys, S y)
    (hs : ys.Pairwise fun a b => lt b a = false) :
    ∃ out, insertSorted less x ys = .ok out ∧ out.Perm (x :: ys) ∧ out.Pairwise fun a b => lt b a = false := by
  have weak : ∀ a b c, S a → S b → S c → lt b a = false → lt c b = false → lt c a = false := by
    intro a b c ha hb hc h1 h2
    cases h : lt c a with
    | false => rfl
    | true =>
      cases h3 : lt a b with
      | true => rw [hw.trans c a b hc ha hb h h3] at h2; cases h2
      | false =>
        cases h4 : lt b c with
        | true => rw [hw.trans b c a hb hc ha h4 h] at h1; cases h1
        | false => rw [(hw.unordered a b c ha hb hc h3 h1 h4 h2).2] at h; cases h
  induction ys with
  | nil => exact ⟨[x], rfl, List.Perm.refl _, by simp⟩
  | cons y ys ih =>
    have hyS := hy y (by simp)
    simp only [insertSorted]
    rw [hl y x hyS hx]
    simp only [Res.bind_ok]
    rw [List.pairwise_cons] at hs
    cases h : lt y x with
    | true =>
      obtain ⟨out, e, hp, hq⟩ := ih (fun z hz => hy z (by simp [hz])) hs.2
      refine ⟨y :: out, by simp [e], ?_, ?_⟩
      · exact (List.Perm.cons y hp).trans (List.Perm.swap x y ys)
      · rw [List.pairwise_cons]
        refine ⟨?_, hq⟩
        intro z hz
        rcases List.mem_cons.mp (hp.mem_iff.mp hz) with rfl | hz
        · cases hzy : lt z y with
          | false => rfl
          | true => have := hw.trans y z y hyS hx hyS h hzy; rw [hw.irrefl y hyS] at this; cases this
        · exact hs.1 z hz
    | false =>
      refine ⟨x :: y :: ys, by simp, List.Perm.refl _, ?_⟩
      rw [List.pairwise_cons, List.pairwise_cons]
      refine ⟨?_, hs⟩
      intro z hz
      rcases List.mem_cons.mp hz with rfl | hz
      · exact h
      · exact weak x y z hx hyS (hy z (by simp [hz])) h (hs.1 z hz)

/-- The law about sorting can be met. -/
theorem insertionSort_sorts : SortSlice (insertionSort : Sorter P) := by
  intro less lt rows hl hw
  have key : ∀ xs : List (Row P), (∀ x ∈ xs, x ∈ rows) →
      ∃ out, insertionSort less xs = .ok out ∧ out.Perm xs ∧ out.Pairwise fun a b => lt b a = false := by
    intro xs
    induction xs with
    | nil => intro _; exact ⟨[], rfl, List.Perm.refl _, List.Pairwise.nil⟩
    | cons x xs ih =>
      intro h
      obtain ⟨out, e, hp, hq⟩ := ih (fun z hz => h z (by simp [hz]))
      obtain ⟨out', e', hp', hq'⟩ := insertSorted_spec (S := (· ∈ rows)) (fun a b ha hb => hl a ha b hb) hw x out (h x (by simp))
        (fun z hz => h z (by simp [hp.mem_iff.mp hz])) hq
      refine ⟨out', ?_, hp'.trans (List.Perm.cons x hp), hq'⟩
      show (insertionSort less xs >>= insertSorted less x) = _
      rw [e]
      exact e'
  exact key rows (fun _ h => h)

/-- One column `A` of type Int32 and a row for each number. -/
def numbers (vs : List (Option Int)) : Table Toy.prim where
  columnIndexes := fun n => if n = lit "A" then some 0 else none
  columns := [{ name := lit "A", type := .int32, expression := [], index := 0 }]
  rows := none :: vs.mapIdx fun i v => some { id := i, values := [v.map fun v => .int32 (BitVec.ofInt 32 v)] }
  parse := fun _ => none

/-- `A > 1` -/
def above : Tree Toy.prim := .op .greaterThan (.column 0) (.value (.int32 1))

/-- `C41_rows_where_partial` on five rows, one nil. -/
example : ((numbers [some 3, some 1, some 2, some 5]).rowsWhere (fun r => r.id != 1) 2).map Row.id = [0, 2] := by
  rw [C41_rows_where_partial _ _ _ (by decide)]
  decide

/-- The hypothesis of `C42_select_partial`, and its outcome with TOP 2. -/
example : ∃ rows, Filter.select insertionSort { root := above, topLimit := 2 } (numbers [some 3, some 1, some 2, some 5]) 1 = .ok rows ∧
    rows.map Row.id = [0, 2] := by
  have := C42_select_partial insertionSort { root := above, topLimit := 2 } (numbers [some 3, some 1, some 2, some 5]) 1 rfl (by
    intro r hr
    simp only [present?, numbers, List.mapIdx_cons, List.mapIdx_nil, List.filterMap_cons, List.filterMap_nil, id_eq, List.mem_cons,
      List.not_mem_nil, or_false] at hr
    rcases hr with rfl | rfl | rfl | rfl
    · exact .inr ⟨true, rfl⟩
    · exact .inr ⟨false, rfl⟩
    · exact .inr ⟨true, rfl⟩
    · exact .inr ⟨true, rfl⟩)
  exact ⟨_, this, rfl⟩

/-- Comparing with a null yields a null that is not Boolean, and the selection fails instead of leaving the row out. -/
theorem C42_null_false (sort : Sorter Toy.prim) :
    (∀ r ∈ present? (numbers [some 3, none]).rows, r.id = 1 →
      Filter.evaluate { root := above } (numbers [some 3, none]) 1 r = .ok (.null .int32)) ∧
    Filter.select sort { root := above } (numbers [some 3, none]) 1 = .err := by
  constructor
  · intro r hr hid
    simp only [present?, numbers, List.mapIdx_cons, List.mapIdx_nil, List.filterMap_cons, List.filterMap_nil, id_eq, List.mem_cons,
      List.not_mem_nil, or_false] at hr
    rcases hr with rfl | rfl
    · cases hid
    · rfl
  · rfl

/-- `TOP 1 ... ORDER BY A` over 3, 1, 2 gives the row of 3 with any sorting function, though the row of 1 comes before it. -/
theorem C43_top_false : ∃ (f : Filter Toy.prim) (t : Table Toy.prim), f.topLimit = 1 ∧
    (∀ r ∈ present? t.rows, f.evaluate t 1 r = .ok (.boolean true) ∧ Sortable t 1 f.orderBy r) ∧
    ∀ sort, SortSlice sort → ∃ r r', f.select sort t 1 = .ok [r] ∧ r' ∈ present? t.rows ∧ less t 1 r' r f.orderBy = .ok true := by
  have hsort : ∀ r ∈ present? (numbers [some 3, some 1, some 2]).rows,
      Filter.evaluate { root := .value (.boolean true), topLimit := 1, orderBy := [⟨0, true, true⟩] } (numbers [some 3, some 1, some 2]) 1 r =
        .ok (.boolean true) ∧ Sortable (numbers [some 3, some 1, some 2]) 1 [⟨0, true, true⟩] r := by
    intro r hr
    refine ⟨rfl, ?_⟩
    intro o ho c hc
    simp only [List.mem_singleton] at ho
    subst ho
    injection hc with hc
    subst hc
    simp only [present?, numbers, List.mapIdx_cons, List.mapIdx_nil, List.filterMap_cons, List.filterMap_nil, id_eq, List.mem_cons,
      List.not_mem_nil, or_false] at hr
    rcases hr with rfl | rfl | rfl <;>
    · refine ⟨(by intro h; cases h), ?_⟩
      intro x hx
      injection hx with hx
      injection hx with hx
      subst hx
      trivial
  refine ⟨{ root := .value (.boolean true), topLimit := 1, orderBy := [⟨0, true, true⟩] }, numbers [some 3, some 1, some 2], rfl, hsort, ?_⟩
  intro sort hs
  obtain ⟨out, h1, h2, -⟩ := select_sorted hs toy_orders
    { root := .value (.boolean true), topLimit := 1, orderBy := [⟨0, true, true⟩] } (numbers [some 3, some 1, some 2]) 1
    (fun r hr => .inr ⟨true, (hsort r hr).1⟩) (fun r hr => (hsort r hr).2)
  have : out = [{ id := 0, values := [some (.int32 3)] }] := List.perm_singleton.mp h2
  subst this
  exact ⟨_, { id := 1, values := [some (.int32 1)] }, h1, by simp [present?, numbers], rfl⟩

end Verif.Table
