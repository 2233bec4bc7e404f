import Verif.Table.Select
import Verif.Table.RowProps
import Verif.Expr.OpProps
import Verif.Guid.Props

/-!
# C44: the comparison behind ORDER BY
-/

set_option linter.dupNamespace false

namespace Verif.Table

open Verif.Expr

variable {P : Prim}

/-- What is used of the orders of decimals, floats and dates. Floats are ordered when neither is NaN, that is, when both equal
themselves. -/
structure OrderLaws (P : Prim) : Prop where
  decAnti : ∀ a b, P.decCmp a b < 0 ↔ P.decCmp b a > 0
  decTrans : ∀ a b c, P.decCmp a b ≤ 0 → P.decCmp b c ≤ 0 → P.decCmp a c ≤ 0
  fltAsymm : ∀ a b, P.fltLt a b = true → P.fltLt b a = false
  fltTrans : ∀ a b c, P.fltEq a a = true → P.fltEq b b = true → P.fltEq c c = true → P.fltLt b a = false → P.fltLt c b = false →
    P.fltLt c a = false
  sglAsymm : ∀ a b, P.sglLt a b = true → P.sglLt b a = false
  sglTrans : ∀ a b c, P.sglEq a a = true → P.sglEq b b = true → P.sglEq c c = true → P.sglLt b a = false → P.sglLt c b = false →
    P.sglLt c a = false
  timeAsymm : ∀ a b, P.timeBefore a b = true → P.timeBefore b a = false
  timeTrans : ∀ a b c, P.timeBefore b a = false → P.timeBefore c b = false → P.timeBefore c a = false

/-- A comparison that is consistent on the values `ok`. -/
structure Consistent {α : Type} (ok : α → Prop) (cmp : α → α → Int) : Prop where
  anti : ∀ a b, ok a → ok b → cmp b a = - cmp a b
  trans : ∀ a b c, ok a → ok b → ok c → cmp a b ≤ 0 → cmp b c ≤ 0 → cmp a c ≤ 0

theorem threeWay_consistent {α : Type} {ok : α → Prop} {lt : α → α → Bool} (h1 : ∀ a b, lt a b = true → lt b a = false)
    (h2 : ∀ a b c, ok a → ok b → ok c → lt b a = false → lt c b = false → lt c a = false) :
    Consistent ok fun a b => threeWay (lt a b) (lt b a) := by
  have le : ∀ a b, threeWay (lt a b) (lt b a) ≤ 0 ↔ lt b a = false := by
    intro a b
    unfold threeWay
    have := h1 a b
    cases hab : lt a b <;> cases hba : lt b a <;> simp_all
  constructor
  · intro a b _ _
    show threeWay _ _ = - threeWay _ _
    unfold threeWay
    have := h1 a b
    cases hab : lt a b <;> cases hba : lt b a <;> simp_all
  · intro a b c ha hb hc hab hbc
    rw [le] at *
    exact h2 a b c ha hb hc hab hbc

theorem strCompare_consistent {α : Type} (f : α → Str) : Consistent (fun _ => True) fun a b => strCompare (f a) (f b) := by
  have le : ∀ a b, strCompare a b ≤ 0 ↔ strLt b a = false := by
    intro a b
    unfold strCompare
    split
    · rename_i h; subst h; simp [strLt_irrefl]
    · rename_i h
      split
      · rename_i h'; simp [strLt_asymm h']
      · rename_i h'
        rcases strLt_total a b with h1 | h1 | h1
        · exact absurd h1 h'
        · exact absurd h1 h
        · simp [h1]
  constructor
  · intro a b _ _
    show strCompare (f b) (f a) = - strCompare (f a) (f b)
    unfold strCompare
    rcases strLt_total (f a) (f b) with h | h | h
    · have h' := strLt_asymm h
      have hne : f a ≠ f b := by intro e; rw [e, strLt_irrefl] at h; cases h
      simp [hne, Ne.symm hne, h, h']
    · rw [if_pos h, if_pos h.symm]; rfl
    · have h' := strLt_asymm h
      have hne : f a ≠ f b := by intro e; rw [e, strLt_irrefl] at h; cases h
      simp [hne, Ne.symm hne, h, h']
  · intro a b c _ _ _ h1 h2
    rw [le] at *
    cases hca : strLt (f c) (f a) with
    | false => rfl
    | true =>
      rcases strLt_total (f a) (f b) with h | h | h
      · rw [strLt_trans hca h] at h2; cases h2
      · rw [h] at hca; rw [hca] at h2; cases h2
      · rw [h] at h1; cases h1

theorem slt_consistent (w : Nat) : Consistent (fun _ => True) fun a b : BitVec w => threeWay (a.slt b) (b.slt a) := by
  apply threeWay_consistent
  · intro a b h
    simp only [BitVec.slt_eq_decide, decide_eq_true_eq, decide_eq_false_iff_not] at *
    omega
  · intro a b c _ _ _ h1 h2
    simp only [BitVec.slt_eq_decide, decide_eq_false_iff_not] at *
    omega

theorem ult_consistent (w : Nat) : Consistent (fun _ => True) fun a b : BitVec w => threeWay (a.ult b) (b.ult a) := by
  apply threeWay_consistent
  · intro a b h
    simp only [BitVec.ult_eq_decide, decide_eq_true_eq, decide_eq_false_iff_not] at *
    omega
  · intro a b c _ _ _ h1 h2
    simp only [BitVec.ult_eq_decide, decide_eq_false_iff_not] at *
    omega

/-- Not a NaN. -/
def Cell.isNumber : Cell P → Prop
  | .single f => P.sglEq f f = true
  | .double f => P.fltEq f f = true
  | _ => True

theorem Consistent.neg {α : Type} {ok : α → Prop} {cmp : α → α → Int} (h : Consistent ok cmp) {a b : α} (ha : ok a) (hb : ok b) :
    cmp a b < 0 ↔ ¬ cmp b a ≤ 0 := by
  rw [h.anti a b ha hb]
  omega

/-- Comparing two values of the column's type is consistent. -/
theorem cellCompare_consistent (L : OrderLaws P) (dt : DT) (exact_ : Bool) :
    Consistent (fun c : Cell P => c.type = dt ∧ c.isNumber) (cellCompare exact_) := by
  have dec : Consistent (fun _ => True) fun a b => threeWay (P.decCmp a b < 0) (P.decCmp a b > 0) := by
    have := threeWay_consistent (ok := fun _ => True) (lt := fun a b => decide (P.decCmp a b < 0))
      (fun a b h => by simp only [decide_eq_true_eq, decide_eq_false_iff_not] at *; have := (L.decAnti a b).mp h; omega)
      (fun a b c _ _ _ h1 h2 => by
        simp only [decide_eq_false_iff_not] at *
        have e1 : P.decCmp a b ≤ 0 := by have := L.decAnti b a; omega
        have e2 : P.decCmp b c ≤ 0 := by have := L.decAnti c b; omega
        have e3 := L.decTrans _ _ _ e1 e2
        have := L.decAnti c a
        omega)
    have e : (fun a b => threeWay (decide (P.decCmp a b < 0)) (decide (P.decCmp b a < 0))) =
        fun a b => threeWay (decide (P.decCmp a b < 0)) (decide (P.decCmp a b > 0)) := by
      funext a b
      congr 1
      simp only [decide_eq_decide]
      exact L.decAnti b a
    rw [← e]
    exact this
  have guid : Consistent (fun _ => True) fun a b => threeWay (Guid.compare a b < 0) (Guid.compare a b > 0) := by
    obtain ⟨-, ha, ht, -⟩ := Guid.C05_total_order
    have e : ∀ a b, threeWay (Guid.compare a b < 0) (Guid.compare a b > 0) ≤ 0 ↔ Guid.compare a b ≤ 0 := by
      intro a b
      generalize Guid.compare a b = k
      unfold threeWay
      by_cases h1 : k < 0
      · simp [h1]; omega
      · by_cases h2 : k > 0
        · simp [h1, h2]
        · simp [h1, h2]; omega
    constructor
    · intro a b _ _
      show threeWay _ _ = - threeWay _ _
      rw [ha a b]
      generalize Guid.compare a b = k
      unfold threeWay
      by_cases h1 : k < 0
      · have h2 : ¬ (-k < 0) := by omega
        have h3 : -k > 0 := by omega
        simp [h1, h2, h3]; omega
      · by_cases h2 : k > 0
        · have h3 : -k < 0 := by omega
          simp [h1, h2, h3]
        · have : k = 0 := by omega
          simp [this]
    · intro a b c _ _ _ h1 h2
      rw [e] at *
      exact ht a b c h1 h2
  have flt := threeWay_consistent (ok := fun f => P.fltEq f f = true) L.fltAsymm L.fltTrans
  have sgl := threeWay_consistent (ok := fun f => P.sglEq f f = true) L.sglAsymm L.sglTrans
  have time := threeWay_consistent (ok := fun _ => True) L.timeAsymm (fun a b c _ _ _ => L.timeTrans a b c)
  constructor
  · rintro a b ⟨ha, na⟩ ⟨hb, nb⟩
    subst ha
    cases a <;> cases b <;> first | (cases hb; done) | skip
    case string.string a b =>
      simp only [cellCompare]
      split
      · exact (strCompare_consistent id).anti a b trivial trivial
      · exact (strCompare_consistent P.upper).anti a b trivial trivial
    case boolean.boolean a b => cases a <;> cases b <;> rfl
    case dateTime.dateTime a b => exact time.anti a b trivial trivial
    case single.single a b => exact sgl.anti a b na nb
    case double.double a b => exact flt.anti a b na nb
    case decimal.decimal a b => exact dec.anti a b trivial trivial
    case guid.guid a b => exact guid.anti a b trivial trivial
    case int8.int8 a b => exact (slt_consistent _).anti a b trivial trivial
    case int16.int16 a b => exact (slt_consistent _).anti a b trivial trivial
    case int32.int32 a b => exact (slt_consistent _).anti a b trivial trivial
    case int64.int64 a b => exact (slt_consistent _).anti a b trivial trivial
    case uint8.uint8 a b => exact (ult_consistent _).anti a b trivial trivial
    case uint16.uint16 a b => exact (ult_consistent _).anti a b trivial trivial
    case uint32.uint32 a b => exact (ult_consistent _).anti a b trivial trivial
    case uint64.uint64 a b => exact (ult_consistent _).anti a b trivial trivial
    all_goals rfl
  · rintro a b c ⟨ha, na⟩ ⟨hb, nb⟩ ⟨hc, nc⟩
    subst ha
    cases a <;> cases b <;> first | (cases hb; done) | skip
    all_goals (cases c <;> first | (cases hc; done) | skip)
    case string.string.string a b c =>
      simp only [cellCompare]
      split
      · exact (strCompare_consistent id).trans a b c trivial trivial trivial
      · exact (strCompare_consistent P.upper).trans a b c trivial trivial trivial
    case boolean.boolean.boolean a b c => cases a <;> cases b <;> cases c <;> simp [cellCompare, threeWay]
    case dateTime.dateTime.dateTime a b c => exact time.trans a b c trivial trivial trivial
    case single.single.single a b c => exact sgl.trans a b c na nb nc
    case double.double.double a b c => exact flt.trans a b c na nb nc
    case decimal.decimal.decimal a b c => exact dec.trans a b c trivial trivial trivial
    case guid.guid.guid a b c => exact guid.trans a b c trivial trivial trivial
    case int8.int8.int8 a b c => exact (slt_consistent _).trans a b c trivial trivial trivial
    case int16.int16.int16 a b c => exact (slt_consistent _).trans a b c trivial trivial trivial
    case int32.int32.int32 a b c => exact (slt_consistent _).trans a b c trivial trivial trivial
    case int64.int64.int64 a b c => exact (slt_consistent _).trans a b c trivial trivial trivial
    case uint8.uint8.uint8 a b c => exact (ult_consistent _).trans a b c trivial trivial trivial
    case uint16.uint16.uint16 a b c => exact (ult_consistent _).trans a b c trivial trivial trivial
    case uint32.uint32.uint32 a b c => exact (ult_consistent _).trans a b c trivial trivial trivial
    case uint64.uint64.uint64 a b c => exact (ult_consistent _).trans a b c trivial trivial trivial
    all_goals (intro _ _; exact Int.le_refl 0)

/-! ### Values that may be missing -/

/-- Comparing optional values: one that is missing comes first. -/
def optCompare (exactMatch : Bool) : Option (Cell P) → Option (Cell P) → Int
  | some a, some b => cellCompare exactMatch a b
  | a, b => nullCompare a.isSome b.isSome

theorem optCompare_consistent (L : OrderLaws P) (dt : DT) (exact_ : Bool) :
    Consistent (fun c : Option (Cell P) => ∀ x, c = some x → x.type = dt ∧ x.isNumber) (optCompare exact_) := by
  have C := cellCompare_consistent L dt exact_
  constructor
  · intro a b ha hb
    cases a <;> cases b
    · rfl
    · rfl
    · rfl
    · exact C.anti _ _ (ha _ rfl) (hb _ rfl)
  · intro a b c ha hb hc
    cases a <;> cases b <;> cases c <;> first
      | exact C.trans _ _ _ (ha _ rfl) (hb _ rfl) (hc _ rfl)
      | simp [optCompare, nullCompare]

/-! ### Rows -/

/-- What a row gives for a column when sorting; an error counts as no value. -/
def sortKey (t : Table P) (depth : Nat) (r : Row P) (i : Int) : Option (Cell P) :=
  match t.column i with
  | none => none
  | some c =>
    match r.get (r.column t depth) t c.type i with
    | .ok v => v
    | _ => none

/-- The column can be read without a panic and is not NaN. -/
def Sortable (t : Table P) (depth : Nat) (terms : List OrderBy) (r : Row P) : Prop :=
  ∀ o ∈ terms, ∀ c, t.column o.column = some c →
    r.get (r.column t depth) t c.type o.column ≠ .panic ∧
    ∀ x, r.get (r.column t depth) t c.type o.column = .ok (some x) → x.isNumber

/-- The order of two rows by the column of a term, ascending; a column that does not exist orders nothing. -/
def keyCompare (t : Table P) (depth : Nat) (o : OrderBy) (l r : Row P) : Int :=
  if (t.column o.column).any (fun c => c.type != .undefined) then
    optCompare o.exactMatch (sortKey t depth l o.column) (sortKey t depth r o.column)
  else 0

/-- The order of two rows by the terms: the first term on which they differ decides, turned around when descending. -/
def termCompare (t : Table P) (depth : Nat) : List OrderBy → Row P → Row P → Int
  | [], _, _ => 0
  | o :: os, l, r =>
    let k := if o.ascending then keyCompare t depth o l r else -keyCompare t depth o l r
    if k = 0 then termCompare t depth os l r else k

theorem get_type {col : Nat → Res (Val P)} {t : Table P} {r : Row P} {dt : DT} {i : Int} {x : Cell P}
    (h : r.get col t dt i = .ok (some x)) : x.type = dt := by
  unfold Row.get at h
  obtain ⟨c, hc, h⟩ := Res.bind_eq_ok.mp h
  have asrt : ∀ v, Row.assert dt v = .ok (some x) → x.type = dt := by
    intro v hv
    unfold Row.assert at hv
    split at hv
    · injection hv with hv; injection hv with hv; subst hv; assumption
    · cases hv
  split at h
  · obtain ⟨v, -, h⟩ := Res.bind_eq_ok.mp h
    exact asrt v h
  · obtain ⟨v, -, h⟩ := Res.bind_eq_ok.mp h
    cases v with
    | none => cases h
    | some v => exact asrt v h

theorem compareColumns_eq {t : Table P} {depth : Nat} {l r : Row P} (o : OrderBy)
    (hl : ∀ c, t.column o.column = some c → l.get (l.column t depth) t c.type o.column ≠ .panic)
    (hr : ∀ c, t.column o.column = some c → r.get (r.column t depth) t c.type o.column ≠ .panic) :
    orZero (compareColumns t depth l r o.column o.exactMatch) = .ok (keyCompare t depth o l r) := by
  unfold keyCompare compareColumns sortKey
  cases hc : t.column o.column with
  | none => rfl
  | some c =>
    dsimp only
    by_cases hu : c.type = .undefined
    · simp [hu, orZero]
    · rw [if_neg hu]
      simp only [Option.any_some, bne_iff_ne, ne_eq, hu, not_false_eq_true, if_true]
      have h1 := hl c hc
      have h2 := hr c hc
      cases ha : l.get (l.column t depth) t c.type o.column with
      | panic => exact absurd ha h1
      | ok a =>
        cases hb : r.get (r.column t depth) t c.type o.column with
        | panic => exact absurd hb h2
        | ok b => cases a <;> cases b <;> rfl
        | err => cases a <;> rfl
      | err =>
        cases hb : r.get (r.column t depth) t c.type o.column with
        | panic => exact absurd hb h2
        | ok b => cases b <;> rfl
        | err => rfl

theorem Consistent.key {t : Table P} {depth : Nat} (L : OrderLaws P) (o : OrderBy) :
    Consistent (fun r : Row P => ∀ c, t.column o.column = some c →
        r.get (r.column t depth) t c.type o.column ≠ .panic ∧
        ∀ x, r.get (r.column t depth) t c.type o.column = .ok (some x) → x.isNumber)
      (keyCompare t depth o) := by
  have e : keyCompare t depth o = fun l r => if (t.column o.column).any (fun c => c.type != .undefined) then
      optCompare o.exactMatch (sortKey t depth l o.column) (sortKey t depth r o.column) else 0 := rfl
  rw [e]
  cases hc : t.column o.column with
  | none => exact ⟨fun _ _ _ _ => rfl, fun _ _ _ _ _ _ _ _ => Int.le_refl 0⟩
  | some c =>
    have C := optCompare_consistent L c.type o.exactMatch
    have key : ∀ r : Row P, (∀ c', some c = some c' → r.get (r.column t depth) t c'.type o.column ≠ .panic ∧
        ∀ x, r.get (r.column t depth) t c'.type o.column = .ok (some x) → x.isNumber) →
        ∀ x, sortKey t depth r o.column = some x → x.type = c.type ∧ x.isNumber := by
      intro r h x hx
      unfold sortKey at hx
      rw [hc] at hx
      dsimp only at hx
      split at hx
      · rename_i v hv
        subst hx
        exact ⟨get_type hv, (h c rfl).2 x hv⟩
      · cases hx
    by_cases hu : (Option.some c).any (fun c => c.type != .undefined) = true
    · simp only [hu, if_true]
      exact ⟨fun a b ha hb => C.anti _ _ (key a ha) (key b hb),
        fun a b d ha hb hd => C.trans _ _ _ (key a ha) (key b hb) (key d hd)⟩
    · simp only [hu]
      exact ⟨fun _ _ _ _ => rfl, fun _ _ _ _ _ _ _ _ => Int.le_refl 0⟩

theorem Consistent.turn {α : Type} {ok : α → Prop} {cmp : α → α → Int} (h : Consistent ok cmp) (asc : Bool) :
    Consistent ok fun a b => if asc then cmp a b else -cmp a b := by
  cases asc
  · constructor
    · intro a b ha hb
      have := h.anti a b ha hb
      simp [this]
    · intro a b c ha hb hc h1 h2
      have e1 := h.anti a b ha hb
      have e2 := h.anti b c hb hc
      have e3 := h.anti a c ha hc
      have := h.trans c b a hc hb ha
      simp only [Bool.false_eq_true, if_false] at *
      omega
  · simpa using h

theorem Consistent.lex {α : Type} {ok : α → Prop} {f g : α → α → Int} (hf : Consistent ok f) (hg : Consistent ok g) :
    Consistent ok fun a b => if f a b = 0 then g a b else f a b := by
  constructor
  · intro a b ha hb
    have e1 := hf.anti a b ha hb
    have e2 := hg.anti a b ha hb
    split <;> split <;> omega
  · intro a b c ha hb hc
    have a1 := hf.anti a b ha hb
    have a2 := hf.anti b c hb hc
    have a3 := hf.anti a c ha hc
    have t1 := hf.trans a b c ha hb hc
    have t2 := hf.trans b c a hb hc ha
    have t3 := hf.trans c a b hc ha hb
    have g1 := hg.trans a b c ha hb hc
    intro h1 h2
    split at h1 <;> split at h2 <;> split <;> omega

theorem termCompare_consistent (L : OrderLaws P) (t : Table P) (depth : Nat) (terms : List OrderBy) :
    Consistent (Sortable t depth terms) (termCompare t depth terms) := by
  induction terms with
  | nil => exact ⟨fun _ _ _ _ => rfl, fun _ _ _ _ _ _ _ _ => Int.le_refl 0⟩
  | cons o os ih =>
    have h1 : Consistent (Sortable t depth (o :: os)) _ :=
      ⟨fun a b ha hb => ((Consistent.key (t := t) (depth := depth) L o).turn o.ascending).anti a b (ha o (by simp)) (hb o (by simp)),
       fun a b c ha hb hc => ((Consistent.key (t := t) (depth := depth) L o).turn o.ascending).trans a b c (ha o (by simp))
         (hb o (by simp)) (hc o (by simp))⟩
    have h2 : Consistent (Sortable t depth (o :: os)) (termCompare t depth os) :=
      ⟨fun a b ha hb => ih.anti a b (fun p hp => ha p (by simp [hp])) (fun p hp => hb p (by simp [hp])),
       fun a b c ha hb hc => ih.trans a b c (fun p hp => ha p (by simp [hp])) (fun p hp => hb p (by simp [hp]))
         (fun p hp => hc p (by simp [hp]))⟩
    exact h1.lex h2

/-- The comparison given to the sort is the order by the terms. -/
theorem less_eq (L : OrderLaws P) {t : Table P} {depth : Nat} {terms : List OrderBy} {l r : Row P} (hl : Sortable t depth terms l)
    (hr : Sortable t depth terms r) : less t depth l r terms = .ok (decide (termCompare t depth terms l r < 0)) := by
  induction terms with
  | nil => rfl
  | cons o os ih =>
    have ih := ih (fun p hp => hl p (by simp [hp])) (fun p hp => hr p (by simp [hp]))
    have K := (Consistent.key (t := t) (depth := depth) L o).anti l r (hl o (by simp)) (hr o (by simp))
    have e1 := compareColumns_eq (l := l) (r := r) o (fun c hc => (hl o (by simp) c hc).1) (fun c hc => (hr o (by simp) c hc).1)
    have e2 := compareColumns_eq (l := r) (r := l) o (fun c hc => (hr o (by simp) c hc).1) (fun c hc => (hl o (by simp) c hc).1)
    obtain ⟨m, hm⟩ : ∃ m, m = if o.ascending = true then keyCompare t depth o l r else -keyCompare t depth o l r := ⟨_, rfl⟩
    have hT : termCompare t depth (o :: os) l r = if m = 0 then termCompare t depth os l r else m := by rw [hm]; rfl
    have e : orZero (if o.ascending = true then compareColumns t depth l r o.column o.exactMatch
        else compareColumns t depth r l o.column o.exactMatch) = .ok m := by
      rw [hm]
      cases o.ascending
      · simp only [Bool.false_eq_true, if_false]
        rw [e2, K]
      · simp only [if_true]
        exact e1
    rw [hT]
    simp only [less, e, Res.bind_ok, Res.pure_eq]
    by_cases h1 : m < 0
    · have : m ≠ 0 := by omega
      simp [h1, this]
    · by_cases h2 : m > 0
      · have : m ≠ 0 := by omega
        simp [h1, h2, this]
      · have : m = 0 := by omega
        subst this
        simp [ih]

/-! ### The property -/

/-- `lt` is a strict weak order on the elements of `S`: irreflexive, transitive, and being unordered is transitive. -/
structure StrictWeak {α : Type} (S : α → Prop) (lt : α → α → Bool) : Prop where
  irrefl : ∀ a, S a → lt a a = false
  trans : ∀ a b c, S a → S b → S c → lt a b = true → lt b c = true → lt a c = true
  unordered : ∀ a b c, S a → S b → S c → lt a b = false → lt b a = false → lt b c = false → lt c b = false →
    lt a c = false ∧ lt c a = false

/-- C44 (partial: for rows that can be read). On rows whose ordering columns can be read without a panic and hold no NaN, the
comparison given to the sort yields a truth value, and it is a strict weak order, for every list of terms. Missing: a value stored
with another type than the column's makes the comparison panic, see `C44_stored_type_false`. -/
theorem C44_order_partial (L : OrderLaws P) (t : Table P) (depth : Nat) (terms : List OrderBy) :
    ∃ lt : Row P → Row P → Bool,
      (∀ l r, Sortable t depth terms l → Sortable t depth terms r → less t depth l r terms = .ok (lt l r)) ∧
      StrictWeak (Sortable t depth terms) lt := by
  have C := termCompare_consistent L t depth terms
  refine ⟨fun l r => decide (termCompare t depth terms l r < 0), fun l r hl hr => less_eq L hl hr, ?_, ?_, ?_⟩
  · intro a ha
    have := C.anti a a ha ha
    simp only [decide_eq_false_iff_not]
    omega
  · intro a b c ha hb hc h1 h2
    simp only [decide_eq_true_eq] at *
    have e1 := C.anti a b ha hb
    have e2 := C.anti b c hb hc
    have e3 := C.anti a c ha hc
    have t1 := C.trans b c a hb hc ha
    have t2 := C.trans c a b hc ha hb
    omega
  · intro a b c ha hb hc h1 h2 h3 h4
    simp only [decide_eq_false_iff_not] at *
    have e1 := C.anti a b ha hb
    have e2 := C.anti b c hb hc
    have e3 := C.anti a c ha hc
    have t1 := C.trans a b c ha hb hc (by omega) (by omega)
    have t2 := C.trans c b a hc hb ha (by omega) (by omega)
    omega

/-- C44: ascending, a row without a value in the first ordering column comes before a row with one; descending, after it. -/
theorem C44_nulls_first (t : Table P) (depth : Nat) (l r : Row P) (o : OrderBy) (os : List OrderBy) {c : Column}
    (hc : t.column o.column = some c) (hu : c.type ≠ .undefined) (hl : l.get (l.column t depth) t c.type o.column = .ok none) {x : Cell P}
    (hr : r.get (r.column t depth) t c.type o.column = .ok (some x)) :
    less t depth l r (o :: os) = .ok o.ascending ∧ less t depth r l (o :: os) = .ok (!o.ascending) := by
  have e1 : compareColumns t depth l r o.column o.exactMatch = .ok (-1) := by
    unfold compareColumns
    rw [hc]
    dsimp only
    rw [if_neg hu, hl, hr]
    rfl
  have e2 : compareColumns t depth r l o.column o.exactMatch = .ok 1 := by
    unfold compareColumns
    rw [hc]
    dsimp only
    rw [if_neg hu, hl, hr]
    rfl
  unfold less
  rw [e1, e2]
  cases o.ascending <;> exact ⟨rfl, rfl⟩

/-- C44: later terms only matter between rows that the first term does not order. -/
theorem C44_first_term_decides (L : OrderLaws P) {t : Table P} {depth : Nat} {l r : Row P} {o : OrderBy} {os : List OrderBy}
    (hl : Sortable t depth (o :: os) l) (hr : Sortable t depth (o :: os) r) :
    (less t depth l r [o] = .ok true → less t depth l r (o :: os) = .ok true) ∧
    (less t depth r l [o] = .ok true → less t depth l r (o :: os) = .ok false) ∧
    (less t depth l r [o] = .ok false → less t depth r l [o] = .ok false → less t depth l r (o :: os) = less t depth l r os) := by
  have hl1 : Sortable t depth [o] l := fun p hp => hl p (by simp_all)
  have hr1 : Sortable t depth [o] r := fun p hp => hr p (by simp_all)
  have C := (termCompare_consistent L t depth [o]).anti l r hl1 hr1
  have e : termCompare t depth (o :: os) l r =
      if termCompare t depth [o] l r = 0 then termCompare t depth os l r else termCompare t depth [o] l r := by
    have key : ∀ m k : Int, (if m = 0 then k else m) = if (if m = 0 then (0 : Int) else m) = 0 then k else if m = 0 then 0 else m := by
      intro m k
      by_cases h : m = 0 <;> simp [h]
    exact key _ _
  rw [less_eq L hl1 hr1, less_eq L hr1 hl1, less_eq L hl hr, e,
    less_eq L (terms := os) (fun p hp => hl p (by simp [hp])) (fun p hp => hr p (by simp [hp]))]
  generalize termCompare t depth [o] l r = k at *
  generalize termCompare t depth [o] r l = k' at *
  generalize termCompare t depth os l r = m at *
  refine ⟨?_, ?_, ?_⟩
  · intro h
    injection h with h
    simp only [decide_eq_true_eq] at h
    rw [if_neg (by omega)]
    simp [h]
  · intro h
    injection h with h
    simp only [decide_eq_true_eq] at h
    rw [if_neg (by omega)]
    congr 1
    simp only [decide_eq_false_iff_not]
    omega
  · intro h1 h2
    injection h1 with h1
    injection h2 with h2
    simp only [decide_eq_false_iff_not] at h1 h2
    rw [if_pos (by omega)]

/-- Ascending order puts `true` before `false` (DataRow.go L1513), unlike `CONVERT(b, Int32)`, whose order is the other way round. -/
theorem C44_boolean_order (e : Bool) : cellCompare (P := P) e (.boolean true) (.boolean false) = -1 ∧
    cellCompare (P := P) e (.boolean false) (.boolean true) = 1 := ⟨rfl, rfl⟩

/-! ### What the hypotheses exclude, and that they can be met -/

theorem toy_orders : OrderLaws Toy.prim where
  decAnti := by
    intro a b
    change Int at a
    change Int at b
    show (if a < b then (-1 : Int) else if a = b then 0 else 1) < 0 ↔ (if b < a then (-1 : Int) else if b = a then 0 else 1) > 0
    split <;> split <;> (try split) <;> (try split) <;> omega
  decTrans := by
    intro a b c h1 h2
    change Int at a
    change Int at b
    change Int at c
    change (if a < b then (-1 : Int) else if a = b then 0 else 1) ≤ 0 at h1
    change (if b < c then (-1 : Int) else if b = c then 0 else 1) ≤ 0 at h2
    show (if a < c then (-1 : Int) else if a = c then 0 else 1) ≤ 0
    repeat' split at h1
    all_goals repeat' split at h2
    all_goals repeat' split
    all_goals omega
  fltAsymm := by
    intro a b h
    change Option Int at a
    change Option Int at b
    cases a <;> cases b <;> simp_all [Toy.prim]
    omega
  fltTrans := by
    intro a b c h1 h2 h3
    change Option Int at a
    change Option Int at b
    change Option Int at c
    cases a <;> cases b <;> cases c <;> simp_all [Toy.prim]
    omega
  sglAsymm := by
    intro a b h
    change Option Int at a
    change Option Int at b
    cases a <;> cases b <;> simp_all [Toy.prim]
    omega
  sglTrans := by
    intro a b c h1 h2 h3
    change Option Int at a
    change Option Int at b
    change Option Int at c
    cases a <;> cases b <;> cases c <;> simp_all [Toy.prim]
    omega
  timeAsymm := by
    intro a b h
    change Int at a
    change Int at b
    simp_all [Toy.prim]
    omega
  timeTrans := by
    intro a b c h1 h2
    change Int at a
    change Int at b
    change Int at c
    simp_all [Toy.prim]
    omega

/-- One column of 64-bit floats. -/
def floats : Table Toy.prim where
  columnIndexes := fun n => if n = lit "F" then some 0 else none
  columns := [{ name := lit "F", type := .double, expression := [], index := 0 }]
  rows := []
  parse := fun _ => none

def float (f : Option Int) : Row Toy.prim := { id := 0, values := [some (.double f)] }

example : Sortable floats 1 [{ column := 0, ascending := false, exactMatch := true }] (float (some 3)) := by
  intro o ho c hc
  simp only [List.mem_singleton] at ho
  subst ho
  injection hc with hc
  subst hc
  refine ⟨(by intro h; cases h), ?_⟩
  intro x hx
  injection hx with hx
  injection hx with hx
  subst hx
  rfl

/-- With a NaN the comparison is not a strict weak order: 2 and NaN are unordered, NaN and 1 are, but 1 comes before 2. -/
theorem C44_nan_false : ∃ terms, ∀ lt : Row Toy.prim → Row Toy.prim → Bool,
    (∀ l r, less floats 1 l r terms = .ok (lt l r) ∨ less floats 1 l r terms = .panic) →
    lt (float (some 1)) (float none) = false ∧ lt (float none) (float (some 1)) = false ∧
    lt (float none) (float (some 2)) = false ∧ lt (float (some 2)) (float none) = false ∧ lt (float (some 1)) (float (some 2)) = true := by
  refine ⟨[{ column := 0, ascending := true, exactMatch := false }], ?_⟩
  intro lt h
  have key : ∀ l r b, less floats 1 l r [{ column := 0, ascending := true, exactMatch := false }] = .ok b → lt l r = b := by
    intro l r b hb
    rcases h l r with h | h
    · rw [hb] at h; injection h with h; exact h.symm
    · rw [hb] at h; cases h
  exact ⟨key _ _ _ rfl, key _ _ _ rfl, key _ _ _ rfl, key _ _ _ rfl, key _ _ _ rfl⟩

/-- `SetValue` takes a value of any type; sorting by that column then panics. -/
theorem C44_stored_type_false : ∃ r : Row Toy.prim, (float none).setValue floats 0 (some (.int32 5)) = .ok r ∧
    less floats 1 r (float (some 2)) [{ column := 0, ascending := true, exactMatch := false }] = .panic :=
  ⟨_, rfl, rfl⟩

end Verif.Table
