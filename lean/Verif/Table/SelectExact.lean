import Verif.Table.TextCases

/-!
# C42, C88: the outcome of every selection, errors included
-/

set_option linter.dupNamespace false

namespace Verif.Table

open Verif.Expr Verif.Parse

variable {P : Prim}

/-- The rows for which the condition is the Boolean `true`. -/
def trues (value : Row P → Res (Val P)) (rows : List (Row P)) : List (Row P) := rows.filter fun r => isTrue (value r)

/-- What comes of reading rows one after the other. `value` is what the condition gives for a row, `Fits` what a value has to be for the selection to go on, `top`
the limit, none if negative. Either all rows are read, or as many as it takes to have `top` of them for which the condition is true, and these are given; or a row
is reached, before there are `top`, for which the condition has no value, or one that does not fit. Rows behind that are not looked at. -/
def Scanned (value : Row P → Res (Val P)) (Fits : Val P → Prop) (top : Int) (rows : List (Row P)) (x : Res (List (Row P))) : Prop :=
  (∃ before after, rows = before ++ after ∧ (∀ r ∈ before, ∃ v, value r = .ok v ∧ Fits v) ∧ (top < 0 ∨ ((trues value before).length : Int) ≤ top) ∧
    (after = [] ∨ ((trues value before).length : Int) = top) ∧ x = .ok (trues value before)) ∨
  ∃ before r after, rows = before ++ r :: after ∧ (∀ r ∈ before, ∃ v, value r = .ok v ∧ Fits v) ∧ (top < 0 ∨ ((trues value before).length : Int) < top) ∧
    ((value r = .panic ∧ x = .panic) ∨ (value r = .err ∧ x = .err) ∨ ∃ v, value r = .ok v ∧ ¬ Fits v ∧ x = .err)

theorem trues_append (value : Row P → Res (Val P)) (a b : List (Row P)) : trues value (a ++ b) = trues value a ++ trues value b := List.filter_append ..

/-- A row that does not fit is not among those read, and if it is reached what is read of the rows is a part of what is before it. -/
theorem scan_blocked {value : Row P → Res (Val P)} {Fits : Val P → Prop} {top : Int} {a a' b b' : List (Row P)} {r : Row P}
    (ha : ∀ r ∈ a, ∃ v, value r = .ok v ∧ Fits v) (ha' : a' = [] ∨ ((trues value a).length : Int) = top)
    (htop : top < 0 ∨ ((trues value b).length : Int) < top) (hr : ¬ ∃ v, value r = .ok v ∧ Fits v) (h : a ++ a' = b ++ r :: b') : False := by
  have hlen : a.length ≤ b.length := by
    by_contra hc
    have hm : r ∈ a := by
      have e : (a ++ a')[b.length]? = some r := by rw [h, List.getElem?_append_right (Nat.le_refl _)]; simp
      rw [List.getElem?_append_left (by omega)] at e
      exact List.mem_of_getElem? e
    exact hr (ha r hm)
  obtain ⟨c, rfl⟩ : ∃ c, b = a ++ c := by
    have := congrArg (List.take a.length) h
    rw [List.take_left, List.take_append_of_le_length hlen] at this
    exact ⟨b.drop a.length, by conv_lhs => rw [← List.take_append_drop a.length b, ← this]⟩
  rcases ha' with rfl | ha'
  · have := congrArg List.length h
    simp only [List.length_append, List.length_cons, List.length_nil] at this
    omega
  · rw [trues_append, List.length_append] at htop
    omega

theorem trues_prefix {value : Row P → Res (Val P)} {top : Int} {a a' b b' : List (Row P)} (hl : a.length ≤ b.length)
    (ha : a' = [] ∨ ((trues value a).length : Int) = top) (hb : top < 0 ∨ ((trues value b).length : Int) ≤ top) (h : a ++ a' = b ++ b') :
    trues value a = trues value b := by
  obtain ⟨c, rfl⟩ : ∃ c, b = a ++ c := by
    have := congrArg (List.take a.length) h
    rw [List.take_left, List.take_append_of_le_length hl] at this
    exact ⟨b.drop a.length, by conv_lhs => rw [← List.take_append_drop a.length b, ← this]⟩
  rw [trues_append]
  rw [trues_append, List.length_append] at hb
  rcases ha with rfl | ha
  · have := congrArg List.length h
    simp only [List.length_append, List.length_nil] at this
    rw [List.length_eq_zero_iff.1 (by omega : c.length = 0)]
    simp [trues]
  · rw [List.length_eq_zero_iff.1 (by omega : (trues value c).length = 0), List.append_nil]

/-- There is one outcome only. -/
theorem C42_outcome_unique {value : Row P → Res (Val P)} {Fits : Val P → Prop} {top : Int} {rows : List (Row P)} {x y : Res (List (Row P))}
    (hx : Scanned value Fits top rows x) (hy : Scanned value Fits top rows y) : x = y := by
  have bad : ∀ {r : Row P} {x : Res (List (Row P))}, ((value r = .panic ∧ x = .panic) ∨ (value r = .err ∧ x = .err) ∨ ∃ v, value r = .ok v ∧ ¬ Fits v ∧ x = .err) →
      ¬ ∃ v, value r = .ok v ∧ Fits v := by
    rintro r x (⟨h, -⟩ | ⟨h, -⟩ | ⟨v, h, hf, -⟩) ⟨w, hw, hfw⟩
    · rw [h] at hw; cases hw
    · rw [h] at hw; cases hw
    · rw [h] at hw; injection hw with hw; rw [hw] at hf; exact hf hfw
  rcases hx with ⟨a, a', rfl, ha, ta, fa, rfl⟩ | ⟨a, r, a', rfl, ha, ta, ca⟩
  · rcases hy with ⟨b, b', e, hb, tb, fb, rfl⟩ | ⟨b, s, b', e, hb, tb, cb⟩
    · by_cases hl : a.length ≤ b.length
      · rw [trues_prefix hl fa tb e]
      · rw [trues_prefix (by omega) fb ta e.symm]
    · exact (scan_blocked ha fa tb (bad cb) e).elim
  · rcases hy with ⟨b, b', e, hb, tb, fb, rfl⟩ | ⟨b, s, b', e, hb, tb, cb⟩
    · exact (scan_blocked hb fb ta (bad ca) e.symm).elim
    · have split : ∀ {a a' b b' : List (Row P)} {r s : Row P}, (∀ r ∈ a, ∃ v, value r = .ok v ∧ Fits v) → (¬ ∃ v, value s = .ok v ∧ Fits v) →
          a ++ r :: a' = b ++ s :: b' → a.length ≤ b.length := by
        intro a a' b b' r s ha hs e
        by_contra hc
        have hm : s ∈ a := by
          have e' : (a ++ r :: a')[b.length]? = some s := by rw [e, List.getElem?_append_right (Nat.le_refl _)]; simp
          rw [List.getElem?_append_left (by omega)] at e'
          exact List.mem_of_getElem? e'
        exact hs (ha s hm)
      have hl : a.length = b.length := Nat.le_antisymm (split ha (bad cb) e) (split hb (bad ca) e.symm)
      obtain ⟨-, e⟩ := List.append_inj e hl
      have e : r = s := (List.cons.inj e).1
      subst e
      rcases ca with ⟨h1, rfl⟩ | ⟨h1, rfl⟩ | ⟨v, h1, hf, rfl⟩ <;> rcases cb with ⟨h2, rfl⟩ | ⟨h2, rfl⟩ | ⟨w, h2, hg, rfl⟩ <;>
        first
        | rfl
        | (rw [h1] at h2; cases h2)

/-- The loop gives that outcome. -/
theorem selectLoop_scanned {ev : Row P → Res (Val P)} {pred : Val P → Res Bool} {Fits : Val P → Prop} (hp : ∀ v, Fits v → pred v = .ok (isTrue (.ok v)))
    (hn : ∀ v, ¬ Fits v → pred v = .err) (top : Int) (rows : List (Option (Row P))) (acc : List (Row P)) (ha : top < 0 ∨ (acc.length : Int) ≤ top) :
    ∃ x, selectLoop ev pred true top rows acc = (do return acc ++ (← x)) ∧ Scanned ev Fits (if top < 0 then top else top - acc.length) (present? rows) x := by
  have ht : ∀ n : Int, (if top < 0 then top else top - (acc.length : Int)) = n → (top < 0 ∧ n = top ∨ 0 ≤ top ∧ n = top - acc.length) := by
    intro n hn
    split at hn <;> omega
  induction rows generalizing acc with
  | nil =>
    refine ⟨.ok [], by simp [selectLoop], .inl ⟨[], [], rfl, by simp, ?_, .inl rfl, rfl⟩⟩
    show _ ∨ ((0 : Nat) : Int) ≤ _
    have := ht _ rfl
    omega
  | cons row rows ih =>
    simp only [selectLoop]
    by_cases hl : True ∧ top > -1 ∧ (acc.length : Int) ≥ top
    · rw [if_pos hl]
      refine ⟨.ok [], by simp, .inl ⟨[], present? (row :: rows), rfl, by simp, ?_, .inr ?_, rfl⟩⟩
      · show _ ∨ ((0 : Nat) : Int) ≤ _
        have := ht _ rfl
        omega
      · show ((0 : Nat) : Int) = _
        have := ht _ rfl
        omega
    · rw [if_neg hl]
      have hl : top < 0 ∨ (acc.length : Int) < top := by
        by_contra hc
        exact hl ⟨trivial, by omega, by omega⟩
      cases row with
      | none =>
        obtain ⟨x, h1, h2⟩ := ih acc ha ht
        exact ⟨x, h1, by simpa [present?] using h2⟩
      | some r =>
        dsimp only
        have hpr : present? (some r :: rows) = r :: present? rows := by simp [present?]
        rw [hpr]
        have htop := ht _ rfl
        have stop : ∀ {x : Res (List (Row P))}, ((ev r = .panic ∧ x = .panic) ∨ (ev r = .err ∧ x = .err) ∨ ∃ v, ev r = .ok v ∧ ¬ Fits v ∧ x = .err) →
            Scanned ev Fits (if top < 0 then top else top - acc.length) (r :: present? rows) x := by
          intro x hx
          refine .inr ⟨[], r, present? rows, rfl, by simp, ?_, hx⟩
          show _ ∨ ((0 : Nat) : Int) < _
          omega
        cases he : ev r with
        | err => exact ⟨.err, rfl, stop (.inr (.inl ⟨he, rfl⟩))⟩
        | panic => exact ⟨.panic, rfl, stop (.inl ⟨he, rfl⟩)⟩
        | ok v =>
          by_cases hf : Fits v
          · rw [Res.bind_ok, hp v hf, Res.bind_ok]
            have ht1 : trues ev [r] = if isTrue (.ok v) then [r] else [] := by
              unfold trues
              rw [List.filter_cons, he]
              rfl
            have hacc : (if isTrue (.ok v) = true then acc ++ [r] else acc) = acc ++ trues ev [r] := by
              rw [ht1]
              split <;> simp
            have hone : (trues ev [r]).length ≤ 1 := by
              rw [ht1]
              split <;> simp
            rw [hacc]
            have hlen : (acc ++ trues ev [r]).length = acc.length + (trues ev [r]).length := List.length_append
            have ht' : ∀ n : Int, (if top < 0 then top else top - ((acc ++ trues ev [r]).length : Int)) = n →
                (top < 0 ∧ n = top ∨ 0 ≤ top ∧ n = top - (acc ++ trues ev [r]).length) := by
              intro n hn
              split at hn <;> omega
            obtain ⟨x, h1, h2⟩ := ih (acc ++ trues ev [r]) (by rw [hlen]; omega) ht'
            refine ⟨do return trues ev [r] ++ (← x), ?_, ?_⟩
            · rw [h1]
              cases x with
              | ok l => simp
              | err => rfl
              | panic => rfl
            · have htop' := ht' _ rfl
              generalize (if top < 0 then top else top - ((acc ++ trues ev [r]).length : Int)) = T' at h2 htop'
              generalize (if top < 0 then top else top - (acc.length : Int)) = T at htop ⊢
              rw [hlen] at htop'
              have hcons : ∀ a, (trues ev (r :: a)) = trues ev [r] ++ trues ev a := fun a => trues_append ev [r] a
              rcases h2 with ⟨a, a', e, hb, tb, fb, rfl⟩ | ⟨a, s, a', e, hb, tb, cb⟩
              · refine .inl ⟨r :: a, a', by rw [e]; rfl, ?_, ?_, ?_, ?_⟩
                · intro q hq
                  rcases List.mem_cons.1 hq with rfl | hq
                  · exact ⟨v, he, hf⟩
                  · exact hb q hq
                · rw [hcons, List.length_append]
                  omega
                · rw [hcons, List.length_append]
                  rcases fb with h | h
                  · exact .inl h
                  · right
                    omega
                · rw [hcons a]
                  rfl
              · refine .inr ⟨r :: a, s, a', by rw [e]; rfl, ?_, ?_, ?_⟩
                · intro q hq
                  rcases List.mem_cons.1 hq with rfl | hq
                  · exact ⟨v, he, hf⟩
                  · exact hb q hq
                · rw [hcons, List.length_append]
                  omega
                · rcases cb with ⟨h, rfl⟩ | ⟨h, rfl⟩ | ⟨w, h, g, rfl⟩
                  · exact .inl ⟨h, rfl⟩
                  · exact .inr (.inl ⟨h, rfl⟩)
                  · exact .inr (.inr ⟨w, h, g, rfl⟩)
          · rw [Res.bind_ok, hn v hf]
            exact ⟨.err, rfl, stop (.inr (.inr ⟨v, he, hf, rfl⟩))⟩

theorem scanned_loop {ev : Row P → Res (Val P)} {pred : Val P → Res Bool} {Fits : Val P → Prop} (hp : ∀ v, Fits v → pred v = .ok (isTrue (.ok v)))
    (hn : ∀ v, ¬ Fits v → pred v = .err) (top : Int) (rows : List (Option (Row P))) :
    Scanned ev Fits top (present? rows) (selectLoop ev pred true top rows []) := by
  obtain ⟨x, h1, h2⟩ := selectLoop_scanned hp hn top rows [] (by simp; omega)
  have : selectLoop ev pred true top rows [] = x := by
    rw [h1]
    cases x <;> rfl
  rw [this]
  simpa using h2

/-- **What `Select` gives, for every table and expression**: a row whose value is not of type Boolean, or that has none, is an error when it is reached, and nothing
when the limit is reached before it. Only what is read goes into the sort. -/
theorem C42_ordered (sort : Sorter P) (f : Filter P) (t : Table P) (depth : Nat) :
    ∃ x, Scanned (f.evaluate t depth) (fun v => v.type = .boolean) f.topLimit (present? t.rows) x ∧
      (f.orderBy = [] ∨ (∀ l, x ≠ .ok l) ∨ x = .ok [] → f.select sort t depth = x) ∧
      ∀ l, x = .ok l → l ≠ [] → f.orderBy ≠ [] → f.select sort t depth = sort (fun l r => less t depth l r f.orderBy) l := by
  refine ⟨selectLoop (f.evaluate t depth) selectPredicate true f.topLimit t.rows [], scanned_loop ?_ ?_ _ _, ?_, ?_⟩
  · intro v hv
    unfold selectPredicate
    rw [if_neg (by simpa using hv)]
    cases v with
    | boolean b => cases b <;> rfl
    | null t => cases hv; rfl
    | _ => cases hv
  · intro v hv
    exact if_pos hv
  · intro h
    unfold Filter.select Filter.selectWhere
    cases hx : selectLoop (f.evaluate t depth) selectPredicate true f.topLimit t.rows [] with
    | ok l =>
      rw [Res.bind_ok, if_neg]
      · rfl
      · rintro ⟨-, h1, h2⟩
        rcases h with h | h | h
        · rw [h] at h2; exact absurd h2 (by simp)
        · exact h l hx
        · rw [hx] at h
          injection h with h
          rw [h] at h1
          exact absurd h1 (by simp)
    | err => rfl
    | panic => rfl
  · intro l hl hne ho
    unfold Filter.select Filter.selectWhere
    rw [hl, Res.bind_ok, if_pos ⟨rfl, List.length_pos_iff.2 hne, List.length_pos_iff.2 ho⟩]

/-- **What `Select` gives without ORDER BY.** -/
theorem C42_exact (sort : Sorter P) (f : Filter P) (t : Table P) (depth : Nat) (ho : f.orderBy = []) :
    Scanned (f.evaluate t depth) (fun v => v.type = .boolean) f.topLimit (present? t.rows) (f.select sort t depth) := by
  obtain ⟨x, h1, h2, -⟩ := C42_ordered sort f t depth
  rw [h2 (.inl ho)]
  exact h1

/-- The three rows 3, 1, null under `A > 1`: with `TOP 1` the first is given, else the null is reached and is an error. -/
example :
    (Filter.select insertionSort { root := above, topLimit := 1 } (numbers [some 3, some 1, none]) 1 matches .ok [_]) ∧
    Filter.select insertionSort { root := above, topLimit := 2 } (numbers [some 3, some 1, none]) 1 = .err ∧
    Filter.select insertionSort { root := above } (numbers [some 3, some 1, none]) 1 = .err ∧
    (Filter.select insertionSort { root := above, orderBy := [⟨0, true, true⟩] } (numbers [some 3, some 2, some 1]) 1 matches .ok [_, _]) := ⟨rfl, rfl, rfl, rfl⟩

/-! ### From texts -/

namespace Parser

theorem filter_outcome {p : Parser P} (hr : p.trackRows = true) (hi : p.trackIDs = false) {sort : Sorter P} {depth : Nat} {as : Bool} {table name : Str}
    {top : Option (Option Int)} {terms : List OrderingTerm} {obs : List OrderBy} {root : Tree P} {t : Table P} (hne : table ≠ [])
    (htab : p.tables table = some (name, t)) (ho : orderBy t terms = .ok obs) :
    (do return (← p.evaluate sort depth true as [.filter table top terms root]).rows) =
      Filter.selectWhere sort { root := root, topLimit := limitOf top, orderBy := obs } t depth predicate true as := by
  cases h : Filter.selectWhere sort { root := root, topLimit := limitOf top, orderBy := obs } t depth predicate true as with
  | ok rows =>
    obtain ⟨st, h1, h2⟩ := filter_rows hr hi hne htab ho h
    rw [h1]
    exact congrArg Res.ok h2
  | _ =>
    have hl : ¬ (table.length = 0 ∧ p.primary.length = 0) := fun h => hne (List.length_eq_zero_iff.1 h.1)
    have hl' : ¬ table.length = 0 := fun h => hne (List.length_eq_zero_iff.1 h)
    have hv : p.visitAll depth {} [.filter table top terms root] =
        .ok { p.enterStatement {} with trees := [(table, { root := root, topLimit := limitOf top, orderBy := obs })] } := by
      simp only [visitAll, visit, enterFilterStatement, htab, ho]
      rfl
    unfold evaluate
    rw [if_neg (by simp [hr]), hv, Res.bind_ok]
    simp only [evaluateTrees, evaluateTree]
    rw [if_neg hl, if_neg hl', htab]
    dsimp only
    rw [h]
    rfl

theorem expression_outcome {p : Parser P} (hr : p.trackRows = true) (hi : p.trackIDs = false) {sort : Sorter P} {depth : Nat} {as : Bool} {name : Str}
    {root : Tree P} {t : Table P} (hne : p.primary ≠ []) (htab : p.tables p.primary = some (name, t)) :
    (do return (← p.evaluate sort depth true as [.expression root]).rows) = Filter.selectWhere sort { root := root } t depth predicate true as := by
  cases h : Filter.selectWhere sort { root := root } t depth predicate true as with
  | ok rows =>
    obtain ⟨st, h1, h2⟩ := expression_rows hr hi hne htab h
    rw [h1]
    exact congrArg Res.ok h2
  | _ =>
    have hl : ¬ (([] : Str).length = 0 ∧ p.primary.length = 0) := fun h => hne (List.length_eq_zero_iff.1 h.2)
    have hv : p.visitAll depth {} [.expression root] = .ok { p.enterStatement {} with trees := [([], { root := root })] } := rfl
    unfold evaluate
    rw [if_neg (by simp [hr]), hv, Res.bind_ok]
    simp only [evaluateTrees, evaluateTree]
    rw [if_neg hl, if_pos (show ([] : Str).length = 0 from rfl), htab]
    dsimp only
    rw [h]
    rfl

end Parser

theorem outcome_one {tables : Str → Option (Str × Table P)} {sort : Sorter P} {depth : Nat} {text primary : Str} {fields : Option IDFields} {s : S}
    (hw : s.WF) (hs : Lex.tokens text = s.toks) {d : Statement P} (hd : (forDataSet tables primary fields).statementOf s = .ok d) :
    selectDataRows tables sort depth text primary fields =
      some (do return (← (forDataSet tables primary fields).evaluate sort depth true true [d]).rows) := by
  have hl : Listed [s] (Lex.tokens text) := by rw [hs]; simpa using Listed.one 0 0 s
  unfold selectDataRows
  rw [if_neg (listed_text hl), Parser.C88_text (.inl rfl) sort depth true true (by simpa using hw) hl (.cons hd .nil)]
  rfl

theorem selectWhere_scanned (sort : Sorter P) (f : Filter P) (t : Table P) (depth : Nat) (ho : f.orderBy = []) :
    Scanned (f.evaluate t depth) (fun _ => True) f.topLimit (present? t.rows) (f.selectWhere sort t depth Parser.predicate true true) := by
  have : f.selectWhere sort t depth Parser.predicate true true = selectLoop (f.evaluate t depth) Parser.predicate true f.topLimit t.rows [] := by
    unfold Filter.selectWhere
    rw [ho]
    cases selectLoop (f.evaluate t depth) Parser.predicate true f.topLimit t.rows [] <;> simp
  rw [this]
  exact scanned_loop (fun v _ => Parser.predicate_eq v) (fun v hv => absurd trivial hv) _ _

/-- **What the text of a `FILTER` statement without ORDER BY gives, whatever its condition does**: a row for which the condition is an error, or ends the program,
does so if it is reached before the limit; any value but `true` leaves the row out. -/
theorem C88_filter_exact (tables : Str → Option (Str × Table P)) (sort : Sorter P) (depth : Nat) {text primary : Str} {fields : Option IDFields}
    {top : Option Top} {table name : Str} {e : E} (hw : e.WF 0) (ht : Lex.tokens text = (S.filter top table e []).toks) (hne : table ≠ []) {t : Table P}
    (htab : tables table = some (name, t)) {root : Tree P} (hroot : build (columnOf t) e = .ok root) :
    ∃ x, selectDataRows tables sort depth text primary fields = some x ∧
      Scanned (fun r => eval (r.column t depth) root) (fun _ => True) (limitOf (topNumber top)) (present? t.rows) x := by
  refine ⟨_, outcome_one (s := .filter top table e []) hw ht (filter_statementOf hne htab hroot), ?_⟩
  have := Parser.filter_outcome (p := forDataSet tables primary fields) rfl rfl (sort := sort) (depth := depth) (as := true) (top := topNumber top) (terms := [])
    (root := root) hne htab rfl
  simp only [List.map_nil]
  rw [this]
  exact selectWhere_scanned sort { root := root, topLimit := limitOf (topNumber top), orderBy := [] } t depth rfl

/-- **What the text of an expression gives.** -/
theorem C88_expression_exact (tables : Str → Option (Str × Table P)) (sort : Sorter P) (depth : Nat) {text primary name : Str} {fields : Option IDFields}
    {e : E} (hw : e.WF 0) (hg : ∀ g, e.toks ≠ [.guid g]) (ht : Lex.tokens text = e.toks) (hne : primary ≠ []) {t : Table P}
    (htab : tables primary = some (name, t)) {root : Tree P} (hroot : build (columnOf t) e = .ok root) :
    ∃ x, selectDataRows tables sort depth text primary fields = some x ∧
      Scanned (fun r => eval (r.column t depth) root) (fun _ => True) (-1) (present? t.rows) x := by
  have hd : (forDataSet tables primary fields).statementOf (.expr e) = .ok (.expression root) := by
    simp only [Parser.statementOf]
    rw [columnNamed_primary hne htab, hroot]
    rfl
  refine ⟨_, outcome_one (s := .expr e) ⟨hw, hg⟩ ht hd, ?_⟩
  have := Parser.expression_outcome (p := forDataSet tables primary fields) rfl rfl (sort := sort) (depth := depth) (as := true) (root := root) hne htab
  rw [this]
  exact selectWhere_scanned sort { root := root } t depth rfl

/-- `C88_filter_exact`, `C88_expression_exact`, for the rows 3, 1, 2: a value that is no Boolean is no error and gives no row; `NOT` of a number, and dividing by
zero, end the selection, unless `TOP` keeps the row from being read. -/
example : rowsFound (selectDataRows threeSet insertionSort 1 (ascii "FILTER TOP 1 T WHERE A > 1 AND 6 / A > 0") (lit "T") none) = some (some [0]) ∧
    rowsFound (selectDataRows threeSet insertionSort 1 (ascii "FILTER TOP 1 T WHERE 6 / (A - 1) > 0") (lit "T") none) = some (some [0]) ∧
    rowsFound (selectDataRows threeSet insertionSort 1 (ascii "FILTER TOP 2 T WHERE 6 / (A - 1) > 0") (lit "T") none) = some none ∧
    rowsFound (selectDataRows threeSet insertionSort 1 (ascii "A + 1") (lit "T") none) = some (some []) ∧
    rowsFound (selectDataRows threeSet insertionSort 1 (ascii "A > 1 AND NOT A") (lit "T") none) = some none := by decide +kernel

end Verif.Table
