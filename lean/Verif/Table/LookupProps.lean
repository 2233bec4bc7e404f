import Verif.Table.Lookup
import Verif.Expr.Toy
import Mathlib.Data.List.Induction
import Mathlib.Data.List.Basic

/-!
# C40: names are looked up ignoring case and the last one added counts
-/

namespace Verif.Table.Lookup

open Verif.Expr Verif.Table

variable {P : Prim}

/-- Every call refers to objects created before it, as any Go program must; `nt` and `nc` count the tables and columns so far. -/
def Sound (nt nc : Nat) : List Call → Prop
  | [] => True
  | .createTable _ :: cs => Sound (nt + 1) nc cs
  | .createColumn _ _ _ :: cs => Sound nt (nc + 1) cs
  | .addColumn t c :: cs => t < nt ∧ c < nc ∧ Sound nt nc cs
  | .initColumns t :: cs => t < nt ∧ Sound nt nc cs
  | .addTable t :: cs => t < nt ∧ Sound nt nc cs
  | .removeTable _ :: cs => Sound nt nc cs

/-- The names of the tables created, in order. -/
def tableNames : List Call → List Str
  | [] => []
  | .createTable n :: cs => n :: tableNames cs
  | _ :: cs => tableNames cs

/-- The names of the columns created, in order. -/
def columnNames : List Call → List Str
  | [] => []
  | .createColumn n _ _ :: cs => n :: columnNames cs
  | _ :: cs => columnNames cs

/-- One more call's effect on the columns of table `t`. -/
def extend (t : Nat) (l : List Nat) : Call → List Nat
  | .addColumn t' c => if t' = t then l ++ [c] else l
  | .initColumns t' => if t' = t then [] else l
  | _ => l

/-- The columns added to table `t`, in order, since its columns were last initialised. -/
def addedTo (t : Nat) (calls : List Call) : List Nat := calls.foldl (extend t) []

/-- Column `c` was created with a name equal to `name` ignoring case. -/
def ColumnCalled (P : Prim) (calls : List Call) (c : Nat) (name : Str) : Prop :=
  ∃ n, (columnNames calls)[c]? = some n ∧ P.upper n = P.upper name

/-- Table `t` was created with a name equal to `name` ignoring case. -/
def TableCalled (P : Prim) (calls : List Call) (t : Nat) (name : Str) : Prop :=
  ∃ n, (tableNames calls)[t]? = some n ∧ P.upper n = P.upper name

theorem tableNames_append (a b : List Call) : tableNames (a ++ b) = tableNames a ++ tableNames b := by
  induction a with
  | nil => rfl
  | cons c a ih => cases c <;> simp [tableNames, ih]

theorem columnNames_append (a b : List Call) : columnNames (a ++ b) = columnNames a ++ columnNames b := by
  induction a with
  | nil => rfl
  | cons c a ih => cases c <;> simp [columnNames, ih]

theorem addedTo_snoc (t : Nat) (a : List Call) (c : Call) : addedTo t (a ++ [c]) = extend t (addedTo t a) c := by
  simp [addedTo]

theorem run_snoc (a : List Call) (c : Call) : run P (a ++ [c]) = step P (run P a) c := by
  simp [run]

theorem sound_append (nt nc : Nat) (a b : List Call) :
    Sound nt nc (a ++ b) ↔ Sound nt nc a ∧ Sound (nt + (tableNames a).length) (nc + (columnNames a).length) b := by
  induction a generalizing nt nc with
  | nil => simp [Sound, tableNames, columnNames]
  | cons c a ih =>
    cases c <;> simp [Sound, tableNames, columnNames, ih, and_assoc, Nat.add_assoc, Nat.add_comm 1]

/-- What the store looks like after the calls. -/
structure Inv (P : Prim) (calls : List Call) (w : World) : Prop where
  columns : w.columns.map Column.name = columnNames calls
  tables : w.tables.map TableObj.name = tableNames calls
  lists : ∀ (t : Nat) (tbl : TableObj), w.tables[t]? = some tbl → tbl.columns = addedTo t calls
  bound : ∀ (t : Nat) (tbl : TableObj) (c : Nat), w.tables[t]? = some tbl → c ∈ tbl.columns → c < (columnNames calls).length
  found : ∀ (t : Nat) (tbl : TableObj) k i, w.tables[t]? = some tbl → tbl.columnIndexes k = some i →
    ∃ c n, tbl.columns[i]? = some c ∧ (columnNames calls)[c]? = some n ∧ P.upper n = k ∧
      ∀ j d m, i < j → tbl.columns[j]? = some d → (columnNames calls)[d]? = some m → P.upper m ≠ k
  missing : ∀ (t : Nat) (tbl : TableObj) k, w.tables[t]? = some tbl → tbl.columnIndexes k = none →
    ∀ d m, d ∈ tbl.columns → (columnNames calls)[d]? = some m → P.upper m ≠ k

theorem addedTo_new {nt nc : Nat} {a : List Call} (h : Sound nt nc a) (t : Nat) (ht : nt + (tableNames a).length ≤ t) :
    addedTo t a = [] := by
  induction a using List.reverseRecOn with
  | nil => rfl
  | append_singleton a c ih =>
    rw [sound_append] at h
    rw [tableNames_append, List.length_append] at ht
    have ih := ih h.1 (by omega)
    rw [addedTo_snoc, ih]
    cases c with
    | addColumn t' c => simp only [extend]; rw [if_neg (by have := h.2.1; omega)]
    | initColumns t' => simp only [extend]; split <;> rfl
    | _ => rfl

theorem getElem?_names {w : World} {calls : List Call} (h : Inv P calls w) (c : Nat) :
    (columnNames calls)[c]? = (w.columns[c]?).map Column.name := by
  rw [← h.columns, List.getElem?_map]

theorem inv_run (P : Prim) {calls : List Call} (h : Sound 0 0 calls) : Inv P calls (run P calls) := by
  induction calls using List.reverseRecOn with
  | nil =>
    constructor <;> simp [run, World.empty, columnNames, tableNames]
  | append_singleton a c ih =>
    rw [sound_append] at h
    have I := ih h.1
    have hs := h.2
    simp only [Nat.zero_add] at hs
    rw [run_snoc]
    generalize run P a = w at I ⊢
    have hnames : ∀ (d : Nat) (m : Str), (columnNames a)[d]? = some m → (columnNames (a ++ [c]))[d]? = some m := by
      intro d m hd
      rw [columnNames_append]
      rw [List.getElem?_append_left (by
        rw [List.getElem?_eq_some_iff] at hd
        exact hd.1)]
      exact hd
    have hback : ∀ (d : Nat) (m : Str), d < (columnNames a).length → (columnNames (a ++ [c]))[d]? = some m → (columnNames a)[d]? = some m := by
      intro d m hd h
      rwa [columnNames_append, List.getElem?_append_left hd] at h
    have hlen : (columnNames a).length ≤ (columnNames (a ++ [c])).length := by
      rw [columnNames_append, List.length_append]; omega
    -- what holds of a table that the call leaves alone
    have old : ∀ (t : Nat) (tbl : TableObj), w.tables[t]? = some tbl → addedTo t (a ++ [c]) = addedTo t a →
        tbl.columns = addedTo t (a ++ [c]) ∧
        (∀ d, d ∈ tbl.columns → d < (columnNames (a ++ [c])).length) ∧
        (∀ k i, tbl.columnIndexes k = some i →
          ∃ c' n, tbl.columns[i]? = some c' ∧ (columnNames (a ++ [c]))[c']? = some n ∧ P.upper n = k ∧
            ∀ j d m, i < j → tbl.columns[j]? = some d → (columnNames (a ++ [c]))[d]? = some m → P.upper m ≠ k) ∧
        (∀ k, tbl.columnIndexes k = none → ∀ d m, d ∈ tbl.columns → (columnNames (a ++ [c]))[d]? = some m → P.upper m ≠ k) := by
      intro t tbl ht hadd
      refine ⟨by rw [hadd]; exact I.lists t tbl ht, fun d hd => Nat.lt_of_lt_of_le (I.bound t tbl d ht hd) hlen, ?_, ?_⟩
      · intro k i hk
        obtain ⟨c', n, h1, h2, h3, h4⟩ := I.found t tbl k i ht hk
        exact ⟨c', n, h1, hnames _ _ h2, h3, fun j d m hj hd hm =>
          h4 j d m hj hd (hback d m (I.bound t tbl d ht (List.mem_of_getElem? hd)) hm)⟩
      · intro k hk d m hd hm
        exact I.missing t tbl k ht hk d m hd (hback d m (I.bound t tbl d ht hd) hm)
    -- calls that change no table
    have same : ∀ w' : World, w'.tables = w.tables → w'.columns.map Column.name = columnNames (a ++ [c]) →
        tableNames (a ++ [c]) = tableNames a → (∀ t, addedTo t (a ++ [c]) = addedTo t a) → Inv P (a ++ [c]) w' := by
      intro w' h1 h2 h3 h4
      refine ⟨h2, by rw [h1, h3]; exact I.tables, ?_, ?_, ?_, ?_⟩
      · intro t tbl ht; rw [h1] at ht; exact (old t tbl ht (h4 t)).1
      · intro t tbl d ht; rw [h1] at ht; exact (old t tbl ht (h4 t)).2.1 d
      · intro t tbl k i ht; rw [h1] at ht; exact (old t tbl ht (h4 t)).2.2.1 k i
      · intro t tbl k ht; rw [h1] at ht; exact (old t tbl ht (h4 t)).2.2.2 k
    cases c with
    | createTable name =>
      have hadd : ∀ t, addedTo t (a ++ [Call.createTable name]) = addedTo t a := fun t => by rw [addedTo_snoc]; rfl
      have key : ∀ t tbl, (w.tables ++ [{ name := name, columnIndexes := fun _ => none, columns := [] }])[t]? = some tbl →
          w.tables[t]? = some tbl ∨ t = w.tables.length ∧ tbl = { name := name, columnIndexes := fun _ => none, columns := [] } := by
        intro t tbl ht
        by_cases hlt : t < w.tables.length
        · rw [List.getElem?_append_left hlt] at ht; exact .inl ht
        · rw [List.getElem?_append_right (by omega)] at ht
          right
          have : t - w.tables.length = 0 := by
            rw [List.getElem?_eq_some_iff] at ht
            have := ht.1
            simp at this
            omega
          rw [this] at ht
          simp at ht
          exact ⟨by omega, ht.symm⟩
      have hw : w.tables.length = (tableNames a).length := by rw [← I.tables, List.length_map]
      refine ⟨?_, ?_, ?_, ?_, ?_, ?_⟩
      · simp [step, columnNames_append, columnNames, I.columns]
      · simp [step, tableNames_append, tableNames, I.tables]
      · intro t tbl ht
        rcases key t tbl ht with h' | ⟨h1, h2⟩
        · exact (old t tbl h' (hadd t)).1
        · rw [hadd, addedTo_new h.1 t (by omega), h2]
      · intro t tbl d ht
        rcases key t tbl ht with h' | ⟨h1, h2⟩
        · exact (old t tbl h' (hadd t)).2.1 d
        · rw [h2]; simp
      · intro t tbl k i ht
        rcases key t tbl ht with h' | ⟨h1, h2⟩
        · exact (old t tbl h' (hadd t)).2.2.1 k i
        · rw [h2]; simp
      · intro t tbl k ht
        rcases key t tbl ht with h' | ⟨h1, h2⟩
        · exact (old t tbl h' (hadd t)).2.2.2 k
        · rw [h2]; simp
    | createColumn name type expression =>
      refine same _ rfl ?_ ?_ fun t => ?_
      · simp [step, columnNames_append, columnNames, I.columns]
      · simp [tableNames_append, tableNames]
      · rw [addedTo_snoc]; rfl
    | addColumn t c =>
      obtain ⟨htl, hcl, -⟩ := hs
      have ht : t < w.tables.length := by rw [← List.length_map (f := TableObj.name), I.tables]; exact htl
      have hc : c < w.columns.length := by rw [← List.length_map (f := Column.name), I.columns]; exact hcl
      have hct : columnNames (a ++ [Call.addColumn t c]) = columnNames a := by simp [columnNames_append, columnNames]
      have htt : w.tables[t]? = some w.tables[t] := List.getElem?_eq_getElem ht
      have hcc : w.columns[c]? = some w.columns[c] := List.getElem?_eq_getElem hc
      have hother : ∀ u, u ≠ t → addedTo u (a ++ [Call.addColumn t c]) = addedTo u a := fun u hu => by
        rw [addedTo_snoc]; simp only [extend]; rw [if_neg (fun e => hu e.symm)]
      have hself : addedTo t (a ++ [Call.addColumn t c]) = addedTo t a ++ [c] := by
        rw [addedTo_snoc]; simp only [extend]; rw [if_pos trivial]
      have hname : (columnNames a)[c]? = some w.columns[c].name := by rw [getElem?_names I, hcc]; rfl
      simp only [step, htt, hcc]
      generalize w.tables[t] = tbl at htt
      generalize w.columns[c] = col at hcc hname
      have hlist := I.lists t tbl htt
      have hget : ∀ u x, (w.tables.set t { tbl with
            columnIndexes := insert tbl.columnIndexes (P.upper col.name) tbl.columns.length
            columns := tbl.columns ++ [c] })[u]? = some x →
          u ≠ t ∧ w.tables[u]? = some x ∨ u = t ∧ x = { tbl with
            columnIndexes := insert tbl.columnIndexes (P.upper col.name) tbl.columns.length
            columns := tbl.columns ++ [c] } := by
        intro u x hx
        rw [List.getElem?_set] at hx
        split at hx
        · rename_i e
          exact .inr ⟨e.symm, (Option.some.inj hx).symm⟩
        · rename_i e
          exact .inl ⟨fun e' => e e'.symm, hx⟩
      have hmemlt : ∀ d, d ∈ tbl.columns → d < (columnNames a).length := fun d => I.bound t tbl d htt
      refine ⟨?_, ?_, ?_, ?_, ?_, ?_⟩
      · rw [hct, ← I.columns, List.map_set]
        apply List.ext_getElem?
        intro n
        rw [List.getElem?_set]
        split
        · rename_i e
          subst e
          rw [if_pos (by simpa using hc), List.getElem?_map, hcc]
          rfl
        · rfl
      · rw [tableNames_append, ← I.tables, List.map_set]
        simp only [tableNames, List.append_nil]
        apply List.ext_getElem?
        intro n
        rw [List.getElem?_set]
        split
        · rename_i e
          subst e
          rw [if_pos (by simpa using ht), List.getElem?_map, htt]
          rfl
        · rfl
      · intro u x hx
        rcases hget u x hx with ⟨hu, h'⟩ | ⟨hu, rfl⟩
        · exact (old u x h' (hother u hu)).1
        · rw [hu, hself, hlist]
      · intro u x d hx
        rcases hget u x hx with ⟨hu, h'⟩ | ⟨hu, rfl⟩
        · exact (old u x h' (hother u hu)).2.1 d
        · intro hd
          rw [hct]
          rcases List.mem_append.mp hd with hd | hd
          · exact hmemlt d hd
          · rw [List.mem_singleton.mp hd]; exact hcl
      · intro u x k i hx
        rcases hget u x hx with ⟨hu, h'⟩ | ⟨hu, rfl⟩
        · exact (old u x h' (hother u hu)).2.2.1 k i
        · intro hk
          simp only [insert] at hk
          rw [hct]
          split at hk
          · rename_i e
            have hi := Option.some.inj hk
            refine ⟨c, col.name, ?_, hname, e.symm, ?_⟩
            · show (tbl.columns ++ [c])[i]? = some c
              rw [← hi, List.getElem?_append_right (by omega)]; simp
            · intro j d m hj hd
              exfalso
              have := (List.getElem?_eq_some_iff.mp hd).1
              simp at this
              omega
          · rename_i e
            obtain ⟨c', n, h1, h2, h3, h4⟩ := I.found t tbl k i htt hk
            have hi : i < tbl.columns.length := (List.getElem?_eq_some_iff.mp h1).1
            refine ⟨c', n, ?_, h2, h3, ?_⟩
            · show (tbl.columns ++ [c])[i]? = some c'
              rw [List.getElem?_append_left hi]; exact h1
            · intro j d m hj hd hm
              change (tbl.columns ++ [c])[j]? = some d at hd
              by_cases hjl : j < tbl.columns.length
              · rw [List.getElem?_append_left hjl] at hd
                exact h4 j d m hj hd hm
              · rw [List.getElem?_append_right (by omega)] at hd
                have h0 : j - tbl.columns.length = 0 := by
                  have := (List.getElem?_eq_some_iff.mp hd).1
                  simp at this; omega
                rw [h0] at hd
                simp at hd
                subst hd
                rw [hname] at hm
                rw [← Option.some.inj hm]
                exact fun e' => e e'.symm
      · intro u x k hx
        rcases hget u x hx with ⟨hu, h'⟩ | ⟨hu, rfl⟩
        · exact (old u x h' (hother u hu)).2.2.2 k
        · intro hk d m hd hm
          simp only [insert] at hk
          rw [hct] at hm
          split at hk
          · cases hk
          · rename_i e
            rcases List.mem_append.mp hd with hd | hd
            · exact I.missing t tbl k htt hk d m hd hm
            · rw [List.mem_singleton.mp hd, hname] at hm
              rw [← Option.some.inj hm]
              exact fun e' => e e'.symm
    | initColumns t =>
      obtain ⟨htl, -⟩ := hs
      have ht : t < w.tables.length := by rw [← List.length_map (f := TableObj.name), I.tables]; exact htl
      have htt : w.tables[t]? = some w.tables[t] := List.getElem?_eq_getElem ht
      have hother : ∀ u, u ≠ t → addedTo u (a ++ [Call.initColumns t]) = addedTo u a := fun u hu => by
        rw [addedTo_snoc]; simp only [extend]; rw [if_neg (fun e => hu e.symm)]
      have hself : addedTo t (a ++ [Call.initColumns t]) = [] := by
        rw [addedTo_snoc]; simp only [extend]; rw [if_pos trivial]
      simp only [step, htt]
      generalize w.tables[t] = tbl at htt
      have hget : ∀ u x, (w.tables.set t { tbl with columns := [], columnIndexes := fun _ => none })[u]? = some x →
          u ≠ t ∧ w.tables[u]? = some x ∨ u = t ∧ x = { tbl with columns := [], columnIndexes := fun _ => none } := by
        intro u x hx
        rw [List.getElem?_set] at hx
        split at hx
        · rename_i e
          exact .inr ⟨e.symm, (Option.some.inj hx).symm⟩
        · rename_i e
          exact .inl ⟨fun e' => e e'.symm, hx⟩
      refine ⟨?_, ?_, ?_, ?_, ?_, ?_⟩
      · simp [columnNames_append, columnNames, I.columns]
      · rw [tableNames_append, ← I.tables, List.map_set]
        simp only [tableNames, List.append_nil]
        apply List.ext_getElem?
        intro n
        rw [List.getElem?_set]
        split
        · rename_i e
          subst e
          rw [if_pos (by simpa using ht), List.getElem?_map, htt]
          rfl
        · rfl
      · intro u x hx
        rcases hget u x hx with ⟨hu, h'⟩ | ⟨hu, rfl⟩
        · exact (old u x h' (hother u hu)).1
        · rw [hu, hself]
      · intro u x d hx
        rcases hget u x hx with ⟨hu, h'⟩ | ⟨hu, rfl⟩
        · exact (old u x h' (hother u hu)).2.1 d
        · intro hd; cases hd
      · intro u x k i hx
        rcases hget u x hx with ⟨hu, h'⟩ | ⟨hu, rfl⟩
        · exact (old u x h' (hother u hu)).2.2.1 k i
        · intro hk; cases hk
      · intro u x k hx
        rcases hget u x hx with ⟨hu, h'⟩ | ⟨hu, rfl⟩
        · exact (old u x h' (hother u hu)).2.2.2 k
        · intro _ d m hd; cases hd
    | addTable t =>
      have hst : (step P w (.addTable t)).tables = w.tables ∧ (step P w (.addTable t)).columns = w.columns := by
        unfold step
        dsimp only
        split <;> exact ⟨rfl, rfl⟩
      refine same _ hst.1 ?_ ?_ fun u => ?_
      · rw [hst.2]; simp [columnNames_append, columnNames, I.columns]
      · simp [tableNames_append, tableNames]
      · rw [addedTo_snoc]; rfl
    | removeTable name =>
      refine same _ rfl ?_ ?_ fun u => ?_
      · show w.columns.map Column.name = _
        simp [columnNames_append, columnNames, I.columns]
      · simp [tableNames_append, tableNames]
      · rw [addedTo_snoc]; rfl

/-- The table is there once it was created. -/
theorem table_exists {calls : List Call} (I : Inv P calls (run P calls)) {t : Nat} (ht : t < (tableNames calls).length) :
    ∃ tbl, (run P calls).tables[t]? = some tbl := by
  rw [← I.tables, List.length_map] at ht
  exact ⟨_, List.getElem?_eq_getElem ht⟩

/-- C40: the column at a position is the one added there; outside the range there is none. -/
theorem C40_column {calls : List Call} (h : Sound 0 0 calls) {t : Nat} (ht : t < (tableNames calls).length) (i : Int) :
    (run P calls).column t i = if 0 ≤ i then (addedTo t calls)[i.toNat]? else none := by
  have I := inv_run P h
  obtain ⟨tbl, htbl⟩ := table_exists I ht
  simp only [World.column, htbl]
  rw [← I.lists t tbl htbl]
  by_cases h0 : 0 ≤ i
  · rw [if_pos h0]
    split
    · rename_i hr
      rw [List.getElem?_eq_none]
      omega
    · rfl
  · rw [if_neg h0, if_pos (by omega)]

/-- C40: looking up a column's name in any letter case gives the column added last among those of that name. -/
theorem C40_column_by_name {calls : List Call} (h : Sound 0 0 calls) {t : Nat} (ht : t < (tableNames calls).length) (name : Str) (c : Nat) :
    (run P calls).columnByName P t name = some c ↔
      ∃ before after, addedTo t calls = before ++ c :: after ∧ ColumnCalled P calls c name ∧
        ∀ d ∈ after, ¬ColumnCalled P calls d name := by
  have I := inv_run P h
  obtain ⟨tbl, htbl⟩ := table_exists I ht
  have hl := I.lists t tbl htbl
  have hcol : ∀ i : Nat, (run P calls).column t (i : Int) = (addedTo t calls)[i]? := fun i => by
    rw [C40_column h ht, if_pos (by omega)]; simp
  simp only [World.columnByName, htbl]
  constructor
  · intro hx
    split at hx
    · rename_i i hi
      rw [hcol] at hx
      obtain ⟨c', n, h1, h2, h3, h4⟩ := I.found t tbl _ i htbl hi
      rw [hl] at h1
      rw [hx] at h1
      have := Option.some.inj h1
      subst this
      obtain ⟨hlt, hget⟩ := List.getElem?_eq_some_iff.mp hx
      refine ⟨(addedTo t calls).take i, (addedTo t calls).drop (i + 1), ?_, ⟨n, h2, h3⟩, ?_⟩
      · rw [← hget, ← List.drop_eq_getElem_cons hlt, List.take_append_drop]
      · rintro d hd ⟨m, hm, hu⟩
        obtain ⟨j, hj, rfl⟩ := List.getElem_of_mem hd
        have hj' := hj
        rw [List.length_drop] at hj'
        refine h4 (i + 1 + j) ((addedTo t calls).drop (i + 1))[j] m (by omega) ?_ hm hu
        rw [hl, List.getElem_drop, List.getElem?_eq_getElem]
    · cases hx
  · rintro ⟨before, after, he, ⟨n, hn, hu⟩, hafter⟩
    have hmem : c ∈ tbl.columns := by rw [hl, he]; simp
    cases hk : tbl.columnIndexes (P.upper name) with
    | none => exact absurd hu (I.missing t tbl _ htbl hk c n hmem hn)
    | some i =>
      obtain ⟨c', m, h1, h2, h3, h4⟩ := I.found t tbl _ i htbl hk
      show (run P calls).column t (i : Int) = some c
      rw [hcol]
      rw [hl] at h1 h4
      -- the position found cannot be before the last nor after it
      have hi : i = before.length := by
        rcases Nat.lt_trichotomy i before.length with hlt | heq | hgt
        · exact absurd hu (h4 before.length c n hlt (by rw [he]; simp) hn)
        · exact heq
        · exfalso
          rw [he, List.getElem?_append_right (by omega)] at h1
          obtain ⟨k, hk'⟩ : ∃ k, i - before.length = k + 1 := ⟨i - before.length - 1, by omega⟩
          rw [hk', List.getElem?_cons_succ] at h1
          exact hafter c' (List.mem_of_getElem? h1) ⟨m, h2, h3⟩
      rw [hi, he]
      simp

/-- C40: a name no column of the table has gives nil. -/
theorem C40_column_unknown {calls : List Call} (h : Sound 0 0 calls) {t : Nat} (ht : t < (tableNames calls).length) (name : Str)
    (hn : ∀ d ∈ addedTo t calls, ¬ColumnCalled P calls d name) :
    (run P calls).columnByName P t name = none ∧ (run P calls).columnIndex P t name = -1 := by
  have : (run P calls).columnByName P t name = none := by
    cases hx : (run P calls).columnByName P t name with
    | none => rfl
    | some c =>
      obtain ⟨before, after, he, hc, -⟩ := (C40_column_by_name h ht name c).mp hx
      exact absurd hc (hn c (by rw [he]; simp))
  refine ⟨this, ?_⟩
  simp only [World.columnIndex, this]

/-- Upper and lower case of the same name, the second of two columns called `id`. -/
def sample : List Call :=
  [.createTable (lit "Measurement"), .createColumn (lit "id") .int32 [], .createColumn (lit "Tag") .string [],
    .createColumn (lit "ID") .guid [], .addColumn 0 0, .addColumn 0 1, .addColumn 0 2, .addTable 0]

theorem sample_sound : Sound 0 0 sample := ⟨by decide, by decide, by decide, by decide, by decide, by decide, by decide, trivial⟩

example : (run Toy.prim sample).columnByName Toy.prim 0 (lit "Id") = some 2 :=
  (C40_column_by_name sample_sound (by decide) _ _).mpr ⟨[0, 1], [], rfl, ⟨lit "ID", rfl, by decide⟩, by simp⟩

example : (run Toy.prim sample).columnByName Toy.prim 0 (lit "taG") = some 1 :=
  (C40_column_by_name sample_sound (by decide) _ _).mpr ⟨[0], [2], rfl, ⟨lit "Tag", rfl, by decide⟩, fun d hd => by
    rw [List.mem_singleton.mp hd]
    rintro ⟨n, hn, hu⟩
    have : n = lit "ID" := (Option.some.inj hn).symm
    subst this
    revert hu
    decide⟩

/-- A column's own index is its position when it was last added to a table. -/
theorem index_last (P : Prim) {calls : List Call} (h : Sound 0 0 calls) {c : Nat} {pre post : List Call} {t : Nat}
    (he : calls = pre ++ .addColumn t c :: post) (hpost : ∀ u, Call.addColumn u c ∉ post) :
    (run P calls).indexOf c = (addedTo t pre).length := by
  subst he
  induction post using List.reverseRecOn with
  | nil =>
    rw [sound_append] at h
    obtain ⟨h1, ht, hc, -⟩ := h
    have I := inv_run P h1
    rw [run_snoc]
    simp only [Nat.zero_add] at ht hc
    obtain ⟨tbl, htbl⟩ := table_exists I ht
    have hc' : c < (run P pre).columns.length := by rw [← List.length_map (f := Column.name), I.columns]; exact hc
    have hcc := List.getElem?_eq_getElem hc'
    simp only [step, htbl, hcc, World.indexOf, List.getElem?_set_self hc']
    rw [I.lists t tbl htbl]
  | append_singleton post x ih =>
    have hs : Sound 0 0 (pre ++ .addColumn t c :: post) := by
      have : pre ++ Call.addColumn t c :: (post ++ [x]) = (pre ++ .addColumn t c :: post) ++ [x] := by simp
      rw [this, sound_append] at h
      exact h.1
    have ih := ih (fun u hu => hpost u (by simp [hu])) hs
    have : pre ++ Call.addColumn t c :: (post ++ [x]) = (pre ++ .addColumn t c :: post) ++ [x] := by simp
    rw [this, run_snoc, ← ih]
    have hc : c < (run P (pre ++ .addColumn t c :: post)).columns.length := by
      have I := inv_run P hs
      rw [← List.length_map (f := Column.name), I.columns, columnNames_append, List.length_append]
      rw [sound_append] at hs
      have := hs.2.2.1
      omega
    generalize run P (pre ++ .addColumn t c :: post) = w at hc
    cases x with
    | createColumn n ty e =>
      show World.indexOf { w with columns := w.columns ++ _ } c = w.indexOf c
      simp only [World.indexOf, List.getElem?_append_left hc]
    | addColumn u d =>
      have hd : c ≠ d := fun e => hpost u (by rw [e]; simp)
      unfold step
      dsimp only
      split
      · simp only [World.indexOf]
        rw [List.getElem?_set_ne (fun e => hd e.symm)]
      · rfl
    | initColumns u => unfold step; dsimp only; split <;> rfl
    | addTable u => unfold step; dsimp only; split <;> rfl
    | createTable n => rfl
    | removeTable n => rfl

/-- The column objects in the order they were added to tables. -/
def allAdded : List Call → List Nat
  | [] => []
  | .addColumn _ c :: cs => c :: allAdded cs
  | _ :: cs => allAdded cs

theorem mem_allAdded {c : Nat} {calls : List Call} : c ∈ allAdded calls ↔ ∃ t, Call.addColumn t c ∈ calls := by
  induction calls with
  | nil => simp [allAdded]
  | cons x cs ih => cases x <;> simp [allAdded, ih, exists_or]

theorem allAdded_append (a b : List Call) : allAdded (a ++ b) = allAdded a ++ allAdded b := by
  induction a with
  | nil => rfl
  | cons c a ih => cases c <;> simp [allAdded, ih]

/-- Where a table's column list has a column, the call that put it there was made when the list was that long. -/
theorem addedTo_split (t : Nat) (calls : List Call) {before after : List Nat} {c : Nat} (he : addedTo t calls = before ++ c :: after) :
    ∃ pre post, calls = pre ++ .addColumn t c :: post ∧ addedTo t pre = before := by
  induction calls using List.reverseRecOn generalizing after with
  | nil => simp [addedTo] at he
  | append_singleton a x ih =>
    rw [addedTo_snoc] at he
    have keep : ∀ after', addedTo t a = before ++ c :: after' → ∃ pre post, a ++ [x] = pre ++ .addColumn t c :: post ∧ addedTo t pre = before := by
      intro after' h'
      obtain ⟨pre, post, h1, h2⟩ := ih h'
      exact ⟨pre, post ++ [x], by rw [h1]; simp, h2⟩
    cases x with
    | addColumn u d =>
      simp only [extend] at he
      split at he
      · rename_i hu
        subst hu
        rcases List.eq_nil_or_concat' after with rfl | ⟨after', d', rfl⟩
        · have hb : before ++ [c] = addedTo u a ++ [d] := he.symm
          have hbc := List.append_inj hb (by have := congrArg List.length hb; simp at this; omega)
          refine ⟨a, [], ?_, hbc.1.symm⟩
          have : c = d := by simpa using hbc.2
          rw [this]
        · have hb : (before ++ c :: after') ++ [d'] = addedTo u a ++ [d] := by rw [he]; simp
          have hbc := List.append_inj hb (by have := congrArg List.length hb; simp at this; simp; omega)
          exact keep after' hbc.1.symm
      · exact keep after he
    | initColumns u =>
      simp only [extend] at he
      split at he
      · simp at he
      · exact keep after he
    | createTable n => exact keep after he
    | createColumn n ty e => exact keep after he
    | addTable u => exact keep after he
    | removeTable n => exact keep after he

/-- Partial: indexes are positions of addition, in a history that adds no column object twice. Missing: objects added twice, see
`C40_index_false`. -/
theorem C40_index_partial {calls : List Call} (h : Sound 0 0 calls) (hn : (allAdded calls).Nodup) {t : Nat}
    (ht : t < (tableNames calls).length) (i c : Nat) (hc : (run P calls).column t i = some c) : (run P calls).indexOf c = i := by
  rw [C40_column h ht, if_pos (by omega)] at hc
  have hc' : (addedTo t calls)[i]? = some c := by simpa using hc
  obtain ⟨hlt, hget⟩ := List.getElem?_eq_some_iff.mp hc'
  obtain ⟨pre, post, he, hb⟩ := addedTo_split t calls (before := (addedTo t calls).take i) (after := (addedTo t calls).drop (i + 1)) (c := c)
    (by rw [← hget, ← List.drop_eq_getElem_cons hlt, List.take_append_drop])
  rw [index_last P h he, hb, List.length_take]
  · omega
  · intro u hu
    rw [he, allAdded_append] at hn
    have := (List.nodup_append.mp hn).2.1
    simp only [allAdded, List.nodup_cons] at this
    exact this.1 (mem_allAdded.mpr ⟨u, hu⟩)

/-- Partial: `ColumnIndex` is the position of the column it names, in a history that adds no column object twice. -/
theorem C40_column_index_partial {calls : List Call} (h : Sound 0 0 calls) (hn : (allAdded calls).Nodup) {t : Nat}
    (ht : t < (tableNames calls).length) (name : Str) {before after : List Nat} {c : Nat} (he : addedTo t calls = before ++ c :: after)
    (hc : ColumnCalled P calls c name) (hlast : ∀ d ∈ after, ¬ColumnCalled P calls d name) :
    (run P calls).columnIndex P t name = before.length := by
  have h1 := (C40_column_by_name h ht name c).mpr ⟨before, after, he, hc, hlast⟩
  simp only [World.columnIndex, h1]
  apply C40_index_partial h hn ht
  rw [C40_column h ht, if_pos (by omega), he]
  simp

example : (run Toy.prim sample).columnIndex Toy.prim 0 (lit "iD") = 2 :=
  C40_column_index_partial sample_sound (by decide) (by decide) _ (before := [0, 1]) (after := []) rfl ⟨lit "ID", rfl, by decide⟩ (by simp)

/-- A column object added twice: the column at position 0 then says its index is 1, for all names and types. -/
theorem C40_index_false (P : Prim) (table name : Str) (type : DT) :
    let w := run P [.createTable table, .createColumn name type [], .addColumn 0 0, .addColumn 0 0]
    w.column 0 0 = some 0 ∧ w.indexOf 0 = 1 := ⟨rfl, rfl⟩

/-- C40: looking up a table's name in any letter case gives the table added last under that name, unless it was removed since. -/
theorem C40_table {calls : List Call} (h : Sound 0 0 calls) (name : Str) (t : Nat) :
    (run P calls).table P name = some t ↔
      ∃ pre post, calls = pre ++ .addTable t :: post ∧ TableCalled P calls t name ∧
        (∀ u, Call.addTable u ∈ post → ¬TableCalled P calls u name) ∧
        ∀ n, Call.removeTable n ∈ post → P.upper n ≠ P.upper name := by
  induction calls using List.reverseRecOn with
  | nil =>
    simp [run, World.empty, World.table]
  | append_singleton a x ih =>
    rw [sound_append] at h
    have ih := ih h.1
    have I := inv_run P h.1
    have hs := h.2
    simp only [Nat.zero_add] at hs
    have hcalled : ∀ u, u < (tableNames a).length → (TableCalled P (a ++ [x]) u name ↔ TableCalled P a u name) := by
      intro u hu
      simp only [TableCalled, tableNames_append, List.getElem?_append_left hu]
    have hlt : ∀ u, Call.addTable u ∈ a → u < (tableNames a).length := by
      intro u hu
      obtain ⟨p, q, rfl⟩ := List.append_of_mem hu
      have := (sound_append 0 0 p _).mp h.1
      have := this.2.1
      rw [tableNames_append, List.length_append]
      omega
    -- a call that leaves the map alone and is not one of the two kinds
    have keep : (∀ u, x ≠ .addTable u) → (∀ n, P.upper n = P.upper name → x ≠ .removeTable n) →
        ((run P (a ++ [x])).table P name = (run P a).table P name) →
        ((run P (a ++ [x])).table P name = some t ↔
          ∃ pre post, a ++ [x] = pre ++ .addTable t :: post ∧ TableCalled P (a ++ [x]) t name ∧
            (∀ u, Call.addTable u ∈ post → ¬TableCalled P (a ++ [x]) u name) ∧
            ∀ n, Call.removeTable n ∈ post → P.upper n ≠ P.upper name) := by
      intro hx1 hx2 hst
      rw [hst, ih]
      constructor
      · rintro ⟨pre, post, he, hc, h1, h2⟩
        have htl := hlt t (by rw [he]; simp)
        refine ⟨pre, post ++ [x], by rw [he]; simp, (hcalled t htl).mpr hc, ?_, ?_⟩
        · intro u hu
          rcases List.mem_append.mp hu with hu | hu
          · rw [hcalled u (hlt u (by rw [he]; simp [hu]))]; exact h1 u hu
          · exact absurd (List.mem_singleton.mp hu).symm (hx1 u)
        · intro n hn
          rcases List.mem_append.mp hn with hn | hn
          · exact h2 n hn
          · exact fun e => hx2 n e (List.mem_singleton.mp hn).symm
      · rintro ⟨pre, post, he, hc, h1, h2⟩
        rcases List.eq_nil_or_concat' post with rfl | ⟨post', y, rfl⟩
        · have := List.append_inj he (by have := congrArg List.length he; simp at this; exact this)
          exact absurd (by simpa using this.2) (hx1 t)
        · have he' : a ++ [x] = (pre ++ .addTable t :: post') ++ [y] := by rw [he]; simp
          have := List.append_inj he' (by have := congrArg List.length he'; simp at this; simp; omega)
          have hae := this.1
          have htl := hlt t (by rw [hae]; simp)
          refine ⟨pre, post', hae, (hcalled t htl).mp hc, ?_, ?_⟩
          · intro u hu
            have := h1 u (by simp [hu])
            rwa [hcalled u (hlt u (by rw [hae]; simp [hu]))] at this
          · intro n hn
            exact h2 n (by simp [hn])
    cases x with
    | createTable n => exact keep (by simp) (by simp) (by rw [run_snoc]; rfl)
    | createColumn n ty e => exact keep (by simp) (by simp) (by rw [run_snoc]; rfl)
    | addColumn u c =>
      refine keep (by simp) (by simp) ?_
      rw [run_snoc]
      unfold step
      dsimp only
      split <;> rfl
    | initColumns u =>
      refine keep (by simp) (by simp) ?_
      rw [run_snoc]
      unfold step
      dsimp only
      split <;> rfl
    | removeTable n =>
      by_cases hn : P.upper n = P.upper name
      · have : (run P (a ++ [.removeTable n])).table P name = none := by
          rw [run_snoc]
          show delete _ _ _ = none
          simp only [delete]
          rw [if_pos hn.symm]
        rw [this]
        constructor
        · intro hx; cases hx
        · rintro ⟨pre, post, he, -, -, h2⟩
          rcases List.eq_nil_or_concat' post with rfl | ⟨post', y, rfl⟩
          · have := List.append_inj he (by have := congrArg List.length he; simp at this; exact this)
            simp at this
          · have he' : a ++ [.removeTable n] = (pre ++ .addTable t :: post') ++ [y] := by rw [he]; simp
            have := List.append_inj he' (by have := congrArg List.length he'; simp at this; simp; omega)
            have hy : y = .removeTable n := by simpa using this.2.symm
            exact absurd hn (h2 n (by simp [hy]))
      · refine keep (by simp) ?_ ?_
        · intro m hm e
          injection e with e
          rw [e] at hn
          exact hn hm
        · rw [run_snoc]
          show delete _ _ _ = _
          simp only [delete]
          rw [if_neg (fun e => hn e.symm)]
          rfl
    | addTable u =>
      obtain ⟨hu, -⟩ := hs
      obtain ⟨tbl, htbl⟩ := table_exists I hu
      have hname : (tableNames a)[u]? = some tbl.name := by rw [← I.tables, List.getElem?_map, htbl]; rfl
      have hst : (run P (a ++ [.addTable u])).table P name = if P.upper name = P.upper tbl.name then some u else (run P a).table P name := by
        rw [run_snoc]
        simp only [step, htbl, World.table, insert]
      have hcu : TableCalled P (a ++ [.addTable u]) u name ↔ P.upper tbl.name = P.upper name := by
        rw [hcalled u hu]
        simp only [TableCalled, hname]
        constructor
        · rintro ⟨n, hn, e⟩
          rw [Option.some.inj hn]; exact e
        · exact fun e => ⟨_, rfl, e⟩
      rw [hst]
      by_cases hn : P.upper name = P.upper tbl.name
      · rw [if_pos hn]
        constructor
        · intro e
          have := Option.some.inj e
          subst this
          exact ⟨a, [], rfl, hcu.mpr hn.symm, by simp, by simp⟩
        · rintro ⟨pre, post, he, -, h1, -⟩
          rcases List.eq_nil_or_concat' post with rfl | ⟨post', y, rfl⟩
          · have := List.append_inj he (by have := congrArg List.length he; simp at this; exact this)
            have h2 := this.2
            simp at h2
            rw [h2]
          · have he' : a ++ [.addTable u] = (pre ++ .addTable t :: post') ++ [y] := by rw [he]; simp
            have := List.append_inj he' (by have := congrArg List.length he'; simp at this; simp; omega)
            have hy : y = .addTable u := by simpa using this.2.symm
            exact absurd (hcu.mpr hn.symm) (h1 u (by simp [hy]))
      · rw [if_neg hn, ih]
        constructor
        · rintro ⟨pre, post, he, hc, h1, h2⟩
          have htl := hlt t (by rw [he]; simp)
          refine ⟨pre, post ++ [.addTable u], by rw [he]; simp, (hcalled t htl).mpr hc, ?_, ?_⟩
          · intro v hv
            rcases List.mem_append.mp hv with hv | hv
            · rw [hcalled v (hlt v (by rw [he]; simp [hv]))]; exact h1 v hv
            · have hvu := List.mem_singleton.mp hv
              injection hvu with hvu
              rw [hvu, hcu]
              exact fun e => hn e.symm
          · intro n hn'
            rcases List.mem_append.mp hn' with hn' | hn'
            · exact h2 n hn'
            · simp at hn'
        · rintro ⟨pre, post, he, hc, h1, h2⟩
          rcases List.eq_nil_or_concat' post with rfl | ⟨post', y, rfl⟩
          · have := List.append_inj he (by have := congrArg List.length he; simp at this; exact this)
            have h3 := this.2
            simp at h3
            rw [← h3, hcu] at hc
            exact absurd hc.symm hn
          · have he' : a ++ [.addTable u] = (pre ++ .addTable t :: post') ++ [y] := by rw [he]; simp
            have := List.append_inj he' (by have := congrArg List.length he'; simp at this; simp; omega)
            have hae := this.1
            have htl := hlt t (by rw [hae]; simp)
            refine ⟨pre, post', hae, (hcalled t htl).mp hc, ?_, ?_⟩
            · intro v hv
              have := h1 v (by simp [hv])
              rwa [hcalled v (hlt v (by rw [hae]; simp [hv]))] at this
            · intro n hn'
              exact h2 n (by simp [hn'])

example : (run Toy.prim sample).table Toy.prim (lit "MEASUREMENT") = some 0 :=
  (C40_table sample_sound _ _).mpr ⟨sample.take 7, [], rfl, ⟨lit "Measurement", rfl, by decide⟩, by simp, by simp⟩

/-- C40: a name under which no table was added gives nil; `RemoveTable` reports whether there was one, and it is gone after. -/
theorem C40_remove (calls : List Call) (name : Str) :
    (run P calls).removes P name = ((run P calls).table P name).isSome ∧ (run P (calls ++ [.removeTable name])).table P name = none := by
  refine ⟨rfl, ?_⟩
  rw [run_snoc]
  simp [step, World.table, delete]

/-- C40: a table name never added gives nil. -/
theorem C40_table_unknown {calls : List Call} (h : Sound 0 0 calls) (name : Str)
    (hn : ∀ t, Call.addTable t ∈ calls → ¬TableCalled P calls t name) : (run P calls).table P name = none := by
  cases hx : (run P calls).table P name with
  | none => rfl
  | some t =>
    obtain ⟨pre, post, he, hc, -⟩ := (C40_table h name t).mp hx
    exact absurd hc (hn t (by rw [he]; simp))

end Verif.Table.Lookup
