import Verif.Common.Basic

/-!
# Go maps

A Go map is a list of key/value pairs without repeated keys. Only lookup, assignment, deletion and `len` are used;
none depends on the order of the pairs.
-/

set_option linter.unusedSimpArgs false

namespace Verif

/-- A Go `map[K]V`. (the maps of transport/tssc/Decoder.go L48, data/DataSet.go L55, data/DataTable.go L42) -/
abbrev GoMap (K V : Type) := List (K × V)

namespace GoMap

variable {K V : Type} [DecidableEq K]

/-- `v, ok := m[k]` (the maps of transport/tssc/Decoder.go L48, data/DataSet.go L55, data/DataTable.go L42) -/
def get (m : GoMap K V) (k : K) : Option V := (m.find? (fun p => p.1 = k)).map Prod.snd

/-- `m[k] = v` (the maps of transport/tssc/Decoder.go L48, data/DataSet.go L55, data/DataTable.go L42) -/
def set (m : GoMap K V) (k : K) (v : V) : GoMap K V :=
  if m.any (fun p => p.1 = k) then m.map (fun p => if p.1 = k then (k, v) else p) else m ++ [(k, v)]

/-- `delete(m, k)` (the maps of transport/tssc/Decoder.go L48, data/DataSet.go L55, data/DataTable.go L42) -/
def del (m : GoMap K V) (k : K) : GoMap K V := m.filter (fun p => p.1 ≠ k)

/-- The keys. (the maps of transport/tssc/Decoder.go L48, data/DataSet.go L55, data/DataTable.go L42) -/
def keys (m : GoMap K V) : List K := m.map Prod.fst

theorem get_nil (k : K) : get ([] : GoMap K V) k = none := rfl

theorem get_map_set (m : GoMap K V) (k k' : K) (v : V) :
    get (m.map (fun p => if p.1 = k then (k, v) else p)) k' =
      if k' = k ∧ m.any (fun p => p.1 = k) then some v else get m k' := by
  induction m with
  | nil => simp [get]
  | cons p m ih =>
    unfold get at ih ⊢
    by_cases h1 : p.1 = k
    · by_cases h2 : k' = k
      · subst h2; simp [h1]
      · have h3 : ¬ k = k' := fun e => h2 e.symm
        have h4 : ¬ p.1 = k' := by rw [h1]; exact h3
        simp only [List.map_cons, if_pos h1, List.find?_cons, h3, h4, decide_false]
        rw [ih]
        simp [h2]
    · by_cases h2 : p.1 = k'
      · have h3 : ¬ k' = k := by rw [← h2]; exact h1
        simp [h1, h2, h3]
      · simp only [List.map_cons, if_neg h1, List.find?_cons, h2, decide_false]
        rw [ih, List.any_cons, decide_eq_false h1, Bool.false_or]

theorem get_set (m : GoMap K V) (k k' : K) (v : V) :
    get (set m k v) k' = if k' = k then some v else get m k' := by
  unfold set
  split
  · rename_i h
    rw [get_map_set]
    simp [h]
  · rename_i h
    unfold get
    rw [List.find?_append]
    by_cases hk : k' = k
    · subst hk
      have : m.find? (fun p => p.1 = k') = none := by
        rw [List.find?_eq_none]
        intro p hp
        simp only [decide_eq_true_eq]
        intro e
        apply h
        rw [List.any_eq_true]
        exact ⟨p, hp, by simp [e]⟩
      simp [this]
    · have h3 : ¬ k = k' := fun e => hk e.symm
      have : ([(k, v)] : GoMap K V).find? (fun p => p.1 = k') = none := by simp [h3]
      simp [hk, this]

theorem get_set_self (m : GoMap K V) (k : K) (v : V) : get (set m k v) k = some v := by simp [get_set]

theorem get_set_other (m : GoMap K V) {k k' : K} (v : V) (h : k' ≠ k) : get (set m k v) k' = get m k' := by
  simp [get_set, h]

theorem get_del (m : GoMap K V) (k k' : K) : get (del m k) k' = if k' = k then none else get m k' := by
  unfold get del
  induction m with
  | nil => simp
  | cons p m ih =>
    by_cases h1 : p.1 = k
    · by_cases h2 : k' = k
      · subst h2
        simp [h1] at ih ⊢
      · have h4 : ¬ p.1 = k' := by rw [h1]; exact fun e => h2 e.symm
        simp [h1, h2, List.find?_cons, h4] at ih ⊢
        rw [← h1] at ih
        simp [h1] at ih
        have h5 : ¬ k = k' := fun e => h2 e.symm
        simp [h5]
        exact ih
    · by_cases h2 : p.1 = k'
      · have h3 : ¬ k' = k := by rw [← h2]; exact h1
        simp [h1, h2, h3]
      · simp [h1, h2] at ih ⊢
        exact ih

theorem mem_keys_iff (m : GoMap K V) (k : K) : k ∈ keys m ↔ ∃ v, get m k = some v := by
  unfold keys get
  induction m with
  | nil => simp
  | cons p m ih =>
    by_cases h : p.1 = k
    · simp [h]
    · have h' : ¬ k = p.1 := fun e => h e.symm
      simp only [List.map_cons, List.mem_cons, h', false_or, ih, List.find?_cons, h, decide_false]

theorem keys_set_mem (m : GoMap K V) (k : K) (v : V) (h : k ∈ keys m) : keys (set m k v) = keys m := by
  unfold set keys at *
  have : m.any (fun p => p.1 = k) = true := by
    rw [List.any_eq_true]
    obtain ⟨p, hp, e⟩ := List.mem_map.mp h
    exact ⟨p, hp, by simp [e]⟩
  rw [if_pos this, List.map_map]
  apply List.map_congr_left
  intro p _
  simp only [Function.comp_apply]
  split
  · rename_i e; exact e.symm
  · rfl

theorem keys_set_new (m : GoMap K V) (k : K) (v : V) (h : k ∉ keys m) : keys (set m k v) = keys m ++ [k] := by
  unfold set keys at *
  have : ¬ (m.any (fun p => p.1 = k) = true) := by
    rw [List.any_eq_true]
    rintro ⟨p, hp, e⟩
    exact h (List.mem_map.mpr ⟨p, hp, by simpa using e⟩)
  rw [if_neg this]
  simp

theorem nodup_set (m : GoMap K V) (k : K) (v : V) (h : (keys m).Nodup) : (keys (set m k v)).Nodup := by
  by_cases hk : k ∈ keys m
  · rw [keys_set_mem m k v hk]; exact h
  · rw [keys_set_new m k v hk]
    rw [List.nodup_append]
    refine ⟨h, by simp, ?_⟩
    intro a ha b hb
    simp only [List.mem_singleton] at hb
    subst hb
    rintro rfl
    exact hk ha

theorem mem_keys_set (m : GoMap K V) (k k' : K) (v : V) : k' ∈ keys (set m k v) ↔ k' = k ∨ k' ∈ keys m := by
  rw [mem_keys_iff, get_set]
  by_cases h : k' = k
  · simp [h]
  · simp [h, mem_keys_iff]

omit [DecidableEq K] in
theorem length_keys (m : GoMap K V) : (keys m).length = m.length := by simp [keys]

end GoMap

end Verif
