import Verif.Expr.FnProps
import Verif.Expr.LikeProps

/-!
# C53: the text functions

Full statement: SubStr, IndexOf, LastIndexOf, NthIndexOf, Split, StrCount, Reverse and StrCmp give what their documentation says
(Constants.go L240-291) for all texts and indexes and never panic.
-/

namespace Verif.Expr

variable {P : Prim}

open Val

/-- A non-null value of an integer type and its number. -/
inductive IsInt : Val P → BitVec 64 → Prop where
  | boolean (b : Bool) : IsInt (.boolean b) (if b then 1 else 0)
  | int32 (v : BitVec 32) : IsInt (.int32 v) (v.signExtend 64)
  | int64 (v : BitVec 64) : IsInt (.int64 v) v

theorem IsInt.spec {v : Val P} {i : BitVec 64} (h : IsInt v i) (d : BitVec 64) :
    v.type.isInteger = true ∧ v.isNull = false ∧ v.integerValue d = .ok i := by
  cases h <;> exact ⟨rfl, rfl, rfl⟩

/-- The value of the optional "ignore case" argument. -/
inductive IgnoreCase : Val P → Bool → Prop where
  | none (t : VT) : IgnoreCase (.null t) false
  | some (b : Bool) : IgnoreCase (.boolean b) b

theorem IgnoreCase.spec {v : Val P} {b : Bool} (h : IgnoreCase v b) : (v.convert .boolean >>= Val.booleanValue) = .ok b := by
  cases h <;> rfl

/-! ### SubStr -/

theorem small_toInt {s : Str} {i : BitVec 64} (h : ¬ (i.toInt < 0 ∨ i.toInt ≥ s.length)) : i.toInt = i.toNat ∧ i.toNat < s.length := by
  have h1 := i.isLt
  have e := BitVec.toInt_eq_toNat_cond i
  split at e <;> omega

theorem subStr_eq (s : Str) {iv nv : Val P} {i n : BitVec 64} (hi : IsInt iv i) (hn : IsInt nv n) :
    call .subStr [.string s, iv, nv] = (if i.toInt < 0 ∨ i.toInt ≥ s.length then .ok (.string [])
      else if n.toInt ≤ 0 then .ok (.string [])
      else if (i + n).toInt < s.length then slice s i.toInt (i + n).toInt >>= fun r => .ok (.string r)
      else .ok (.string (s.drop i.toNat))) := by
  cases hi <;> cases hn <;> rfl

theorem subStr_eq2 (s : Str) {iv : Val P} {i : BitVec 64} (hi : IsInt iv i) :
    call .subStr [.string s, iv] = (if i.toInt < 0 ∨ i.toInt ≥ s.length then .ok (.string []) else .ok (.string (s.drop i.toNat))) := by
  cases hi <;> rfl

/-- Partial: the portion starting at the index, of the given length or up to the end; empty for an index outside. Missing: an
    index and length whose sum exceeds the integer range, see the next theorem. -/
theorem C53_substr_partial (s : Str) {iv nv : Val P} {i n : BitVec 64} (hi : IsInt iv i) (hn : IsInt nv n)
    (hover : i.toInt + n.toInt < 2 ^ 63) :
    call .subStr [.string s, iv, nv] = .ok (.string (if 0 ≤ i.toInt then (s.drop i.toInt.toNat).take n.toInt.toNat else [])) ∧
    call .subStr [.string s, iv] = .ok (.string (if 0 ≤ i.toInt then s.drop i.toInt.toNat else [])) := by
  constructor
  · rw [subStr_eq s hi hn]
    by_cases hr : i.toInt < 0 ∨ i.toInt ≥ s.length
    · rw [if_pos hr]
      show Res.ok _ = _
      congr 2
      split
      · rw [List.drop_eq_nil_of_le (by omega), List.take_nil]
      · rfl
    · obtain ⟨e1, e2⟩ := small_toInt hr
      rw [if_neg hr, if_pos (show 0 ≤ i.toInt by omega)]
      by_cases hz : n.toInt ≤ 0
      · rw [if_pos hz]
        show Res.ok _ = _
        congr 2
        have : n.toInt.toNat = 0 := by omega
        rw [this, List.take_zero]
      · rw [if_neg hz]
        have hsum : (i + n).toInt = i.toInt + n.toInt := by
          rw [BitVec.toInt_add, Int.bmod_def]
          split <;> omega
        by_cases hs : (i + n).toInt < s.length
        · rw [if_pos hs, slice, if_pos (by omega)]
          show Res.ok _ = _
          congr 2
          rw [List.drop_take, hsum]
          congr 1
          omega
        · rw [if_neg hs]
          show Res.ok _ = _
          congr 2
          have : i.toNat = i.toInt.toNat := by omega
          rw [this, List.take_of_length_le]
          rw [List.length_drop]
          omega
  · rw [subStr_eq2 s hi]
    by_cases hr : i.toInt < 0 ∨ i.toInt ≥ s.length
    · rw [if_pos hr]
      show Res.ok _ = _
      congr 2
      split
      · rw [List.drop_eq_nil_of_le (by omega)]
      · rfl
    · obtain ⟨e1, e2⟩ := small_toInt hr
      rw [if_neg hr, if_pos (show 0 ≤ i.toInt by omega)]
      show Res.ok _ = _
      congr 2
      have : i.toNat = i.toInt.toNat := by omega
      rw [this]

example : call (P := P) .subStr [.string (lit "Voltage"), .int32 2, .int64 3] = .ok (.string (lit "lta")) := rfl

/-- The sum of index and length can overflow, and then SubStr panics: `SubStr('abc', 1, 9223372036854775807)`. -/
theorem C53_substr_false (s : Str) (i : BitVec 64) (h0 : 0 < i.toInt) (h1 : i.toInt < s.length) :
    call (P := P) .subStr [.string s, .int64 i, .int64 (BitVec.ofInt 64 (2 ^ 63 - 1))] = .panic := by
  have hn : (BitVec.ofInt 64 (2 ^ 63 - 1)).toInt = 2 ^ 63 - 1 := by decide
  have hlt := BitVec.toInt_lt (x := i)
  have hsum : (i + BitVec.ofInt 64 (2 ^ 63 - 1)).toInt = i.toInt - 2 ^ 63 - 1 := by
    rw [BitVec.toInt_add, Int.bmod_def, hn]
    split <;> omega
  rw [subStr_eq s (.int64 i) (.int64 (BitVec.ofInt 64 (2 ^ 63 - 1)))]
  rw [if_neg (by omega), if_neg (by rw [hn]; omega), if_pos (by rw [hsum]; omega), slice, if_neg (by rw [hsum]; omega)]
  rfl

example : call (P := P) .subStr [.string (lit "abc"), .int64 1, .int64 (BitVec.ofInt 64 (2 ^ 63 - 1))] = .panic :=
  C53_substr_false _ _ (by decide) (by decide)

/-! ### IndexOf and LastIndexOf -/

/-- The last occurrence. -/
theorem lastIndex?_spec {s t : Str} : (∀ i, lastIndex? s t = some i → OccursAt s t i ∧ ∀ j, i < j → ¬ OccursAt s t j) ∧
    (lastIndex? s t = none → ∀ i, ¬ OccursAt s t i) := by
  induction s with
  | nil =>
    rw [lastIndex?]
    by_cases ht : t = []
    · subst ht
      rw [if_pos (show hasPrefix [] [] = true from rfl)]
      constructor
      · intro i h
        cases h
        refine ⟨occursAt_nil.mpr ⟨rfl, rfl⟩, ?_⟩
        intro j hj h
        have := (occursAt_nil.mp h).2
        omega
      · intro h
        cases h
    · have : hasPrefix [] t = false := by
        rw [hasPrefix_false]
        rintro ⟨post, h⟩
        simp at h
        exact ht h.1
      rw [this]
      constructor
      · intro i h
        cases h
      · intro _ i h
        exact ht (occursAt_nil.mp h).1
  | cons b s ih =>
    rw [lastIndex?]
    cases hl : lastIndex? s t with
    | some i =>
      obtain ⟨h1, h2⟩ := ih.1 i hl
      constructor
      · intro k hk
        simp at hk
        subst hk
        refine ⟨occursAt_succ.mpr h1, ?_⟩
        intro j hj h
        cases j with
        | zero => omega
        | succ j => exact h2 j (by omega) (occursAt_succ.mp h)
      · intro h
        cases h
    | none =>
      have hn := ih.2 hl
      by_cases hp : hasPrefix (b :: s) t = true
      · simp only [hp, if_true]
        constructor
        · intro i h
          cases h
          refine ⟨occursAt_zero.mpr hp, ?_⟩
          intro j hj h
          cases j with
          | zero => omega
          | succ j => exact hn j (occursAt_succ.mp h)
        · intro h
          cases h
      · simp only [hp, if_false]
        constructor
        · intro i h
          simp at h
        · intro _ i h
          cases i with
          | zero => exact hp (occursAt_zero.mp h)
          | succ i => exact hn i (occursAt_succ.mp h)

theorem textIndex_eq (find : Str → Str → Option Nat) (s t : Str) {cv : Val P} {c : Bool} (hc : IgnoreCase cv c) :
    textIndex find (.string s) (.string t) cv =
      .ok (.int32 (BitVec.ofInt 32 (position (find (fold P (!c) s) (fold P (!c) t))))) := by
  cases hc with
  | none u => rfl
  | some => cases c <;> rfl

theorem small32 {i : Nat} (h : i < 2 ^ 31) : (BitVec.ofInt 32 (i : Int)).toInt = i := by
  rw [BitVec.toInt_ofInt, Int.bmod_def]
  split <;> omega

/-- IndexOf is the position of the first occurrence, or -1, for texts shorter than 2^31; letter case is folded on request. -/
theorem C53_index_of (s t : Str) {cv : Val P} {c : Bool} (hc : IgnoreCase cv c) (hlen : (fold P (!c) s).length < 2 ^ 31) :
    ∃ r : BitVec 32, call .indexOf [.string s, .string t, cv] = .ok (.int32 r) ∧
      ((r.toInt = -1 ∧ ∀ i, ¬ OccursAt (fold P (!c) s) (fold P (!c) t) i) ∨
       ∃ i : Nat, r.toInt = i ∧ OccursAt (fold P (!c) s) (fold P (!c) t) i ∧ ∀ j < i, ¬ OccursAt (fold P (!c) s) (fold P (!c) t) j) := by
  refine ⟨_, textIndex_eq index? s t hc, ?_⟩
  generalize fold P (!c) s = a at *
  generalize fold P (!c) t = b at *
  cases h : index? a b with
  | none => exact .inl ⟨rfl, index?_none.mp h⟩
  | some i =>
    obtain ⟨h1, h2⟩ := index?_some.mp h
    have := occursAt_length h1
    exact .inr ⟨i, small32 (by omega), h1, h2⟩

example : call (P := P) .indexOf [.string (lit "banana"), .string (lit "an"), .boolean false] = .ok (.int32 1) := rfl

/-- LastIndexOf is the position of the last occurrence, or -1. -/
theorem C53_last_index_of (s t : Str) {cv : Val P} {c : Bool} (hc : IgnoreCase cv c) (hlen : (fold P (!c) s).length < 2 ^ 31) :
    ∃ r : BitVec 32, call .lastIndexOf [.string s, .string t, cv] = .ok (.int32 r) ∧
      ((r.toInt = -1 ∧ ∀ i, ¬ OccursAt (fold P (!c) s) (fold P (!c) t) i) ∨
       ∃ i : Nat, r.toInt = i ∧ OccursAt (fold P (!c) s) (fold P (!c) t) i ∧ ∀ j, i < j → ¬ OccursAt (fold P (!c) s) (fold P (!c) t) j) := by
  refine ⟨_, textIndex_eq lastIndex? s t hc, ?_⟩
  generalize fold P (!c) s = a at *
  generalize fold P (!c) t = b at *
  cases h : lastIndex? a b with
  | none => exact .inl ⟨rfl, lastIndex?_spec.2 h⟩
  | some i =>
    obtain ⟨h1, h2⟩ := lastIndex?_spec.1 i h
    have := occursAt_length h1
    exact .inr ⟨i, small32 (by omega), h1, h2⟩

example : call (P := P) .lastIndexOf [.string (lit "banana"), .string (lit "an"), .boolean false] = .ok (.int32 3) := rfl

/-- Without the third argument letter case counts. -/
theorem C53_index_of_default (s t : Str) :
    call (P := P) .indexOf [.string s, .string t] = call .indexOf [.string s, .string t, .boolean false] ∧
    call (P := P) .lastIndexOf [.string s, .string t] = call .lastIndexOf [.string s, .string t, .boolean false] := ⟨rfl, rfl⟩

/-! ### NthIndexOf -/

/-- `i` is the position of the occurrence number `n`, counting from zero. Occurrences may overlap. -/
def NthOccurrence (s t : Str) (n i : Nat) : Prop :=
  OccursAt s t i ∧ ∃ ps : List Nat, ps.Pairwise (· < ·) ∧ ps.length = n ∧ ∀ j, j ∈ ps ↔ j < i ∧ OccursAt s t j

/-- There are at most `n` occurrences. -/
def AtMost (s t : Str) (n : Nat) : Prop :=
  ∃ ps : List Nat, ps.Pairwise (· < ·) ∧ ps.length ≤ n ∧ ∀ j, j ∈ ps ↔ OccursAt s t j

theorem occursAt_drop {s t : Str} {k j : Nat} (hk : k ≤ s.length) : OccursAt (s.drop k) t j ↔ OccursAt s t (k + j) := by
  constructor
  · rintro ⟨pre, post, h, hl⟩
    refine ⟨s.take k ++ pre, post, ?_, by simp [hl]; omega⟩
    rw [List.append_assoc, List.append_assoc, ← List.append_assoc pre, ← h, List.take_append_drop]
  · rintro ⟨pre, post, h, hl⟩
    refine ⟨pre.drop k, post, ?_, by simp [hl]⟩
    rw [h, List.append_assoc, List.drop_append_of_le_length (by omega), List.append_assoc]

theorem findLoop_spec {t : Str} (ht : t ≠ []) (n base : Nat) (s : Str) :
    (∃ i, findLoop t (n + 1) base s = .ok ((base + i : Nat) : Int) ∧ NthOccurrence s t n i) ∨
    (findLoop t (n + 1) base s = .ok (-1) ∧ AtMost s t n) := by
  induction n generalizing s base with
  | zero =>
    rw [findLoop]
    cases h : index? s t with
    | none => exact .inr ⟨rfl, [], .nil, by simp, fun j => by simp [index?_none.mp h j]⟩
    | some l =>
      obtain ⟨h1, h2⟩ := index?_some.mp h
      have hl := occursAt_length h1
      have : 0 < t.length := List.length_pos_iff.mpr ht
      left
      refine ⟨l, ?_, h1, [], .nil, rfl, ?_⟩
      · dsimp only
        rw [if_pos (by omega), findLoop]
        congr 1
        omega
      · intro j
        simp
        exact fun hj => h2 j hj
  | succ n ih =>
    rw [findLoop]
    cases h : index? s t with
    | none => exact .inr ⟨rfl, [], .nil, by simp, fun j => by simp [index?_none.mp h j]⟩
    | some l =>
      obtain ⟨h1, h2⟩ := index?_some.mp h
      have hl := occursAt_length h1
      have : 0 < t.length := List.length_pos_iff.mpr ht
      dsimp only
      rw [if_pos (by omega)]
      rcases ih (base + (l + 1)) (s.drop (l + 1)) with ⟨i, hi, ho, ps, hp, hlen, hmem⟩ | ⟨hi, ps, hp, hlen, hmem⟩
      · left
        refine ⟨l + 1 + i, by rw [hi]; congr 2; omega, (occursAt_drop (by omega)).mp ho, l :: ps.map (l + 1 + ·), ?_, by simp [hlen], ?_⟩
        · refine List.pairwise_cons.mpr ⟨?_, ?_⟩
          · intro a ha
            obtain ⟨b, _, rfl⟩ := List.mem_map.mp ha
            omega
          · rw [List.pairwise_map]
            exact hp.imp fun h => by omega
        · intro j
          rw [List.mem_cons, List.mem_map]
          constructor
          · rintro (rfl | ⟨b, hb, rfl⟩)
            · exact ⟨by omega, h1⟩
            · obtain ⟨hb1, hb2⟩ := (hmem b).mp hb
              exact ⟨by omega, (occursAt_drop (by omega)).mp hb2⟩
          · rintro ⟨hj, hjo⟩
            rcases Nat.lt_trichotomy j l with h' | h' | h'
            · exact absurd hjo (h2 j h')
            · exact .inl h'
            · right
              refine ⟨j - (l + 1), (hmem _).mpr ⟨by omega, (occursAt_drop (by omega)).mpr ?_⟩, by omega⟩
              rw [show l + 1 + (j - (l + 1)) = j by omega]
              exact hjo
      · right
        refine ⟨hi, l :: ps.map (l + 1 + ·), ?_, by simp; omega, ?_⟩
        · refine List.pairwise_cons.mpr ⟨?_, ?_⟩
          · intro a ha
            obtain ⟨b, _, rfl⟩ := List.mem_map.mp ha
            omega
          · rw [List.pairwise_map]
            exact hp.imp fun h => by omega
        · intro j
          rw [List.mem_cons, List.mem_map]
          constructor
          · rintro (rfl | ⟨b, hb, rfl⟩)
            · exact h1
            · exact (occursAt_drop (by omega)).mp ((hmem b).mp hb)
          · intro hjo
            rcases Nat.lt_trichotomy j l with h' | h' | h'
            · exact absurd hjo (h2 j h')
            · exact .inl h'
            · right
              refine ⟨j - (l + 1), (hmem _).mpr ((occursAt_drop (by omega)).mpr ?_), by omega⟩
              rw [show l + 1 + (j - (l + 1)) = j by omega]
              exact hjo

theorem nth_eq (s t : Str) {iv cv : Val P} {i : BitVec 64} {c : Bool} (hi : IsInt iv i) (hc : IgnoreCase cv c) :
    call .nthIndexOf [.string s, .string t, iv, cv] =
      (findNthIndex (fold P (!c) s) (fold P (!c) t) i >>= fun r => .ok (.int32 (BitVec.ofInt 32 r))) := by
  cases hi <;> cases hc with
  | none u => rfl
  | some => cases c <;> rfl

/-- The number of rounds of the search. -/
theorem rounds {i : BitVec 64} (h : 0 ≤ i.toInt) (h' : i.toInt < 2 ^ 63 - 1) : (i + 1).toInt.toNat = i.toInt.toNat + 1 := by
  have : (i + 1).toInt = i.toInt + 1 := by
    rw [BitVec.toInt_add, Int.bmod_def, show (1 : BitVec 64).toInt = 1 from rfl]
    split <;> omega
  omega

theorem no_rounds {i : BitVec 64} (h : i.toInt < 0 ∨ i.toInt = 2 ^ 63 - 1) : (i + 1).toInt.toNat = 0 := by
  have h1 := BitVec.le_toInt i
  have h2 := BitVec.toInt_lt (x := i)
  have : (i + 1).toInt ≤ 0 := by
    rw [BitVec.toInt_add, Int.bmod_def, show (1 : BitVec 64).toInt = 1 from rfl]
    split <;> omega
  omega

theorem atMost_length {s t : Str} : ∃ n ≤ s.length + 1, AtMost s t n := by
  refine ⟨((List.range (s.length + 1)).filter fun i => i ≤ s.length ∧ hasPrefix (s.drop i) t = true).length, ?_, _, ?_, Nat.le_refl _, ?_⟩
  · exact Nat.le_trans (List.length_filter_le _ _) (by simp)
  · exact List.Pairwise.filter _ List.pairwise_lt_range
  · intro j
    rw [List.mem_filter, List.mem_range]
    simp only [decide_eq_true_eq]
    constructor
    · rintro ⟨_, h1, h2⟩
      have := (occursAt_drop (t := t) (j := 0) h1).mp (occursAt_zero.mpr h2)
      simpa using this
    · intro h
      have := occursAt_length h
      refine ⟨by omega, by omega, occursAt_zero.mp ((occursAt_drop (by omega)).mpr ?_)⟩
      simpa using h

/-- Partial: for a test text that is not empty, NthIndexOf is the position of occurrence number `n`, or -1 when there are not that
    many or the number is negative. Missing: the empty test text, see the next theorem. -/
theorem C53_nth_index_of_partial (s t : Str) {iv cv : Val P} {i : BitVec 64} {c : Bool} (hi : IsInt iv i) (hc : IgnoreCase cv c)
    (ht : fold P (!c) t ≠ []) (hlen : (fold P (!c) s).length < 2 ^ 31) :
    ∃ r : BitVec 32, call .nthIndexOf [.string s, .string t, iv, cv] = .ok (.int32 r) ∧
      ((r.toInt = -1 ∧ (i.toInt < 0 ∨ AtMost (fold P (!c) s) (fold P (!c) t) i.toInt.toNat)) ∨
       ∃ k : Nat, r.toInt = k ∧ 0 ≤ i.toInt ∧ NthOccurrence (fold P (!c) s) (fold P (!c) t) i.toInt.toNat k) := by
  rw [nth_eq s t hi hc]
  generalize fold P (!c) s = a at *
  generalize fold P (!c) t = b at *
  unfold findNthIndex
  have hlt := BitVec.toInt_lt (x := i)
  by_cases hneg : i.toInt < 0 ∨ i.toInt = 2 ^ 63 - 1
  · rw [no_rounds hneg]
    refine ⟨_, rfl, .inl ⟨rfl, ?_⟩⟩
    rcases hneg with h | h
    · exact .inl h
    · right
      obtain ⟨n, hn, ps, h1, h2, h3⟩ := atMost_length (s := a) (t := b)
      exact ⟨ps, h1, by omega, h3⟩
  · rw [rounds (by omega) (by omega)]
    rcases findLoop_spec ht i.toInt.toNat 0 a with ⟨k, hk, hn⟩ | ⟨hk, hn⟩
    · rw [hk]
      refine ⟨_, rfl, .inr ⟨k, ?_, by omega, hn⟩⟩
      have := occursAt_length hn.1
      rw [Nat.zero_add]
      exact small32 (by omega)
    · rw [hk]
      exact ⟨_, rfl, .inl ⟨rfl, .inr hn⟩⟩

example : call (P := P) .nthIndexOf [.string (lit "banana"), .string (lit "ana"), .int32 1, .boolean false] = .ok (.int32 3) := rfl

theorem findLoop_empty (s : Str) (n base : Nat) (h : s.length ≤ n) : findLoop [] (n + 1) base s = .panic := by
  induction s generalizing n base with
  | nil => rfl
  | cons b s ih =>
    have h0 : index? (b :: s) [] = some 0 := rfl
    rw [findLoop, h0]
    dsimp only
    rw [if_pos (by simp)]
    cases n with
    | zero => simp at h
    | succ n => exact ih n _ (by simpa using h)

/-- Looking for the empty text past the end panics: `NthIndexOf('', '', 0)`. -/
theorem C53_nth_index_of_false (s : Str) (i : BitVec 64) (h : (s.length : Int) ≤ i.toInt) (h' : i.toInt < 2 ^ 63 - 1) :
    call (P := P) .nthIndexOf [.string s, .string [], .int64 i] = .panic := by
  have e : call (P := P) .nthIndexOf [.string s, .string [], .int64 i] = (findNthIndex s [] i >>= fun r => .ok (.int32 (BitVec.ofInt 32 r))) := rfl
  rw [e, findNthIndex, rounds (by omega) h', findLoop_empty s _ _ (by omega)]
  rfl

example : call (P := P) .nthIndexOf [.string [], .string [], .int64 0] = .panic := rfl

/-! ### StrCount -/

/-- Occurrences at these positions that do not overlap. -/
def Apart (s t : Str) (ps : List Nat) : Prop := ps.Pairwise (fun p q => p + t.length ≤ q) ∧ ∀ p ∈ ps, OccursAt s t p

theorem countFrom_spec {t : Str} (ht : t ≠ []) (s : Str) :
    (∃ ps, Apart s t ps ∧ ps.length = countFrom s t) ∧ ∀ ps, Apart s t ps → ps.length ≤ countFrom s t := by
  have hpos : 0 < t.length := List.length_pos_iff.mpr ht
  induction hn : s.length using Nat.strongRecOn generalizing s with
  | _ n ih =>
  cases s with
  | nil =>
    rw [countFrom]
    refine ⟨⟨[], ⟨.nil, by simp⟩, rfl⟩, ?_⟩
    intro ps h
    cases ps with
    | nil => simp
    | cons p ps => exact absurd (occursAt_nil.mp (h.2 p (by simp))).1 ht
  | cons b s =>
    rw [countFrom]
    by_cases hp : hasPrefix (b :: s) t = true
    · rw [if_pos hp]
      have h0 : OccursAt (b :: s) t 0 := occursAt_zero.mpr hp
      have hlen := occursAt_length h0
      have hdrop : (b :: s).drop t.length = s.drop (t.length - 1) := by
        obtain ⟨k, hk⟩ := Nat.exists_eq_succ_of_ne_zero (by omega : t.length ≠ 0)
        rw [hk]
        rfl
      simp only [List.length_cons] at hlen hn
      obtain ⟨⟨ps, hps, hl⟩, hmax⟩ := ih (s.drop (t.length - 1)).length (by rw [List.length_drop]; omega) (s.drop (t.length - 1)) rfl
      rw [← hdrop] at hps hl hmax
      have hshift : ∀ j, OccursAt ((b :: s).drop t.length) t j ↔ OccursAt (b :: s) t (t.length + j) := fun j =>
        occursAt_drop (by simp only [List.length_cons]; omega)
      rw [← hdrop]
      constructor
      · refine ⟨0 :: ps.map (t.length + ·), ⟨?_, ?_⟩, by simp [hl]; omega⟩
        · refine List.pairwise_cons.mpr ⟨?_, ?_⟩
          · intro a ha
            obtain ⟨c, _, rfl⟩ := List.mem_map.mp ha
            omega
          · rw [List.pairwise_map]
            exact hps.1.imp fun h => by omega
        · intro p hp
          rcases List.mem_cons.mp hp with rfl | hp
          · exact h0
          · obtain ⟨c, hc, rfl⟩ := List.mem_map.mp hp
            exact (hshift c).mp (hps.2 c hc)
      · intro qs hq
        cases qs with
        | nil => simp
        | cons q qs =>
          have hq1 := List.pairwise_cons.mp hq.1
          have : (qs.map (· - t.length)).length ≤ countFrom ((b :: s).drop t.length) t := by
            apply hmax
            constructor
            · rw [List.pairwise_map]
              apply List.Pairwise.imp_of_mem _ hq1.2
              intro a c ha hc h
              have := hq1.1 a ha
              omega
            · intro p hp
              obtain ⟨c, hc, rfl⟩ := List.mem_map.mp hp
              rw [hshift]
              have := hq1.1 c hc
              rw [show t.length + (c - t.length) = c by omega]
              exact hq.2 c (by simp [hc])
          simp at this ⊢
          omega
    · rw [if_neg hp]
      simp only [List.length_cons] at hn
      obtain ⟨⟨ps, hps, hl⟩, hmax⟩ := ih s.length (by omega) s rfl
      constructor
      · refine ⟨ps.map (· + 1), ⟨?_, ?_⟩, by simp [hl]⟩
        · rw [List.pairwise_map]
          exact hps.1.imp fun h => by omega
        · intro p hp
          obtain ⟨c, hc, rfl⟩ := List.mem_map.mp hp
          exact occursAt_succ.mpr (hps.2 c hc)
      · intro qs hq
        have hge : ∀ q ∈ qs, 1 ≤ q := by
          intro q hq'
          cases q with
          | zero => exact absurd (occursAt_zero.mp (hq.2 0 hq')) hp
          | succ q => omega
        have : (qs.map (· - 1)).length ≤ countFrom s t := by
          apply hmax
          constructor
          · rw [List.pairwise_map]
            apply List.Pairwise.imp_of_mem _ hq.1
            intro a c ha hc h
            have := hge a ha
            omega
          · intro p hp
            obtain ⟨c, hc, rfl⟩ := List.mem_map.mp hp
            have h1 := hge c hc
            rw [← occursAt_succ (b := b), show c - 1 + 1 = c by omega]
            exact hq.2 c hc
        simpa using this

/-- StrCount is the largest number of occurrences that do not overlap; 0 for the empty test text. -/
theorem C53_str_count (s t : Str) {cv : Val P} {c : Bool} (hc : IgnoreCase cv c) (hlen : (fold P (!c) s).length < 2 ^ 31)
    (ht : t ≠ []) (ht' : fold P (!c) t ≠ []) :
    ∃ r : BitVec 32, call .strCount [.string s, .string t, cv] = .ok (.int32 r) ∧
      (∃ ps, Apart (fold P (!c) s) (fold P (!c) t) ps ∧ (ps.length : Int) = r.toInt) ∧
      ∀ ps, Apart (fold P (!c) s) (fold P (!c) t) ps → (ps.length : Int) ≤ r.toInt := by
  have e : call .strCount [.string s, .string t, cv] = .ok (.int32 (BitVec.ofInt 32 (countStr (fold P (!c) s) (fold P (!c) t) : Int))) := by
    have hl : ¬ t.length = 0 := by simpa using ht
    cases hc with
    | none u =>
      show (if t.length = 0 then _ else _) = _
      rw [if_neg hl]
      rfl
    | some =>
      show (if t.length = 0 then _ else _) = _
      rw [if_neg hl]
      cases c <;> rfl
  rw [e]
  generalize fold P (!c) s = a at *
  generalize fold P (!c) t = b at *
  rw [countStr, if_neg ht']
  obtain ⟨⟨ps, hps, hl⟩, hmax⟩ := countFrom_spec ht' a
  have hb : countFrom a b ≤ a.length := by
    rw [← hl]
    have hpos : 0 < b.length := List.length_pos_iff.mpr ht'
    have key : ∀ (qs : List Nat) (m : Nat), qs.Pairwise (fun p q => p + b.length ≤ q) → (∀ q ∈ qs, m ≤ q ∧ q + b.length ≤ a.length) →
        qs.length + m ≤ max a.length m := by
      intro qs
      induction qs with
      | nil => intro m _ _; simp
      | cons q qs ih =>
        intro m hp hm
        have hp' := List.pairwise_cons.mp hp
        have hq := hm q (by simp)
        have := ih (q + b.length) hp'.2 fun x hx => ⟨hp'.1 x hx, (hm x (by simp [hx])).2⟩
        simp
        omega
    have := key ps 0 hps.1 fun q hq => ⟨Nat.zero_le _, occursAt_length (hps.2 q hq)⟩
    omega
  have h32 := small32 (i := countFrom a b) (by omega)
  refine ⟨_, rfl, ⟨ps, hps, by rw [h32, hl]⟩, ?_⟩
  intro qs hq
  rw [h32]
  exact_mod_cast hmax qs hq

theorem C53_str_count_empty (s : Str) (cv : Val P) : call .strCount [.string s, .string [], cv] = .ok (.int32 0) := rfl

example : ∃ r : BitVec 32, call (P := P) .strCount [.string (lit "aaaa"), .string (lit "aa"), .boolean false] = .ok (.int32 r) ∧
    (∃ ps, Apart (lit "aaaa") (lit "aa") ps ∧ (ps.length : Int) = r.toInt) ∧ ∀ ps, Apart (lit "aaaa") (lit "aa") ps → (ps.length : Int) ≤ r.toInt :=
  C53_str_count (c := false) (lit "aaaa") (lit "aa") (.some false)
    (show (lit "aaaa").length < 2 ^ 31 by decide) (by decide) (show lit "aa" ≠ [] by decide)

/-! ### StrCmp -/

theorem strLt_iff {s t : Str} : strLt s t = true ↔ s.map BitVec.toNat < t.map BitVec.toNat := by
  induction s generalizing t with
  | nil => cases t <;> simp [strLt]
  | cons a s ih =>
    cases t with
    | nil => simp [strLt]
    | cons b t =>
      simp only [strLt, List.map_cons, Bool.or_eq_true, decide_eq_true_eq, Bool.and_eq_true, beq_iff_eq, List.cons_lt_cons_iff, ih,
        BitVec.toNat_inj]

/-- StrCmp is -1, 0 or 1 as the left text comes before, equals or comes after the right one in the lexicographic order of bytes. -/
theorem C53_str_cmp (l r : Str) {cv : Val P} {c : Bool} (hc : IgnoreCase cv c) :
    ∃ x : BitVec 32, call .strCmp [.string l, .string r, cv] = .ok (.int32 x) ∧
      (x.toInt = -1 ∧ (fold P (!c) l).map BitVec.toNat < (fold P (!c) r).map BitVec.toNat ∨
       x.toInt = 0 ∧ fold P (!c) l = fold P (!c) r ∨
       x.toInt = 1 ∧ (fold P (!c) r).map BitVec.toNat < (fold P (!c) l).map BitVec.toNat) := by
  refine ⟨BitVec.ofInt 32 (strCompare (fold P (!c) l) (fold P (!c) r)), ?_, ?_⟩
  · cases hc with
    | none u => rfl
    | some => cases c <;> rfl
  · generalize fold P (!c) l = a
    generalize fold P (!c) r = b
    unfold strCompare
    by_cases h : a = b
    · rw [if_pos h]
      exact .inr (.inl ⟨rfl, h⟩)
    · rw [if_neg h]
      rcases strLt_total a b with h' | h' | h'
      · rw [if_pos h']
        exact .inl ⟨rfl, strLt_iff.mp h'⟩
      · exact absurd h' h
      · rw [if_neg (by rw [strLt_asymm h']; simp)]
        exact .inr (.inr ⟨rfl, strLt_iff.mp h'⟩)

/-- Null comes after every text. -/
theorem C53_str_cmp_null (s : Str) (cv : Val P) :
    call .strCmp [.null .string, .string s, cv] = .ok (.int32 1) ∧ call .strCmp [.string s, .null .string, cv] = .ok (.int32 (-1)) ∧
    call .strCmp [.null .string, .null .string, cv] = .ok (.int32 0) := ⟨rfl, rfl, rfl⟩

example : call (P := Toy.prim) .strCmp [.string (lit "abc"), .string (lit "ABD"), .boolean true] = .ok (.int32 (-1)) := rfl

/-! ### Split -/

/-- The parts written one after the other with the delimiter between them. -/
def joined (d : Byte) : List Str → Str
  | [] => []
  | [p] => p
  | p :: q :: ps => p ++ d :: joined d (q :: ps)

theorem index?_byte {d : Byte} {p rest : Str} (h : d ∉ p) : index? (p ++ d :: rest) [d] = some p.length := by
  induction p with
  | nil => simp [index?, hasPrefix]
  | cons b p ih =>
    have hb : d ≠ b := fun e => h (by simp [e])
    rw [List.cons_append, index?, if_neg (by simp [hasPrefix, hb]), ih (fun hm => h (by simp [hm]))]
    rfl

theorem index?_byte_none {d : Byte} {p : Str} (h : d ∉ p) : index? p [d] = none := by
  induction p with
  | nil => rfl
  | cons b p ih =>
    have hb : d ≠ b := fun e => h (by simp [e])
    rw [index?, if_neg (by simp [hasPrefix, hb]), ih (fun hm => h (by simp [hm]))]
    rfl

/-- Where delimiter number `k` is. -/
theorem findLoop_joined {d : Byte} : ∀ (parts : List Str), (∀ p ∈ parts, d ∉ p) → ∀ (k base : Nat),
    findLoop [d] (k + 1) base (joined d parts) =
      if k + 1 < parts.length then .ok ((base + (joined d (parts.take (k + 1))).length : Nat) : Int) else .ok (-1) := by
  intro parts
  induction parts with
  | nil =>
    intro _ k base
    rw [if_neg (by simp), joined, findLoop, index?_byte_none (by simp)]
  | cons p ps ih =>
    intro hd k base
    cases ps with
    | nil =>
      rw [if_neg (by simp), joined, findLoop, index?_byte_none (hd p (by simp))]
    | cons q ps =>
      rw [joined, findLoop, index?_byte (hd p (by simp))]
      dsimp only
      rw [if_pos (by simp)]
      have hdrop : List.drop (p.length + 1) (p ++ d :: joined d (q :: ps)) = joined d (q :: ps) := by
        rw [List.drop_append]
        simp
      rw [hdrop]
      cases k with
      | zero =>
        rw [findLoop, if_pos (by simp)]
        simp only [Nat.zero_add, List.take_succ_cons, List.take_zero, joined]
        congr 1
        omega
      | succ k =>
        rw [ih (fun x hx => hd x (by simp [hx])) k _]
        by_cases hk : k + 1 < (q :: ps).length
        · rw [if_pos hk, if_pos (by simp at hk ⊢; omega)]
          congr 2
          have : joined d ((p :: q :: ps).take (k + 1 + 1)) = p ++ d :: joined d ((q :: ps).take (k + 1)) := by
            rw [List.take_succ_cons, List.take_succ_cons, joined]
          rw [this]
          simp
          omega
        · rw [if_neg hk, if_neg (by simp at hk ⊢; omega)]

/-- Taking the parts apart again. -/
theorem joined_split {d : Byte} : ∀ (parts : List Str) (k : Nat), 0 < k → k < parts.length →
    joined d parts = joined d (parts.take k) ++ d :: joined d (parts.drop k) := by
  intro parts
  induction parts with
  | nil => intro k _ h; simp at h
  | cons p ps ih =>
    intro k hk hl
    cases ps with
    | nil => simp at hl; omega
    | cons q ps =>
      cases k with
      | zero => omega
      | succ k =>
        cases k with
        | zero => rfl
        | succ k =>
          rw [joined, ih (k + 1) (by omega) (by simpa using hl)]
          simp [joined]

theorem split_eq (s t : Str) {iv : Val P} {i : BitVec 64} (hi : IsInt iv i) :
    call .split [.string s, .string t, iv] = (splitNthIndex s t i >>= fun r => match r with
      | none => .ok (.string [])
      | some (a, b) => slice s a b >>= fun x => .ok (.string x)) := by
  cases hi <;> rfl

theorem joined_pos {d : Byte} {parts : List Str} {p : Str} {ps : List Str} (hp : parts = p :: ps) (hne : p ≠ []) {k : Nat} (hk : 0 < k) :
    0 < (joined d (parts.take k)).length := by
  subst hp
  have : 0 < p.length := List.length_pos_iff.mpr hne
  obtain ⟨j, rfl⟩ := Nat.exists_eq_succ_of_ne_zero (by omega : k ≠ 0)
  rw [List.take_succ_cons]
  generalize ps.take j = qs
  cases qs with
  | nil => simpa [joined] using this
  | cons q qs =>
    simp [joined]

theorem findNth_joined {d : Byte} {parts : List Str} (hd : ∀ p ∈ parts, d ∉ p) (j : BitVec 64) (k : Nat) (hj : j.toInt = k) (hk : (k : Int) < 2 ^ 63 - 1) :
    findNthIndex (joined d parts) [d] j =
      if k + 1 < parts.length then .ok ((joined d (parts.take (k + 1))).length : Int) else .ok (-1) := by
  rw [findNthIndex, rounds (by omega) (by omega), hj]
  have := findLoop_joined parts hd k 0
  rw [Nat.zero_add] at this
  exact this

/-- Partial: text made of two or more parts by a delimiter of one byte, the first part not empty. Split gives the part of the
    index. Missing: everything the next theorems refute. -/
theorem C53_split_partial {d : Byte} {p : Str} {ps : List Str} (hne : p ≠ []) (hd : ∀ q ∈ p :: ps, d ∉ q) (hps : ps ≠ [])
    {iv : Val P} {i : BitVec 64} (hi : IsInt iv i) {k : Nat} (hk : i.toInt = k) (hlt : (k : Int) < 2 ^ 63 - 1) (h : k < (p :: ps).length) :
    call .split [.string (joined d (p :: ps)), .string [d], iv] = .ok (.string ((p :: ps)[k])) := by
  have hlen : 2 ≤ (p :: ps).length := by
    have := List.length_pos_iff.mpr hps
    simp
    omega
  generalize hparts : p :: ps = parts at *
  have hpos := fun n (hn : 0 < n) => joined_pos (d := d) hparts.symm hne hn
  rw [split_eq _ _ hi, splitNthIndex, findNth_joined hd i k hk hlt]
  have hprev : (k = 0 → findNthIndex (joined d parts) [d] (i - 1) = .ok (-1)) ∧
      (0 < k → findNthIndex (joined d parts) [d] (i - 1) = .ok ((joined d (parts.take k)).length : Int)) := by
    constructor
    · rintro rfl
      rw [findNthIndex, show i - 1 + 1 = i by rw [BitVec.sub_add_cancel], hk]
      rfl
    · intro h0
      obtain ⟨j, rfl⟩ := Nat.exists_eq_succ_of_ne_zero (by omega : k ≠ 0)
      have hj : (i - 1).toInt = j := by
        rw [BitVec.toInt_sub, Int.bmod_def, show (1 : BitVec 64).toInt = 1 from rfl]
        split <;> omega
      rw [findNth_joined hd (i - 1) j hj (by omega), if_pos (by omega)]
  by_cases h0 : k = 0
  · rw [hprev.1 h0]
    subst h0
    rw [if_pos (by omega)]
    have := hpos 1 (by omega)
    have e1 : joined d (parts.take 1) = p := by subst hparts; rfl
    rw [Nat.zero_add] at *
    rw [e1] at this ⊢
    simp only [Res.bind_ok]
    rw [if_neg (by omega), if_pos (by omega)]
    simp only [Res.pure_eq, Res.bind_ok]
    have hj := joined_split (d := d) parts 1 (by omega) (by omega)
    rw [e1] at hj
    rw [slice, if_pos]
    · simp only [Res.bind_ok]
      congr 2
      have : parts[0] = p := by subst hparts; rfl
      rw [this, hj]
      simp
    · refine ⟨by omega, by omega, ?_⟩
      rw [hj]
      simp
      omega
  · have h0' : 0 < k := by omega
    rw [hprev.2 h0']
    have hp1 := hpos k h0'
    have hj := joined_split (d := d) parts k h0' h
    have hdrop : (joined d parts).drop ((joined d (parts.take k)).length + 1) = joined d (parts.drop k) := by
      rw [hj, List.drop_append]
      simp
    by_cases hl : k + 1 < parts.length
    · rw [if_pos hl]
      have hp2 := hpos (k + 1) (by omega)
      simp only [Res.bind_ok]
      rw [if_neg (by omega), if_neg (by omega), if_neg (by omega)]
      simp only [Res.pure_eq, Res.bind_ok, List.length_singleton]
      have hj2 := joined_split (d := d) (parts.take (k + 1)) k h0' (by rw [List.length_take]; omega)
      have e1 : (parts.take (k + 1)).take k = parts.take k := by rw [List.take_take]; congr 1; omega
      have e2 : (parts.take (k + 1)).drop k = [parts[k]] := by
        rw [List.drop_take, show k + 1 - k = 1 by omega, List.drop_eq_getElem_cons h]
        rfl
      rw [e1, e2] at hj2
      have hj3 := joined_split (d := d) parts (k + 1) (by omega) hl
      have hl3 : (joined d parts).length = (joined d (parts.take (k + 1))).length + 1 + (joined d (parts.drop (k + 1))).length := by
        rw [hj3]
        simp
        omega
      have hl2 : (joined d (parts.take (k + 1))).length = (joined d (parts.take k)).length + 1 + (parts[k]).length := by
        rw [hj2]
        simp [joined]
        omega
      rw [slice, if_pos (by omega)]
      simp only [Res.bind_ok]
      congr 2
      have t1 : ((joined d (parts.take (k + 1))).length : Int).toNat = (joined d (parts.take (k + 1))).length := by omega
      have t2 : (((joined d (parts.take k)).length : Int) + (1 : Nat)).toNat = (joined d (parts.take k)).length + 1 := by omega
      rw [t1, t2]
      rw [show List.take (joined d (parts.take (k + 1))).length (joined d parts) = joined d (parts.take (k + 1)) by
        conv => lhs; rw [hj3]
        rw [List.take_left]]
      rw [hj2, List.drop_append]
      simp [joined]
    · rw [if_neg hl]
      simp only [Res.bind_ok]
      rw [if_neg (by omega), if_neg (by omega), if_pos (by omega)]
      simp only [Res.pure_eq, Res.bind_ok, List.length_singleton]
      have e2 : parts.drop k = [parts[k]] := by
        rw [List.drop_eq_getElem_cons h, List.drop_eq_nil_of_le (by omega)]
      rw [slice, if_pos]
      · simp only [Res.bind_ok]
        congr 2
        have t1 : ((joined d parts).length : Int).toNat = (joined d parts).length := by omega
        have t2 : (((joined d (parts.take k)).length : Int) + (1 : Nat)).toNat = (joined d (parts.take k)).length + 1 := by omega
        rw [t1, t2, List.take_length, hdrop, e2]
        rfl
      · refine ⟨by omega, ?_, by omega⟩
        rw [hj]
        simp

example : call (P := P) .split [.string (lit "a,bc,,d"), .string (lit ","), .int32 1] = .ok (.string (lit "bc")) := rfl
example : joined 44#8 [lit "a", lit "bc", [], lit "d"] = lit "a,bc,,d" := rfl

/-- Text that does not contain the delimiter is lost: the only part should be the text itself. -/
theorem C53_split_no_delimiter_false (s t : Str) {iv : Val P} {i : BitVec 64} (hi : IsInt iv i) (h : ∀ j, ¬ OccursAt s t j) :
    call .split [.string s, .string t, iv] = .ok (.string []) := by
  have hn := index?_none.mpr h
  have hf : ∀ n base, findLoop t n base s = .ok (-1) ∨ ∃ b : Nat, n = 0 ∧ findLoop t n base s = .ok ((b : Int) - 1) ∧ b = base := by
    intro n base
    cases n with
    | zero => exact .inr ⟨base, rfl, rfl, rfl⟩
    | succ n => rw [findLoop, hn]; exact .inl rfl
  have hg : ∀ j, findNthIndex s t j = .ok (-1) := by
    intro j
    unfold findNthIndex
    rcases hf (j + 1).toInt.toNat 0 with h | ⟨b, _, h, rfl⟩
    · exact h
    · rw [h]; rfl
  rw [split_eq _ _ hi, splitNthIndex, hg, hg]
  rfl

example : call (P := P) .split [.string (lit "abc"), .string (lit ","), .int32 0] = .ok (.string []) := rfl

/-- A delimiter at the very start is taken for a missing one: `Split(',b', ',', 1)` is empty instead of `b`, `Split(',b,c', ',', 1)` is
    `,b`; overlapping occurrences of the delimiter panic; an index past the end gives the empty text, not null. -/
theorem C53_split_false :
    call (P := P) .split [.string (lit ",b"), .string (lit ","), .int32 1] = .ok (.string []) ∧
    call (P := P) .split [.string (lit ",b,c"), .string (lit ","), .int32 1] = .ok (.string (lit ",b")) ∧
    call (P := P) .split [.string (lit "xaaay"), .string (lit "aa"), .int32 1] = .panic ∧
    call (P := P) .split [.string (lit "a,b"), .string (lit ","), .int32 2] = .ok (.string []) :=
  ⟨rfl, rfl, rfl, rfl⟩

/-! ### No panics -/

theorem convert_boolean (v : Val P) : v.convert .boolean = .err ∨ ∃ w b, v.convert .boolean = .ok w ∧ w.booleanValue = .ok b := by
  cases v <;> first | exact .inl rfl | exact .inr ⟨_, _, rfl, rfl⟩

theorem string_value {v : Val P} (h : v.type = .string) : ∃ s, v.stringValue = .ok s := by
  cases v <;> first | (cases h; done) | exact ⟨_, rfl⟩

theorem textIndex_no_panic (find : Str → Str → Option Nat) (s t c : Val P) : textIndex find s t c ≠ .panic := by
  unfold textIndex
  split
  · simp
  · split
    · simp
    · split
      · simp
      · split
        · simp
        · rename_i h1 h2 _ _
          obtain ⟨x, hx⟩ := string_value (not_not.mp h1)
          obtain ⟨y, hy⟩ := string_value (not_not.mp h2)
          rcases convert_boolean c with h | ⟨w, b, h, hb⟩
          · rw [h]; simp
          · rw [h]
            simp only [Res.bind_ok, hb, hx, hy]
            split <;> simp

/-- IndexOf, LastIndexOf, StrCount, StrCmp and Reverse never panic, whatever the arguments. -/
theorem C53_no_panic (f : Fn) (hf : f ∈ [Fn.indexOf, .lastIndexOf, .strCount, .strCmp, .reverse]) (vs : List (Val P)) : call f vs ≠ .panic := by
  have h23 : ∀ (g : Val P → Val P → Val P → Res (Val P)) (t u w : VT), (∀ a b c, g a b c ≠ .panic) →
      arity23 t u w g (vs.map fun v _ => .ok v) ≠ .panic := by
    intro g t u w hg
    match vs with
    | [] => simp [arity23]
    | [a] => simp [arity23]
    | [a, b] => exact hg a b _
    | [a, b, c] => exact hg a b c
    | a :: b :: c :: d :: vs => simp [arity23]
  simp only [List.mem_cons, List.not_mem_nil, or_false] at hf
  rcases hf with rfl | rfl | rfl | rfl | rfl
  · exact h23 _ _ _ _ (textIndex_no_panic _)
  · exact h23 _ _ _ _ (textIndex_no_panic _)
  · apply h23
    intro s t c
    unfold fnStrCount
    split
    · simp
    · split
      · simp
      · split
        · simp
        · rename_i h1 h2 _
          obtain ⟨x, hx⟩ := string_value (not_not.mp h1)
          obtain ⟨y, hy⟩ := string_value (not_not.mp h2)
          rw [hx, hy]
          simp only [Res.bind_ok]
          split
          · simp
          · rcases convert_boolean c with h | ⟨w, b, h, hb⟩
            · rw [h]; simp
            · rw [h]
              simp only [Res.bind_ok, hb]
              split <;> simp
  · apply h23
    intro s t c
    unfold fnStrCmp
    split
    · simp
    · split
      · simp
      · split
        · simp
        · split
          · simp
          · split
            · simp
            · rename_i h1 h2 _ _ _
              obtain ⟨x, hx⟩ := string_value (not_not.mp h1)
              obtain ⟨y, hy⟩ := string_value (not_not.mp h2)
              rcases convert_boolean c with h | ⟨w, b, h, hb⟩
              · rw [h]; simp
              · rw [h]
                simp only [Res.bind_ok, hb, hx, hy]
                split <;> simp
  · match vs with
    | [] => simp [call, applyFn, arity1]
    | [a] =>
      show textMap reverseRunes a ≠ .panic
      unfold textMap
      split
      · simp
      · split
        · simp
        · rename_i h1 _
          obtain ⟨x, hx⟩ := string_value (not_not.mp h1)
          rw [hx]
          simp
    | a :: b :: vs => simp [call, applyFn, arity1]

end Verif.Expr
