import Verif.Lib.Regexp

/-!
# C140: what regular expressions match

`Between` says what a regular expression matches without any order of search.
-/

namespace Verif.Regexp

open Verif.Expr

/-- The positions where a character begins, and the end: those a search goes through. -/
inductive Boundary (t : Str) : Nat → Prop
  | zero : Boundary t 0
  | step {i : Nat} (h : Boundary t i) (hi : i < t.length) : Boundary t (i + (Utf8.decode (t.drop i)).2)

/-- A letter, a digit or an underscore, the others being no word characters, whatever their language. -/
def IsWord (b : Byte) : Prop := ('0'.toNat ≤ b.toNat ∧ b.toNat ≤ '9'.toNat) ∨ ('A'.toNat ≤ b.toNat ∧ b.toNat ≤ 'Z'.toNat) ∨
  ('a'.toNat ≤ b.toNat ∧ b.toNat ≤ 'z'.toNat) ∨ b.toNat = '_'.toNat

theorem wordByte_iff (b : Byte) : wordByte b = true ↔ IsWord b := by
  unfold wordByte IsWord
  show _ ↔ (48 ≤ b.toNat ∧ b.toNat ≤ 57) ∨ (65 ≤ b.toNat ∧ b.toNat ≤ 90) ∨ (97 ≤ b.toNat ∧ b.toNat ≤ 122) ∨ b.toNat = 95
  simp [or_assoc]

/-- A regular expression matches what is between two positions of a text. -/
def Between (t : Str) : Rx → Nat → Nat → Prop
  | .eps, i, j => j = i
  | .set neg rs, i, j => i < t.length ∧ (¬ (∃ r ∈ rs, r.1 ≤ (Utf8.decode (t.drop i)).1 ∧ (Utf8.decode (t.drop i)).1 ≤ r.2) ↔ neg = true) ∧
      j = i + (Utf8.decode (t.drop i)).2
  | .first, i, j => i = 0 ∧ j = 0
  | .last, i, j => i = t.length ∧ j = t.length
  | .word neg, i, j => j = i ∧ (((∃ b, t[i]? = some b ∧ IsWord b) ↔ ∃ b, 0 < i ∧ t[i - 1]? = some b ∧ IsWord b) ↔ neg = true)
  | .cat a b, i, j => ∃ k, Between t a i k ∧ Between t b k j
  | .alt a b, i, j => Between t a i j ∨ Between t b i j
  | .star _ a, i, j => Relation.ReflTransGen (Between t a) i j
  | .plus _ a, i, j => Relation.TransGen (Between t a) i j
  | .opt _ a, i, j => j = i ∨ Between t a i j

theorem width_pos {t : Str} {i : Nat} (h : i < t.length) : 1 ≤ (Utf8.decode (t.drop i)).2 ∧ i + (Utf8.decode (t.drop i)).2 ≤ t.length := by
  have hne : t.drop i ≠ [] := by
    intro h0
    have := congrArg List.length h0
    simp at this
    omega
  have := Utf8.decode_width hne
  rw [List.length_drop] at this
  omega

theorem Boundary.le {t : Str} {i : Nat} (h : Boundary t i) : i ≤ t.length := by
  induction h with
  | zero => omega
  | step _ hi _ => exact (width_pos hi).2

theorem inSet_iff (neg : Bool) (rs : List (Nat × Nat)) (c : Nat) :
    inSet neg rs c = true ↔ (¬ (∃ r ∈ rs, r.1 ≤ c ∧ c ≤ r.2) ↔ neg = true) := by
  unfold inSet
  have : (rs.any fun r => r.1 ≤ c && c ≤ r.2) = true ↔ ∃ r ∈ rs, r.1 ≤ c ∧ c ≤ r.2 := by simp
  cases hb : (rs.any fun r => r.1 ≤ c && c ≤ r.2) <;> rw [hb] at this <;> cases neg <;> simp at this ⊢ <;> grind

theorem atWord_iff (t : Str) (i : Nat) (neg : Bool) : atWord t i = !neg ↔
    (((∃ b, t[i]? = some b ∧ IsWord b) ↔ ∃ b, 0 < i ∧ t[i - 1]? = some b ∧ IsWord b) ↔ neg = true) := by
  have h1 : wordAt t i = true ↔ ∃ b, t[i]? = some b ∧ IsWord b := by
    unfold wordAt
    simp only [← wordByte_iff]
    cases h : t[i]? <;> simp
  have h2 : (0 < i && wordAt t (i - 1)) = true ↔ ∃ b, 0 < i ∧ t[i - 1]? = some b ∧ IsWord b := by
    unfold wordAt
    simp only [← wordByte_iff]
    cases h : t[i - 1]? <;> simp
  rw [← h1, ← h2]
  unfold atWord
  cases (0 < i && wordAt t (i - 1) : Bool) <;> cases wordAt t i <;> cases neg <;> simp

/-- A match goes forward and ends within the text. -/
theorem Between.le {t : Str} : ∀ {r : Rx} {i j : Nat}, Between t r i j → i ≤ t.length → i ≤ j ∧ j ≤ t.length
  | .eps, i, j, h, hi => by
    have h : j = i := h
    omega
  | .set _ _, i, j, h, _ => by
    obtain ⟨hi, _, rfl⟩ := h
    have := width_pos hi
    omega
  | .first, _, _, ⟨h, h'⟩, _ => by omega
  | .last, _, _, ⟨h, h'⟩, _ => by omega
  | .word _, _, _, ⟨h, _⟩, _ => by omega
  | .cat a b, i, j, ⟨k, ha, hb⟩, hi => by
    have h1 := Between.le ha hi
    have h2 := Between.le hb h1.2
    omega
  | .alt a b, i, j, h, hi => h.elim (fun h => Between.le h hi) fun h => Between.le h hi
  | .star _ a, i, j, h, hi => by
    have h' : Relation.ReflTransGen (Between t a) i j := h
    clear h
    induction h' with
    | refl => omega
    | tail _ hb ih =>
      have := Between.le hb ih.2
      omega
  | .plus _ a, i, j, h, hi => by
    have h' : Relation.TransGen (Between t a) i j := h
    clear h
    induction h' with
    | single hb => exact Between.le hb hi
    | tail _ hb ih =>
      have := Between.le hb ih.2
      omega
  | .opt _ a, i, j, h, hi => by
    rcases h with h | h
    · omega
    · exact Between.le h hi

theorem transGen_step {B : Nat → Nat → Prop} {L i j : Nat} (hB : ∀ i j, B i j → i ≤ L → i ≤ j ∧ j ≤ L) (h : Relation.TransGen B i j) (hi : i ≤ L) :
    B i j ∨ ∃ k, i < k ∧ B i k ∧ Relation.TransGen B k j := by
  induction h using Relation.TransGen.head_induction_on with
  | single h => exact .inl h
  | head h ht ih =>
    rename_i a c
    have := hB _ _ h hi
    by_cases hk : a < c
    · exact .inr ⟨c, hk, h, ht⟩
    · have : c = a := by omega
      subst this
      exact ih hi

theorem mem_loop {B : Nat → Nat → Prop} {L : Nat} (g : Bool) (x : Nat → List Nat) (hx : ∀ i, i ≤ L → ∀ j, j ∈ x i ↔ B i j)
    (hB : ∀ i j, B i j → i ≤ L → i ≤ j ∧ j ≤ L) :
    ∀ n i, i ≤ L → L + 1 - i ≤ n → ∀ j, j ∈ loop g x n i ↔ Relation.TransGen B i j
  | 0, i, hi, hn, _ => by omega
  | n + 1, i, hi, hn, j => by
    rw [loop, List.mem_flatMap]
    constructor
    · rintro ⟨k, hk, hj⟩
      have hik := (hx i hi k).1 hk
      have hle := hB _ _ hik hi
      split at hj
      · rename_i hlt
        have hj : j ∈ loop g x n k ∨ j = k := by
          cases g <;> simp at hj <;> grind
        rcases hj with hj | rfl
        · exact .head hik ((mem_loop g x hx hB n k hle.2 (by omega) j).1 hj)
        · exact .single hik
      · rw [List.mem_singleton] at hj
        subst hj
        exact .single hik
    · intro h
      rcases transGen_step hB h hi with h | ⟨k, hlt, hik, h⟩
      · refine ⟨j, (hx i hi j).2 h, ?_⟩
        split
        · cases g <;> simp
        · simp
      · have hle := hB _ _ hik hi
        refine ⟨k, (hx i hi k).2 hik, ?_⟩
        rw [if_pos hlt]
        have := (mem_loop g x hx hB n k hle.2 (by omega) j).2 h
        cases g <;> simp [this]

/-- The ends that a search finds are those of the matches. -/
theorem mem_ends {t : Str} : ∀ (r : Rx) (i : Nat), i ≤ t.length → ∀ j, j ∈ ends t r i ↔ Between t r i j
  | .eps, i, _, j => by simp [ends, Between]
  | .set neg rs, i, _, j => by
    rw [ends, Between]
    rw [← inSet_iff neg rs (Utf8.decode (t.drop i)).1]
    split <;> simp <;> grind
  | .first, i, _, j => by
    rw [ends, Between]
    split <;> simp <;> omega
  | .last, i, _, j => by
    rw [ends, Between]
    split <;> simp <;> omega
  | .word neg, i, _, j => by
    rw [ends, Between, ← atWord_iff t i neg]
    split <;> simp [*]
  | .cat a b, i, hi, j => by
    rw [ends, Between, List.mem_flatMap]
    constructor
    · rintro ⟨k, hk, hj⟩
      have hk := (mem_ends a i hi k).1 hk
      exact ⟨k, hk, (mem_ends b k (Between.le hk hi).2 j).1 hj⟩
    · rintro ⟨k, hk, hj⟩
      exact ⟨k, (mem_ends a i hi k).2 hk, (mem_ends b k (Between.le hk hi).2 j).2 hj⟩
  | .alt a b, i, hi, j => by
    rw [ends, Between, List.mem_append, mem_ends a i hi, mem_ends b i hi]
  | .star g a, i, hi, j => by
    have h := mem_loop g (ends t a) (fun i hi j => mem_ends a i hi j) (fun i j => Between.le) (t.length + 1 - i) i hi (by omega) j
    rw [Between, Relation.reflTransGen_iff_eq_or_transGen, ← h, ends]
    cases g <;> simp; grind
  | .plus g a, i, hi, j => by
    rw [ends, Between]
    exact mem_loop g (ends t a) (fun i hi j => mem_ends a i hi j) (fun i j => Between.le) (t.length + 1 - i) i hi (by omega) j
  | .opt g a, i, hi, j => by
    rw [ends, Between, ← mem_ends a i hi]
    cases g <;> simp; grind

theorem ends_nil {t : Str} {r : Rx} {i : Nat} (hi : i ≤ t.length) : ends t r i = [] ↔ ∀ j, ¬ Between t r i j := by
  rw [List.eq_nil_iff_forall_not_mem]
  exact forall_congr' fun j => not_congr (mem_ends r i hi j)

theorem boundary_iterate {t : Str} {i : Nat} (h : Boundary t i) :
    ∃ n, i = (fun i => if i < t.length then i + (Utf8.decode (t.drop i)).2 else i)^[n] 0 := by
  induction h with
  | zero => exact ⟨0, rfl⟩
  | step _ hi ih =>
    obtain ⟨n, rfl⟩ := ih
    refine ⟨n + 1, ?_⟩
    rw [Function.iterate_succ_apply', if_pos hi]

theorem iterate_mono {f : Nat → Nat} (hf : ∀ i, i ≤ f i) {n m : Nat} (h : n ≤ m) : f^[n] 0 ≤ f^[m] 0 := by
  induction h with
  | refl => omega
  | step _ ih =>
    rw [Function.iterate_succ_apply']
    exact Nat.le_trans ih (hf _)

/-- The next position after one of a search is the next one where a character begins. -/
theorem Boundary.next {t : Str} {i k : Nat} (hi : Boundary t i) (hlt : i < t.length) (hk : Boundary t k) (h : i < k) :
    i + (Utf8.decode (t.drop i)).2 ≤ k := by
  obtain ⟨n, rfl⟩ := boundary_iterate hi
  obtain ⟨m, rfl⟩ := boundary_iterate hk
  have hf : ∀ i, i ≤ (fun i => if i < t.length then i + (Utf8.decode (t.drop i)).2 else i) i := fun i => by dsimp only; split <;> omega
  by_cases hmn : m ≤ n
  · have := iterate_mono hf hmn
    omega
  · have := iterate_mono hf (Nat.lt_of_not_le hmn)
    rw [Nat.succ_eq_add_one, Function.iterate_succ_apply', if_pos hlt] at this
    exact this

theorem search_spec {t : Str} {r : Rx} : ∀ n i, Boundary t i → t.length + 1 - i ≤ n → (∀ k, Boundary t k → k < i → ∀ j, ¬ Between t r k j) →
    (search t r n i = none → ∀ k, Boundary t k → ∀ j, ¬ Between t r k j) ∧
    ∀ a b, search t r n i = some (a, b) → Boundary t a ∧ (ends t r a).head? = some b ∧ ∀ k, Boundary t k → k < a → ∀ j, ¬ Between t r k j
  | 0, i, hi, hn, _ => by
    have := hi.le
    omega
  | n + 1, i, hi, hn, hbefore => by
    rw [search]
    cases he : ends t r i with
    | cons j js =>
      refine ⟨fun h => by simp at h, fun a b h => ?_⟩
      simp only [Option.some.injEq, Prod.mk.injEq] at h
      obtain ⟨rfl, rfl⟩ := h
      exact ⟨hi, by rw [he]; rfl, hbefore⟩
    | nil =>
      dsimp only
      have hno := (ends_nil hi.le).1 he
      by_cases hl : i < t.length
      · rw [if_pos hl]
        have hw := width_pos hl
        refine search_spec n _ (hi.step hl) (by omega) fun k hk hki => ?_
        by_cases hkl : k < i
        · exact hbefore k hk hkl
        · by_cases hki' : i < k
          · have := hi.next hl hk hki'
            omega
          · have : k = i := by omega
            subst this
            exact hno
      · rw [if_neg hl]
        refine ⟨fun _ k hk => ?_, fun a b h => by cases h⟩
        by_cases hkl : k < i
        · exact hbefore k hk hkl
        · have := hk.le
          have := hi.le
          have : k = i := by omega
          subst this
          exact hno

theorem find_none {t : Str} {r : Rx} : find t r = none ↔ ∀ i, Boundary t i → ∀ j, ¬ Between t r i j := by
  have h := search_spec (t := t) (r := r) (t.length + 1) 0 .zero (by omega) (fun k _ h => by omega)
  refine ⟨h.1, fun hno => ?_⟩
  cases hf : find t r with
  | none => rfl
  | some p =>
    obtain ⟨ha, hb, _⟩ := h.2 p.1 p.2 hf
    exact absurd ((mem_ends r p.1 ha.le p.2).1 (List.mem_of_mem_head? hb)) (hno _ ha _)

theorem find_some {t : Str} {r : Rx} {i j : Nat} (hf : find t r = some (i, j)) :
    Boundary t i ∧ Between t r i j ∧ (ends t r i).head? = some j ∧ ∀ k, Boundary t k → k < i → ∀ j, ¬ Between t r k j := by
  have h := (search_spec (t := t) (r := r) (t.length + 1) 0 .zero (by omega) (fun k _ h => by omega)).2 i j hf
  exact ⟨h.1, (mem_ends r i h.1.le j).1 (List.mem_of_mem_head? h.2.1), h.2.1, h.2.2⟩

variable {R : Lib.Rest}

theorem find_ok {p t : Str} {r : Rx} (hp : compile p = .ok r) : R.withRegexp.regexFind p t = some (find t r) := by
  show regexFind R p t = _
  unfold regexFind
  rw [hp]

/-- C140, matching: `RegExMatch` is true if and only if the pattern matches somewhere in the text. -/
theorem C140_match_partial {p t : Str} {r : Rx} (hp : compile p = .ok r) :
    ∃ b, fnRegEx (P := Lib.go R.withRegexp) (.string p) (.string t) false = .ok (.boolean b) ∧
      (b = true ↔ ∃ i j, Boundary t i ∧ Between t r i j) := by
  refine ⟨(find t r).isSome, ?_, ?_⟩
  · have := find_ok (R := R) (t := t) hp
    simp only [fnRegEx, Val.type, Val.isNull, Val.stringValue]
    simp [this]
  · cases hf : find t r with
    | none =>
      have := find_none.1 hf
      simp
      exact fun i hi j => this i hi j
    | some q =>
      obtain ⟨i, j⟩ := q
      obtain ⟨hi, hb, _⟩ := find_some hf
      simp
      exact ⟨i, hi, j, hb⟩

theorem value_eq {p t : Str} {r : Rx} (hp : compile p = .ok r) : fnRegEx (P := Lib.go R.withRegexp) (.string p) (.string t) true =
    .ok (.string (match find t r with
      | none => []
      | some (i, j) => (t.take j).drop i)) := by
  have := find_ok (R := R) (t := t) hp
  simp only [fnRegEx, Val.type, Val.isNull, Val.stringValue]
  simp [this]
  cases hf : find t r with
  | none => rfl
  | some q =>
    obtain ⟨i, j⟩ := q
    obtain ⟨hi, hb, _⟩ := find_some hf
    have hle := hb.le hi.le
    dsimp only
    unfold slice
    rw [if_pos ⟨by omega, by omega, by omega⟩]
    rfl

/-- C140, the matched text: `RegExVal` returns what the pattern matches at the first place where it matches anything, and the empty text if it matches nowhere. -/
theorem C140_value {p t : Str} {r : Rx} (hp : compile p = .ok r) :
    ∃ v, fnRegEx (P := Lib.go R.withRegexp) (.string p) (.string t) true = .ok (.string v) ∧
      ((∃ i j, Boundary t i ∧ Between t r i j ∧ i ≤ j ∧ j ≤ t.length ∧ v = (t.take j).drop i ∧ ∀ k < i, Boundary t k → ∀ j, ¬ Between t r k j) ∨
        (∀ i, Boundary t i → ∀ j, ¬ Between t r i j) ∧ v = []) := by
  refine ⟨_, value_eq hp, ?_⟩
  cases hf : find t r with
  | none => exact .inr ⟨find_none.1 hf, rfl⟩
  | some q =>
    obtain ⟨i, j⟩ := q
    obtain ⟨hi, hb, _, hno⟩ := find_some hf
    have hle := hb.le hi.le
    exact .inl ⟨i, j, hi, hb, hle.1, hle.2, rfl, fun k hk hb => hno k hb hk⟩

/-- C140, a text that is no regular expression is an error. -/
theorem C140_refused {p t : Str} (hp : compile p = .bad) (b : Bool) :
    fnRegEx (P := Lib.go R.withRegexp) (.string p) (.string t) b = .err := by
  have : R.withRegexp.regexFind p t = none := by
    show regexFind R p t = _
    unfold regexFind
    rw [hp]
  simp only [fnRegEx, Val.type, Val.isNull, Val.stringValue]
  simp [this]

/-! ## Runs -/

theorem loop_run {t : Str} {neg : Bool} {rs : List (Nat × Nat)} : ∀ n i j, t.length + 1 - i ≤ n →
    (loop true (ends t (.set neg rs)) n i).head? = some j → ¬ ∃ k, Between t (.set neg rs) j k
  | 0, i, j, _, h => by simp [loop] at h
  | n + 1, i, j, hn, h => by
    rw [loop] at h
    by_cases hs : i < t.length ∧ inSet neg rs (Utf8.decode (t.drop i)).1 = true
    · have he : ends t (.set neg rs) i = [i + (Utf8.decode (t.drop i)).2] := by rw [ends, if_pos hs]
      have hw := width_pos hs.1
      rw [he, List.flatMap_singleton, if_pos (by omega), if_pos rfl] at h
      cases hl : loop true (ends t (.set neg rs)) n (i + (Utf8.decode (t.drop i)).2) with
      | cons m ms =>
        rw [hl] at h
        exact loop_run n (i + (Utf8.decode (t.drop i)).2) j (by omega) (by rw [hl]; exact h)
      | nil =>
        rw [hl] at h
        have h : i + (Utf8.decode (t.drop i)).2 = j := by simpa using h
        subst h
        rintro ⟨k, hk⟩
        have := (mem_loop true (ends t (.set neg rs)) (fun i hi j => mem_ends _ i hi j) (fun i j => Between.le) n _ hw.2 (by omega) k).2 (.single hk)
        rw [hl] at this
        cases this
    · have he : ends t (.set neg rs) i = [] := by rw [ends, if_neg hs]
      rw [he] at h
      cases h

/-- C140, runs: what a set of characters, repeated once or more, matches is followed by no character of the set, so that `\d+` gives a whole number and not its first
digit. -/
theorem C140_run {t : Str} {neg : Bool} {rs : List (Nat × Nat)} {i j : Nat} (h : find t (.plus true (.set neg rs)) = some (i, j)) :
    Relation.TransGen (Between t (.set neg rs)) i j ∧ ¬ ∃ k, Between t (.set neg rs) j k := by
  obtain ⟨hi, hb, hh, _⟩ := find_some h
  exact ⟨hb, loop_run _ i j (Nat.le_refl _) hh⟩

end Verif.Regexp
