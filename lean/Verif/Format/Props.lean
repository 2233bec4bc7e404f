import Verif.Format.Model
import Mathlib.Data.List.Basic

/-!
# Properties of number formatting (C08)

Specification: `IsGrouped s digits text` says that `text` is the digit text with the separator `s`
inserted exactly at the positions that have a positive multiple of three digits to their right and at least one to their left.
-/

namespace Verif.Format

/-- `text` is `digits` grouped by three from the right with separator `s`. -/
structure IsGrouped (s : Byte) (digits text : List Byte) : Prop where
  /-- Removing the separators gives the digits back. -/
  strip : text.filter (fun b => decide (b ≠ s)) = digits
  /-- Every separator has a digit before it, and a positive multiple of three digits after it. -/
  places : ∀ pre post, text = pre ++ s :: post →
    0 < (pre.filter (fun b => decide (b ≠ s))).length ∧
    0 < (post.filter (fun b => decide (b ≠ s))).length ∧
    3 ∣ (post.filter (fun b => decide (b ≠ s))).length
  /-- There are as many separators as groups need. -/
  count : text.count s = (digits.length - 1) / 3

/-- Separators inserted into a reversed digit list, `k` digits of the current group being done. -/
def ins (s : Byte) : Nat → List Byte → List Byte
  | _, [] => []
  | _, [x] => [x]
  | k, x :: y :: r => if k + 1 = 3 then x :: s :: ins s 0 (y :: r) else x :: ins s (k + 1) (y :: r)

theorem ins_length (s : Byte) (l : List Byte) (k : Nat) (hk : k < 3) (hl : l ≠ []) :
    (ins s k l).length = l.length + (k + (l.length - 1)) / 3 := by
  induction l generalizing k with
  | nil => exact absurd rfl hl
  | cons x r ih =>
    cases r with
    | nil => simp [ins]; omega
    | cons y r =>
      unfold ins
      split
      · rename_i h
        rw [List.length_cons, List.length_cons, ih 0 (by omega) (by simp)]
        simp only [List.length_cons]
        omega
      · rename_i h
        rw [List.length_cons, ih (k + 1) (by omega) (by simp)]
        simp only [List.length_cons]
        omega

theorem setAt_mid (X C : List Byte) (z b : Byte) (n : Nat) (hn : n = X.length + 1) :
    setAt (X ++ z :: C) n b = .ok (X ++ b :: C) := by
  subst hn
  simp [setAt]

theorem snoc_of_length {B : List Byte} {n : Nat} (h : B.length = n + 1) :
    ∃ B' z, B = B' ++ [z] ∧ B'.length = n := by
  have hne : B ≠ [] := by rintro rfl; simp at h
  refine ⟨B.dropLast, B.getLast hne, (List.dropLast_append_getLast hne).symm, ?_⟩
  rw [List.length_dropLast]; omega

theorem formatLoop_eq (inp : List Byte) (s : Byte) (i : Nat) : ∀ (k : Nat) (A B C : List Byte),
    i < inp.length → k < 3 → B.length = (i + 1) + (k + i) / 3 →
    formatLoop inp s i (A.length + B.length) k (A ++ B ++ C) =
      .ok (A ++ (ins s k (inp.take (i + 1)).reverse).reverse ++ C) := by
  induction i with
  | zero =>
    intro k A B C hi hk hlen
    have hk0 : B.length = 0 + 1 := by omega
    obtain ⟨B', z, rfl, hB'⟩ := snoc_of_length hk0
    have hB0 : B' = [] := List.length_eq_zero_iff.mp hB'
    subst hB0
    unfold formatLoop
    have hget : inp[0]? = some inp[0] := List.getElem?_eq_getElem hi
    have ht : inp.take (0 + 1) = [inp[0]] := by
      rw [List.take_add_one, hget]; simp
    simp only [hget, Res.bind_ok, List.nil_append, List.append_assoc, List.singleton_append]
    rw [setAt_mid _ _ _ _ _ (by simp), Res.bind_ok, ht]
    simp [ins]
  | succ i ih =>
    intro k A B C hi hk hlen
    unfold formatLoop
    have hget : inp[i + 1]? = some inp[i + 1] := List.getElem?_eq_getElem hi
    have ht : inp.take (i + 1 + 1) = inp.take (i + 1) ++ [inp[i + 1]] := by
      rw [List.take_add_one, hget]; rfl
    obtain ⟨y, r, hyr⟩ : ∃ y r, (inp.take (i + 1)).reverse = y :: r := by
      cases h : (inp.take (i + 1)).reverse with
      | nil =>
        have := congrArg List.length h
        rw [List.length_reverse, List.length_take, List.length_nil] at this
        omega
      | cons y r => exact ⟨y, r, rfl⟩
    obtain ⟨B', z, rfl, hB'⟩ := snoc_of_length (B := B) (n := (i + 1) + (k + (i + 1)) / 3)
      (by omega)
    simp only [hget, Res.bind_ok]
    have e1 : A ++ (B' ++ [z]) ++ C = (A ++ B') ++ z :: C := by simp
    rw [e1, setAt_mid _ _ _ _ _ (by simp; omega), Res.bind_ok, ht, List.reverse_append,
      List.reverse_singleton, List.singleton_append]
    by_cases hk3 : k + 1 = 3
    · obtain ⟨B'', w, rfl, hB''⟩ := snoc_of_length (n := (i + 1) + (0 + i) / 3) (B := B') (by omega)
      simp only [hk3, if_true]
      have e2 : A ++ (B'' ++ [w]) ++ inp[i + 1] :: C = (A ++ B'') ++ w :: (inp[i + 1] :: C) := by
        simp
      rw [e2, setAt_mid _ _ _ _ _ (by simp; omega), Res.bind_ok]
      have e3 : A.length + (B'' ++ [w] ++ [z]).length - 1 - 1 = A.length + B''.length := by
        simp
      rw [e3, ih 0 A B'' (s :: inp[i + 1] :: C) (by omega) (by omega) hB'', hyr]
      simp [ins, hk3]
    · simp only [hk3, if_false]
      have e3 : A.length + (B' ++ [z]).length - 1 = A.length + B'.length := by
        simp
      rw [e3, ih (k + 1) A B' (inp[i + 1] :: C) (by omega) (by omega) (by omega), hyr]
      simp [ins, hk3]

theorem formatNumber_eq (inp A B : List Byte) (s : Byte) (hne : inp ≠ [])
    (hB : B.length = inp.length + (inp.length - 1) / 3) :
    formatNumber inp (A ++ B) s = .ok (A ++ (ins s 0 inp.reverse).reverse) := by
  unfold formatNumber
  cases hlen : inp.length with
  | zero => exact absurd (List.length_eq_zero_iff.mp hlen) hne
  | succ n =>
    have := formatLoop_eq inp s n 0 A B [] (by omega) (by omega) (by omega)
    simp only [List.append_nil] at this
    simp only [List.length_append]
    rw [this, List.take_of_length_le (by omega)]

/-- The specification holds of the reversed insertion. -/
theorem ins_filter (s : Byte) (l : List Byte) (k : Nat) (hs : s ∉ l) :
    (ins s k l).filter (fun b => decide (b ≠ s)) = l := by
  induction l generalizing k with
  | nil => rfl
  | cons x r ih =>
    have hx : x ≠ s := fun e => hs (e ▸ List.mem_cons_self)
    cases r with
    | nil => simp [ins, hx]
    | cons y r =>
      have hr : s ∉ y :: r := fun h => hs (List.mem_cons_of_mem _ h)
      unfold ins
      split
      · rw [List.filter_cons_of_pos (by simp [hx]), List.filter_cons_of_neg (by simp), ih 0 hr]
      · rw [List.filter_cons_of_pos (by simp [hx]), ih (k + 1) hr]

theorem ins_places (s : Byte) (l : List Byte) (k : Nat) (hk : k < 3) (hs : s ∉ l) :
    ∀ pre post, ins s k l = pre ++ s :: post →
      0 < (post.filter (fun b => decide (b ≠ s))).length ∧
      0 < (pre.filter (fun b => decide (b ≠ s))).length ∧
      3 ∣ k + (pre.filter (fun b => decide (b ≠ s))).length := by
  induction l generalizing k with
  | nil => intro pre post h; simp [ins] at h
  | cons x r ih =>
    intro pre post h
    have hx : x ≠ s := fun e => hs (e ▸ List.mem_cons_self)
    cases r with
    | nil =>
      cases pre with
      | nil => simp [ins] at h; exact absurd h.1 hx
      | cons p ps => simp [ins] at h
    | cons y r =>
      have hr : s ∉ y :: r := fun h => hs (List.mem_cons_of_mem _ h)
      cases pre with
      | nil =>
        unfold ins at h
        split at h <;> (simp at h; exact absurd h.1 hx)
      | cons p ps =>
        unfold ins at h
        split at h
        · rename_i hk3
          rw [List.cons_append, List.cons.injEq] at h
          obtain ⟨rfl, h⟩ := h
          cases ps with
          | nil =>
            rw [List.nil_append, List.cons.injEq] at h
            obtain ⟨_, rfl⟩ := h
            rw [ins_filter s _ 0 hr]
            simp [hx, hk3]
          | cons q qs =>
            rw [List.cons_append, List.cons.injEq] at h
            obtain ⟨rfl, h⟩ := h
            obtain ⟨h1, h2, h3⟩ := ih 0 (by omega) hr qs post h
            refine ⟨h1, ?_, ?_⟩
            · simp [hx]
            · rw [List.filter_cons_of_pos (by simp [hx]), List.filter_cons_of_neg (by simp),
                List.length_cons]
              omega
        · rw [List.cons_append, List.cons.injEq] at h
          obtain ⟨rfl, h⟩ := h
          obtain ⟨h1, h2, h3⟩ := ih (k + 1) (by omega) hr ps post h
          refine ⟨h1, ?_, ?_⟩
          · simp [hx]
          · rw [List.filter_cons_of_pos (by simp [hx]), List.length_cons]
            omega

theorem filter_count (s : Byte) (l : List Byte) :
    l.length = (l.filter (fun b => decide (b ≠ s))).length + l.count s := by
  induction l with
  | nil => rfl
  | cons x l ih =>
    by_cases hx : x = s
    · subst hx
      rw [List.filter_cons_of_neg (by simp), List.count_cons_self, List.length_cons]; omega
    · rw [List.filter_cons_of_pos (by simp [hx]), List.count_cons_of_ne hx, List.length_cons,
        List.length_cons]
      omega

theorem ins_isGrouped (s : Byte) (l : List Byte) (hs : s ∉ l) (hne : l ≠ []) :
    IsGrouped s l (ins s 0 l.reverse).reverse := by
  have hs' : s ∉ l.reverse := by simpa using hs
  refine ⟨?_, ?_, ?_⟩
  · rw [List.filter_reverse, ins_filter s _ _ hs', List.reverse_reverse]
  · intro pre post h
    have h2 : ins s 0 l.reverse = post.reverse ++ s :: pre.reverse := by
      have := congrArg List.reverse h
      simpa using this
    obtain ⟨h3, h4, h5⟩ := ins_places s _ 0 (by omega) hs' _ _ h2
    simp only [List.filter_reverse, List.length_reverse, Nat.zero_add] at h3 h4 h5
    exact ⟨h3, h4, h5⟩
  · have h1 := filter_count s (ins s 0 l.reverse)
    rw [ins_filter s _ _ hs', ins_length s _ 0 (by omega) (by simpa using hne)] at h1
    rw [List.count_reverse]
    simp only [List.length_reverse] at h1
    omega

theorem decimal_ne_nil (n : Nat) : decimal n ≠ [] := by
  unfold decimal
  split <;> simp

theorem decimal_digits (n : Nat) : ∀ b ∈ decimal n, 48 ≤ b.toNat ∧ b.toNat ≤ 57 := by
  induction n using Nat.strongRecOn with
  | ind n ih =>
    unfold decimal
    split
    · intro b hb
      simp only [List.mem_singleton] at hb
      subst hb
      rw [BitVec.toNat_ofNat]
      omega
    · intro b hb
      rw [List.mem_append] at hb
      rcases hb with hb | hb
      · exact ih (n / 10) (by omega) b hb
      · simp only [List.mem_singleton] at hb
        subst hb
        rw [BitVec.toNat_ofNat]
        omega

/-- Reading decimal text back. -/
def readDecimal (l : List Byte) : Nat := l.foldl (fun a b => a * 10 + (b.toNat - 48)) 0

/-- The decimal text of a number reads back as the number (so `decimal` means what it should). -/
theorem readDecimal_decimal (n : Nat) : readDecimal (decimal n) = n := by
  induction n using Nat.strongRecOn with
  | ind n ih =>
    unfold decimal
    split
    · simp only [readDecimal, List.foldl_cons, List.foldl_nil, BitVec.toNat_ofNat]
      omega
    · have h := ih (n / 10) (by omega)
      unfold readDecimal at h ⊢
      rw [List.foldl_append, h]
      simp only [List.foldl_cons, List.foldl_nil, BitVec.toNat_ofNat]
      omega

/-- **C08 (unsigned).** For every 64-bit value and every separator that is not a decimal digit,
formatting does not panic and yields the plain decimal text grouped by three. -/
theorem C08_uint64 (n : BitVec 64) (s : Byte) (hs : s.toNat < 48 ∨ 57 < s.toNat) :
    ∃ text, uint64With n s = .ok text ∧ IsGrouped s (decimal n.toNat) text := by
  have hnot : s ∉ decimal n.toNat := by
    intro h
    have := decimal_digits _ s h
    omega
  refine ⟨_, ?_, ins_isGrouped s _ hnot (decimal_ne_nil _)⟩
  have := formatNumber_eq (decimal n.toNat) [] (List.replicate ((decimal n.toNat).length +
    ((decimal n.toNat).length - 1) / 3) 0#8) s (decimal_ne_nil _) (by simp)
  simpa [uint64With] using this

/-- **C08 (signed).** The same for every signed 64-bit value; the sign of a negative number stays in
front and the separator may be any byte that is not a decimal digit. -/
theorem C08_int64 (i : BitVec 64) (s : Byte) (hs : s.toNat < 48 ∨ 57 < s.toNat) :
    ∃ text, IsGrouped s (decimal i.toInt.natAbs) text ∧
      int64With i s = .ok (if i.toInt < 0 then 45#8 :: text else text) := by
  have hnot : s ∉ decimal i.toInt.natAbs := by
    intro h
    have := decimal_digits _ s h
    omega
  refine ⟨_, ins_isGrouped s _ hnot (decimal_ne_nil _), ?_⟩
  unfold int64With formatInt
  by_cases hneg : i.toInt < 0
  · simp only [hneg, if_true, List.length_cons, Nat.add_sub_cancel, List.drop_one, List.tail_cons]
    generalize hd : decimal i.toInt.natAbs = d
    have hdne : d ≠ [] := hd ▸ decimal_ne_nil _
    have e : List.replicate (d.length + 1 + (d.length - 1) / 3) 0#8
        = [] ++ 0#8 :: List.replicate (d.length + (d.length - 1) / 3) 0#8 := by
      rw [List.nil_append, ← List.replicate_succ]
      congr 1
      omega
    rw [e, setAt_mid _ _ _ _ 1 rfl, Res.bind_ok]
    have := formatNumber_eq d [45#8] (List.replicate (d.length + (d.length - 1) / 3) 0#8) s hdne
      (by simp)
    simpa using this
  · simp only [hneg, if_false]
    generalize hd : decimal i.toInt.natAbs = d
    have hdne : d ≠ [] := hd ▸ decimal_ne_nil _
    have := formatNumber_eq d [] (List.replicate (d.length + (d.length - 1) / 3) 0#8) s hdne
      (by simp)
    simpa using this

/-- The comma meets the hypothesis; -1234567 becomes "-1,234,567". -/
example : ((44#8 : Byte).toNat < 48 ∨ 57 < (44#8 : Byte).toNat) ∧
    int64With (BitVec.ofInt 64 (-1234567)) 44#8
      = .ok [45#8, 49#8, 44#8, 50#8, 51#8, 52#8, 44#8, 53#8, 54#8, 55#8] := by
  refine ⟨by decide, ?_⟩
  have h : (BitVec.ofInt 64 (-1234567)).toInt = -1234567 := by decide
  unfold int64With formatInt
  rw [h]
  simp [decimal, formatNumber, formatLoop, setAt]

end Verif.Format
