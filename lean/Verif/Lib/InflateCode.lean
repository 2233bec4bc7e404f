import Verif.Lib.InflateSpec
import Mathlib.Tactic.Linarith
import Mathlib.Algebra.BigOperators.Group.List.Basic

/-!
# Bits and codes: the readers of `Lib.Inflate` against RFC 1951
-/

namespace Verif.Lib.Gzip

open Rfc

/-! ## Bits -/

theorem lsb_length (n v : Nat) : (lsb n v).length = n := by simp [lsb]

theorem lsb_succ (n v : Nat) : lsb (n + 1) v = v.testBit 0 :: lsb n (v / 2) := by
  unfold lsb
  rw [List.range_succ_eq_map, List.map_cons, List.map_map]
  congr 1
  apply List.map_congr_left
  intro i _
  simp [Nat.testBit_succ]

theorem number_lsb : ∀ n v : Nat, number (lsb n v) = v % 2 ^ n
  | 0, v => by simp [lsb, number, Nat.mod_one]
  | n + 1, v => by
    rw [lsb_succ, number, number_lsb n, Nat.testBit_zero, Nat.pow_succ', Nat.mod_mul]
    congr 1
    have := Nat.mod_two_eq_zero_or_one v
    rcases this with h | h <;> simp [h]

theorem number_lt : ∀ l : List Bool, number l < 2 ^ l.length
  | [] => by simp [number]
  | b :: l => by
    have := number_lt l
    rw [number, List.length_cons, Nat.pow_succ']
    cases b <;> simp <;> omega

theorem lsb_number : ∀ l : List Bool, lsb l.length (number l) = l
  | [] => rfl
  | b :: l => by
    rw [List.length_cons, lsb_succ, number]
    have h1 : (b.toNat + 2 * number l).testBit 0 = b := by
      rw [Nat.testBit_zero]; cases b <;> simp
    have h2 : (b.toNat + 2 * number l) / 2 = number l := by cases b <;> simp <;> omega
    rw [h1, h2, lsb_number l]

theorem take_iff (n v : Nat) (l r : List Bool) : take n l = some (v, r) ↔ v < 2 ^ n ∧ l = lsb n v ++ r := by
  unfold take
  constructor
  · intro h
    split at h
    · cases h
    · rename_i hl
      have hlen : (l.take n).length = n := by rw [List.length_take]; omega
      injection h with h
      injection h with h1 h2
      subst h1 h2
      have a := number_lt (l.take n)
      have b := lsb_number (l.take n)
      rw [hlen] at a b
      exact ⟨a, by rw [b, List.take_append_drop]⟩
  · rintro ⟨h1, rfl⟩
    rw [if_neg (by rw [List.length_append, lsb_length]; omega), List.take_left' (lsb_length n v), List.drop_left' (lsb_length n v), number_lsb,
      Nat.mod_eq_of_lt h1]

theorem bitsOf_eq (l : List Byte) : bitsOf l = bytes l := rfl

theorem bytes_cons (b : Byte) (l : List Byte) : bytes (b :: l) = lsb 8 b.toNat ++ bytes l := rfl

theorem bytes_append (l m : List Byte) : bytes (l ++ m) = bytes l ++ bytes m := List.flatMap_append

theorem bytes_length (l : List Byte) : (bytes l).length = 8 * l.length := by
  induction l with
  | nil => rfl
  | cons b l ih => rw [bytes_cons, List.length_append, ih, lsb_length, List.length_cons]; omega

theorem takeByte_iff (b : Byte) (l r : List Bool) : takeByte l = some (b, r) ↔ l = lsb 8 b.toNat ++ r := by
  unfold takeByte
  constructor
  · intro h
    split at h
    · cases h
    · rename_i v m hm
      injection h with h
      injection h with h1 h2
      subst h1 h2
      obtain ⟨h3, h4⟩ := (take_iff _ _ _ _).mp hm
      rw [h4, BitVec.toNat_ofNat, Nat.mod_eq_of_lt h3]
  · rintro rfl
    rw [(take_iff 8 b.toNat _ r).mpr ⟨b.isLt, rfl⟩]
    simp

theorem takeBytes_iff : ∀ (n : Nat) (bs : List Byte) (l r : List Bool), takeBytes n l = some (bs, r) ↔ bs.length = n ∧ l = bytes bs ++ r
  | 0, bs, l, r => by
    simp only [takeBytes, Option.some.injEq, Prod.mk.injEq]
    constructor
    · rintro ⟨rfl, rfl⟩; exact ⟨rfl, rfl⟩
    · rintro ⟨h1, h2⟩
      rw [List.length_eq_zero_iff] at h1
      subst h1
      exact ⟨rfl, h2⟩
  | n + 1, bs, l, r => by
    rw [takeBytes]
    constructor
    · intro h
      split at h
      · cases h
      · rename_i b m hm
        split at h
        · cases h
        · rename_i bs' m' hm'
          injection h with h
          injection h with h1 h2
          subst h1 h2
          obtain ⟨a1, a2⟩ := (takeBytes_iff n bs' m m').mp hm'
          have a3 := (takeByte_iff b l m).mp hm
          exact ⟨by rw [List.length_cons, a1], by rw [a3, a2, bytes_cons, List.append_assoc]⟩
    · rintro ⟨h1, rfl⟩
      cases bs with
      | nil => simp at h1
      | cons b bs =>
        rw [(takeByte_iff b _ (bytes bs ++ r)).mpr (by rw [bytes_cons, List.append_assoc])]
        dsimp only
        rw [(takeBytes_iff n bs _ r).mpr ⟨by simpa using h1, rfl⟩]

/-! ## The room of codes -/

theorem sum_le_sum {f g : Nat → Nat} (l : List Nat) (h : ∀ n ∈ l, f n ≤ g n) : (l.map f).sum ≤ (l.map g).sum := by
  induction l with
  | nil => simp
  | cons a l ih =>
    have h1 := h a (by simp)
    have h2 := ih fun n hn => h n (by simp [hn])
    simp only [List.map_cons, List.sum_cons]
    omega

theorem sum_add (f g : Nat → Nat) (l : List Nat) : (l.map fun n => f n + g n).sum = (l.map f).sum + (l.map g).sum := by
  induction l with
  | nil => rfl
  | cons a l ih => simp only [List.map_cons, List.sum_cons, ih]; omega

theorem sum_take_le (f : Nat → Nat) (l : List Nat) (s : Nat) : ((l.take s).map f).sum ≤ (l.map f).sum := by
  conv_rhs => rw [← List.take_append_drop s l]
  rw [List.map_append, List.sum_append]
  omega

theorem sum_take_succ (f : Nat → Nat) (l : List Nat) (s : Nat) (h : s < l.length) :
    ((l.take (s + 1)).map f).sum = ((l.take s).map f).sum + f (l.getD s 0) := by
  rw [List.take_add_one, List.getElem?_eq_getElem h, List.map_append, List.sum_append]
  rw [List.getD_eq_getElem?_getD, List.getElem?_eq_getElem h]
  rfl

theorem sum_take_mono (f : Nat → Nat) (l : List Nat) (s t : Nat) (h : s ≤ t) : ((l.take s).map f).sum ≤ ((l.take t).map f).sum := by
  have : l.take s = (l.take t).take s := by rw [List.take_take, Nat.min_eq_left h]
  rw [this]
  exact sum_take_le f _ s

theorem coded_lt {lens : List Nat} {s : Nat} (h : Coded lens s) : s < lens.length := by
  unfold Coded at h
  rw [List.getD_eq_getElem?_getD] at h
  by_contra hx
  rw [List.getElem?_eq_none (by omega)] at h
  exact h rfl

/-- `t` comes before `s` in the order of the codes. -/
def Before (lens : List Nat) (t s : Nat) : Prop := lens.getD t 0 < lens.getD s 0 ∨ lens.getD t 0 = lens.getD s 0 ∧ t < s

theorem start_before {lens : List Nat} {t s : Nat} (ht : Coded lens t) (h : Before lens t s) :
    start lens t + room (lens.getD t 0) ≤ start lens s := by
  unfold start
  have htl := coded_lt ht
  rcases h with h | ⟨h, hts⟩
  · have h1 := sum_take_succ (fun n => if n = lens.getD t 0 then room n else 0) lens t htl
    rw [if_pos rfl] at h1
    have h2 := sum_take_le (fun n => if n = lens.getD t 0 then room n else 0) lens (t + 1)
    have h3 := sum_add (fun n => if n < lens.getD t 0 then room n else 0) (fun n => if n = lens.getD t 0 then room n else 0) lens
    have h4 : (lens.map fun n => (if n < lens.getD t 0 then room n else 0) + if n = lens.getD t 0 then room n else 0).sum ≤
        (lens.map fun n => if n < lens.getD s 0 then room n else 0).sum := by
      apply sum_le_sum
      intro n _
      split_ifs <;> omega
    omega
  · have h1 := sum_take_succ (fun n => if n = lens.getD t 0 then room n else 0) lens t htl
    rw [if_pos rfl] at h1
    have h2 := sum_take_mono (fun n => if n = lens.getD t 0 then room n else 0) lens (t + 1) s (by omega)
    rw [← h]
    omega

theorem start_room {lens : List Nat} {s : Nat} (hs : Coded lens s) : start lens s + room (lens.getD s 0) ≤ (lens.map room).sum := by
  unfold start
  have h1 := sum_take_succ (fun n => if n = lens.getD s 0 then room n else 0) lens s (coded_lt hs)
  rw [if_pos rfl] at h1
  have h2 := sum_take_le (fun n => if n = lens.getD s 0 then room n else 0) lens (s + 1)
  have h3 := sum_add (fun n => if n < lens.getD s 0 then room n else 0) (fun n => if n = lens.getD s 0 then room n else 0) lens
  have h4 : (lens.map fun n => (if n < lens.getD s 0 then room n else 0) + if n = lens.getD s 0 then room n else 0).sum ≤
      (lens.map room).sum := by
    apply sum_le_sum
    intro n _
    split_ifs <;> omega
  omega

/-! ## The codes of `huffmanDecoder.init` -/

theorem room_count (lens : List Nat) (n : Nat) (hn : n ≠ 0) : (lens.map fun k => if k = n then room k else 0).sum = lens.count n * 2 ^ (15 - n) := by
  induction lens with
  | nil => simp
  | cons a l ih =>
    rw [List.map_cons, List.sum_cons, ih, List.count_cons]
    by_cases h : a = n
    · subst h
      simp only [if_true, room, if_neg hn, beq_self_eq_true]
      rw [Nat.add_mul]; omega
    · simp [h]

theorem nextCode_room (lens : List Nat) : ∀ n, n ≤ 14 → nextCode lens (n + 1) * 2 ^ (15 - (n + 1)) = (lens.map fun k => if k < n + 1 then room k else 0).sum
  | 0, _ => by
    have : (lens.map fun k => if k < 0 + 1 then room k else 0) = lens.map fun _ => 0 := by
      apply List.map_congr_left
      intro k _
      split_ifs with h
      · unfold room; rw [if_pos (by omega)]
      · rfl
    rw [this]
    simp [nextCode]
  | n + 1, hn => by
    have ih := nextCode_room lens n (by omega)
    rw [nextCode]
    have e : 2 ^ (15 - (n + 1)) = 2 * 2 ^ (15 - (n + 1 + 1)) := by
      rw [← Nat.pow_succ']; congr 1; omega
    have h1 := room_count lens (n + 1) (by omega)
    have h2 := sum_add (fun k => if k < n + 1 then room k else 0) (fun k => if k = n + 1 then room k else 0) lens
    have h3 : (lens.map fun k => (if k < n + 1 then room k else 0) + if k = n + 1 then room k else 0) =
        lens.map fun k => if k < n + 1 + 1 then room k else 0 := by
      apply List.map_congr_left
      intro k _
      split_ifs <;> omega
    rw [← h3, h2, ← ih, h1, e]
    ring

theorem start_eq {lens : List Nat} {s : Nat} (hs : Coded lens s) (h15 : lens.getD s 0 ≤ 15) :
    start lens s = (nextCode lens (lens.getD s 0) + (lens.take s).count (lens.getD s 0)) * 2 ^ (15 - lens.getD s 0) := by
  unfold start
  generalize hn : lens.getD s 0 = n at *
  have hn0 : n ≠ 0 := by rw [← hn]; exact hs
  obtain ⟨m, rfl⟩ : ∃ m, n = m + 1 := ⟨n - 1, by omega⟩
  rw [← nextCode_room lens m (by omega), room_count _ _ hn0]
  ring

theorem codeBits_eq {lens : List Nat} {s : Nat} (hs : Coded lens s) (h15 : lens.getD s 0 ≤ 15) :
    codeBits (lens.getD s 0) (nextCode lens (lens.getD s 0) + (lens.take s).count (lens.getD s 0)) = code lens s := by
  unfold codeBits code
  rw [start_eq hs h15]
  generalize hn : lens.getD s 0 = n at *
  apply List.map_congr_left
  intro j hj
  rw [List.mem_range] at hj
  rw [Nat.testBit_mul_two_pow]
  have : 15 - n ≤ 14 - j := by omega
  simp only [this, decide_true, Bool.true_and]
  congr 1
  omega

theorem tableFrom_mem (lens : List Nat) (h15 : ∀ n ∈ lens, n ≤ 15) : ∀ (i : Nat) (rest : List Nat), lens.drop i = rest →
    ∀ c, c ∈ tableFrom lens i rest ↔ ∃ s, i ≤ s ∧ Coded lens s ∧ c = (code lens s, s)
  | i, [], h, c => by
    simp only [tableFrom, List.not_mem_nil, false_iff]
    rintro ⟨s, h1, h2, -⟩
    have := coded_lt h2
    have : (lens.drop i).length = 0 := by rw [h]; rfl
    rw [List.length_drop] at this
    omega
  | i, n :: rest, h, c => by
    have hil : i < lens.length := by
      have : (lens.drop i).length = rest.length + 1 := by rw [h]; rfl
      rw [List.length_drop] at this
      omega
    have hget : lens.getD i 0 = n := by
      have := List.drop_eq_getElem_cons hil
      rw [h] at this
      injection this with h1 h2
      rw [List.getD_eq_getElem?_getD, List.getElem?_eq_getElem hil, Option.getD_some, h1]
    have hdrop : lens.drop (i + 1) = rest := by
      have := List.drop_eq_getElem_cons hil
      rw [h] at this
      injection this with h1 h2
      exact h2.symm
    have ih := tableFrom_mem lens h15 (i + 1) rest hdrop c
    rw [tableFrom]
    split_ifs with hn
    · rw [ih]
      constructor
      · rintro ⟨s, h1, h2, h3⟩; exact ⟨s, by omega, h2, h3⟩
      · rintro ⟨s, h1, h2, h3⟩
        refine ⟨s, ?_, h2, h3⟩
        rcases Nat.lt_or_ge i s with hlt | hge
        · exact hlt
        · have : s = i := by omega
          subst this
          exact absurd (hget.trans hn) h2
    · have hc : Coded lens i := by unfold Coded; rw [hget]; exact hn
      have h15' : lens.getD i 0 ≤ 15 := by
        apply h15
        rw [List.getD_eq_getElem?_getD, List.getElem?_eq_getElem hil]
        exact List.getElem_mem hil
      have hcb := codeBits_eq hc h15'
      rw [hget] at hcb
      rw [List.mem_cons, ih, hcb]
      constructor
      · rintro (rfl | ⟨s, h1, h2, h3⟩)
        · exact ⟨i, le_refl _, hc, rfl⟩
        · exact ⟨s, by omega, h2, h3⟩
      · rintro ⟨s, h1, h2, h3⟩
        rcases Nat.lt_or_ge i s with hlt | hge
        · exact Or.inr ⟨s, hlt, h2, h3⟩
        · have : s = i := by omega
          subst this
          exact Or.inl h3

theorem table_mem (lens : List Nat) (h15 : ∀ n ∈ lens, n ≤ 15) (c : List Bool × Nat) : c ∈ table lens ↔ ∃ s, Coded lens s ∧ c = (code lens s, s) := by
  rw [table, tableFrom_mem lens h15 0 lens rfl]
  simp

/-! ## Codes are told apart -/

theorem code_length (lens : List Nat) (s : Nat) : (code lens s).length = lens.getD s 0 := by simp [code]

theorem quotient_of_bits {x y n : Nat} (hx : x < 2 ^ 15) (hy : y < 2 ^ 15) (hn : n ≤ 15) (h : ∀ j, j < n → x.testBit (14 - j) = y.testBit (14 - j)) :
    x / 2 ^ (15 - n) = y / 2 ^ (15 - n) := by
  apply Nat.eq_of_testBit_eq
  intro i
  rw [Nat.testBit_div_two_pow, Nat.testBit_div_two_pow]
  by_cases hi : i < n
  · have := h (n - 1 - i) (by omega)
    rw [show 14 - (n - 1 - i) = i + (15 - n) from by omega] at this
    exact this
  · have hz : ∀ z, z < 2 ^ 15 → z.testBit (i + (15 - n)) = false := by
      intro z hz
      apply Nat.testBit_lt_two_pow
      exact Nat.lt_of_lt_of_le hz (Nat.pow_le_pow_right (by omega) (by omega))
    rw [hz x hx, hz y hy]

/-- At most all sequences are used. -/
def Fits (lens : List Nat) : Prop := (∀ n ∈ lens, n ≤ 15) ∧ (lens.map room).sum ≤ 2 ^ 15

theorem Fits.le {lens : List Nat} (h : Fits lens) (s : Nat) : lens.getD s 0 ≤ 15 := by
  rw [List.getD_eq_getElem?_getD]
  cases hg : lens[s]? with
  | none => simp
  | some n => exact h.1 n (List.mem_of_getElem? hg)

theorem room_pos {n : Nat} (h : n ≠ 0) : 0 < room n := by
  unfold room; rw [if_neg h]; exact Nat.pow_pos (by decide)

theorem start_lt {lens : List Nat} {s : Nat} (hf : Fits lens) (hs : Coded lens s) : start lens s < 2 ^ 15 := by
  have := start_room hs
  have h2 := room_pos hs
  have h3 := hf.2
  omega

theorem not_prefix_before {lens : List Nat} {s t : Nat} (hf : Fits lens) (hs : Coded lens s) (ht : Coded lens t) (h : Before lens s t) :
    ¬ code lens s <+: code lens t := by
  intro hp
  have hn : lens.getD s 0 ≤ lens.getD t 0 := by rcases h with h | ⟨h, -⟩ <;> omega
  have hq : start lens s / 2 ^ (15 - lens.getD s 0) = start lens t / 2 ^ (15 - lens.getD s 0) := by
    apply quotient_of_bits (start_lt hf hs) (start_lt hf ht) (hf.le s)
    intro j hj
    obtain ⟨m, hm⟩ := hp
    have h1 : (code lens s)[j]? = (code lens t)[j]? := by
      rw [← hm, List.getElem?_append_left (by rw [code_length]; exact hj)]
    unfold code at h1
    rw [List.getElem?_map, List.getElem?_map, List.getElem?_range hj, List.getElem?_range (by omega)] at h1
    simpa using h1
  have hb := start_before hs h
  have hse := start_eq hs (hf.le s)
  generalize nextCode lens (lens.getD s 0) + (lens.take s).count (lens.getD s 0) = c at hse
  have hr : room (lens.getD s 0) = 2 ^ (15 - lens.getD s 0) := by unfold room; rw [if_neg hs]
  have hpos : 0 < 2 ^ (15 - lens.getD s 0) := Nat.pow_pos (by decide)
  rw [hse, Nat.mul_div_cancel _ hpos] at hq
  rw [hr, hse] at hb
  have : start lens t < (c + 1) * 2 ^ (15 - lens.getD s 0) := by
    rw [hq, ← Nat.div_lt_iff_lt_mul hpos]
    omega
  rw [Nat.add_mul, Nat.one_mul] at this
  omega

theorem prefix_same {lens : List Nat} {s t : Nat} (hf : Fits lens) (hs : Coded lens s) (ht : Coded lens t) (h : code lens s <+: code lens t) : s = t := by
  by_contra hne
  have hl := h.length_le
  rw [code_length, code_length] at hl
  rcases Nat.lt_or_ge (lens.getD s 0) (lens.getD t 0) with hlt | hge
  · exact not_prefix_before hf hs ht (Or.inl hlt) h
  · have he : lens.getD s 0 = lens.getD t 0 := by omega
    have hc : code lens s = code lens t := h.eq_of_length (by rw [code_length, code_length, he])
    rcases Nat.lt_or_ge s t with hst | hst
    · exact not_prefix_before hf hs ht (Or.inr ⟨he, hst⟩) h
    · exact not_prefix_before hf ht hs (Or.inr ⟨he.symm, by omega⟩) (by rw [hc]; exact List.prefix_refl _)

/-- The reader of symbols: what it finds is what is written there. -/
theorem symbol_iff {lens : List Nat} (hf : Fits lens) (s : Nat) (l r : List Bool) :
    symbol (table lens) l = some (s, r) ↔ Coded lens s ∧ l = code lens s ++ r := by
  unfold symbol
  constructor
  · intro h
    split at h
    · cases h
    · rename_i c hc
      injection h with h
      injection h with h1 h2
      obtain ⟨t, ht, rfl⟩ := (table_mem lens hf.1 c).mp (List.mem_of_find?_eq_some hc)
      have hp := List.find?_some hc
      dsimp only at h1 h2 hp
      subst h1
      rw [List.isPrefixOf_iff_prefix] at hp
      obtain ⟨m, rfl⟩ := hp
      rw [List.drop_left' rfl] at h2
      subst h2
      exact ⟨ht, rfl⟩
  · rintro ⟨hs, rfl⟩
    have hmem := (table_mem lens hf.1 (code lens s, s)).mpr ⟨s, hs, rfl⟩
    cases hfind : (table lens).find? fun c => c.1.isPrefixOf (code lens s ++ r) with
    | none =>
      rw [List.find?_eq_none] at hfind
      have := hfind _ hmem
      exfalso
      apply this
      rw [List.isPrefixOf_iff_prefix]
      exact List.prefix_append _ _
    | some c =>
      obtain ⟨t, ht, rfl⟩ := (table_mem lens hf.1 c).mp (List.mem_of_find?_eq_some hfind)
      have hp := List.find?_some hfind
      dsimp only at hp
      rw [List.isPrefixOf_iff_prefix] at hp
      have hst : t = s := by
        rcases List.prefix_or_prefix_of_prefix hp (List.prefix_append (code lens s) r) with h | h
        · exact prefix_same hf ht hs h
        · exact (prefix_same hf hs ht h).symm
      subst hst
      dsimp only
      rw [List.drop_left' rfl]

/-! ## When lengths give a code -/

theorem foldl_max_le (l : List Nat) : ∀ a, a ≤ l.foldl max a ∧ (∀ n ∈ l, n ≤ l.foldl max a) ∧ (l.foldl max a = a ∨ l.foldl max a ∈ l) := by
  induction l with
  | nil => intro a; simp
  | cons b l ih =>
    intro a
    obtain ⟨h1, h2, h3⟩ := ih (max a b)
    rw [List.foldl_cons]
    refine ⟨by omega, ?_, ?_⟩
    · intro n hn
      rcases List.mem_cons.mp hn with rfl | hn
      · omega
      · exact h2 n hn
    · rcases h3 with h3 | h3
      · rw [h3]
        rcases Nat.le_total a b with h | h
        · right; rw [Nat.max_eq_right h]; simp
        · left; exact Nat.max_eq_left h
      · right; simp [h3]

theorem count_one (lens : List Nat) (h : ∀ n ∈ lens, n ≤ 1) : lens.filter (fun n => n ≠ 0) = List.replicate (lens.count 1) 1 := by
  induction lens with
  | nil => rfl
  | cons a l ih =>
    have ha := h a (by simp)
    have := ih fun n hn => h n (by simp [hn])
    have h01 : a = 0 ∨ a = 1 := by omega
    rcases h01 with rfl | rfl
    · simpa using this
    · rw [List.filter_cons_of_pos (by decide), this, List.count_cons_self, List.replicate_succ]

theorem complete_iff (lens : List Nat) (h15 : ∀ n ∈ lens, n ≤ 15) : complete lens = true ↔ CodeOk lens := by
  obtain ⟨-, hmax, hmem⟩ := foldl_max_le lens 0
  unfold complete CodeOk
  dsimp only
  generalize hm : lens.foldl max 0 = m at *
  by_cases hm0 : m = 0
  · subst hm0
    simp only [beq_self_eq_true, Bool.true_or, true_iff]
    exact Or.inl fun n hn => Nat.le_zero.mp (hmax n hn)
  · have hmm : m ∈ lens := by
      rcases hmem with h | h
      · exact absurd h hm0
      · exact h
    have hm15 := h15 m hmm
    have hsum : (nextCode lens m + lens.count m) * 2 ^ (15 - m) = (lens.map room).sum := by
      obtain ⟨k, rfl⟩ : ∃ k, m = k + 1 := ⟨m - 1, by omega⟩
      rw [Nat.add_mul, nextCode_room lens k (by omega), ← room_count lens (k + 1) hm0, ← sum_add]
      congr 1
      apply List.map_congr_left
      intro n hn
      have := hmax n hn
      split_ifs <;> omega
    have hz : ¬ ∀ n ∈ lens, n = 0 := fun h => hm0 (h m hmm)
    have hpow : 2 ^ m * 2 ^ (15 - m) = 2 ^ 15 := by rw [← Nat.pow_add]; congr 1; omega
    have hpos : 0 < 2 ^ (15 - m) := Nat.pow_pos (by decide)
    have h1 : nextCode lens m + lens.count m = 2 ^ m ↔ (lens.map room).sum = 2 ^ 15 := by
      rw [← hsum, ← hpow]
      constructor
      · intro h; rw [h]
      · intro h; exact Nat.eq_of_mul_eq_mul_right hpos h
    have h2 : (nextCode lens m + lens.count m = 1 ∧ m = 1) ↔ lens.filter (fun n => n ≠ 0) = [1] := by
      constructor
      · rintro ⟨h, rfl⟩
        rw [count_one lens hmax]
        have : lens.count 1 = 1 := by simpa [nextCode] using h
        rw [this]; rfl
      · intro h
        have hin : ∀ n ∈ lens, n = 0 ∨ n = 1 := by
          intro n hn
          by_cases h0 : n = 0
          · exact Or.inl h0
          · have : n ∈ lens.filter (fun n => n ≠ 0) := List.mem_filter.mpr ⟨hn, by simpa using h0⟩
            rw [h] at this
            exact Or.inr (by simpa using this)
        have hm1 : m = 1 := (hin m hmm).resolve_left hm0
        subst hm1
        refine ⟨?_, rfl⟩
        have := count_one lens hmax
        rw [h] at this
        have hl := congrArg List.length this
        rw [List.length_replicate] at hl
        simpa [nextCode] using hl.symm
    simp only [Bool.or_eq_true, Bool.and_eq_true, beq_iff_eq, hm0, false_or, h1, h2, hz]

theorem codeOk_fits {lens : List Nat} (h15 : ∀ n ∈ lens, n ≤ 15) (h : CodeOk lens) : Fits lens := by
  refine ⟨h15, ?_⟩
  rcases h with h | h | h
  · have : lens.map room = lens.map fun _ => 0 := by
      apply List.map_congr_left
      intro n hn
      rw [h n hn]; rfl
    rw [this]; simp
  · omega
  · have hs : ∀ l : List Nat, (l.map room).sum = ((l.filter (fun n => n ≠ 0)).map room).sum := by
      intro l
      induction l with
      | nil => rfl
      | cons a l ih =>
        by_cases ha : a = 0
        · subst ha
          rw [List.filter_cons_of_neg (by simp), ← ih]
          simp [room]
        · rw [List.filter_cons_of_pos (by simpa using ha)]
          simp only [List.map_cons, List.sum_cons, ih]
    rw [hs, h]
    decide

theorem code_ne_nil {lens : List Nat} {s : Nat} (h : Coded lens s) : 0 < (code lens s).length := by
  rw [code_length]; exact Nat.pos_of_ne_zero h

end Verif.Lib.Gzip
