import Verif.Lib.TimeText
import Verif.Lib.DecimalText
import Verif.Format.FloatProps
import Mathlib.Tactic.IntervalCases

/-! # What the text of a time says (C111) -/

namespace Verif.Lib.TimeText

open Verif.Calendar Verif.Format Verif.Lib.Decimal

/-- `s` is the number `n`, written with `w` digits. -/
def Written (w : Nat) (s : List Byte) (n : Int) : Prop := s.length = w ∧ Digits s ∧ (readDecimal s : Int) = n

/-- `s` is a date of the calendar, year, month and day, and that of day number `n`. -/
def DateText (s : List Byte) (n : Int) : Prop :=
  ∃ ys ms ds y m d, s = ys ++ 45#8 :: ms ++ 45#8 :: ds ∧ Written 4 ys y ∧ Written 2 ms m ∧ Written 2 ds d ∧ IsDate y m d ∧ dayNumber y m d = n

/-- `s` is hour, minute and second of the day, `n` the seconds since midnight. -/
def ClockText (s : List Byte) (n : Int) : Prop :=
  ∃ hs ms ss h m x, s = hs ++ 58#8 :: ms ++ 58#8 :: ss ∧ Written 2 hs h ∧ Written 2 ms m ∧ Written 2 ss x ∧ h < 24 ∧ m < 60 ∧ x < 60 ∧
    n = 3600 * h + 60 * m + x

/-- `s` is a fraction of a second with at most `k` places, empty if it is 0, and without trailing zeros; `n` its nanoseconds. -/
def FractionText (k : Nat) (s : List Byte) (n : Int) : Prop :=
  s = [] ∧ n = 0 ∨ ∃ ds, s = 46#8 :: ds ∧ Digits ds ∧ ds ≠ [] ∧ ds.length ≤ k ∧ ds.getLast? ≠ some 48#8 ∧
    n = readDecimal ds * 10 ^ (9 - ds.length)

theorem lastDigits_written (w : Nat) (n : Nat) (h : n < 10 ^ w) : Written w (lastDigits w n) n := by
  refine ⟨lastDigits_length _ _, lastDigits_digits _ _, ?_⟩
  rw [readDecimal_lastDigits, Nat.mod_eq_of_lt h]

theorem pad_written (w : Nat) (n : Int) (h0 : 0 ≤ n) (h : n < 10 ^ w) : Written w (pad w n.toNat) n := by
  have hn : n.toNat < 10 ^ w := by
    have : (n.toNat : Int) < ((10 ^ w : Nat) : Int) := by rw [Int.toNat_of_nonneg h0]; push_cast; exact h
    exact_mod_cast this
  have := lastDigits_written w n.toNat hn
  rw [Int.toNat_of_nonneg h0] at this
  unfold pad
  rw [if_pos hn]
  exact this

theorem monthLength_le (y m : Int) (h1 : 1 ≤ m) (h2 : m ≤ 12) : monthLength y m ≤ 31 := by
  unfold monthLength
  rcases leapDay_cases y with h | h <;> rw [h] <;> interval_cases m <;> decide

/-- The day numbers of the years 0 to 9999. -/
theorem date_text (n : Int) (h0 : dayNumber 0 1 1 ≤ n) (h1 : n < dayNumber 10000 1 1) : DateText (date n) n := by
  obtain ⟨hd, hn⟩ := date_of n
  have hy := yearOf_spec n
  have e0 : dayNumber 0 1 1 = daysBeforeYear 0 := by decide
  have e1 : dayNumber 10000 1 1 = daysBeforeYear 10000 := by decide
  rw [e0] at h0
  rw [e1] at h1
  have y0 : 0 ≤ yearOf n := by
    by_contra hlt
    have := daysBeforeYear_mono (show yearOf n + 1 ≤ 0 by omega)
    omega
  have y1 : yearOf n < 10000 := by
    by_contra hge
    have := daysBeforeYear_mono (show (10000 : Int) ≤ yearOf n by omega)
    omega
  obtain ⟨m1, m2, d1, d2⟩ := hd
  have d3 := monthLength_le (yearOf n) (monthOf n) m1 m2
  refine ⟨year (yearOf n), pad 2 (monthOf n).toNat, pad 2 (dayOf n).toNat, yearOf n, monthOf n, dayOf n, ?_, ?_, pad_written 2 _ (by omega) (by omega),
    pad_written 2 _ (by omega) (by omega), ⟨m1, m2, d1, d2⟩, hn⟩
  · unfold date; rfl
  · unfold year
    rw [if_neg (by omega), List.nil_append, show (yearOf n).natAbs = (yearOf n).toNat by omega]
    exact pad_written 4 (yearOf n) y0 (by omega)

theorem clock_text (t : Int) : ClockText (clock t) (t % day / second) := by
  refine ⟨_, _, _, t % day / hour, t % hour / minute, t % minute / second, rfl, pad_written 2 _ ?_ ?_, pad_written 2 _ ?_ ?_, pad_written 2 _ ?_ ?_,
    ?_, ?_, ?_, ?_⟩
  all_goals simp only [show day = 86400000000000 from rfl, show hour = 3600000000000 from rfl, show minute = 60000000000 from rfl,
    show second = 1000000000 from rfl]
  all_goals omega

theorem trimZeros_append (l : List Byte) : ∃ k, l = trimZeros l ++ List.replicate k 48#8 := by
  induction l with
  | nil => exact ⟨0, rfl⟩
  | cons b l ih =>
    obtain ⟨k, hk⟩ := ih
    unfold trimZeros
    split
    · rename_i h
      rw [h.2] at hk
      exact ⟨k + 1, by rw [h.1, hk, List.replicate_succ]; simp⟩
    · exact ⟨k, by rw [List.cons_append, ← hk]⟩

theorem trimZeros_last (l : List Byte) : (trimZeros l).getLast? ≠ some 48#8 := by
  induction l with
  | nil => simp [trimZeros]
  | cons b l ih =>
    unfold trimZeros
    split
    · simp
    · rename_i h
      cases hl : trimZeros l with
      | nil => rw [List.getLast?_singleton]; intro e; injection e with e; exact h ⟨e, hl⟩
      | cons c r => rw [hl] at ih; rw [List.getLast?_cons_cons]; exact ih

theorem take_lastDigits (w k v : Nat) (hk : k ≤ w) : (lastDigits w v).take k = lastDigits k (v / 10 ^ (w - k)) := by
  induction w generalizing v with
  | zero => have : k = 0 := by omega
            subst this; simp [lastDigits]
  | succ w ih =>
    by_cases h : k = w + 1
    · subst h
      rw [List.take_of_length_le (by rw [lastDigits_length])]
      simp
    · have hkw : k ≤ w := by omega
      unfold lastDigits
      rw [List.take_append_of_le_length (by rw [lastDigits_length]; exact hkw), ih _ hkw, Nat.div_div_eq_div_mul]
      rw [show 10 * 10 ^ (w - k) = 10 ^ (w + 1 - k) by rw [show w + 1 - k = w - k + 1 by omega, Nat.pow_succ, Nat.mul_comm]]
      cases k with
      | zero => simp [lastDigits]
      | succ k => rw [lastDigits]

theorem fraction_text (k : Nat) (hk : k ≤ 9) (t : Int) :
    FractionText k (fraction k t) (t % second - t % second % 10 ^ (9 - k)) := by
  have hs0 : 0 ≤ t % second := Int.emod_nonneg _ (by decide)
  have hs1 : t % second < 1000000000 := Int.emod_lt_of_pos _ (by decide)
  obtain ⟨v, hv⟩ : ∃ v : Nat, t % second = v := ⟨(t % second).toNat, (Int.toNat_of_nonneg hs0).symm⟩
  have hvlt : v < 10 ^ 9 := by omega
  unfold fraction
  rw [hv, Int.toNat_natCast, take_lastDigits 9 k v hk]
  have hlt : v / 10 ^ (9 - k) < 10 ^ k := by
    rw [Nat.div_lt_iff_lt_mul (by positivity), ← Nat.pow_add, show k + (9 - k) = 9 by omega]; exact hvlt
  obtain ⟨h1, h2, h3⟩ := lastDigits_written k _ hlt
  have hcut : ((v : Int) - (v : Int) % 10 ^ (9 - k)) = ((v / 10 ^ (9 - k) * 10 ^ (9 - k) : Nat) : Int) := by
    have := Nat.div_add_mod v (10 ^ (9 - k))
    have : (v : Int) % 10 ^ (9 - k) = ((v % 10 ^ (9 - k) : Nat) : Int) := by push_cast; rfl
    rw [this]
    have h4 : v / 10 ^ (9 - k) * 10 ^ (9 - k) + v % 10 ^ (9 - k) = v := by rw [Nat.mul_comm]; assumption
    omega
  rw [hcut]
  generalize v / 10 ^ (9 - k) = u at *
  obtain ⟨j, hj⟩ := trimZeros_append (lastDigits k u)
  have hlast := trimZeros_last (lastDigits k u)
  have hread := congrArg readDecimal hj
  rw [readDecimal_zeros] at hread
  have h3' : readDecimal (lastDigits k u) = u := by exact_mod_cast h3
  rw [h3'] at hread
  have hlen := congrArg List.length hj
  rw [List.length_append, List.length_replicate, h1] at hlen
  have hdig : Digits (trimZeros (lastDigits k u)) := fun b hb => h2 b (by rw [hj]; exact List.mem_append_left _ hb)
  generalize trimZeros (lastDigits k u) = l at *
  cases l with
  | nil =>
    left
    refine ⟨rfl, ?_⟩
    rw [hread]; simp [readDecimal]
  | cons b r =>
    right
    refine ⟨b :: r, rfl, hdig, by simp, by omega, hlast, ?_⟩
    have : (10 : Nat) ^ (9 - (b :: r).length) = 10 ^ j * 10 ^ (9 - k) := by
      rw [← Nat.pow_add]; congr 1; omega
    have key : u * 10 ^ (9 - k) = readDecimal (b :: r) * 10 ^ (9 - (b :: r).length) := by
      rw [hread, this, Nat.mul_assoc]
    rw [key]; push_cast; rfl

/-! ## Texts are read in one way only -/

theorem Written.unique {w : Nat} {s : List Byte} {n m : Int} (h : Written w s n) (h' : Written w s m) : n = m := h.2.2.symm.trans h'.2.2

theorem DateText.length {s : List Byte} {n : Int} (h : DateText s n) : s.length = 10 := by
  obtain ⟨ys, ms, ds, y, m, d, rfl, h1, h2, h3, -⟩ := h
  have a := h1.1; have b := h2.1; have c := h3.1; simp only [List.length_append, List.length_cons]; omega

theorem DateText.unique {s : List Byte} {n m : Int} (h : DateText s n) (h' : DateText s m) : n = m := by
  obtain ⟨ys, ms, ds, y, mo, d, rfl, h1, h2, h3, -, rfl⟩ := h
  obtain ⟨ys', ms', ds', y', mo', d', e, h1', h2', h3', -, rfl⟩ := h'
  rw [List.append_assoc, List.append_assoc] at e
  obtain ⟨rfl, e1⟩ := List.append_inj e (h1.1.trans h1'.1.symm)
  rw [List.cons_append, List.cons_append] at e1
  obtain ⟨rfl, e2⟩ := List.append_inj (List.cons.inj e1).2 (h2.1.trans h2'.1.symm)
  obtain rfl := (List.cons.inj e2).2
  rw [h1.unique h1', h2.unique h2', h3.unique h3']

theorem ClockText.length {s : List Byte} {n : Int} (h : ClockText s n) : s.length = 8 := by
  obtain ⟨hs, ms, ss, y, m, d, rfl, h1, h2, h3, -⟩ := h
  have a := h1.1; have b := h2.1; have c := h3.1; simp only [List.length_append, List.length_cons]; omega

theorem ClockText.unique {s : List Byte} {n m : Int} (h : ClockText s n) (h' : ClockText s m) : n = m := by
  obtain ⟨ys, ms, ds, y, mo, d, rfl, h1, h2, h3, -, -, -, rfl⟩ := h
  obtain ⟨ys', ms', ds', y', mo', d', e, h1', h2', h3', -, -, -, rfl⟩ := h'
  rw [List.append_assoc, List.append_assoc] at e
  obtain ⟨rfl, e1⟩ := List.append_inj e (h1.1.trans h1'.1.symm)
  rw [List.cons_append, List.cons_append] at e1
  obtain ⟨rfl, e2⟩ := List.append_inj (List.cons.inj e1).2 (h2.1.trans h2'.1.symm)
  obtain rfl := (List.cons.inj e2).2
  rw [h1.unique h1', h2.unique h2', h3.unique h3']

theorem FractionText.unique {k : Nat} {s : List Byte} {n m : Int} (h : FractionText k s n) (h' : FractionText k s m) : n = m := by
  rcases h with ⟨rfl, rfl⟩ | ⟨ds, rfl, -, -, -, -, rfl⟩
  · rcases h' with ⟨-, rfl⟩ | ⟨ds, e, -⟩
    · rfl
    · simp at e
  · rcases h' with ⟨e, -⟩ | ⟨ds', e, -, -, -, -, rfl⟩
    · simp at e
    · simp only [List.cons.injEq, true_and] at e
      rw [e]

end Verif.Lib.TimeText
