import Verif.Ticks.Text
import Verif.Ticks.Props
import Verif.Lib.TimeTextProps
import Verif.Guid.TextProps
import Verif.Modes.Props

/-! # What the texts of timestamps and measurements say (C111) -/

namespace Verif.Ticks

open Verif.Lib.TimeText Verif.Calendar
open Verif.Guid (ascii)

theorem bmod_range (x : Int) : -9223372036854775808 ≤ Int.bmod x (2 ^ 64) ∧ Int.bmod x (2 ^ 64) < 9223372036854775808 := by
  have h1 := Int.le_bmod (x := x) (m := 2 ^ 64) (by decide)
  have h2 := Int.bmod_lt (x := x) (m := 2 ^ 64) (by decide)
  omega

theorem small_multiple (d k : Int) (h : d * 100 = 18446744073709551616 * k) (h1 : d < 4611686018427387904) (h2 : -4611686018427387904 < d) : d = 0 := by
  have h3 : d * 25 = 4611686018427387904 * k := by linarith
  obtain ⟨q, rfl⟩ : (25 : Int) ∣ k := ⟨k - 6 * (d - 184467440737095516 * k), by linarith⟩
  have h4 : d = 4611686018427387904 * q := by linarith
  rw [h4] at h1 h2
  have h5 : q < 1 := by nlinarith
  have h6 : -1 < q := by nlinarith
  have h7 : q = 0 := by clear h h1 h2 h3 h4; omega
  rw [h4, h7, mul_zero]

theorem wrap_inj (M : Nat) (hM : M = 18446744073709551616) (x y : Nat) (hx : x < 4611686018427387904) (hy : y < 4611686018427387904)
    (h : Int.bmod (instantOf x) M = Int.bmod (instantOf y) M) : x = y := by
  have h2 := Int.bmod_emod (x := instantOf x) (m := M)
  have h3 := Int.bmod_emod (x := instantOf y) (m := M)
  rw [h, h3] at h2
  have h4 := Int.emod_add_mul_ediv (instantOf x) M
  have h5 := Int.emod_add_mul_ediv (instantOf y) M
  rw [h2] at h5
  obtain ⟨k, hk⟩ : ∃ k, instantOf x - instantOf y = M * k := ⟨instantOf x / M - instantOf y / M, by rw [Int.mul_sub]; omega⟩
  rw [hM] at hk
  have h6 := small_multiple ((x : Int) - y) k (by rw [show ((18446744073709551616 : Nat) : Int) = 18446744073709551616 by norm_num] at hk; rw [← hk]; unfold instantOf; ring)
    (by omega) (by omega)
  omega

theorem toTime_inj (t u : Ticks) (h : toTime t = toTime u) : t.toNat % 2 ^ 62 = u.toNat % 2 ^ 62 := by
  rw [toTime_val, toTime_val] at h
  exact wrap_inj _ (by norm_num) _ _ (Nat.mod_lt _ (by decide)) (Nat.mod_lt _ (by decide)) h

theorem long_parts (t : Ticks) : ∃ d c f, text t = d ++ ascii " " ++ c ++ f ∧ DateText d ((toTime t + epoch) / day) ∧
    ClockText c ((toTime t + epoch) % day / second) ∧ FractionText 9 f ((toTime t + epoch) % second) := by
  refine ⟨date ((toTime t + epoch) / day), clock (toTime t + epoch), fraction 9 (toTime t + epoch), ?_, ?_, clock_text _, ?_⟩
  · have : ascii " " = [32#8] := rfl
    rw [this]
    unfold text long
    simp
  · have hr := bmod_range (instantOf (t.toNat % 2 ^ 62))
    rw [← toTime_val] at hr
    have e0 : dayNumber 0 1 1 = -366 := by decide
    have e1 : dayNumber 10000 1 1 = 3652059 := by decide
    apply date_text
    · rw [e0]; unfold day epoch; omega
    · rw [e1]; unfold day epoch; omega
  · have := fraction_text 9 (by omega) (toTime t + epoch)
    simpa using this

theorem time_parts (t : Ticks) (h1 : 621355968000000000 ≤ t.toNat % 2 ^ 62 + 92233720368547758)
    (h2 : t.toNat % 2 ^ 62 ≤ 621355968000000000 + 92233720368547758) : toTime t + epoch = (t.toNat % 2 ^ 62 : Nat) * 100 := by
  rw [toTime_eq t h1 h2]
  unfold instantOf epoch
  omega

/-- C111: the text of a timestamp, whatever its flags, is a date of the calendar, a space, a time of day and a fraction, which together are the
number of 100 ns steps since year 1 that it holds, exactly. Partial: only within signed 64-bit nanoseconds of the Unix epoch, about 1677 to 2262;
outside the code is wrong (`C111_year_false`). -/
theorem C111_ticks_partial (t : Ticks) (h1 : 621355968000000000 ≤ t.toNat % 2 ^ 62 + 92233720368547758)
    (h2 : t.toNat % 2 ^ 62 ≤ 621355968000000000 + 92233720368547758) :
    ∃ d c f n s x, text t = d ++ ascii " " ++ c ++ f ∧ DateText d n ∧ ClockText c s ∧ FractionText 9 f x ∧
      (t.toNat % 2 ^ 62 : Nat) * 100 = n * 86400000000000 + s * 1000000000 + x := by
  obtain ⟨d, c, f, e, hd, hc, hf⟩ := long_parts t
  refine ⟨d, c, f, _, _, _, e, hd, hc, hf, ?_⟩
  rw [time_parts t h1 h2]
  generalize ((t.toNat % 2 ^ 62 : Nat) : Int) = v
  unfold day second
  omega

/-- 14 November 2021, flagged. -/
example : text (setNegativeLeapSecond 637724352600090000#64) = ascii "2021-11-13 21:21:00.009" ∧
    text 637724352600090001#64 = ascii "2021-11-13 21:21:00.0090001" := by decide +kernel

/-- C111: different timestamps have different texts, all values and flags considered. -/
theorem C111_ticks_distinct (t u : Ticks) : text t = text u ↔ t.toNat % 2 ^ 62 = u.toNat % 2 ^ 62 := by
  constructor
  · intro h
    obtain ⟨d, c, f, e, hd, hc, hf⟩ := long_parts t
    obtain ⟨d', c', f', e', hd', hc', hf'⟩ := long_parts u
    rw [e, e', List.append_assoc, List.append_assoc, List.append_assoc, List.append_assoc] at h
    obtain ⟨rfl, h3⟩ := List.append_inj h (hd.length.trans hd'.length.symm)
    have h4 := List.append_cancel_left h3
    obtain ⟨rfl, rfl⟩ := List.append_inj h4 (hc.length.trans hc'.length.symm)
    have a := hd.unique hd'
    have b := hc.unique hc'
    have c := hf.unique hf'
    have key : toTime t = toTime u := by
      generalize toTime t = x at *
      generalize toTime u = y at *
      unfold day second epoch at *
      omega
    exact toTime_inj t u key
  · intro h
    unfold text
    rw [toTime_val, toTime_val, h]

/-- C111 fails for leap seconds: a timestamp flagged as the leap second has the text of the one that is not. -/
theorem C111_flags_false (t : Ticks) (ops : List FlagOp) : text (ops.foldl FlagOp.apply t) = text t ∧
    shortTime (ops.foldl FlagOp.apply t) = shortTime t := by
  have hm : (ops.foldl FlagOp.apply t).toNat % 2 ^ 62 = t.toNat % 2 ^ 62 := by
    rw [← and_valueMask_toNat, ← and_valueMask_toNat]
    congr 1
    induction ops generalizing t with
    | nil => rfl
    | cons op ops ih => rw [List.foldl_cons, ih, apply_mask]
  refine ⟨(C111_ticks_distinct _ _).mpr hm, ?_⟩
  unfold shortTime
  rw [toTime_val, toTime_val, hm]

/-- C111 fails outside the range: the first documented timestamp, 1 January of year 1, and the last, 31 December 9999, have the texts of other times. -/
theorem C111_year_false : text tMin = ascii "1754-08-30 22:43:41.128654848" ∧ text tMax = ascii "1816-03-30 05:56:08.066277276" ∧
    DateText (ascii "1754-08-30") 640511 := by
  refine ⟨by decide +kernel, by decide +kernel, ascii "1754", ascii "08", ascii "30", 1754, 8, 30, by decide, ?_, ?_, ?_, by decide, by decide⟩ <;>
    exact ⟨by decide, by unfold Lib.Decimal.Digits; decide, by decide⟩

/-- C111: the short text of a timestamp is its time of day, cut to milliseconds. -/
theorem C111_short_partial (t : Ticks) (h1 : 621355968000000000 ≤ t.toNat % 2 ^ 62 + 92233720368547758)
    (h2 : t.toNat % 2 ^ 62 ≤ 621355968000000000 + 92233720368547758) :
    ∃ c f s x, shortTime t = c ++ f ∧ ClockText c s ∧ FractionText 3 f x ∧
      (t.toNat % 2 ^ 62 : Nat) * 100 % 86400000000000 / 1000000 * 1000000 = s * 1000000000 + x := by
  refine ⟨clock (toTime t + epoch), fraction 3 (toTime t + epoch), _, _, rfl, clock_text _, fraction_text 3 (by omega) _, ?_⟩
  rw [time_parts t h1 h2]
  generalize ((t.toNat % 2 ^ 62 : Nat) : Int) = v
  unfold day second
  omega

example : shortTime 637724352600090001#64 = ascii "21:21:00.009" ∧ shortTime 637724352600000001#64 = ascii "21:21:00" := by decide +kernel

/-! ## Measurements -/

theorem cut_space (a a' b b' : List Byte) (h : 32#8 ∉ a) (h' : 32#8 ∉ a') (e : a ++ 32#8 :: b = a' ++ 32#8 :: b') : a = a' ∧ b = b' := by
  induction a generalizing a' with
  | nil =>
    cases a' with
    | nil => exact ⟨rfl, (List.cons.inj e).2⟩
    | cons x a' => exact absurd (List.cons.inj e).1.symm (fun hx => h' (by simp [hx]))
  | cons x a ih =>
    cases a' with
    | nil => exact absurd (List.cons.inj e).1 (fun hx => h (by simp [hx]))
    | cons y a' =>
      obtain ⟨e1, e2⟩ := List.cons.inj e
      obtain ⟨e3, e4⟩ := ih a' (fun hx => h (List.mem_cons_of_mem _ hx)) (fun hx => h' (List.mem_cons_of_mem _ hx)) e2
      exact ⟨by rw [e1, e3], e4⟩

theorem digits_space {l : List Byte} (h : ∀ b ∈ l, 48 ≤ b.toNat ∧ b.toNat ≤ 57) : 32#8 ∉ l := by
  intro hx
  have := (h _ hx).1
  revert this
  decide

theorem clock_space {c : List Byte} {s : Int} (h : ClockText c s) : 32#8 ∉ c := by
  obtain ⟨hs, ms, ss, _, _, _, rfl, h1, h2, h3, -⟩ := h
  have a := digits_space h1.2.1
  have b := digits_space h2.2.1
  have c := digits_space h3.2.1
  simp [a, b, c]

theorem fraction_space {k : Nat} {f : List Byte} {s : Int} (h : FractionText k f s) : 32#8 ∉ f := by
  rcases h with ⟨rfl, -⟩ | ⟨ds, rfl, h, -⟩
  · simp
  · have := digits_space h
    simp [this]

theorem short_space (t : Ticks) : 32#8 ∉ shortTime t := by
  have a := clock_space (clock_text (toTime t + epoch))
  have b := fraction_space (fraction_text 3 (by omega) (toTime t + epoch))
  unfold shortTime short
  simp [a, b]

theorem float_space (f : BitVec 64) (p : Nat) : 32#8 ∉ Format.formatFloat f p := by
  unfold Format.formatFloat
  have a := digits_space (Format.decimal_digits (Format.scaled f p / 10 ^ p))
  have b := digits_space (Format.lastDigits_digits p (Format.scaled f p))
  split
  · split
    · decide
    · split <;> decide
  · by_cases hp : p = 0
    · rw [if_pos hp]
      cases Format.negBit f <;> simp [a]
    · rw [if_neg hp]
      cases Format.negBit f <;> simp [a, b]

theorem addFlags_small (w : BitVec 32) (l : List (BitVec 32 × List Char)) (image : List Char) (hl : ∀ x ∈ l, ∀ c ∈ x.2, c.toNat < 128)
    (hi : ∀ c ∈ image, c.toNat < 128) : ∀ c ∈ Modes.addFlags w l image, c.toNat < 128 := by
  induction l generalizing image with
  | nil => exact hi
  | cons x l ih =>
    obtain ⟨flag, name⟩ := x
    unfold Modes.addFlags
    have hl' : ∀ x ∈ l, ∀ c ∈ x.2, c.toNat < 128 := fun x hx => hl x (List.mem_cons_of_mem _ hx)
    split
    · refine ih _ hl' ?_
      intro c hc
      rcases List.mem_append.mp hc with hc | hc
      · split at hc
        · rcases List.mem_append.mp hc with hc | hc
          · exact hi c hc
          · rw [List.mem_singleton.mp hc]; decide
        · exact hi c hc
      · exact hl _ List.mem_cons_self c hc
    · exact ih _ hl' hi

theorem flags_small (w : BitVec 32) : ∀ c ∈ Modes.stateFlagsString w, c.toNat < 128 := by
  unfold Modes.stateFlagsString
  split
  · decide
  · exact addFlags_small w _ [] (by decide +kernel) (by simp)

theorem bytes_inj (l m : List Char) (hl : ∀ c ∈ l, c.toNat < 128) (hm : ∀ c ∈ m, c.toNat < 128) (h : bytes l = bytes m) : l = m := by
  induction l generalizing m with
  | nil => cases m with
    | nil => rfl
    | cons c m => simp [bytes] at h
  | cons c l ih => cases m with
    | nil => simp [bytes] at h
    | cons d m =>
      obtain ⟨h1, h2⟩ := List.cons.inj (show BitVec.ofNat 8 c.toNat :: bytes l = BitVec.ofNat 8 d.toNat :: bytes m from h)
      have e1 := hl c List.mem_cons_self
      have e2 := hm d List.mem_cons_self
      have h3 := congrArg BitVec.toNat h1
      rw [BitVec.toNat_ofNat, BitVec.toNat_ofNat, Nat.mod_eq_of_lt (by omega), Nat.mod_eq_of_lt (by omega)] at h3
      have h4 : c = d := Char.ext (UInt32.toNat.inj h3)
      rw [h4, ih m (fun x hx => hl x (List.mem_cons_of_mem _ hx)) (fun x hx => hm x (List.mem_cons_of_mem _ hx)) h2]

/-- C111: the text of a measurement consists of the standard text of its identifier in braces, ` @ `, its time of day cut to milliseconds, ` = `, its
value to half of a thousandth, and in brackets the names of its flags. Partial: for finite values and timestamps of about 1677 to 2262. -/
theorem C111_measurement_partial (m : Measurement) (h1 : 621355968000000000 ≤ m.timestamp.toNat % 2 ^ 62 + 92233720368547758)
    (h2 : m.timestamp.toNat % 2 ^ 62 ≤ 621355968000000000 + 92233720368547758) (hv : m.value.toNat / 2 ^ 52 % 2 ^ 11 ≠ 2047) :
    ∃ g c f s x v names, m.text = ascii "{" ++ g ++ ascii "} @ " ++ c ++ f ++ ascii " = " ++ v ++ ascii " (" ++ bytes names ++ ascii ")" ∧
      Guid.Grouped g m.signalID ∧ ClockText c s ∧ FractionText 3 f x ∧
      (m.timestamp.toNat % 2 ^ 62 : Nat) * 100 % 86400000000000 / 1000000 * 1000000 = s * 1000000000 + x ∧
      |Format.readFixed v - Format.doubleValue m.value| ≤ 1 / 2000 ∧
      Modes.pieces names = if m.flags = 0 then ["Normal".toList] else
        ((List.range 32).filter (fun k => m.flags.getLsbD k)).map (fun k => (Modes.bitNames[k]!).toList) := by
  obtain ⟨g, hg, hg2, -⟩ := Guid.C99_text m.signalID
  obtain ⟨c, f, s, x, e, hc, hf, hs⟩ := C111_short_partial m.timestamp h1 h2
  refine ⟨g, c, f, s, x, Format.formatFloat m.value 3, Modes.stateFlagsString m.flags, ?_, hg2, hc, hf, hs, ?_, Modes.C62_flag_names _⟩
  · unfold Measurement.text
    rw [hg, e]
    have e1 : ascii "} @ " = ascii "}" ++ ascii " @ " := by decide
    have e2 : bytes " @ ".toList = ascii " @ " := by decide
    have e3 : bytes " = ".toList = ascii " = " := by decide
    have e4 : bytes " (".toList = ascii " (" := by decide
    have e5 : bytes ")".toList = ascii ")" := by decide
    rw [e1, e2, e3, e4, e5]
    simp only [List.append_assoc]
  · have := Format.C93_value_partial m.value hv 3
    norm_num at this ⊢
    exact this

/-- C111: the text of a measurement determines its identifier, its flags, its value to a thousandth, and its time of day to the millisecond. -/
theorem C111_measurement_determines (m m' : Measurement) (h : m.text = m'.text) : m.signalID = m'.signalID ∧ m.flags = m'.flags ∧
    (m.value.toNat / 2 ^ 52 % 2 ^ 11 ≠ 2047 → m'.value.toNat / 2 ^ 52 % 2 ^ 11 ≠ 2047 →
      |Format.doubleValue m.value - Format.doubleValue m'.value| ≤ 1 / 1000) ∧
    (toTime m.timestamp + epoch) % 86400000000000 / 1000000 = (toTime m'.timestamp + epoch) % 86400000000000 / 1000000 := by
  unfold Measurement.text at h
  simp only [List.append_assoc] at h
  have hlen : ∀ g : Guid.Guid, (Guid.toString g).length = 38 := by
    intro g
    obtain ⟨t, h1, h2, -⟩ := Guid.C99_text g
    have := h2.length
    rw [h1]
    have e1 : (ascii "{").length = 1 := rfl
    have e2 : (ascii "}").length = 1 := rfl
    simp only [List.length_append, e1, e2, this]
  obtain ⟨hg, h⟩ := List.append_inj h ((hlen _).trans (hlen _).symm)
  have h := List.append_cancel_left h
  have e3 : ∀ l, bytes " = ".toList ++ l = 32#8 :: ([61#8, 32#8] ++ l) := fun l => rfl
  have e4 : ∀ l, bytes " (".toList ++ l = 32#8 :: ([40#8] ++ l) := fun l => rfl
  rw [e3, e3, e4, e4] at h
  obtain ⟨ht, h⟩ := cut_space _ _ _ _ (short_space _) (short_space _) h
  have h := List.append_cancel_left h
  obtain ⟨hv, h⟩ := cut_space _ _ _ _ (float_space _ _) (float_space _ _) h
  have h := List.append_cancel_left h
  have h := List.append_cancel_right h
  refine ⟨Guid.C99_distinct _ _ hg, Modes.C62_text_determines_flags _ _ (bytes_inj _ _ (flags_small _) (flags_small _) h), ?_, ?_⟩
  · intro h1 h2
    have a := Format.C93_value_partial m.value h1 3
    have b := Format.C93_value_partial m'.value h2 3
    rw [hv] at a
    rw [abs_le] at *
    norm_num at a b ⊢
    constructor <;> linarith [a.1, a.2, b.1, b.2]
  · unfold shortTime short at ht
    have c1 := clock_text (toTime m.timestamp + epoch)
    have c2 := clock_text (toTime m'.timestamp + epoch)
    obtain ⟨hc, hf⟩ := List.append_inj ht (c1.length.trans c2.length.symm)
    rw [hc] at c1
    have f1 := fraction_text 3 (by omega) (toTime m.timestamp + epoch)
    have f2 := fraction_text 3 (by omega) (toTime m'.timestamp + epoch)
    rw [hf] at f1
    have a := c1.unique c2
    have b := f1.unique f2
    generalize toTime m.timestamp + epoch = x at *
    generalize toTime m'.timestamp + epoch = y at *
    unfold day second at *
    omega

/-- C111 fails for the date: measurements a day apart, and values a thousandth apart, have the same text. -/
theorem C111_measurement_day_false : ∃ m m' : Measurement, m.text = m'.text ∧ m'.timestamp = m.timestamp + 864000000000#64 ∧ m.value ≠ m'.value ∧
    m.text = ascii "{12345678-9abc-def0-1234-56789abcdef0} @ 21:21:00.009 = 60.000 (BadData,BadTime)" :=
  ⟨⟨⟨[0x12, 0x34, 0x56, 0x78, 0x9a, 0xbc, 0xde, 0xf0, 0x12, 0x34, 0x56, 0x78, 0x9a, 0xbc, 0xde, 0xf0], rfl⟩, 0x404E000000000000, 637724352600090000#64, 0x10001⟩,
   ⟨⟨[0x12, 0x34, 0x56, 0x78, 0x9a, 0xbc, 0xde, 0xf0, 0x12, 0x34, 0x56, 0x78, 0x9a, 0xbc, 0xde, 0xf0], rfl⟩, 0x404E000000000001, 637725216600090000#64, 0x10001⟩,
   by decide +kernel, by decide, by decide, by decide +kernel⟩

end Verif.Ticks
