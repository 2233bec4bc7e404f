import Verif.Connector.Model

/-!
# Properties C33 and C34: the retry limit and the back-off
-/

namespace Verif.Connector

/-! ## C34: delays -/

theorem pow_toInt (e : Nat) (h : e ≤ 13) : (BitVec.ofNat 32 (2 ^ e)).toInt = 2 ^ e := by
  rcases e with _|_|_|_|_|_|_|_|_|_|_|_|_|_|e <;> first | decide | omega

theorem exponent_le (a : BitVec 32) : exponent a ≤ 13 := by
  unfold exponent; split <;> omega

/-- Every delay is positive and at most the maximum, whatever the counter and even when the product overflows. -/
theorem C34_wait_bounds (c : Cfg) (h0 : 0 < c.retryInterval.toInt)
    (h1 : c.retryInterval.toInt ≤ c.maxRetryInterval.toInt) (a : BitVec 32) :
    0 < (waitTime c a).toInt ∧ (waitTime c a).toInt ≤ c.maxRetryInterval.toInt := by
  unfold waitTime
  dsimp only
  split <;> split <;> split <;> omega

theorem scaled_toInt (r : BitVec 32) (h0 : 0 < r.toInt) (e : Nat) (he : e ≤ 13) (h : r.toInt * 2 ^ e < 2 ^ 31) :
    (r * BitVec.ofNat 32 (2 ^ e)).toInt = r.toInt * 2 ^ e := by
  rw [BitVec.toInt_mul, pow_toInt e he]
  have hp : (0 : Int) < 2 ^ e := by positivity
  have : 0 < r.toInt * 2 ^ e := Int.mul_pos h0 hp
  generalize r.toInt * 2 ^ e = x at *
  apply Int.bmod_eq_of_le <;> omega

/-- The delay in closed form while the product stays below `2^31`. -/
theorem C34_wait_value (c : Cfg) (h0 : 0 < c.retryInterval.toInt)
    (h1 : c.retryInterval.toInt ≤ c.maxRetryInterval.toInt) (a : BitVec 32) (ha : 0 ≤ a.toInt)
    (h : c.retryInterval.toInt * 2 ^ exponent a < 2 ^ 31) :
    (waitTime c a).toInt = min (c.retryInterval.toInt * 2 ^ exponent a) c.maxRetryInterval.toInt := by
  have hs := scaled_toInt c.retryInterval h0 (exponent a) (exponent_le a) h
  have hp : (0 : Int) < 2 ^ exponent a := by positivity
  have hpos : 0 < c.retryInterval.toInt * 2 ^ exponent a := Int.mul_pos h0 hp
  by_cases ha0 : a.toInt = 0
  · have he : exponent a = 0 := by unfold exponent; rw [ha0]; rfl
    rw [he]
    unfold waitTime
    have h00 : (0 : BitVec 32).toInt = 0 := by decide
    dsimp only
    rw [if_neg (show ¬ a.toInt > 0 by omega), if_neg (show ¬ (0 : BitVec 32).toInt > c.maxRetryInterval.toInt by omega),
      if_neg (by omega)]
    omega
  · unfold waitTime
    dsimp only
    rw [if_pos (show a.toInt > 0 by omega)]
    generalize c.retryInterval * BitVec.ofNat 32 (2 ^ exponent a) = s at *
    split <;> split <;> omega

/-- **C34 (the part that holds).** For every positive interval not above the maximum: each delay is positive and at
most the maximum; and if the interval times `2^13` fits in an `int32`, the delays do not decrease from one attempt to
a later one as long as the later one is at most the thirteenth, or the maximum is at most `2^12` intervals (as with
the default settings).

Missing: without these conditions delays do decrease, see `C34_decreases_after_13_false` and
`C34_overflow_decreases_false`. -/
theorem C34_backoff_partial (c : Cfg) (h0 : 0 < c.retryInterval.toInt)
    (h1 : c.retryInterval.toInt ≤ c.maxRetryInterval.toInt) :
    (∀ a, 0 < (waitTime c a).toInt ∧ (waitTime c a).toInt ≤ c.maxRetryInterval.toInt) ∧
    (c.retryInterval.toInt * 2 ^ 13 < 2 ^ 31 →
      ∀ a b : BitVec 32, 0 ≤ a.toInt → a.toInt ≤ b.toInt →
        (b.toInt ≤ 13 ∨ c.maxRetryInterval.toInt ≤ c.retryInterval.toInt * 2 ^ 12) →
        (waitTime c a).toInt ≤ (waitTime c b).toInt) := by
  refine ⟨C34_wait_bounds c h0 h1, fun hf a b ha hab hb => ?_⟩
  have mono : ∀ i j : Nat, i ≤ j → c.retryInterval.toInt * 2 ^ i ≤ c.retryInterval.toInt * 2 ^ j := fun i j hij =>
    Int.mul_le_mul_of_nonneg_left (pow_le_pow_right₀ (by norm_num) hij) (by omega)
  have fits : ∀ x, c.retryInterval.toInt * 2 ^ exponent x < 2 ^ 31 := fun x =>
    Int.lt_of_le_of_lt (mono _ _ (exponent_le x)) hf
  rw [C34_wait_value c h0 h1 a ha (fits a), C34_wait_value c h0 h1 b (by omega) (fits b)]
  by_cases hb13 : b.toInt ≤ 13
  · have : exponent a ≤ exponent b := by
      unfold exponent
      rw [if_neg (by omega), if_neg (by omega)]
      omega
    have := mono _ _ this
    omega
  · have hm : c.maxRetryInterval.toInt ≤ c.retryInterval.toInt * 2 ^ 12 := by omega
    have he : exponent b = 12 := by unfold exponent; rw [if_pos (by omega)]
    rw [he]
    omega

/-- The default settings (SubscriberConfig defaults: 1 s base, 30 s maximum) meet all conditions. -/
example : ∃ c : Cfg, 0 < c.retryInterval.toInt ∧ c.retryInterval.toInt ≤ c.maxRetryInterval.toInt ∧
    c.retryInterval.toInt * 2 ^ 13 < 2 ^ 31 ∧ c.maxRetryInterval.toInt ≤ c.retryInterval.toInt * 2 ^ 12 ∧
    (waitTime c 1).toInt = 2000 ∧ (waitTime c 4).toInt = 16000 ∧ (waitTime c 5).toInt = 30000 ∧
    (waitTime c 14).toInt = 30000 :=
  ⟨⟨5, 1000, 30000, true⟩, by decide, by decide, by decide, by decide, by decide, by decide, by decide, by decide⟩

/-- **C34 is false in general**: with a 1 s interval and a maximum of 10 000 s the fourteenth attempt waits half as
long as the thirteenth. -/
theorem C34_decreases_after_13_false :
    ∃ c : Cfg, 0 < c.retryInterval.toInt ∧ c.retryInterval.toInt ≤ c.maxRetryInterval.toInt ∧
      (waitTime c 13).toInt = 8192000 ∧ (waitTime c 14).toInt = 4096000 :=
  ⟨⟨-1#32, 1000, 10000000, true⟩, by decide, by decide, by decide, by decide⟩

/-- **C34 is false in general**: with a 5 minute interval capped at 10 minutes, the product of the thirteenth attempt
overflows and the delay falls back to 5 minutes. -/
theorem C34_overflow_decreases_false :
    ∃ c : Cfg, 0 < c.retryInterval.toInt ∧ c.retryInterval.toInt ≤ c.maxRetryInterval.toInt ∧
      (waitTime c 12).toInt = 600000 ∧ (waitTime c 13).toInt = 300000 :=
  ⟨⟨-1#32, 300000, 600000, true⟩, by decide, by decide, by decide, by decide⟩

theorem wait_overflow (c : Cfg) (h0 : 0 < c.retryInterval.toInt) (h1 : c.retryInterval.toInt ≤ c.maxRetryInterval.toInt) (e : Nat) (he : 0 < e)
    (he' : e ≤ 13) (h2 : 2 ^ 31 ≤ c.retryInterval.toInt * 2 ^ e) (h3 : c.retryInterval.toInt * 2 ^ e < 2 ^ 32) :
    (waitTime c (BitVec.ofNat 32 e)).toInt = c.retryInterval.toInt := by
  have ht : (BitVec.ofNat 32 e).toInt = e := by
    rw [BitVec.toInt_eq_toNat_of_lt] <;> rw [BitVec.toNat_ofNat] <;> omega
  have hx : exponent (BitVec.ofNat 32 e) = e := by unfold exponent; rw [ht, if_neg (by omega)]; omega
  have hs : (c.retryInterval * BitVec.ofNat 32 (2 ^ e)).toInt < 0 := by
    rw [BitVec.toInt_mul, pow_toInt e he']
    generalize c.retryInterval.toInt * 2 ^ e = x at *
    rw [Int.bmod_def]
    have : x % ((2 ^ 32 : Nat) : Int) = x := Int.emod_eq_of_lt (by omega) (by omega)
    rw [this, if_neg (by omega)]
    omega
  unfold waitTime
  dsimp only
  rw [ht, hx, if_pos (show (e : Int) > 0 by omega), if_neg (show ¬ (c.retryInterval * BitVec.ofNat 32 (2 ^ e)).toInt > c.maxRetryInterval.toInt by omega),
    if_neg (by omega)]

/-- **Exactly when the delays never decrease**, for a positive interval below its maximum and below 2^30 ms (twelve days): when the interval is below 2^18 ms (four
minutes and 22 seconds) and the maximum is at most 4096 intervals. -/
theorem C34_monotone_iff (c : Cfg) (h0 : 0 < c.retryInterval.toInt) (h1 : c.retryInterval.toInt < c.maxRetryInterval.toInt)
    (h2 : c.retryInterval.toInt < 2 ^ 30) :
    (∀ a b : BitVec 32, 0 ≤ a.toInt → a.toInt ≤ b.toInt → (waitTime c a).toInt ≤ (waitTime c b).toInt) ↔
      c.retryInterval.toInt < 2 ^ 18 ∧ c.maxRetryInterval.toInt ≤ 4096 * c.retryInterval.toInt := by
  constructor
  · intro h
    have hr : c.retryInterval.toInt < 2 ^ 18 := by
      by_contra hc
      obtain ⟨e, e1, e2, e3, e4⟩ : ∃ e : Nat, 2 ≤ e ∧ e ≤ 13 ∧ 2 ^ 31 ≤ c.retryInterval.toInt * 2 ^ e ∧ c.retryInterval.toInt * 2 ^ e < 2 ^ 32 := by
        by_contra hn
        have h' : ∀ e : Nat, 2 ≤ e → e ≤ 13 → ¬ (2 ^ 31 ≤ c.retryInterval.toInt * 2 ^ e ∧ c.retryInterval.toInt * 2 ^ e < 2 ^ 32) :=
          fun e a b d => hn ⟨e, a, b, d.1, d.2⟩
        have k2 := h' 2 (by omega) (by omega); have k3 := h' 3 (by omega) (by omega); have k4 := h' 4 (by omega) (by omega)
        have k5 := h' 5 (by omega) (by omega); have k6 := h' 6 (by omega) (by omega); have k7 := h' 7 (by omega) (by omega)
        have k8 := h' 8 (by omega) (by omega); have k9 := h' 9 (by omega) (by omega); have k10 := h' 10 (by omega) (by omega)
        have k11 := h' 11 (by omega) (by omega); have k12 := h' 12 (by omega) (by omega); have k13 := h' 13 (by omega) (by omega)
        omega
      obtain ⟨k, rfl⟩ : ∃ k, e = k + 1 := ⟨e - 1, by omega⟩
      have ht : ∀ j : Nat, j ≤ 13 → (BitVec.ofNat 32 j).toInt = j := fun j hj => by
        rw [BitVec.toInt_eq_toNat_of_lt] <;> rw [BitVec.toNat_ofNat] <;> omega
      have hx : exponent (BitVec.ofNat 32 k) = k := by unfold exponent; rw [ht k (by omega), if_neg (by omega)]; omega
      have hd : c.retryInterval.toInt * 2 ^ (k + 1) = 2 * (c.retryInterval.toInt * 2 ^ k) := by
        rw [pow_succ, ← Int.mul_assoc, Int.mul_comm]
      have hk : (1 : Int) < 2 ^ k := one_lt_pow₀ (by norm_num) (by omega)
      have hlt : c.retryInterval.toInt * 2 ≤ c.retryInterval.toInt * 2 ^ k := Int.mul_le_mul_of_nonneg_left (by omega) (by omega)
      have w1 := C34_wait_value c h0 (by omega) (BitVec.ofNat 32 k) (by rw [ht k (by omega)]; omega) (by rw [hx]; omega)
      have w2 := wait_overflow c h0 (by omega) (k + 1) (by omega) e2 e3 e4
      have := h (BitVec.ofNat 32 k) (BitVec.ofNat 32 (k + 1)) (by rw [ht k (by omega)]; omega) (by rw [ht k (by omega), ht (k + 1) e2]; omega)
      rw [w1, w2, hx] at this
      omega
    refine ⟨hr, ?_⟩
    have x13 : exponent 13 = 13 := by decide
    have x14 : exponent 14 = 12 := by decide
    have w1 := C34_wait_value c h0 (by omega) 13 (by decide) (by rw [x13]; omega)
    have w2 := C34_wait_value c h0 (by omega) 14 (by decide) (by rw [x14]; omega)
    have := h 13 14 (by decide) (by decide)
    rw [w1, w2, x13, x14] at this
    omega
  · rintro ⟨hr, hm⟩ a b ha hab
    exact (C34_backoff_partial c h0 (by omega)).2 (by omega) a b ha hab (.inr (by omega))

/-- The default settings meet the condition, an interval of five minutes does not. -/
example : (0 : Int) < (⟨5, 1000, 30000, true⟩ : Cfg).retryInterval.toInt ∧ ((⟨5, 1000, 30000, true⟩ : Cfg).maxRetryInterval.toInt ≤ 4096 * 1000) ∧
    ¬ ((⟨5, 300000, 600000, true⟩ : Cfg).retryInterval.toInt < 2 ^ 18) ∧ (⟨5, 300000, 600000, true⟩ : Cfg).retryInterval.toInt < 2 ^ 30 := by
  decide

/-! ## C33: the retry limit -/

/-- The number of connection attempts of a run. -/
def dials (es : List Event) : Nat := es.countP (· = .dial)

/-- The number of connections that were accepted and dropped later. -/
def drops (os : List Outcome) : Nat := os.countP (· = .dropped)

@[simp] theorem dials_nil : dials [] = 0 := rfl

@[simp] theorem dials_dial (es : List Event) : dials (.dial :: es) = dials es + 1 := by simp [dials]

@[simp] theorem dials_wait (w : BitVec 32) (es : List Event) : dials (.wait w :: es) = dials es := by simp [dials]

@[simp] theorem dials_limit (w : BitVec 32) (es : List Event) : dials (.limitReached w :: es) = dials es := by
  simp [dials]

@[simp] theorem dials_finish (who : Caller) (s : Status) (es : List Event) :
    dials (finish who s :: es) = dials es := by
  cases who <;> simp [dials, finish]

theorem limited_iff (c : Cfg) (m : Nat) (hm : c.maxRetries.toInt = m) (a : BitVec 32) :
    limited c a = true ↔ (m : Int) ≤ a.toInt := by
  have : c.maxRetries ≠ -1#32 := by
    intro h
    rw [h] at hm
    have : (-1#32).toInt = -1 := by decide
    omega
  rw [limited, decide_eq_true this, hm]
  simp

theorem limited_false (c : Cfg) (m : Nat) (hm : c.maxRetries.toInt = m) (a : BitVec 32) (h : a.toInt < m) :
    limited c a = false := by
  have := limited_iff c m hm a
  cases hl : limited c a with
  | false => rfl
  | true => have := this.1 hl; omega

theorem succ_toInt (a : BitVec 32) (m : Nat) (c : Cfg) (hm : c.maxRetries.toInt = m) (h0 : 0 ≤ a.toInt)
    (h : a.toInt < m) : (a + 1).toInt = a.toInt + 1 := by
  have h1 : (1 : BitVec 32).toInt = 1 := by decide
  have hlt := c.maxRetries.toInt_lt (w := 32)
  rw [BitVec.toInt_add, h1]
  apply Int.bmod_eq_of_le <;> omega

theorem zero_toInt : (0 : BitVec 32).toInt = 0 := by decide

/-- Bound for the runs in which the counter is not reset by the next dial. -/
theorem dials_auto (c : Cfg) (m : Nat) (hm : c.maxRetries.toInt = m) :
    ∀ (os : List Outcome) (who : Caller) (a : BitVec 32), 0 ≤ a.toInt →
      dials (connect c os who a true) ≤ (m - a.toInt.toNat) + m * drops os := by
  intro os
  induction os with
  | nil =>
    intro who a _
    rw [connect]
    split <;> simp
  | cons o os ih =>
    intro who a ha
    rw [connect]
    by_cases hl : limited c a = true
    · rw [if_pos hl]; simp
    · rw [if_neg hl]
      have hlt : a.toInt < m := by
        by_contra hc
        exact hl ((limited_iff c m hm a).2 (by omega))
      have hs := succ_toInt a m c hm ha hlt
      simp only [if_true]
      have ih1 := fun who => ih who (a + 1) (by omega)
      have ih0 := fun who => ih who 0 (by rw [zero_toInt])
      rw [hs] at ih1
      rw [zero_toInt] at ih0
      cases o with
      | unreachable =>
        have hd : drops (.unreachable :: os) = drops os := by simp [drops]
        rw [hd]
        have := ih1 who
        simp only [dials_dial]
        split
        · rw [dials_wait]; omega
        · omega
      | refused =>
        have hd : drops (.refused :: os) = drops os := by simp [drops]
        rw [hd]
        have := ih1 .reconnect
        simp only [dials_dial, dials_finish, reconnect, if_true]
        split
        · split
          · simp; omega
          · rw [dials_wait]; omega
        · simp; omega
      | dropped =>
        have hd : drops (.dropped :: os) = drops os + 1 := by simp [drops]
        rw [hd, Nat.mul_add]
        have := ih0 .reconnect
        simp only [dials_dial, dials_finish, reconnect, if_true, Bool.false_eq_true, if_false]
        split
        · split
          · simp; omega
          · rw [dials_wait]; omega
        · simp; omega

/-- Bound for `Connect`: one more, since its first dial resets the counter. -/
theorem dials_user (c : Cfg) (m : Nat) (hm : c.maxRetries.toInt = m) (hr : 0 < c.retryInterval.toInt)
    (os : List Outcome) (a : BitVec 32) :
    dials (userConnect c a os) ≤ (m + 1) + m * drops os := by
  unfold userConnect
  cases os with
  | nil =>
    rw [connect]
    split <;> simp
  | cons o os =>
    rw [connect]
    by_cases hl : limited c a = true
    · rw [if_pos hl]; simp
    · rw [if_neg hl]
      have ih := fun who => dials_auto c m hm os who 0 (by rw [zero_toInt])
      rw [zero_toInt] at ih
      simp only [Bool.false_eq_true, if_false]
      cases o with
      | unreachable =>
        have hd : drops (.unreachable :: os) = drops os := by simp [drops]
        rw [hd]
        have := ih .user
        simp only [dials_dial, if_pos (show c.retryInterval.toInt > 0 from hr), dials_wait]
        omega
      | refused =>
        have hd : drops (.refused :: os) = drops os := by simp [drops]
        rw [hd]
        have := ih .reconnect
        simp only [dials_dial, dials_finish, reconnect, if_true]
        split
        · split
          · simp only [dials_limit, dials_nil]; omega
          · rw [dials_wait]; omega
        · simp only [dials_nil]; omega
      | dropped =>
        have hd : drops (.dropped :: os) = drops os + 1 := by simp [drops]
        rw [hd, Nat.mul_add]
        have := ih .reconnect
        simp only [dials_dial, dials_finish, reconnect, if_true, Bool.false_eq_true, if_false]
        split
        · split
          · simp only [dials_limit, dials_nil]; omega
          · rw [dials_wait]; omega
        · simp only [dials_nil]; omega

/-- The run of an unreachable host from a counter below the limit. -/
theorem unreachable_auto (c : Cfg) (m : Nat) (hm : c.maxRetries.toInt = m)
    (who : Caller) : ∀ (k n : Nat) (a : BitVec 32), 0 ≤ a.toInt → a.toInt + k = m → k ≤ n →
      dials (connect c (List.replicate n .unreachable) who a true) = k ∧
      ∃ es b, connect c (List.replicate n .unreachable) who a true = es ++ [.limitReached b, finish who .failed] ∧
        b.toInt = m := by
  intro k
  induction k with
  | zero =>
    intro n a _ hk _
    have hl := (limited_iff c m hm a).2 (by omega)
    have : connect c (List.replicate n .unreachable) who a true = [.limitReached a, finish who .failed] := by
      cases n with
      | zero => rw [List.replicate_zero, connect, if_pos hl]
      | succ n => rw [List.replicate_succ, connect, if_pos hl]
    rw [this]
    exact ⟨by simp, [], a, rfl, by omega⟩
  | succ k ih =>
    intro n a ha hk hn
    obtain ⟨n, rfl⟩ : ∃ n', n = n' + 1 := ⟨n - 1, by omega⟩
    have hl := limited_false c m hm a (by omega)
    have hs := succ_toInt a m c hm ha (by omega)
    obtain ⟨h1, es, b, h2, h3⟩ := ih n (a + 1) (by omega) (by omega) (by omega)
    rw [List.replicate_succ, connect, if_neg (by rw [hl]; simp)]
    simp only [if_true]
    split
    · exact ⟨by rw [dials_dial, dials_wait, h1], .dial :: .wait (waitTime c (a + 1)) :: es, b, by rw [h2]; rfl, h3⟩
    · exact ⟨by rw [dials_dial, h1], .dial :: es, b, by rw [h2]; rfl, h3⟩

/-- **C33 (the part that holds).** For every configuration with a non-negative `MaxRetries` and a positive
`RetryInterval`, every starting counter and every behaviour of the network:
1. if no accepted connection was dropped, there are at most `MaxRetries + 1` attempts, all reconnections included,
   and each dropped connection allows at most `MaxRetries` more;
2. an unreachable host is dialled exactly `MaxRetries + 1` times (never, if `MaxRetries` is zero) from a fresh
   connector, and then the limit is reported and `Connect` returns `Failed`.

Missing: with `RetryInterval <= 0`, see `C33_no_interval_never_stops_false`; and a `Connect` after a failed one, see
`C33_second_connect_never_dials`. -/
theorem C33_retry_limit_partial (c : Cfg) (m : Nat) (hm : c.maxRetries.toInt = m) (hr : 0 < c.retryInterval.toInt) :
    (∀ (a : BitVec 32) (os : List Outcome), dials (userConnect c a os) ≤ (m + 1) + m * drops os) ∧
    (∀ n, m + 1 ≤ n →
      dials (userConnect c 0 (List.replicate n .unreachable)) = (if m = 0 then 0 else m + 1) ∧
      ∃ es b, userConnect c 0 (List.replicate n .unreachable) = es ++ [.limitReached b, .returned .failed]) := by
  refine ⟨fun a os => dials_user c m hm hr os a, fun n hn => ?_⟩
  obtain ⟨n, rfl⟩ : ∃ n', n = n' + 1 := ⟨n - 1, by omega⟩
  unfold userConnect
  rw [List.replicate_succ, connect]
  by_cases h0 : m = 0
  · rw [if_pos ((limited_iff c m hm 0).2 (by rw [zero_toInt]; omega)), if_pos h0]
    exact ⟨by simp, [], 0, rfl⟩
  · have hl := limited_false c m hm 0 (by rw [zero_toInt]; omega)
    rw [if_neg (by rw [hl]; simp), if_neg h0]
    simp only [Bool.false_eq_true, if_false, if_pos (show c.retryInterval.toInt > 0 from hr)]
    obtain ⟨h1, es, b, h2, _⟩ := unreachable_auto c m hm .user m n 0 (by rw [zero_toInt]) (by rw [zero_toInt]; omega)
      (by omega)
    exact ⟨by rw [dials_dial, dials_wait, h1], .dial :: .wait (waitTime c 0) :: es, b, by rw [h2]; rfl⟩

/-- A limit of two: three dials of an unreachable host, four when the second one was accepted
and dropped, three when every connection is refused. -/
example : (⟨2, 1000, 30000, true⟩ : Cfg).maxRetries.toInt = 2 ∧
    dials (userConnect ⟨2, 1000, 30000, true⟩ 0 [.unreachable, .unreachable, .unreachable, .unreachable]) = 3 ∧
    dials (userConnect ⟨2, 1000, 30000, true⟩ 0 [.unreachable, .dropped, .unreachable, .refused, .unreachable]) = 4 ∧
    dials (userConnect ⟨2, 1000, 30000, true⟩ 0 [.refused, .refused, .refused, .refused]) = 3 := by
  decide

/-- **C33 is false in general**: with `RetryInterval` zero every failed dial resets the counter, so `Connect` with a
limit of one dials an unreachable host for ever, without ever waiting. -/
theorem C33_no_interval_never_stops_false :
    ∃ c : Cfg, c.maxRetries.toInt = 1 ∧
      ∀ n, userConnect c 0 (List.replicate n .unreachable) = List.replicate n .dial := by
  refine ⟨⟨1, 0, 30000, true⟩, by decide, fun n => ?_⟩
  unfold userConnect
  induction n with
  | zero => decide
  | succ n ih =>
    rw [List.replicate_succ, connect, if_neg (by decide)]
    simp only [Bool.false_eq_true, if_false]
    rw [if_neg (by decide), ih]
    rfl

/-- After `Connect` gave up, the counter stays at the limit: calling `Connect` again makes no attempt at all and
fails at once, although the host may be reachable by now. -/
theorem C33_second_connect_never_dials (c : Cfg) (m : Nat) (hm : c.maxRetries.toInt = m) (hm0 : 0 < m)
    (hr : 0 < c.retryInterval.toInt) (n : Nat) (hn : m + 1 ≤ n) :
    ∃ es b, userConnect c 0 (List.replicate n .unreachable) = es ++ [.limitReached b, .returned .failed] ∧
      ∀ os, userConnect c b os = [.limitReached b, .returned .failed] := by
  obtain ⟨n, rfl⟩ : ∃ n', n = n' + 1 := ⟨n - 1, by omega⟩
  have hl := limited_false c m hm 0 (by rw [zero_toInt]; omega)
  obtain ⟨_, es, b, h2, h3⟩ := unreachable_auto c m hm .user m n 0 (by rw [zero_toInt]) (by rw [zero_toInt]; omega)
    (by omega)
  refine ⟨.dial :: .wait (waitTime c 0) :: es, b, ?_, fun os => ?_⟩
  · unfold userConnect
    rw [List.replicate_succ, connect, if_neg (by rw [hl]; simp)]
    simp only [Bool.false_eq_true, if_false, if_pos (show c.retryInterval.toInt > 0 from hr)]
    rw [h2]
    rfl
  · have hb := (limited_iff c m hm b).2 (by omega)
    unfold userConnect
    cases os with
    | nil => rw [connect, if_pos hb]; rfl
    | cons o os => rw [connect, if_pos hb]; rfl

example : (⟨2, 1000, 30000, true⟩ : Cfg).maxRetries.toInt = 2 ∧
    userConnect ⟨2, 1000, 30000, true⟩ 2 [.dropped] = [.limitReached 2, .returned .failed] := by
  decide

/-- Every dial of an unreachable host by somebody who reconnects, from counter `j` on. -/
theorem unreachable_events (c : Cfg) (m : Nat) (hm : c.maxRetries.toInt = m) (hr : 0 < c.retryInterval.toInt) (who : Caller) :
    ∀ (k j n : Nat), j + k = m → k ≤ n →
      connect c (List.replicate n .unreachable) who (BitVec.ofNat 32 j) true =
        (List.range' (j + 1) k).flatMap (fun i => [.dial, .wait (waitTime c (BitVec.ofNat 32 i))]) ++
          [.limitReached (BitVec.ofNat 32 m), finish who .failed] := by
  have hlt := c.maxRetries.toInt_lt (w := 32)
  have ht : ∀ j : Nat, j ≤ m → (BitVec.ofNat 32 j).toInt = j := fun j hj => by
    rw [BitVec.toInt_eq_toNat_of_lt] <;> rw [BitVec.toNat_ofNat] <;> omega
  intro k
  induction k with
  | zero =>
    intro j n hj _
    have hl := (limited_iff c m hm (BitVec.ofNat 32 j)).2 (by rw [ht j (by omega)]; omega)
    have : j = m := by omega
    subst this
    cases n with
    | zero => rw [List.replicate_zero, connect, if_pos hl]; rfl
    | succ n => rw [List.replicate_succ, connect, if_pos hl]; rfl
  | succ k ih =>
    intro j n hj hn
    obtain ⟨n, rfl⟩ : ∃ n', n = n' + 1 := ⟨n - 1, by omega⟩
    have hl := limited_false c m hm (BitVec.ofNat 32 j) (by rw [ht j (by omega)]; omega)
    rw [List.replicate_succ, connect, if_neg (by rw [hl]; simp)]
    simp only [if_true, if_pos (show c.retryInterval.toInt > 0 from hr)]
    have hs : BitVec.ofNat 32 j + 1 = BitVec.ofNat 32 (j + 1) := by rw [BitVec.ofNat_add]; rfl
    rw [hs, ih (j + 1) n (by omega) (by omega), List.range'_succ, List.flatMap_cons]
    rfl

/-- **What happens with an unreachable host, event by event** (positive limit and interval, fresh connector): `MaxRetries + 1` times a dial and the wait of the
back-off, the waits being those of the counters 0, 1, …, `MaxRetries`; then the report of the limit, and `Failed`. Before giving up it waits once more. -/
theorem C33_unreachable_exact (c : Cfg) (m : Nat) (hm : c.maxRetries.toInt = m) (hm0 : 0 < m) (hr : 0 < c.retryInterval.toInt) (n : Nat) (hn : m + 1 ≤ n) :
    userConnect c 0 (List.replicate n .unreachable) =
      (List.range (m + 1)).flatMap (fun i => [.dial, .wait (waitTime c (BitVec.ofNat 32 i))]) ++
        [.limitReached (BitVec.ofNat 32 m), .returned .failed] := by
  obtain ⟨n, rfl⟩ : ∃ n', n = n' + 1 := ⟨n - 1, by omega⟩
  have hl := limited_false c m hm 0 (by rw [zero_toInt]; omega)
  unfold userConnect
  rw [List.replicate_succ, connect, if_neg (by rw [hl]; simp)]
  simp only [Bool.false_eq_true, if_false, if_pos (show c.retryInterval.toInt > 0 from hr)]
  have := unreachable_events c m hm hr .user m 0 n (by omega) (by omega)
  have h0 : BitVec.ofNat 32 0 = 0 := rfl
  rw [h0] at this
  rw [this, List.range_eq_range', List.range'_succ, List.flatMap_cons]
  rfl

/-- A limit of two: three dials, and waits of one, two and four seconds. -/
example : (⟨2, 1000, 30000, true⟩ : Cfg).maxRetries.toInt = 2 ∧ (0 : Int) < (⟨2, 1000, 30000, true⟩ : Cfg).retryInterval.toInt ∧
    userConnect ⟨2, 1000, 30000, true⟩ 0 (List.replicate 3 .unreachable) =
      [.dial, .wait 1000, .dial, .wait 2000, .dial, .wait 4000, .limitReached 2, .returned .failed] := by decide

/-- **Without an interval no positive limit is ever met**: whatever it is, and whatever the counter below it, `Connect` dials an unreachable host as often as the
network answers, never waits and never returns. -/
theorem C33_no_interval_false (c : Cfg) (hm : 0 < c.maxRetries.toInt) (hr : c.retryInterval.toInt ≤ 0) (a : BitVec 32)
    (ha : a.toInt < c.maxRetries.toInt) (n : Nat) :
    userConnect c a (List.replicate n .unreachable) = List.replicate n .dial := by
  obtain ⟨m, h⟩ : ∃ m : Nat, c.maxRetries.toInt = m := ⟨c.maxRetries.toInt.toNat, by omega⟩
  rw [h] at hm ha
  unfold userConnect
  induction n generalizing a with
  | zero =>
    rw [List.replicate_zero, connect, limited_false c m h a ha]
    rfl
  | succ n ih =>
    rw [List.replicate_succ, connect, if_neg (by rw [limited_false c m h a ha]; simp)]
    simp only [Bool.false_eq_true, if_false]
    rw [if_neg (by omega), ih 0 (by rw [zero_toInt]; exact hm)]
    rfl

/-- **`MaxRetries` -1 is no limit**: however long a host is unreachable, every chance is taken to dial it, whatever interval and counter. -/
theorem C33_unlimited (c : Cfg) (hm : c.maxRetries = -1#32) (a : BitVec 32) (n : Nat) :
    dials (userConnect c a (List.replicate n .unreachable)) = n ∧
      ∀ e ∈ userConnect c a (List.replicate n .unreachable), e = .dial ∨ ∃ w, e = .wait w := by
  have hl : ∀ a, limited c a = false := fun a => by simp [limited, hm]
  have : ∀ (n : Nat) (auto : Bool) (a : BitVec 32), dials (connect c (List.replicate n .unreachable) .user a auto) = n ∧
      ∀ e ∈ connect c (List.replicate n .unreachable) .user a auto, e = .dial ∨ ∃ w, e = .wait w := by
    intro n
    induction n with
    | zero => intro auto a; rw [List.replicate_zero, connect, hl]; simp
    | succ n ih =>
      intro auto a
      rw [List.replicate_succ, connect, if_neg (by rw [hl]; simp)]
      dsimp only
      split
      · obtain ⟨h1, h2⟩ := ih true (if auto then a + 1 else 0)
        refine ⟨by rw [dials_dial, dials_wait, h1], fun e he => ?_⟩
        rcases List.mem_cons.1 he with rfl | he
        · exact .inl rfl
        · rcases List.mem_cons.1 he with rfl | he
          · exact .inr ⟨_, rfl⟩
          · exact h2 e he
      · obtain ⟨h1, h2⟩ := ih auto (if auto then a + 1 else 0)
        refine ⟨by rw [dials_dial, h1], fun e he => ?_⟩
        rcases List.mem_cons.1 he with rfl | he
        · exact .inl rfl
        · exact h2 e he
  exact this n false a

example : (⟨-1#32, 1000, 30000, true⟩ : Cfg).maxRetries = -1#32 ∧ dials (userConnect ⟨-1#32, 1000, 30000, true⟩ 7 (List.replicate 5 .unreachable)) = 5 := by
  decide

/-- **Any other negative `MaxRetries` forbids even the first attempt**: `Connect` fails at once, whatever the network would do. -/
theorem C33_negative_never_dials (c : Cfg) (hm : c.maxRetries.toInt < -1) (a : BitVec 32) (ha : 0 ≤ a.toInt) (os : List Outcome) :
    userConnect c a os = [.limitReached a, .returned .failed] := by
  have hl : limited c a = true := by
    have : c.maxRetries ≠ -1#32 := by
      intro h
      rw [h] at hm
      have : (-1#32).toInt = -1 := by decide
      omega
    rw [limited, decide_eq_true this, Bool.true_and]
    exact decide_eq_true (by omega)
  unfold userConnect
  cases os with
  | nil => rw [connect, if_pos hl]; rfl
  | cons o os => rw [connect, if_pos hl]; rfl

example : (⟨-2#32, 1000, 30000, true⟩ : Cfg).maxRetries.toInt < -1 ∧
    userConnect ⟨-2#32, 1000, 30000, true⟩ 0 [.dropped] = [.limitReached 0, .returned .failed] := by decide

example : ∃ c : Cfg, 0 < c.maxRetries.toInt ∧ c.retryInterval.toInt ≤ 0 ∧ (2 : BitVec 32).toInt < c.maxRetries.toInt ∧
    userConnect c 2 (List.replicate 4 .unreachable) = [.dial, .dial, .dial, .dial] := ⟨⟨3, -5, 30000, true⟩, by decide⟩

end Verif.Connector
