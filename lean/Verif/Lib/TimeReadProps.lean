import Verif.Lib.TimeRead
import Verif.Lib.TimeTextProps
import Verif.Lib.TextProps
import Verif.Guid.TextProps

/-! # Which texts are dates, and which (C112) -/

namespace Verif.Lib.TimeRead

open Verif.Calendar Verif.Format Verif.Lib.Decimal Verif.Lib.TimeText

/-- A time of day as in `ClockText`, but the hour may have one digit. -/
def ClockText1 (s : List Byte) (n : Int) : Prop :=
  ∃ hs ms ss h m x, s = hs ++ 58#8 :: ms ++ 58#8 :: ss ∧ (Written 1 hs h ∨ Written 2 hs h) ∧ Written 2 ms m ∧ Written 2 ss x ∧
    h < 24 ∧ m < 60 ∧ x < 60 ∧ n = 3600 * h + 60 * m + x

/-- A fraction of a second: nothing, or digits after a point or a comma; `n` its nanoseconds, whatever is beyond cut. -/
def Places (s : List Byte) (n : Int) : Prop :=
  s = [] ∧ n = 0 ∨ ∃ p ds, s = p :: ds ∧ (p = 46#8 ∨ p = 44#8) ∧ Digits ds ∧ ds ≠ [] ∧ n = (readDecimal ds * 10 ^ 9 / 10 ^ ds.length : Nat)

/-- A zone: a sign, hours up to 24, a colon and minutes up to 60; `n` its seconds. -/
def ZoneText (s : List Byte) (n : Int) : Prop :=
  ∃ g hs ms h m, s = g :: hs ++ 58#8 :: ms ∧ Written 2 hs h ∧ Written 2 ms m ∧ h ≤ 24 ∧ m ≤ 60 ∧
    (g = 43#8 ∧ n = 3600 * h + 60 * m ∨ g = 45#8 ∧ n = -(3600 * h + 60 * m))

theorem isDigit_iff (b : Byte) : isDigit b = true ↔ 48 ≤ b.toNat ∧ b.toNat ≤ 57 := by
  unfold isDigit
  rw [Bool.and_eq_true, decide_eq_true_iff, decide_eq_true_iff]

theorem digits_cons (b : Byte) (l : List Byte) : Digits (b :: l) ↔ isDigit b = true ∧ Digits l := by
  unfold Digits
  rw [isDigit_iff, List.forall_mem_cons]

theorem digits_nil : Digits [] := by intro b hb; cases hb

theorem two_iff (s r : List Byte) (n : Nat) : two s = some (n, r) ↔ ∃ p, s = p ++ r ∧ Written 2 p n := by
  constructor
  · intro h
    unfold two at h
    split at h
    · rename_i a b s
      split at h
      · rename_i hd
        rw [Bool.and_eq_true] at hd
        obtain ⟨rfl, rfl⟩ := Prod.mk.inj (Option.some.inj h)
        exact ⟨[a, b], rfl, rfl, by simp only [digits_cons]; exact ⟨hd.1, hd.2, digits_nil⟩, rfl⟩
      · cases h
    · cases h
  · rintro ⟨p, rfl, hl, hd, hn⟩
    match p, hl with
    | [a, b], _ =>
      simp only [digits_cons] at hd
      have hn' : readDecimal [a, b] = n := by exact_mod_cast hn
      show (if isDigit a && isDigit b then some (readDecimal [a, b], r) else none) = _
      rw [if_pos (by rw [hd.1, hd.2.1]; rfl), hn']

theorem four_iff (s r : List Byte) (n : Nat) : four s = some (n, r) ↔ ∃ p, s = p ++ r ∧ Written 4 p n := by
  constructor
  · intro h
    unfold four at h
    split at h
    · rename_i a b c d s
      split at h
      · rename_i hd
        simp only [Bool.and_eq_true] at hd
        obtain ⟨rfl, rfl⟩ := Prod.mk.inj (Option.some.inj h)
        exact ⟨[a, b, c, d], rfl, rfl, by simp only [digits_cons]; exact ⟨hd.1.1.1, hd.1.1.2, hd.1.2, hd.2, digits_nil⟩, rfl⟩
      · cases h
    · cases h
  · rintro ⟨p, rfl, hl, hd, hn⟩
    match p, hl with
    | [a, b, c, d], _ =>
      simp only [digits_cons] at hd
      have hn' : readDecimal [a, b, c, d] = n := by exact_mod_cast hn
      show (if isDigit a && isDigit b && isDigit c && isDigit d then some (readDecimal [a, b, c, d], r) else none) = _
      rw [if_pos (by rw [hd.1, hd.2.1, hd.2.2.1, hd.2.2.2.1]; rfl), hn']

theorem oneOrTwo_iff (s r : List Byte) (n : Nat) : oneOrTwo s = some (n, r) ↔
    ∃ p, s = p ++ r ∧ (Written 2 p n ∨ Written 1 p n ∧ ∀ b ∈ r.head?, isDigit b = false) := by
  constructor
  · intro h
    unfold oneOrTwo at h
    split at h
    · rename_i a b s
      split at h
      · rename_i ha
        split at h
        · rename_i hb
          obtain ⟨rfl, rfl⟩ := Prod.mk.inj (Option.some.inj h)
          exact ⟨[a, b], rfl, Or.inl ⟨rfl, by simp only [digits_cons]; exact ⟨ha, hb, digits_nil⟩, rfl⟩⟩
        · rename_i hb
          obtain ⟨rfl, rfl⟩ := Prod.mk.inj (Option.some.inj h)
          exact ⟨[a], rfl, Or.inr ⟨⟨rfl, by simp only [digits_cons]; exact ⟨ha, digits_nil⟩, rfl⟩, by simpa using hb⟩⟩
      · cases h
    · rename_i a
      split at h
      · rename_i ha
        obtain ⟨rfl, rfl⟩ := Prod.mk.inj (Option.some.inj h)
        exact ⟨[a], rfl, Or.inr ⟨⟨rfl, by simp only [digits_cons]; exact ⟨ha, digits_nil⟩, rfl⟩, by simp⟩⟩
      · cases h
    · cases h
  · rintro ⟨p, rfl, ⟨hl, hd, hn⟩ | ⟨⟨hl, hd, hn⟩, hr⟩⟩
    · match p, hl with
      | [a, b], _ =>
        simp only [digits_cons] at hd
        have hn' : readDecimal [a, b] = n := by exact_mod_cast hn
        show (if isDigit a then (if isDigit b then some (readDecimal [a, b], r) else some (readDecimal [a], b :: r)) else none) = _
        rw [if_pos hd.1, if_pos hd.2.1, hn']
    · match p, hl with
      | [a], _ =>
        simp only [digits_cons] at hd
        have hn' : readDecimal [a] = n := by exact_mod_cast hn
        cases r with
        | nil =>
          show (if isDigit a then some (readDecimal [a], []) else none) = _
          rw [if_pos hd.1, hn']
        | cons b r =>
          have hb : isDigit b = false := hr b (by simp)
          show (if isDigit a then (if isDigit b then some (readDecimal [a, b], r) else some (readDecimal [a], b :: r)) else none) = _
          rw [if_pos hd.1, hb, hn']
          rfl

theorem skip_iff (c : Byte) (s r : List Byte) : skip c s = some r ↔ s = c :: r := by
  unfold skip
  split
  · rename_i b t
    split
    · rename_i h
      simp [h]
    · rename_i h
      simp [h]
  · simp

theorem within_iff (lo hi n : Nat) : within lo hi n = some () ↔ lo ≤ n ∧ n ≤ hi := by
  unfold within
  split <;> simp [*]

theorem takeWhile_digits (ds r : List Byte) (hd : Digits ds) (hr : ∀ b ∈ r.head?, isDigit b = false) :
    (ds ++ r).takeWhile isDigit = ds ∧ (ds ++ r).dropWhile isDigit = r := by
  induction ds with
  | nil =>
    cases r with
    | nil => exact ⟨rfl, rfl⟩
    | cons b r =>
      have := hr b (by simp)
      simp [this]
  | cons b ds ih =>
    rw [digits_cons] at hd
    obtain ⟨h1, h2⟩ := ih hd.2
    simp [hd.1, h1, h2]

theorem readDecimal_lt (ds : List Byte) (hd : Digits ds) : readDecimal ds < 10 ^ ds.length := by
  induction ds using List.reverseRecOn with
  | nil => decide
  | append_singleton l b ih =>
    have h1 := ih fun x hx => hd x (List.mem_append_left _ hx)
    have h2 := hd b (by simp)
    rw [readDecimal_snoc, List.length_append, List.length_singleton, Nat.pow_succ]
    omega

theorem readDecimal_take (ds : List Byte) (hd : Digits ds) :
    readDecimal (ds.take 9) * 10 ^ (9 - (ds.take 9).length) = readDecimal ds * 10 ^ 9 / 10 ^ ds.length := by
  by_cases h : ds.length ≤ 9
  · rw [List.take_of_length_le h]
    have : 10 ^ 9 = 10 ^ (9 - ds.length) * 10 ^ ds.length := by rw [← Nat.pow_add]; congr 1; omega
    rw [this, ← Nat.mul_assoc, Nat.mul_div_cancel _ (by positivity)]
  · have hl : (ds.take 9).length = 9 := by rw [List.length_take]; omega
    rw [hl, Nat.sub_self, Nat.pow_zero, Nat.mul_one]
    conv_rhs => rw [← List.take_append_drop 9 ds]
    have hs := readDecimal_append (ds.take 9) (ds.drop 9)
    have hd' : Digits (ds.drop 9) := fun b hb => hd b (List.mem_of_mem_drop hb)
    have hlt := readDecimal_lt (ds.drop 9) hd'
    rw [hs, List.length_append, hl]
    generalize readDecimal (ds.drop 9) = v at *
    generalize readDecimal (ds.take 9) = u at *
    generalize (ds.drop 9).length = k at *
    rw [Nat.pow_add, Nat.mul_comm (10 ^ 9) (10 ^ k), Nat.mul_div_mul_right _ _ (by positivity : 0 < 10 ^ 9)]
    rw [Nat.add_comm, Nat.add_mul_div_right _ _ (by positivity), Nat.div_eq_of_lt hlt, Nat.zero_add]

theorem takeWhile_all (l : List Byte) : Digits (l.takeWhile isDigit) := by
  induction l with
  | nil => exact digits_nil
  | cons b l ih =>
    rw [List.takeWhile_cons]
    split
    · rename_i h
      rw [digits_cons]
      exact ⟨h, ih⟩
    · exact digits_nil

theorem places_iff (s r : List Byte) (n : Nat) : places s = (n, r) ↔ ∃ p, s = p ++ r ∧ Places p n ∧
    (p ≠ [] → ∀ b ∈ r.head?, isDigit b = false) ∧ (p = [] → ∀ q b, (q = 46#8 ∨ q = 44#8) → isDigit b = true → ¬ [q, b] <+: r) := by
  have key : ∀ (n : Nat) r, (0, s) = (n, r) → (∀ q b, (q = 46#8 ∨ q = 44#8) → isDigit b = true → ¬ [q, b] <+: s) → ∃ p, s = p ++ r ∧ Places p n ∧
    (p ≠ [] → ∀ b ∈ r.head?, isDigit b = false) ∧ (p = [] → ∀ q b, (q = 46#8 ∨ q = 44#8) → isDigit b = true → ¬ [q, b] <+: r) := by
    intro n r h hq
    obtain ⟨rfl, rfl⟩ := Prod.mk.inj h
    exact ⟨[], rfl, Or.inl ⟨rfl, rfl⟩, fun h => absurd rfl h, fun _ => hq⟩
  constructor
  · intro h
    unfold places at h
    split at h
    · rename_i p b t
      split at h
      · rename_i hp
        obtain ⟨hp, hb⟩ := hp
        obtain ⟨rfl, rfl⟩ := Prod.mk.inj h
        have hd := takeWhile_all (b :: t)
        refine ⟨p :: (b :: t).takeWhile isDigit, ?_, Or.inr ⟨p, _, rfl, hp, hd, ?_, ?_⟩, ?_, ?_⟩
        · rw [List.cons_append, List.takeWhile_append_dropWhile]
        · rw [List.takeWhile_cons, if_pos hb]; simp
        · rw [readDecimal_take _ hd]
        · intro _ x hx
          have := List.head?_dropWhile_not isDigit (b :: t)
          cases hh : ((b :: t).dropWhile isDigit).head? with
          | none => rw [hh] at hx; cases hx
          | some y =>
            rw [hh] at this hx
            rw [← Option.some.inj hx]
            exact this
        · intro h; cases h
      · rename_i hp
        apply key _ _ h
        intro q c hq hc hpre
        obtain ⟨u, hu⟩ := hpre
        obtain ⟨e1, hu⟩ := List.cons.inj hu
        obtain ⟨e2, -⟩ := List.cons.inj hu
        exact hp ⟨e1 ▸ hq, e2 ▸ hc⟩
    · rename_i hs
      apply key _ _ h
      intro q c hq hc hpre
      obtain ⟨u, hu⟩ := hpre
      exact hs q c u hu.symm
  · rintro ⟨p, rfl, hp, h1, h2⟩
    rcases hp with ⟨rfl, hn⟩ | ⟨q, ds, rfl, hq, hd, hne, hn⟩
    · have hn : n = 0 := by exact_mod_cast hn
      subst hn
      rw [List.nil_append]
      unfold places
      split
      · rename_i p b t
        rw [if_neg]
        rintro ⟨hp, hb⟩
        exact h2 rfl p b hp hb ⟨t, rfl⟩
      · rfl
    · cases ds with
      | nil => exact absurd rfl hne
      | cons b t =>
        have hb := ((digits_cons b t).mp hd).1
        obtain ⟨e1, e2⟩ := takeWhile_digits (b :: t) r hd (h1 (by simp))
        show (if (q = 46#8 ∨ q = 44#8) ∧ isDigit b = true then
          (readDecimal (((b :: t ++ r).takeWhile isDigit).take 9) * 10 ^ (9 - (((b :: t ++ r).takeWhile isDigit).take 9).length),
            (b :: t ++ r).dropWhile isDigit) else _) = _
        rw [if_pos ⟨hq, hb⟩, e1, e2, readDecimal_take _ hd]
        rw [Int.ofNat.inj hn]

theorem zone_iff (s : List Byte) (z : Int) : zone s = some z ↔ ZoneText s z := by
  constructor
  · intro h
    cases s with
    | nil => cases h
    | cons g s =>
      unfold zone at h
      simp only [Option.bind_eq_bind, Option.bind_eq_some_iff] at h
      obtain ⟨⟨h1, s1⟩, e1, s2, e2, ⟨m, s3⟩, e3, ⟨⟩, e4, ⟨⟩, e5, h⟩ := h
      dsimp only at e2 e3 e4 e5 h
      rw [two_iff] at e1 e3
      rw [skip_iff] at e2
      rw [within_iff] at e4 e5
      obtain ⟨p, rfl, hp⟩ := e1
      obtain ⟨q, rfl, hq⟩ := e3
      split at h
      · cases h
      · rename_i h0
        have h0 : s3 = [] := by simpa using h0
        subst h0
        refine ⟨g, p, q, h1, m, by rw [e2]; simp, hp, hq, by exact_mod_cast e4.2, by exact_mod_cast e5.2, ?_⟩
        split at h
        · exact Or.inl ⟨by assumption, (Option.some.inj h).symm⟩
        · split at h
          · exact Or.inr ⟨by assumption, (Option.some.inj h).symm⟩
          · cases h
  · rintro ⟨g, hs, ms, h, m, rfl, h1, h2, h3, h4, h5⟩
    obtain ⟨h, rfl⟩ : ∃ k : Nat, h = k := ⟨_, h1.2.2.symm⟩
    obtain ⟨m, rfl⟩ : ∃ k : Nat, m = k := ⟨_, h2.2.2.symm⟩
    have a1 : two (hs ++ 58#8 :: ms) = some (h, 58#8 :: ms) := (two_iff _ _ _).mpr ⟨hs, rfl, h1⟩
    have a2 : two ms = some (m, []) := (two_iff _ _ _).mpr ⟨ms, by simp, h2⟩
    have a3 : within 0 24 h = some () := (within_iff _ _ _).mpr ⟨by omega, by exact_mod_cast h3⟩
    have a4 : within 0 60 m = some () := (within_iff _ _ _).mpr ⟨by omega, by exact_mod_cast h4⟩
    rw [List.cons_append]
    unfold zone
    dsimp only
    rw [a1]
    simp only [Option.bind_eq_bind, Option.bind_some]
    rw [(skip_iff _ _ _).mpr rfl]
    simp only [Option.bind_some]
    rw [a2]
    simp only [Option.bind_some]
    rw [a3]
    simp only [Option.bind_some]
    rw [a4]
    simp only [Option.bind_some]
    rcases h5 with ⟨rfl, rfl⟩ | ⟨rfl, rfl⟩
    · simp
    · simp

theorem day_iff (s r : List Byte) (n : Int) : day? s = some (n, r) ↔ ∃ p, s = p ++ r ∧ DateText p n := by
  constructor
  · intro h
    unfold day? at h
    simp only [Option.bind_eq_bind, Option.bind_eq_some_iff] at h
    obtain ⟨⟨y, s1⟩, e1, s2, e2, ⟨m, s3⟩, e3, ⟨⟩, e4, s4, e5, ⟨d, s5⟩, e6, h⟩ := h
    dsimp only at e2 e3 e4 e5 e6 h
    rw [four_iff] at e1
    rw [two_iff] at e3 e6
    rw [skip_iff] at e2 e5
    obtain ⟨p, rfl, hp⟩ := e1
    obtain ⟨q, rfl, hq⟩ := e3
    obtain ⟨u, rfl, hu⟩ := e6
    split at h
    · rename_i hd
      obtain ⟨rfl, rfl⟩ := Prod.mk.inj (Option.some.inj h)
      exact ⟨p ++ 45#8 :: q ++ 45#8 :: u, by rw [e2, e5]; simp, p, q, u, y, m, d, rfl, hp, hq, hu, hd, rfl⟩
    · cases h
  · rintro ⟨p, rfl, ys, ms, ds, y, m, d, rfl, h1, h2, h3, h4, rfl⟩
    obtain ⟨y, rfl⟩ : ∃ k : Nat, y = k := ⟨_, h1.2.2.symm⟩
    obtain ⟨m, rfl⟩ : ∃ k : Nat, m = k := ⟨_, h2.2.2.symm⟩
    obtain ⟨d, rfl⟩ : ∃ k : Nat, d = k := ⟨_, h3.2.2.symm⟩
    have e : ys ++ 45#8 :: ms ++ 45#8 :: ds ++ r = ys ++ (45#8 :: (ms ++ (45#8 :: (ds ++ r)))) := by simp
    have a1 : within 1 12 m = some () := (within_iff _ _ _).mpr ⟨by exact_mod_cast h4.1, by exact_mod_cast h4.2.1⟩
    rw [e]
    unfold day?
    rw [(four_iff _ _ _).mpr ⟨ys, rfl, h1⟩]
    simp only [Option.bind_eq_bind, Option.bind_some]
    rw [(skip_iff _ _ _).mpr rfl]
    simp only [Option.bind_some]
    rw [(two_iff _ _ _).mpr ⟨ms, rfl, h2⟩]
    simp only [Option.bind_some]
    rw [a1]
    simp only [Option.bind_some]
    rw [(skip_iff _ _ _).mpr rfl]
    simp only [Option.bind_some]
    rw [(two_iff _ _ _).mpr ⟨ds, rfl, h3⟩]
    simp only [Option.bind_some]
    rw [if_pos h4]

theorem clock_iff (s r : List Byte) (n : Int) : clock? s = some (n, r) ↔ ∃ p, s = p ++ r ∧ ClockText1 p n := by
  constructor
  · intro h
    unfold clock? at h
    simp only [Option.bind_eq_bind, Option.bind_eq_some_iff] at h
    obtain ⟨⟨a, s1⟩, e1, ⟨⟩, e2, s2, e3, ⟨m, s3⟩, e4, ⟨⟩, e5, s4, e6, ⟨x, s5⟩, e7, ⟨⟩, e8, h⟩ := h
    dsimp only at e2 e3 e4 e5 e6 e7 e8 h
    rw [oneOrTwo_iff] at e1
    rw [two_iff] at e4 e7
    rw [skip_iff] at e3 e6
    rw [within_iff] at e2 e5 e8
    obtain ⟨p, rfl, hp⟩ := e1
    obtain ⟨q, rfl, hq⟩ := e4
    obtain ⟨u, rfl, hu⟩ := e7
    obtain ⟨rfl, rfl⟩ := Prod.mk.inj (Option.some.inj h)
    refine ⟨p ++ 58#8 :: q ++ 58#8 :: u, by rw [e3, e6]; simp, p, q, u, a, m, x, rfl, ?_, hq, hu, by omega, by omega, by omega, rfl⟩
    rcases hp with hp | hp
    · exact Or.inr hp
    · exact Or.inl hp.1
  · rintro ⟨p, rfl, ys, ms, ds, y, m, d, rfl, h1, h2, h3, h4, h5, h6, rfl⟩
    obtain ⟨y, rfl⟩ : ∃ k : Nat, y = k := by rcases h1 with h1 | h1 <;> exact ⟨_, h1.2.2.symm⟩
    obtain ⟨m, rfl⟩ : ∃ k : Nat, m = k := ⟨_, h2.2.2.symm⟩
    obtain ⟨d, rfl⟩ : ∃ k : Nat, d = k := ⟨_, h3.2.2.symm⟩
    have e : ys ++ 58#8 :: ms ++ 58#8 :: ds ++ r = ys ++ (58#8 :: (ms ++ (58#8 :: (ds ++ r)))) := by simp
    have a0 : oneOrTwo (ys ++ (58#8 :: (ms ++ (58#8 :: (ds ++ r))))) = some (y, 58#8 :: (ms ++ (58#8 :: (ds ++ r)))) := by
      rw [oneOrTwo_iff]
      refine ⟨ys, rfl, ?_⟩
      rcases h1 with h1 | h1
      · refine Or.inr ⟨h1, ?_⟩
        intro b hb
        have : b = 58#8 := by simpa using hb.symm
        rw [this]; decide
      · exact Or.inl h1
    have a1 : within 0 23 y = some () := (within_iff _ _ _).mpr (by omega)
    have a2 : within 0 59 m = some () := (within_iff _ _ _).mpr (by omega)
    have a3 : within 0 59 d = some () := (within_iff _ _ _).mpr (by omega)
    rw [e]
    unfold clock?
    rw [a0]
    simp only [Option.bind_eq_bind, Option.bind_some]
    rw [a1]
    simp only [Option.bind_some]
    rw [(skip_iff _ _ _).mpr rfl]
    simp only [Option.bind_some]
    rw [(two_iff _ _ _).mpr ⟨ms, rfl, h2⟩]
    simp only [Option.bind_some]
    rw [a2]
    simp only [Option.bind_some]
    rw [(skip_iff _ _ _).mpr rfl]
    simp only [Option.bind_some]
    rw [(two_iff _ _ _).mpr ⟨ds, rfl, h3⟩]
    simp only [Option.bind_some]
    rw [a3]
    simp only [Option.bind_some]

/-- C112: a text is read as a date exactly if it is a date of the calendar of the years 0 to 9999, a `T`, a time of day, possibly a fraction of a
second, and a zone; and the instant read is the one meant: the day, the time of day and the fraction cut to nanoseconds, less the zone. -/
theorem C112_date (s : List Byte) (t : Int) : instant s = some t ↔ ∃ d c f z n sec x off, s = d ++ 84#8 :: c ++ f ++ z ∧
    DateText d n ∧ ClockText1 c sec ∧ Places f x ∧ ZoneText z off ∧
    t = n * 86400000000000 + sec * 1000000000 + x - off * 1000000000 := by
  constructor
  · intro h
    unfold instant at h
    simp only [Option.bind_eq_bind, Option.bind_eq_some_iff] at h
    obtain ⟨⟨n, s1⟩, e1, s2, e2, ⟨c, s3⟩, e3, z, e4, h⟩ := h
    dsimp only at e2 e3 e4 h
    rw [day_iff] at e1
    rw [clock_iff] at e3
    rw [skip_iff] at e2
    rw [zone_iff] at e4
    obtain ⟨p, rfl, hp⟩ := e1
    obtain ⟨q, rfl, hq⟩ := e3
    obtain ⟨f, e5, hf, -, -⟩ := (places_iff s3 (places s3).2 (places s3).1).mp rfl
    refine ⟨p, q, f, _, n, c, _, z, ?_, hp, hq, hf, e4, (Option.some.inj h).symm⟩
    rw [e2]
    conv_lhs => rw [e5]
    simp
  · rintro ⟨d, c, f, z, n, sec, x, off, rfl, hd, hc, hf, hz, rfl⟩
    obtain ⟨x, rfl⟩ : ∃ k : Nat, x = k := by
      rcases hf with ⟨-, rfl⟩ | ⟨_, _, -, -, -, -, rfl⟩
      · exact ⟨0, rfl⟩
      · exact ⟨_, rfl⟩
    have hz' := hz
    obtain ⟨g, hs, ms, h, m, rfl, -, -, -, -, hg⟩ := hz'
    have hg : g = 43#8 ∨ g = 45#8 := by rcases hg with hg | hg <;> simp [hg.1]
    have hpl : places (f ++ (g :: hs ++ 58#8 :: ms)) = (x, g :: hs ++ 58#8 :: ms) := by
      rw [places_iff]
      refine ⟨f, rfl, hf, ?_, ?_⟩
      · intro _ b hb
        have : b = g := by simpa using hb.symm
        rw [this]
        rcases hg with rfl | rfl <;> decide
      · rintro - q b hq hb ⟨u, hu⟩
        have : q = g := (List.cons.inj hu).1
        rw [this] at hq
        rcases hg with rfl | rfl <;> revert hq <;> decide
    have e : d ++ 84#8 :: c ++ f ++ (g :: hs ++ 58#8 :: ms) = d ++ (84#8 :: (c ++ (f ++ (g :: hs ++ 58#8 :: ms)))) := by simp
    rw [e]
    unfold instant
    rw [(day_iff _ _ _).mpr ⟨d, rfl, hd⟩]
    simp only [Option.bind_eq_bind, Option.bind_some]
    rw [(skip_iff _ _ _).mpr rfl]
    simp only [Option.bind_some]
    rw [(clock_iff _ _ _).mpr ⟨c, rfl, hc⟩]
    simp only [Option.bind_some]
    rw [hpl, (zone_iff _ _).mpr hz]
    rfl

open Verif.Guid (ascii)

/-- Noon in Chattanooga; a comma, one digit for the hour; a day that does not exist; no zone. -/
example : instant (ascii "2021-07-29T12:34:56.1234567-04:00") = some (dayNumber 2021 7 29 * day + 16 * hour + 34 * minute + 56 * second + 123456700) ∧
    instant (ascii "2020-02-29T1:00:00,5+00:00") = some (dayNumber 2020 2 29 * day + hour + 500000000) ∧
    instant (ascii "2021-02-29T12:00:00+00:00") = none ∧ instant (ascii "2021-07-29T12:34:56") = none ∧
    instant (ascii "2021-07-29T12:34:56Z") = none := by decide +kernel

theorem instant_written (k : Nat) (hk : k ≤ 9) (t : Int) (h0 : dayNumber 0 1 1 * 86400000000000 ≤ t) (h1 : t < dayNumber 10000 1 1 * 86400000000000) :
    instant (date (t / day) ++ 84#8 :: clock t ++ fraction k t ++ [43#8, 48#8, 48#8, 58#8, 48#8, 48#8]) = some (t - t % 10 ^ (9 - k)) := by
  rw [C112_date]
  obtain ⟨hs, ms, ss, a, b, c, e1, e2, e3, e4, e5, e6, e7, e8⟩ := clock_text t
  refine ⟨date (t / day), clock t, fraction k t, [43#8, 48#8, 48#8, 58#8, 48#8, 48#8], t / day, t % day / second, t % second - t % second % 10 ^ (9 - k), 0,
    rfl, date_text _ ?_ ?_, ⟨hs, ms, ss, a, b, c, e1, Or.inr e2, e3, e4, e5, e6, e7, e8⟩, ?_, ?_, ?_⟩
  · have e0 : dayNumber 0 1 1 = -366 := by decide
    rw [e0] at h0 ⊢
    unfold day
    omega
  · have e0 : dayNumber 10000 1 1 = 3652059 := by decide
    rw [e0] at h1 ⊢
    unfold day
    omega
  · rcases fraction_text k hk t with ⟨e, h⟩ | ⟨ds, e, hd, hne, hl, -, h⟩
    · exact Or.inl ⟨e, h⟩
    · refine Or.inr ⟨46#8, ds, e, Or.inl rfl, hd, hne, ?_⟩
      rw [h]
      have : 10 ^ 9 = 10 ^ (9 - ds.length) * 10 ^ ds.length := by rw [← Nat.pow_add]; congr 1; omega
      rw [this, ← Nat.mul_assoc, Nat.mul_div_cancel _ (by positivity)]
      push_cast
      rfl
  · refine ⟨43#8, [48#8, 48#8], [48#8, 48#8], 0, 0, rfl, ?_, ?_, by decide, by decide, Or.inl ⟨rfl, rfl⟩⟩ <;>
      exact ⟨rfl, by simp only [digits_cons]; exact ⟨by decide, by decide, digits_nil⟩, by decide⟩
  · have hdvd : (10 : Int) ^ (9 - k) ∣ second := by
      rw [show second = (10 : Int) ^ 9 by decide]
      exact pow_dvd_pow _ (by omega)
    rw [Int.emod_emod_of_dvd _ hdvd]
    generalize t % 10 ^ (9 - k) = z
    simp only [show day = 86400000000000 from rfl, show second = 1000000000 from rfl]
    omega

/-- C112: the text written for a date of the years 0 to 9999 is read back, cut to hundredths of a second. -/
theorem C112_round_trip_partial (t : Int) (h0 : dayNumber 0 1 1 * 86400000000000 ≤ t) (h1 : t < dayNumber 10000 1 1 * 86400000000000) :
    instant (xsd t) = some (t - t % 10000000) := instant_written 2 (by omega) t h0 h1

/-- C112 fails below hundredths of a second: a date with milliseconds loses them when it is written. -/
theorem C112_round_trip_false : ∃ t : Int, 0 < t ∧ xsd t = ascii "2021-07-29T12:34:56.12+00:00" ∧
    instant (ascii "2021-07-29T12:34:56.128+00:00") = some t ∧ instant (xsd t) ≠ some t :=
  ⟨dayNumber 2021 7 29 * day + 12 * hour + 34 * minute + 56 * second + 128000000, by decide, by decide +kernel, by decide +kernel, by decide +kernel⟩

/-- C112 fails for years of five digits: they are written, but not read. -/
theorem C112_year_false : xsd (dayNumber 10000 1 1 * day) = ascii "10000-01-01T00:00:00+00:00" ∧ instant (ascii "10000-01-01T00:00:00+00:00") = none := by
  decide +kernel

end Verif.Lib.TimeRead
