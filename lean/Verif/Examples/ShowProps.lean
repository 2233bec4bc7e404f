import Verif.Examples.Show
import Verif.Format.FloatProps

/-!
# C141: what the examples show
-/

namespace Verif.Examples

open Verif.Ticks (bytes)

/-! ## The loop of the simple examples -/

theorem due_some {t now : Int} : due (some t) now = true ↔ t + 5000000000 ≤ now := by
  have : (now - t < fiveSeconds) ↔ ¬ t + 5000000000 ≤ now := by unfold fiveSeconds; omega
  simp only [due, this]
  simp

theorem loop_length (last : Option Int) (xs : List Taken) : (simpleLoop last xs).length = xs.length := by
  induction xs generalizing last with
  | nil => rfl
  | cons x xs ih => simp [simpleLoop, ih]

theorem loop_spec (xs : List Taken) (hx : ∀ x ∈ xs, x.check ≤ x.done) : ∀ last : Option Int,
    (∀ (j : Nat) (x : Taken) (l : Line), xs[j]? = some x → (simpleLoop last xs)[j]? = some (some l) →
      (∀ t, last = some t → t + 5000000000 ≤ x.check) ∧
      (∀ (i : Nat) (y : Taken) (m : Line), i < j → xs[i]? = some y → (simpleLoop last xs)[i]? = some (some m) → y.done + 5000000000 ≤ x.check) ∧
      (l = if last = none ∧ j = 0 then receiving else simpleReport x)) ∧
    (∀ (j : Nat) (x : Taken), xs[j]? = some x → (simpleLoop last xs)[j]? = some none →
      (∃ t, last = some t ∧ x.check < t + 5000000000) ∨
      ∃ (i : Nat) (y : Taken) (m : Line), i < j ∧ xs[i]? = some y ∧ (simpleLoop last xs)[i]? = some (some m) ∧ x.check < y.done + 5000000000) := by
  induction xs with
  | nil => intro last; exact ⟨fun j x l h => (by simp at h), fun j x h => (by simp at h)⟩
  | cons a xs ih =>
    intro last
    have ih' := ih (fun x h => hx x (List.mem_cons_of_mem _ h)) (simpleRound last a).2
    have ha := hx a List.mem_cons_self
    have shown : (∃ m, (simpleRound last a).1 = some m ∧ (simpleRound last a).2 = some a.done ∧ (∀ t, last = some t → t + 5000000000 ≤ a.check) ∧
          m = if last = none then receiving else simpleReport a) ∨
        ((simpleRound last a).1 = none ∧ (simpleRound last a).2 = last ∧ ∃ t, last = some t ∧ a.check < t + 5000000000) := by
      cases last with
      | none => exact .inl ⟨receiving, rfl, rfl, fun t h => (by cases h), rfl⟩
      | some t =>
        by_cases hd : due (some t) a.check = true
        · refine .inl ⟨simpleReport a, ?_, ?_, ?_, by simp⟩
          · simp only [simpleRound, if_pos hd]
          · simp only [simpleRound, if_pos hd]
          · intro u hu; cases hu; exact due_some.1 hd
        · refine .inr ⟨?_, ?_, t, rfl, ?_⟩
          · simp only [simpleRound, if_neg hd]
          · simp only [simpleRound, if_neg hd]
          · rw [due_some] at hd; omega
    constructor
    · intro j x l hj hl
      match j with
      | 0 =>
        simp only [List.getElem?_cons_zero, Option.some.injEq] at hj
        subst hj
        simp only [simpleLoop, List.getElem?_cons_zero, Option.some.injEq] at hl
        rcases shown with ⟨m, h1, _, h3, h4⟩ | ⟨h1, _⟩
        · rw [h1] at hl; cases hl
          exact ⟨h3, fun i _ _ hi => by omega, by rw [h4]; simp⟩
        · rw [h1] at hl; cases hl
      | j + 1 =>
        simp only [List.getElem?_cons_succ] at hj
        simp only [simpleLoop, List.getElem?_cons_succ] at hl
        obtain ⟨g1, g2, g3⟩ := ih'.1 j x l hj hl
        have hx' := hx x (List.mem_cons_of_mem _ (List.mem_of_getElem? hj))
        rcases shown with ⟨m, h1, h2, h3, h4⟩ | ⟨h1, h2, t, h3, h4⟩
        · have hda := g1 a.done h2
          refine ⟨fun t ht => ?_, fun i y m' hi hy hm => ?_, ?_⟩
          · have := h3 t ht; omega
          · match i with
            | 0 =>
              simp only [List.getElem?_cons_zero, Option.some.injEq] at hy
              subst hy; exact hda
            | i + 1 =>
              simp only [List.getElem?_cons_succ] at hy
              simp only [simpleLoop, List.getElem?_cons_succ] at hm
              exact g2 i y m' (by omega) hy hm
          · rw [g3, h2]; simp
        · refine ⟨fun t' ht => ?_, fun i y m' hi hy hm => ?_, ?_⟩
          · exact g1 t' (h2.trans ht)
          · match i with
            | 0 =>
              simp only [simpleLoop, List.getElem?_cons_zero, Option.some.injEq] at hm
              rw [h1] at hm; cases hm
            | i + 1 =>
              simp only [List.getElem?_cons_succ] at hy
              simp only [simpleLoop, List.getElem?_cons_succ] at hm
              exact g2 i y m' (by omega) hy hm
          · rw [g3, h2, h3]; simp
    · intro j x hj hl
      match j with
      | 0 =>
        simp only [List.getElem?_cons_zero, Option.some.injEq] at hj
        subst hj
        simp only [simpleLoop, List.getElem?_cons_zero, Option.some.injEq] at hl
        rcases shown with ⟨m, h1, _⟩ | ⟨_, _, h3⟩
        · rw [h1] at hl; cases hl
        · exact .inl h3
      | j + 1 =>
        simp only [List.getElem?_cons_succ] at hj
        simp only [simpleLoop, List.getElem?_cons_succ] at hl
        rcases ih'.2 j x hj hl with ⟨t, ht, hlt⟩ | ⟨i, y, m, hi, hy, hm, hlt⟩
        · rcases shown with ⟨m, h1, h2, _, _⟩ | ⟨_, h2, _⟩
          · rw [h2] at ht; cases ht
            exact .inr ⟨0, a, m, by omega, rfl, by simp only [simpleLoop, List.getElem?_cons_zero, h1], hlt⟩
          · exact .inl ⟨t, h2 ▸ ht, hlt⟩
        · exact .inr ⟨i + 1, y, m, by omega, hy, by simpa only [simpleLoop, List.getElem?_cons_succ] using hm, hlt⟩

/-- C141, the simple examples: when the clock does not go back, the first measurement gives the first message; each further message is shown five seconds or
more after every earlier one and tells of its measurement; and nothing is shown for a measurement only when it comes less than five seconds after a message. -/
theorem C141_simple (xs : List Taken) (hx : ∀ x ∈ xs, x.check ≤ x.done) :
    (simpleLoop none xs).length = xs.length ∧
    (xs ≠ [] → (simpleLoop none xs)[0]? = some (some (.out, bytes "Receiving measurements...".toList))) ∧
    (∀ (j : Nat) (x : Taken) (l : Line), 0 < j → xs[j]? = some x → (simpleLoop none xs)[j]? = some (some l) →
      l = (.out, Format.decimal x.total.toNat ++ bytes " measurements received so far. Current measurement:\n    ".toList ++ x.m.text) ∧
      ∀ (i : Nat) (y : Taken) (m : Line), i < j → xs[i]? = some y → (simpleLoop none xs)[i]? = some (some m) → y.done + 5000000000 ≤ x.check) ∧
    (∀ (j : Nat) (x : Taken), xs[j]? = some x → (simpleLoop none xs)[j]? = some none →
      ∃ (i : Nat) (y : Taken) (m : Line), i < j ∧ xs[i]? = some y ∧ (simpleLoop none xs)[i]? = some (some m) ∧ x.check < y.done + 5000000000) := by
  obtain ⟨h1, h2⟩ := loop_spec xs hx none
  refine ⟨loop_length _ _, ?_, fun j x l hj hjx hl => ?_, fun j x hj hl => ?_⟩
  · intro hne
    cases xs with
    | nil => exact absurd rfl hne
    | cons x xs => rfl
  · obtain ⟨_, g2, g3⟩ := h1 j x l hjx hl
    refine ⟨?_, g2⟩
    rw [g3, if_neg (by omega)]
    rfl
  · rcases h2 j x hj hl with ⟨t, ht, _⟩ | h
    · cases ht
    · exact h

/-- A measurement for examples. -/
def sample : Ticks.Measurement := ⟨Guid.empty, 0x3FF0000000000000, 0x8D9000000000000, 0⟩

/-- Four measurements in eleven seconds: two of them are shown besides the first message. -/
example : (simpleLoop none [⟨0, 1, 0, sample⟩, ⟨3000000000, 3000000001, 1, sample⟩, ⟨5000000001, 5000000002, 2, sample⟩,
    ⟨10000000001, 10000000001, 3, sample⟩, ⟨10000000002, 10000000003, 4, sample⟩]).map (fun o => o.isSome) = [true, false, true, false, true] := by
  decide +kernel

/-! ## The receivers of the advanced examples -/

/-- `Float` does not panic, whatever the number. -/
theorem float_ok (f : BitVec 64) (prec : Nat) : ∃ t, Format.float f prec = .ok t := by
  by_cases hf : f.toNat / 2 ^ 52 % 2 ^ 11 = 2047
  · by_cases hm : f.toNat % 2 ^ 52 = 0
    · have hlt := f.isLt
      have : f = 0xFFF0000000000000 ∨ f = 0x7FF0000000000000 := by
        have : f.toNat = 0xFFF0000000000000 ∨ f.toNat = 0x7FF0000000000000 := by omega
        rcases this with h | h
        · exact .inl (BitVec.eq_of_toNat_eq h)
        · exact .inr (BitVec.eq_of_toNat_eq h)
      rcases this with h | h
      · exact ⟨_, (Format.C93_no_number f prec).1 h⟩
      · subst h
        have h : Format.formatFloat 0x7FF0000000000000 prec = [43#8, 73#8, 110#8, 102#8] := by
          unfold Format.formatFloat
          rw [if_pos (by decide), if_neg (by decide), if_neg (by decide)]
        refine ⟨[43#8, 44#8, 73#8, 110#8, 102#8], ?_⟩
        unfold Format.float Format.floatWith
        rw [h]
        decide +kernel
    · exact ⟨_, (Format.C93_no_number f prec).2 ⟨hf, hm⟩⟩
  · obtain ⟨_, _, _, _, _, _, _, _, h⟩ := Format.C93_grouped f hf prec 46#8 44#8 (by decide) (by decide)
    exact ⟨_, h⟩

theorem rows_ok (ms : List (Ticks.Measurement × BitVec 64)) : ∃ t, advRows ms = .ok t := by
  induction ms with
  | nil => exact ⟨[], rfl⟩
  | cons x xs ih =>
    obtain ⟨t, ht⟩ := ih
    obtain ⟨v, hv⟩ := float_ok x.1.value 6
    exact ⟨_, by rw [advRows, ht]; unfold advRow; rw [hv]; rfl⟩

/-- The message cannot be made of a packet without measurements, and of every other one it can. -/
theorem report_ok (total : BitVec 64) (ms : List (Ticks.Measurement × BitVec 64)) :
    (ms = [] → advReport total ms = .panic) ∧ (ms ≠ [] → ∃ t, advReport total ms = .ok t) := by
  obtain ⟨n, hn, _⟩ := Format.C08_uint64 total 44#8 (by decide)
  constructor
  · rintro rfl
    unfold advReport
    rw [hn]; rfl
  · intro h
    obtain ⟨t, ht⟩ := rows_ok ms
    match ms, h with
    | x :: xs, _ => exact ⟨_, by unfold advReport; rw [hn]; simp only [Res.bind_ok, ht]; rfl⟩

theorem run_snoc (listening : Bool) (s : Adv) (es : List AdvEvent) (e : AdvEvent) : advRun listening s (es ++ [e]) =
    (advRun listening s es >>= fun b => advStep listening b.1 e >>= fun a => Res.ok (a.1, b.2 ++ [a.2])) := by
  induction es generalizing s with
  | nil =>
    simp only [List.nil_append, advRun, Res.bind_ok]
  | cons x es ih =>
    simp only [List.cons_append, advRun]
    cases advStep listening s x with
    | err => rfl
    | panic => rfl
    | ok a =>
      simp only [Res.bind_ok]
      rw [ih]
      cases advRun listening a.1 es with
      | err => rfl
      | panic => rfl
      | ok b =>
        simp only [Res.bind_ok]
        cases advStep listening b.1 e <;> rfl

theorem run_length {listening : Bool} {s t : Adv} {es : List AdvEvent} {o : List (Option Line)} (h : advRun listening s es = .ok (t, o)) :
    o.length = es.length := by
  induction es generalizing s t o with
  | nil => cases h; rfl
  | cons e es ih =>
    simp only [advRun, Res.bind_eq_ok] at h
    obtain ⟨a, _, b, hb, he⟩ := h
    cases he
    simp [ih (t := b.1) (o := b.2) hb]

/-- Something has been shown for packet `i`, and was done at `d`. -/
def Spoke (es : List AdvEvent) (o : List (Option Line)) (i : Nat) (d : Int) : Prop :=
  ∃ c ms l, es[i]? = some (.packet c d ms) ∧ o[i]? = some (some l)

/-- The connection has not been lost from event `i` on. -/
def Held (es : List AdvEvent) (i : Nat) : Prop := ∀ (j : Nat) (id : List Byte), i ≤ j → es[j]? ≠ some (.lost id)

/-- The measurements since the last connection: those of the packets after it. -/
def since (es : List AdvEvent) : Nat :=
  es.foldl (fun n e => match e with
    | .connected _ => 0
    | .packet _ _ ms => n + ms.length
    | _ => n) 0

/-- What is known after some events. -/
structure Known (es : List AdvEvent) (s : Adv) (o : List (Option Line)) : Prop where
  total : s.total = BitVec.ofNat 64 (since es)
  fresh : s.last = none → ∀ i d, Spoke es o i d → ¬ Held es i
  spoken : ∀ t, s.last = some t → (∃ i, Spoke es o i t ∧ Held es i) ∧ ∀ i d, Spoke es o i d → Held es i → d ≤ t

theorem since_snoc (es : List AdvEvent) (e : AdvEvent) : since (es ++ [e]) = (match e with
    | .connected _ => 0
    | .packet _ _ ms => since es + ms.length
    | _ => since es) := by
  unfold since
  rw [List.foldl_append]
  rfl

theorem held_snoc {es : List AdvEvent} {e : AdvEvent} {i : Nat} (he : ∀ id, e ≠ .lost id) : Held (es ++ [e]) i ↔ Held es i := by
  constructor
  · intro h j id hij hj
    exact h j id hij (by rw [List.getElem?_append_left ((List.getElem?_eq_some_iff.1 hj).1)]; exact hj)
  · intro h j id hij hj
    by_cases hl : j < es.length
    · rw [List.getElem?_append_left hl] at hj; exact h j id hij hj
    · rw [List.getElem?_append_right (by omega)] at hj
      have := List.mem_of_getElem? hj
      simp only [List.mem_singleton] at this
      exact he id this.symm

theorem spoke_snoc {es : List AdvEvent} {o : List (Option Line)} {e : AdvEvent} {l : Option Line} (hl : o.length = es.length) {i : Nat} {d : Int} :
    Spoke (es ++ [e]) (o ++ [l]) i d ↔ Spoke es o i d ∨ (i = es.length ∧ (∃ c ms, e = .packet c d ms) ∧ l.isSome = true) := by
  constructor
  · rintro ⟨c, ms, m, h1, h2⟩
    by_cases hi : i < es.length
    · rw [List.getElem?_append_left hi] at h1
      rw [List.getElem?_append_left (by omega)] at h2
      exact .inl ⟨c, ms, m, h1, h2⟩
    · rw [List.getElem?_append_right (by omega)] at h1
      rw [List.getElem?_append_right (by omega), hl] at h2
      have hi' : i - es.length = 0 := by
        have := (List.getElem?_eq_some_iff.1 h1).1
        simp at this; omega
      rw [hi'] at h1 h2
      simp only [List.getElem?_cons_zero, Option.some.injEq] at h1 h2
      exact .inr ⟨by omega, ⟨c, ms, h1⟩, by rw [h2]; rfl⟩
  · rintro (⟨c, ms, m, h1, h2⟩ | ⟨rfl, ⟨c, ms, rfl⟩, h⟩)
    · exact ⟨c, ms, m, by rw [List.getElem?_append_left (List.getElem?_eq_some_iff.1 h1).1]; exact h1,
        by rw [List.getElem?_append_left (List.getElem?_eq_some_iff.1 h2).1]; exact h2⟩
    · obtain ⟨m, rfl⟩ := Option.isSome_iff_exists.1 h
      exact ⟨c, ms, m, by simp, by rw [← hl]; simp⟩

theorem held_lost (es : List AdvEvent) (id : List Byte) (i : Nat) (hi : i ≤ es.length) : ¬ Held (es ++ [.lost id]) i :=
  fun h => h es.length id hi (by simp)

theorem spoke_lt {es : List AdvEvent} {o : List (Option Line)} {i : Nat} {d : Int} (h : Spoke es o i d) : i < es.length := by
  obtain ⟨_, _, _, h1, _⟩ := h
  exact (List.getElem?_eq_some_iff.1 h1).1

/-- The outcomes of a packet. -/
theorem packet_cases (s : Adv) (c d : Int) (ms : List (Ticks.Measurement × BitVec 64)) :
    (s.last = none ∧ advPacket s c d ms = .ok (⟨some d, s.total + BitVec.ofNat 64 ms.length⟩, some receiving)) ∨
    (∃ t, s.last = some t ∧ c < t + 5000000000 ∧ advPacket s c d ms = .ok (⟨some t, s.total + BitVec.ofNat 64 ms.length⟩, none)) ∨
    (∃ t, s.last = some t ∧ t + 5000000000 ≤ c ∧ advPacket s c d ms =
      (advReport s.total ms >>= fun text => Res.ok (⟨some d, s.total + BitVec.ofNat 64 ms.length⟩, some (status text)))) := by
  obtain ⟨last, total⟩ := s
  cases last with
  | none => exact .inl ⟨rfl, rfl⟩
  | some t =>
    by_cases h : due (some t) c = true
    · refine .inr (.inr ⟨t, rfl, due_some.1 h, ?_⟩)
      simp only [advPacket, if_pos h]
    · refine .inr (.inl ⟨t, rfl, ?_, ?_⟩)
      · rw [due_some] at h; omega
      · simp only [advPacket, if_neg h]

theorem known_packet {es : List AdvEvent} {s : Adv} {o : List (Option Line)} (hk : Known es s o) (hl : o.length = es.length) {c d : Int}
    {ms : List (Ticks.Measurement × BitVec 64)} (hcd : c ≤ d) {a : Adv × Option Line} (h : advPacket s c d ms = .ok a) :
    Known (es ++ [.packet c d ms]) a.1 (o ++ [a.2]) := by
  have ht : s.total + BitVec.ofNat 64 ms.length = BitVec.ofNat 64 (since (es ++ [.packet c d ms])) := by
    rw [since_snoc, hk.total, BitVec.ofNat_add]
  have hh : ∀ i, Held (es ++ [.packet c d ms]) i ↔ Held es i := fun i => held_snoc (fun id e => by cases e)
  have last : ∀ l, Held es es.length ∧ (∀ i e, Spoke es o i e → Held es i → e ≤ d) →
      Known (es ++ [.packet c d ms]) ⟨some d, s.total + BitVec.ofNat 64 ms.length⟩ (o ++ [some l]) := by
    intro l ⟨h1, h2⟩
    refine ⟨ht, fun h => (by cases h), fun t hd => ?_⟩
    cases hd
    refine ⟨⟨es.length, (spoke_snoc hl).2 (.inr ⟨rfl, ⟨c, ms, rfl⟩, rfl⟩), (hh _).2 h1⟩, fun i e hs hi => ?_⟩
    rcases (spoke_snoc hl).1 hs with hs | ⟨_, ⟨_, _, he⟩, _⟩
    · exact h2 i e hs ((hh i).1 hi)
    · cases he; exact Int.le_refl _
  have end_held : Held es es.length := fun j id hj he => by
    have := (List.getElem?_eq_some_iff.1 he).1; omega
  rcases packet_cases s c d ms with ⟨h1, h2⟩ | ⟨t, h1, _, h2⟩ | ⟨t, h1, hc, h2⟩
  · rw [h2] at h; cases h
    exact last _ ⟨end_held, fun i e hs hi => absurd hi (hk.fresh h1 i e hs)⟩
  · rw [h2] at h; cases h
    obtain ⟨⟨i, g1, g2⟩, g3⟩ := hk.spoken t h1
    refine ⟨ht, fun h => (by cases h), fun t' ht' => ?_⟩
    cases ht'
    refine ⟨⟨i, (spoke_snoc hl).2 (.inl g1), (hh i).2 g2⟩, fun k e hs hi => ?_⟩
    rcases (spoke_snoc hl).1 hs with hs | ⟨_, _, h⟩
    · exact g3 k e hs ((hh k).1 hi)
    · cases h
  · rw [h2, Res.bind_eq_ok] at h
    obtain ⟨text, _, h⟩ := h
    cases h
    obtain ⟨_, g3⟩ := hk.spoken t h1
    exact last _ ⟨end_held, fun i e hs hi => by have := g3 i e hs hi; omega⟩

/-- The clock does not go back while a message is shown. -/
def Clock (es : List AdvEvent) : Prop := ∀ c d ms, AdvEvent.packet c d ms ∈ es → c ≤ d

theorem known_run {listening : Bool} (es : List AdvEvent) : ∀ {s : Adv} {o : List (Option Line)}, Clock es →
    advRun listening advStart es = .ok (s, o) → Known es s o := by
  induction es using List.reverseRecOn with
  | nil =>
    intro s o _ h
    cases h
    exact ⟨rfl, fun _ i d h => absurd (spoke_lt h) (by simp), fun t h => by cases h⟩
  | append_singleton es e ih =>
    intro s o hc h
    rw [run_snoc, Res.bind_eq_ok] at h
    obtain ⟨b, hb, h⟩ := h
    rw [Res.bind_eq_ok] at h
    obtain ⟨a, ha, h⟩ := h
    cases h
    have hk := ih (s := b.1) (o := b.2) (fun c d ms hm => hc c d ms (List.mem_append_left _ hm)) hb
    have hl := run_length (t := b.1) (o := b.2) hb
    have same : ∀ (l : Option Line), (∀ c d ms, e ≠ .packet c d ms) → (∀ id, e ≠ .lost id) → a.1.last = b.1.last →
        a.1.total = BitVec.ofNat 64 (since (es ++ [e])) → Known (es ++ [e]) a.1 (b.2 ++ [l]) := by
      intro l h1 h2 h3 h4
      have hs : ∀ i d, Spoke (es ++ [e]) (b.2 ++ [l]) i d ↔ Spoke es b.2 i d := fun i d => by
        rw [spoke_snoc hl]
        exact ⟨fun h => h.resolve_right (fun ⟨_, ⟨c, ms, he⟩, _⟩ => h1 c d ms he), .inl⟩
      refine ⟨h4, fun hn i d hsp hh => ?_, fun t ht => ?_⟩
      · exact hk.fresh (h3 ▸ hn) i d ((hs i d).1 hsp) ((held_snoc h2).1 hh)
      · obtain ⟨⟨i, g1, g2⟩, g3⟩ := hk.spoken t (h3 ▸ ht)
        exact ⟨⟨i, (hs i t).2 g1, (held_snoc h2).2 g2⟩, fun i d hsp hh => g3 i d ((hs i d).1 hsp) ((held_snoc h2).1 hh)⟩
    cases e with
    | connected id =>
      cases ha
      exact same _ (by nofun) (by nofun) rfl (by rw [since_snoc]; rfl)
    | cache n =>
      cases ha
      exact same _ (by nofun) (by nofun) rfl (by rw [since_snoc]; exact hk.total)
    | packet c d ms => exact known_packet hk hl (hc c d ms (by simp)) ha
    | lost id =>
      cases ha
      refine ⟨by rw [since_snoc]; exact hk.total, fun _ i d hsp => ?_, fun t ht => by cases ht⟩
      have := spoke_lt hsp
      exact held_lost es id i (by simp at this; omega)

theorem rows_text {ms : List (Ticks.Measurement × BitVec 64)} {rows : List Byte} (h : advRows ms = .ok rows) : ∃ vs : List (List Byte),
    List.Forall₂ (fun x v => Format.float x.1.value 6 = .ok v) ms vs ∧
    rows = (List.zipWith (fun x v => bytes "\t".toList ++ Format.decimal x.2.toNat ++ bytes "\t".toList ++ Guid.toString x.1.signalID ++
      bytes "\t".toList ++ v ++ bytes "\n".toList) ms vs).flatten := by
  induction ms generalizing rows with
  | nil => cases h; exact ⟨[], .nil, rfl⟩
  | cons x xs ih =>
    simp only [advRows, advRow, Res.bind_eq_ok] at h
    obtain ⟨r, ⟨v, hv, hr⟩, rs, hrs, he⟩ := h
    cases hr; cases he
    obtain ⟨vs, h1, rfl⟩ := ih hrs
    exact ⟨v :: vs, .cons hv h1, rfl⟩

/-- C141, the advanced examples: after any events, a packet gives no message when there has been one less than five seconds before on this connection; it gives
the first message when there has been none since the connection was lost; and otherwise a message that tells how many measurements came before this
packet since the connection was made, and tells of each measurement of the packet: its number, its identifier and its value. -/
theorem C141_advanced_partial {listening : Bool} {es : List AdvEvent} {s : Adv} {o : List (Option Line)} (hc : Clock es)
    (h : advRun listening advStart es = .ok (s, o)) (c d : Int) (ms : List (Ticks.Measurement × BitVec 64)) :
    ((∃ i e, Spoke es o i e ∧ Held es i ∧ c < e + 5000000000) →
      ∃ t, advRun listening advStart (es ++ [.packet c d ms]) = .ok (t, o ++ [none])) ∧
    ((¬ ∃ i e, Spoke es o i e ∧ Held es i) →
      ∃ t, advRun listening advStart (es ++ [.packet c d ms]) = .ok (t, o ++ [some (.out, bytes "Receiving measurements...".toList)])) ∧
    ((∃ i e, Spoke es o i e ∧ Held es i) → (∀ i e, Spoke es o i e → Held es i → e + 5000000000 ≤ c) → ∀ x xs, ms = x :: xs →
      ∃ t number vs, advRun listening advStart (es ++ [.packet c d ms]) = .ok (t, o ++ [some (.out, number ++
          bytes " measurements received so far...\nTimestamp: ".toList ++ Ticks.text x.1.timestamp ++ bytes "\n\tID\tSignal ID\t\t\t\tValue\n".toList ++
          (List.zipWith (fun x v => bytes "\t".toList ++ Format.decimal x.2.toNat ++ bytes "\t".toList ++ Guid.toString x.1.signalID ++
            bytes "\t".toList ++ v ++ bytes "\n".toList) ms vs).flatten)]) ∧
        Format.IsGrouped 44#8 (Format.decimal (since es % 2 ^ 64)) number ∧
        List.Forall₂ (fun x v => Format.float x.1.value 6 = .ok v) ms vs) := by
  have hk := known_run es hc h
  have hrun : ∀ r, advPacket s c d ms = r → advRun listening advStart (es ++ [.packet c d ms]) =
      (r >>= fun a => Res.ok (a.1, o ++ [a.2])) := by
    intro r hr
    rw [run_snoc, h, Res.bind_ok, ← hr]
    rfl
  refine ⟨?_, ?_, ?_⟩
  · rintro ⟨i, e, h1, h2, h3⟩
    rcases packet_cases s c d ms with ⟨g1, _⟩ | ⟨t, _, _, g2⟩ | ⟨t, g1, g2, _⟩
    · exact absurd h2 (hk.fresh g1 i e h1)
    · exact ⟨_, by rw [hrun _ g2]; rfl⟩
    · have := (hk.spoken t g1).2 i e h1 h2; omega
  · intro hn
    rcases packet_cases s c d ms with ⟨_, g2⟩ | ⟨t, g1, _, _⟩ | ⟨t, g1, _, _⟩
    · exact ⟨_, by rw [hrun _ g2]; rfl⟩
    · obtain ⟨⟨i, h1, h2⟩, _⟩ := hk.spoken t g1; exact absurd ⟨i, t, h1, h2⟩ hn
    · obtain ⟨⟨i, h1, h2⟩, _⟩ := hk.spoken t g1; exact absurd ⟨i, t, h1, h2⟩ hn
  · rintro ⟨i, e, h1, h2⟩ hlate x xs hms
    rcases packet_cases s c d ms with ⟨g1, _⟩ | ⟨t, g1, g2, _⟩ | ⟨t, g1, _, g2⟩
    · exact absurd h2 (hk.fresh g1 i e h1)
    · obtain ⟨⟨i, h1, h2⟩, _⟩ := hk.spoken t g1
      have := hlate i t h1 h2; omega
    · obtain ⟨n, hn, hg⟩ := Format.C08_uint64 s.total 44#8 (by decide)
      obtain ⟨rows, hr⟩ := rows_ok ms
      obtain ⟨vs, hv, rfl⟩ := rows_text hr
      rw [hk.total, BitVec.toNat_ofNat] at hg
      refine ⟨⟨some d, s.total + BitVec.ofNat 64 ms.length⟩, n, vs, ?_, hg, hv⟩
      rw [hrun _ g2]
      subst hms
      unfold advReport
      rw [hn]
      simp only [Res.bind_ok, hr]
      refine congrArg (fun l => Res.ok (_, o ++ [some (Sink.out, l)])) ?_
      have e1 : bytes " measurements received so far...\nTimestamp: ".toList =
          bytes " measurements received so far...\n".toList ++ bytes "Timestamp: ".toList := by decide +kernel
      have e2 : bytes "\n\tID\tSignal ID\t\t\t\tValue\n".toList = bytes "\n".toList ++ bytes "\tID\tSignal ID\t\t\t\tValue\n".toList := by
        decide +kernel
      rw [e1, e2]
      simp only [List.append_assoc]

/-- C141, false: a packet without measurements ends the program when its turn to be shown has come. -/
theorem C141_empty_panics {listening : Bool} {es : List AdvEvent} {s : Adv} {o : List (Option Line)} (hc : Clock es)
    (h : advRun listening advStart es = .ok (s, o)) (c d : Int) (ms : List (Ticks.Measurement × BitVec 64)) :
    advRun listening advStart (es ++ [.packet c d ms]) = .panic ↔
      ms = [] ∧ (∃ i e, Spoke es o i e ∧ Held es i) ∧ ∀ i e, Spoke es o i e → Held es i → e + 5000000000 ≤ c := by
  have hk := known_run es hc h
  have hrun : advRun listening advStart (es ++ [.packet c d ms]) = (advPacket s c d ms >>= fun a => Res.ok (a.1, o ++ [a.2])) := by
    rw [run_snoc, h, Res.bind_ok]; rfl
  constructor
  · intro hp
    rw [hrun] at hp
    rcases packet_cases s c d ms with ⟨_, g2⟩ | ⟨t, _, _, g2⟩ | ⟨t, g1, g3, g2⟩
    · rw [g2] at hp; cases hp
    · rw [g2] at hp; cases hp
    · obtain ⟨⟨i, h1, h2⟩, h3⟩ := hk.spoken t g1
      refine ⟨?_, ⟨i, t, h1, h2⟩, fun i e h1 h2 => ?_⟩
      · by_contra hne
        obtain ⟨text, ht⟩ := (report_ok s.total ms).2 hne
        rw [g2, ht] at hp; cases hp
      · have := h3 i e h1 h2; omega
  · rintro ⟨hms, ⟨i, e, h1, h2⟩, hlate⟩
    rcases packet_cases s c d ms with ⟨g1, _⟩ | ⟨t, g1, g2, _⟩ | ⟨t, g1, _, g2⟩
    · exact absurd h2 (hk.fresh g1 i e h1)
    · obtain ⟨⟨i, h1, h2⟩, _⟩ := hk.spoken t g1
      have := hlate i t h1 h2; omega
    · rw [hrun, g2, (report_ok s.total ms).1 hms]; rfl

theorem step_out {listening : Bool} {s : Adv} {e : AdvEvent} {a : Adv × Option Line} (h : advStep listening s e = .ok a) :
    (∀ l, a.2 = some l → l.1 = .out) ∧
    ∀ id, e = .lost id → a.2 = some (.out, bytes "Connection ".toList ++ (if listening then bytes "from".toList else bytes "to".toList) ++
      bytes " ".toList ++ id ++ bytes " established.".toList) := by
  cases e with
  | connected id => cases h; exact ⟨fun l h => (by cases h; rfl), by nofun⟩
  | cache n => cases h; exact ⟨fun l h => (by cases h; rfl), by nofun⟩
  | lost id => cases h; exact ⟨fun l h => (by cases h; rfl), fun _ he => (by cases he; rfl)⟩
  | packet c d ms =>
    refine ⟨fun l hl => ?_, by nofun⟩
    have h : advPacket s c d ms = .ok a := h
    rcases packet_cases s c d ms with ⟨_, g2⟩ | ⟨t, _, _, g2⟩ | ⟨t, _, _, g2⟩
    · rw [g2] at h; cases h; cases hl; rfl
    · rw [g2] at h; cases h; cases hl
    · rw [g2, Res.bind_eq_ok] at h
      obtain ⟨_, _, h⟩ := h
      cases h; cases hl; rfl

/-- C141, false: nothing is ever written to standard error, and for a lost connection an advanced example says that the connection is established. -/
theorem C141_terminated_false {listening : Bool} {es : List AdvEvent} : ∀ {s t : Adv} {o : List (Option Line)},
    advRun listening s es = .ok (t, o) →
    (∀ l, some l ∈ o → l.1 = .out) ∧
    ∀ (i : Nat) (id : List Byte), es[i]? = some (.lost id) → o[i]? = some (some (.out, bytes "Connection ".toList ++
      (if listening then bytes "from".toList else bytes "to".toList) ++ bytes " ".toList ++ id ++ bytes " established.".toList)) := by
  induction es with
  | nil => intro s t o h; cases h; exact ⟨fun l h => (by cases h), fun i id h => (by simp at h)⟩
  | cons e es ih =>
    intro s t o h
    simp only [advRun, Res.bind_eq_ok] at h
    obtain ⟨a, ha, b, hb, he⟩ := h
    cases he
    obtain ⟨h1, h2⟩ := step_out ha
    obtain ⟨g1, g2⟩ := ih (t := b.1) (o := b.2) hb
    refine ⟨fun l hl => ?_, fun i id hi => ?_⟩
    · rcases List.mem_cons.1 hl with hl | hl
      · exact h1 l hl.symm
      · exact g1 l hl
    · match i with
      | 0 =>
        simp only [List.getElem?_cons_zero, Option.some.injEq] at hi ⊢
        exact h2 id hi
      | i + 1 =>
        simp only [List.getElem?_cons_succ] at hi ⊢
        exact g2 i id hi

/-- A connection, two packets that are shown, one that is not, the loss of the connection, and one packet more. -/
def sampleEvents : List AdvEvent :=
  [.connected [65#8], .packet 0 1 [(sample, 7), (sample, 8)], .packet 2 3 [(sample, 7)], .packet 5000000001 5000000002 [(sample, 7)], .lost [65#8],
   .packet 5000000003 5000000004 []]

example : (match advRun false advStart sampleEvents with
    | .ok (_, o) => o.map (fun x => x.isSome)
    | _ => []) = [true, true, false, true, true, true] := by decide +kernel
example : since (sampleEvents.take 3) = 3 := by decide +kernel
example : (match advRun false advStart (sampleEvents.take 4 ++ [.packet 10000000002 10000000002 []]) with
    | .panic => true
    | _ => false) = true := by decide +kernel
example : Clock sampleEvents := by
  intro c d ms h
  simp only [sampleEvents, List.mem_cons, List.not_mem_nil, or_false, reduceCtorEq, false_or, AdvEvent.packet.injEq] at h
  omega

/-- C141, false: the number of measurements "received so far" leaves out those that the message is about. Three have been received, and the message says two. -/
theorem C141_count_false : ∃ s o text, advRun false advStart (sampleEvents.take 2 ++ [.packet 5000000001 5000000002 [(sample, 7)]]) =
    .ok (s, o ++ [some (.out, bytes "2 measurements received so far...\n".toList ++ text)]) ∧
    since (sampleEvents.take 2 ++ [.packet 5000000001 5000000002 [(sample, 7)]]) = 3 := by
  refine ⟨⟨some 5000000002, 3⟩, [some (established false [65#8]), some receiving],
    bytes "Timestamp: ".toList ++ Ticks.text sample.timestamp ++ bytes "\n".toList ++ bytes "\tID\tSignal ID\t\t\t\tValue\n".toList ++
    (bytes "\t7\t{00000000-0000-0000-0000-000000000000}\t1.000000\n".toList), ?_, ?_⟩ <;> decide +kernel

/-! ## The keys of `SimpleResubscribe` -/

theorem resubscribe_spec (lines : List (List Byte)) (hl : ∀ l ∈ lines, l.head? ≠ some 32#8) (rest : List (List Byte)) (count n : Nat) :
    (n ≤ lines.length ∨ rest = [] → resubscribe n count (lines ++ rest) = ((List.range' (count + 1) n).map filterExpression, false)) ∧
    (∀ line more, lines.length < n → rest = line :: more → line.head? = some 32#8 →
      resubscribe n count (lines ++ rest) = ((List.range' (count + 1) lines.length).map filterExpression, true)) := by
  induction n generalizing lines count with
  | zero => exact ⟨fun _ => rfl, fun _ _ h => absurd h (by omega)⟩
  | succ n ih =>
    match lines with
    | [] =>
      refine ⟨fun h => ?_, fun line more _ hr h32 => ?_⟩
      · have hr : rest = [] := h.resolve_left (by simp)
        subst hr
        have := (ih [] (by simp) (count + 1)).1 (.inr rfl)
        simp only [List.append_nil] at this ⊢
        simp only [resubscribe, readKey, this]
        rfl
      · subst hr
        have : line.headD 0#8 = 32#8 := by rw [List.headD_eq_head?_getD, h32]; rfl
        simp only [List.nil_append, resubscribe, readKey, this]
        rfl
    | l :: lines =>
      have hne : l.headD 0#8 ≠ 32#8 := by
        have := hl l List.mem_cons_self
        cases l with
        | nil => decide
        | cons b l => intro h; exact this (congrArg some h)
      obtain ⟨h1, h2⟩ := ih lines (fun x hx => hl x (List.mem_cons_of_mem _ hx)) (count + 1)
      refine ⟨fun h => ?_, fun line more hn hr h32 => ?_⟩
      · have := h1 (h.imp (fun h => by simpa using h) id)
        simp only [List.cons_append, resubscribe, readKey, if_neg hne, this, List.range'_succ, List.map_cons]
      · have := h2 line more (by simpa using hn) hr h32
        simp only [List.cons_append, resubscribe, readKey, if_neg hne, this, List.length_cons, List.range'_succ, List.map_cons]

/-- C141, `SimpleResubscribe`: each line that does not begin with a space subscribes to one measurement more, and the first one that does ends the program. -/
theorem C141_resubscribe (lines : List (List Byte)) (hl : ∀ l ∈ lines, l.head? ≠ some 32#8) (line : List Byte) (hs : line.head? = some 32#8)
    (more : List (List Byte)) (n : Nat) (hn : lines.length < n) :
    resubscribeMain n (lines ++ line :: more) = ((List.range' 1 (lines.length + 1)).map fun k =>
      bytes "FILTER TOP ".toList ++ Format.decimal k ++ bytes " ActiveMeasurements WHERE SignalType <> 'STAT'".toList, true) := by
  have := (resubscribe_spec lines hl (line :: more) 1 n).2 line more hn rfl hs
  unfold resubscribeMain
  rw [this, List.range'_succ, List.map_cons]
  rfl

/-- C141, false: when the input ends without such a line the program goes on for ever, subscribing to one measurement more each time. -/
theorem C141_end_of_input_false (lines : List (List Byte)) (hl : ∀ l ∈ lines, l.head? ≠ some 32#8) (n : Nat) :
    resubscribeMain n lines = ((List.range' 1 (n + 1)).map fun k =>
      bytes "FILTER TOP ".toList ++ Format.decimal k ++ bytes " ActiveMeasurements WHERE SignalType <> 'STAT'".toList, false) := by
  have := (resubscribe_spec lines hl [] 1 n).1 (.inr rfl)
  rw [List.append_nil] at this
  unfold resubscribeMain
  rw [this, List.range'_succ, List.map_cons]
  rfl

/-- Two lines and a space. -/
example : (resubscribeMain 9 [[10#8], [97#8, 32#8, 10#8], [32#8, 10#8], [10#8]]).2 = true ∧
    (resubscribeMain 9 [[10#8], [97#8, 32#8, 10#8], [32#8, 10#8], [10#8]]).1.length = 3 := by decide +kernel

end Verif.Examples
