import Verif.Tssc.Spec
import Mathlib.Tactic.IntervalCases

/-!
# Properties of the adaptive code for TSSC code words (C10, C11)
-/

set_option linter.unusedSimpArgs false

namespace Verif.Tssc

/-- Number of code words after which the code is adapted. -/
def adaptAfter : Nat → Nat
  | 0 => 5
  | 1 => 20
  | _ => 100

/-- Consistency of the adaptive code state: the mode exists, the short codes are code words, and the byte
counters count exactly the code words since the last change. -/
structure CodeState.Valid (c : CodeState) : Prop where
  mode_lo : 1 ≤ c.mode
  mode_hi : c.mode ≤ 4
  short21 : c.mode21 < 32
  short31 : c.mode31 < 32
  short301 : c.mode301 < 32
  short41 : c.mode41 < 32
  short401 : c.mode401 < 32
  short4001 : c.mode4001 < 32
  startup : c.startupMode ≤ 2
  counters : c.stats.length = 32
  counted : c.stats.sum = c.sent
  bounded : c.sent ≤ adaptAfter c.startupMode

/-! ## Adapting -/

theorem top3Step_inv (n : Nat) (t : Top3) (ci : Nat × Nat) (hi : ci.2 < n)
    (h : t.code1 < n ∧ t.code2 < n ∧ t.code3 < n) :
    (top3Step t ci).code1 < n ∧ (top3Step t ci).code2 < n ∧ (top3Step t ci).code3 < n := by
  obtain ⟨h1, h2, h3⟩ := h
  unfold top3Step
  dsimp only
  split
  · split
    · exact ⟨hi, h1, h2⟩
    · split
      · exact ⟨h1, hi, h2⟩
      · exact ⟨h1, h2, hi⟩
  · exact ⟨h1, h2, h3⟩

theorem top3_codes (stats : List Nat) (n : Nat) (hl : stats.length = n) (hn : 3 ≤ n) :
    (top3 stats).code1 < n ∧ (top3 stats).code2 < n ∧ (top3 stats).code3 < n := by
  unfold top3
  have key : ∀ (l : List (Nat × Nat)) (t : Top3), (∀ ci ∈ l, ci.2 < n) →
      (t.code1 < n ∧ t.code2 < n ∧ t.code3 < n) →
      ((l.foldl top3Step t).code1 < n ∧ (l.foldl top3Step t).code2 < n ∧
        (l.foldl top3Step t).code3 < n) := by
    intro l
    induction l with
    | nil => intro t _ h; exact h
    | cons a l ih =>
      intro t hl h
      exact ih _ (fun ci hci => hl ci (List.mem_cons_of_mem _ hci))
        (top3Step_inv n t a (hl a List.mem_cons_self) h)
  refine key _ _ ?_ ⟨by dsimp only; omega, by dsimp only; omega, by dsimp only; omega⟩
  intro ci hci
  have := List.snd_lt_add_of_mem_zipIdx hci
  omega

theorem top3_total (stats : List Nat) : (top3 stats).total = stats.sum := by
  unfold top3
  have key : ∀ (l : List (Nat × Nat)) (t : Top3),
      (l.foldl top3Step t).total = t.total + (l.map Prod.fst).sum := by
    intro l
    induction l with
    | nil => intro t; simp
    | cons a l ih =>
      intro t
      rw [List.foldl_cons, ih]
      have : (top3Step t a).total = t.total + a.1 := by
        unfold top3Step
        dsimp only
        repeat' split
        all_goals rfl
      rw [this]
      simp only [List.map_cons, List.sum_cons]
      omega
  rw [key]
  have : ∀ (l : List Nat) (k : Nat), (l.zipIdx k).map Prod.fst = l := by
    intro l
    induction l with
    | nil => intro k; rfl
    | cons a l ih => intro k; simp [List.zipIdx_cons, ih]
  rw [this]
  simp

theorem goMin_eq (a b : Int) : goMin a b = min a b := by
  unfold goMin
  split
  · omega
  · split <;> omega

/-- `adaptCommands` always finds a mode. -/
theorem adaptCommands_ok (c : CodeState) (hs : c.stats.length = 32) (hu : c.startupMode ≤ 2)
    (hb : c.stats.sum ≤ 101) (h21 : c.mode21 < 32) (h31 : c.mode31 < 32) (h301 : c.mode301 < 32)
    (h41 : c.mode41 < 32) (h401 : c.mode401 < 32) (h4001 : c.mode4001 < 32) :
    ∃ c', adaptCommands c = .ok c' ∧ c'.Valid := by
  obtain ⟨k1, k2, k3⟩ := top3_codes c.stats 32 hs (by omega)
  have ht := top3_total c.stats
  have hz : (c.stats.map (fun _ => 0)).sum = 0 := by
    induction c.stats with
    | nil => rfl
    | cons a l ih => simpa using ih
  have hl : (c.stats.map (fun _ => 0)).length = 32 := by simpa using hs
  unfold adaptCommands
  dsimp only
  simp only [goMin_eq]
  have hm1 : mode1Size (top3 c.stats) ≤ 2147483647 := by
    unfold mode1Size
    omega
  generalize mode1Size (top3 c.stats) = a1 at *
  generalize mode2Size (top3 c.stats) = a2 at *
  generalize mode3Size (top3 c.stats) = a3 at *
  generalize mode4Size (top3 c.stats) = a4 at *
  split
  · exact ⟨_, rfl, by constructor <;> first | assumption | (dsimp only; omega)⟩
  split
  · exact ⟨_, rfl, by constructor <;> first | assumption | (dsimp only; omega)⟩
  split
  · exact ⟨_, rfl, by constructor <;> first | assumption | (dsimp only; omega)⟩
  split
  · exact ⟨_, rfl, by constructor <;> first | assumption | (dsimp only; omega)⟩
  · omega

theorem sum_set_succ (l : List Nat) (i n : Nat) (h : l[i]? = some n) :
    (l.set i (n + 1)).sum = l.sum + 1 := by
  induction l generalizing i with
  | nil => simp at h
  | cons a l ih =>
    cases i with
    | zero => simp at h; subst h; simp; omega
    | succ i => simp at h; simp [ih i h]; omega

theorem le_sum_of_getElem? (l : List Nat) (i n : Nat) (h : l[i]? = some n) : n ≤ l.sum := by
  induction l generalizing i with
  | nil => simp at h
  | cons a l ih =>
    cases i with
    | zero => simp at h; subst h; simp
    | succ i => simp at h; have := ih i h; simp; omega

/-- Counting a code word keeps the state valid and never fails. -/
theorem updated_ok (c : CodeState) (hc : c.Valid) (code : Nat) (h : code < 32) :
    ∃ c', updatedCodeStatistics c code = .ok c' ∧ c'.Valid := by
  have hb := hc.bounded
  have hsum := hc.counted
  have hle : adaptAfter c.startupMode ≤ 100 := by
    unfold adaptAfter; split <;> omega
  have hget : ∃ n, c.stats[code]? = some n := by
    refine ⟨c.stats[code]'(by rw [hc.counters]; exact h), ?_⟩
    simp [hc.counters, h]
  obtain ⟨n, hn⟩ := hget
  have hn100 := le_sum_of_getElem? _ _ _ hn
  have hmod : (n + 1) % 256 = n + 1 := by omega
  have hset := sum_set_succ _ _ _ hn
  have hsetlen : (c.stats.set code (n + 1)).length = 32 := by simp [hc.counters]
  have hstart := hc.startup
  unfold updatedCodeStatistics
  rw [hn]
  dsimp only
  rw [hmod]
  split
  · exact adaptCommands_ok _ hsetlen (by dsimp only; omega) (by dsimp only; omega) hc.short21 hc.short31
      hc.short301 hc.short41 hc.short401 hc.short4001
  split
  · exact adaptCommands_ok _ hsetlen (by dsimp only; omega) (by dsimp only; omega) hc.short21 hc.short31
      hc.short301 hc.short41 hc.short401 hc.short4001
  split
  · exact adaptCommands_ok _ hsetlen (by dsimp only; omega) (by dsimp only; omega) hc.short21 hc.short31
      hc.short301 hc.short41 hc.short401 hc.short4001
  · refine ⟨_, rfl, ⟨hc.mode_lo, hc.mode_hi, hc.short21, hc.short31, hc.short301, hc.short41, hc.short401,
      hc.short4001, hc.startup, hsetlen, by dsimp only; omega, ?_⟩⟩
    dsimp only at *
    unfold adaptAfter at *
    split at hb <;> simp_all <;> omega

theorem new_valid : CodeState.new.Valid := by
  constructor <;> decide

/-! ## Reading back what was written -/

/-- Five bits as a number, from any bit source (the composition used by Decoder.go L372-374). -/
def fiveBits {σ : Type} (rb : σ → Res (Bool × σ)) (s : σ) : Res (Nat × σ) := do
  let (b4, s) ← rb s
  let (b3, s) ← rb s
  let (b2, s) ← rb s
  let (b1, s) ← rb s
  let (b0, s) ← rb s
  .ok (b4.toNat <<< 4 ||| b3.toNat <<< 3 ||| b2.toNat <<< 2 ||| b1.toNat <<< 1 ||| b0.toNat, s)

theorem fiveBits_eq : fiveBits readBit = readBits5 := rfl

/-- `P bits s`: the bit source `s` will deliver `bits` (and possibly more). -/
def Delivers {σ : Type} {τ : Type} (rb : σ → Res (Bool × σ)) (cons : Bool → τ → τ)
    (P : τ → σ → Prop) : Prop :=
  ∀ b t s, P (cons b t) s → ∃ s', rb s = .ok (b, s') ∧ P t s'

theorem five_value (code : Nat) (h : code < 32) :
    (code.testBit 4).toNat <<< 4 ||| (code.testBit 3).toNat <<< 3 ||| (code.testBit 2).toNat <<< 2 |||
      (code.testBit 1).toNat <<< 1 ||| (code.testBit 0).toNat = code := by
  revert h
  revert code
  decide

theorem fiveBits_delivers {σ τ : Type} {rb : σ → Res (Bool × σ)} {cons : Bool → τ → τ}
    {P : τ → σ → Prop} (hP : Delivers rb cons P) (code : Nat) (h : code < 32) (t : τ) (s : σ)
    (hs : P ((bitsOf code 5).foldr cons t) s) :
    ∃ s', fiveBits rb s = .ok (code, s') ∧ P t s' := by
  simp only [bitsOf, List.foldr_cons, List.foldr_nil] at hs
  obtain ⟨s1, e1, hs⟩ := hP _ _ _ hs
  obtain ⟨s2, e2, hs⟩ := hP _ _ _ hs
  obtain ⟨s3, e3, hs⟩ := hP _ _ _ hs
  obtain ⟨s4, e4, hs⟩ := hP _ _ _ hs
  obtain ⟨s5, e5, hs⟩ := hP _ _ _ hs
  refine ⟨s5, ?_, hs⟩
  simp only [fiveBits, e1, e2, e3, e4, e5, Res.bind_ok, five_value code h]

/-- The bits `writeCode` produces, without the bookkeeping. -/
def codeBits (c : CodeState) (code : Nat) : Res (List Bool) :=
  match c.mode with
  | 1 => .ok (bitsOf code 5)
  | 2 => if code = c.mode21 then .ok (bitsOf 1 1) else .ok (bitsOf code 6)
  | 3 => if code = c.mode31 then .ok (bitsOf 1 1)
         else if code = c.mode301 then .ok (bitsOf 1 2) else .ok (bitsOf code 7)
  | 4 => if code = c.mode41 then .ok (bitsOf 1 1)
         else if code = c.mode401 then .ok (bitsOf 1 2)
         else if code = c.mode4001 then .ok (bitsOf 1 3) else .ok (bitsOf code 8)
  | _ => Res.err

theorem writeCode_eq (c : CodeState) (code : Nat) :
    writeCode c code = (do
      let bits ← codeBits c code
      let c ← updatedCodeStatistics c code
      .ok (bits, c)) := rfl

theorem writeCode_ok {c : CodeState} {code : Nat} {bits : List Bool} {c' : CodeState}
    (h : writeCode c code = .ok (bits, c')) :
    codeBits c code = .ok bits ∧ updatedCodeStatistics c code = .ok c' := by
  rw [writeCode_eq] at h
  cases hb : codeBits c code with
  | ok b =>
    rw [hb] at h
    cases hu : updatedCodeStatistics c code with
    | ok u => rw [hu] at h; simp at h; exact ⟨by rw [h.1], by rw [h.2]⟩
    | err => rw [hu] at h; simp at h
    | panic => rw [hu] at h; simp at h
  | err => rw [hb] at h; simp at h
  | panic => rw [hb] at h; simp at h

theorem bitsOf_pad (code k : Nat) (h : code < 32) (hk : 5 ≤ k) :
    bitsOf code (k + 1) = false :: bitsOf code k := by
  have : code.testBit k = false := by
    apply Nat.testBit_lt_two_pow
    calc code < 2 ^ 5 := h
      _ ≤ 2 ^ k := Nat.pow_le_pow_right (by omega) hk
  rw [bitsOf, this]

/-- `ReadCode` reads back the code word `WriteCode` wrote, from any bit source that delivers its bits. -/
theorem readCode_writeCode {σ τ : Type} {rb : σ → Res (Bool × σ)} {cons : Bool → τ → τ}
    {P : τ → σ → Prop} (hP : Delivers rb cons P) (c : CodeState) (code : Nat) (h : code < 32)
    (bits : List Bool) (c' : CodeState) (hw : writeCode c code = .ok (bits, c')) (t : τ) (s : σ)
    (hs : P (bits.foldr cons t) s) :
    ∃ s', readCode rb (fiveBits rb) c s = .ok (code, c', s') ∧ P t s' := by
  obtain ⟨hb, hu⟩ := writeCode_ok hw
  have b6 : bitsOf code 6 = false :: bitsOf code 5 := bitsOf_pad code 5 h (by omega)
  have b7 : bitsOf code 7 = false :: false :: bitsOf code 5 := by
    rw [bitsOf_pad code 6 h (by omega), b6]
  have b8 : bitsOf code 8 = false :: false :: false :: bitsOf code 5 := by
    rw [bitsOf_pad code 7 h (by omega), b7]
  have o1 : bitsOf 1 1 = [true] := by decide
  have o2 : bitsOf 1 2 = [false, true] := by decide
  have o3 : bitsOf 1 3 = [false, false, true] := by decide
  unfold codeBits at hb
  unfold readCode
  split at hb
  · -- mode 1
    rename_i hm
    cases hb
    obtain ⟨s', e, hs⟩ := fiveBits_delivers hP code h t s hs
    refine ⟨s', ?_, hs⟩
    simp only [hm, e, Res.bind_ok, hu]
  · -- mode 2
    rename_i hm
    rw [hm]
    dsimp only
    split at hb
    · rename_i hc
      cases hb
      rw [o1] at hs
      obtain ⟨s1, e1, hs⟩ := hP _ _ _ hs
      refine ⟨s1, ?_, hs⟩
      simp [e1, ← hc, hu]
    · cases hb
      rw [b6] at hs
      obtain ⟨s1, e1, hs⟩ := hP _ _ _ hs
      obtain ⟨s', e, hs⟩ := fiveBits_delivers hP code h t s1 hs
      refine ⟨s', ?_, hs⟩
      simp [e1, e, hu]
  · -- mode 3
    rename_i hm
    rw [hm]
    dsimp only
    split at hb
    · rename_i hc
      cases hb
      rw [o1] at hs
      obtain ⟨s1, e1, hs⟩ := hP _ _ _ hs
      refine ⟨s1, ?_, hs⟩
      simp [e1, ← hc, hu]
    split at hb
    · rename_i hc
      cases hb
      rw [o2] at hs
      obtain ⟨s1, e1, hs⟩ := hP _ _ _ hs
      obtain ⟨s2, e2, hs⟩ := hP _ _ _ hs
      refine ⟨s2, ?_, hs⟩
      simp [e1, e2, ← hc, hu]
    · cases hb
      rw [b7] at hs
      obtain ⟨s1, e1, hs⟩ := hP _ _ _ hs
      obtain ⟨s2, e2, hs⟩ := hP _ _ _ hs
      obtain ⟨s', e, hs⟩ := fiveBits_delivers hP code h t s2 hs
      refine ⟨s', ?_, hs⟩
      simp [e1, e2, e, hu]
  · -- mode 4
    rename_i hm
    rw [hm]
    dsimp only
    split at hb
    · rename_i hc
      cases hb
      rw [o1] at hs
      obtain ⟨s1, e1, hs⟩ := hP _ _ _ hs
      refine ⟨s1, ?_, hs⟩
      simp [e1, ← hc, hu]
    split at hb
    · rename_i hc
      cases hb
      rw [o2] at hs
      obtain ⟨s1, e1, hs⟩ := hP _ _ _ hs
      obtain ⟨s2, e2, hs⟩ := hP _ _ _ hs
      refine ⟨s2, ?_, hs⟩
      simp [e1, e2, ← hc, hu]
    split at hb
    · rename_i hc
      cases hb
      rw [o3] at hs
      obtain ⟨s1, e1, hs⟩ := hP _ _ _ hs
      obtain ⟨s2, e2, hs⟩ := hP _ _ _ hs
      obtain ⟨s3, e3, hs⟩ := hP _ _ _ hs
      refine ⟨s3, ?_, hs⟩
      simp [e1, e2, e3, ← hc, hu]
    · cases hb
      rw [b8] at hs
      obtain ⟨s1, e1, hs⟩ := hP _ _ _ hs
      obtain ⟨s2, e2, hs⟩ := hP _ _ _ hs
      obtain ⟨s3, e3, hs⟩ := hP _ _ _ hs
      obtain ⟨s', e, hs⟩ := fiveBits_delivers hP code h t s3 hs
      refine ⟨s', ?_, hs⟩
      simp [e1, e2, e3, e, hu]
  · cases hb

theorem codeBits_ok (c : CodeState) (hc : c.Valid) (code : Nat) : ∃ b, codeBits c code = .ok b := by
  have h1 := hc.mode_lo
  have h2 := hc.mode_hi
  unfold codeBits
  split
  · exact ⟨_, rfl⟩
  · split <;> exact ⟨_, rfl⟩
  · repeat' split
    all_goals exact ⟨_, rfl⟩
  · repeat' split
    all_goals exact ⟨_, rfl⟩
  · exfalso
    generalize c.mode = m at *
    interval_cases m <;> simp_all

/-- Writing a code word never fails and keeps the state valid. -/
theorem writeCode_valid (c : CodeState) (hc : c.Valid) (code : Nat) (h : code < 32) :
    ∃ bits c', writeCode c code = .ok (bits, c') ∧ c'.Valid := by
  obtain ⟨b, hb⟩ := codeBits_ok c hc code
  obtain ⟨c', hu, hv⟩ := updated_ok c hc code h
  exact ⟨b, c', by rw [writeCode_eq, hb, hu]; rfl, hv⟩

/-- A bit source that is just a list of bits. -/
def listBit : List Bool → Res (Bool × List Bool)
  | [] => .panic
  | b :: bs => .ok (b, bs)

/-- Write a sequence of code words. -/
def writeCodes (c : CodeState) : List Nat → Res (List Bool × CodeState)
  | [] => .ok ([], c)
  | code :: r => do
    let (bits, c) ← writeCode c code
    let (more, c) ← writeCodes c r
    .ok (bits ++ more, c)

/-- Read `n` code words from a list of bits. -/
def readCodes : Nat → CodeState → List Bool → Res (List Nat × CodeState × List Bool)
  | 0, c, s => .ok ([], c, s)
  | n + 1, c, s => do
    let (code, c, s) ← readCode listBit (fiveBits listBit) c s
    let (r, c, s) ← readCodes n c s
    .ok (code :: r, c, s)

theorem list_delivers : Delivers listBit (τ := List Bool) List.cons (fun t s => t = s) := by
  intro b t s h
  subst h
  exact ⟨t, rfl, rfl⟩

theorem foldr_cons_append (l t : List Bool) : l.foldr List.cons t = l ++ t := by
  induction l with
  | nil => rfl
  | cons a l ih => simp

/-- **C10.** Whatever sequence of code words is written from a valid state (in particular from a new point, see
`new_valid`), a reader starting in the same state reads back exactly those code words, uses exactly
the bits written, whatever follows them, and ends in the same adaptive state as the writer. -/
theorem C10_codes_roundtrip (codes : List Nat) (hcodes : ∀ x ∈ codes, x < 32) (c : CodeState)
    (hc : c.Valid) : ∃ bits c', writeCodes c codes = .ok (bits, c') ∧
      ∀ after, readCodes codes.length c (bits ++ after) = .ok (codes, c', after) := by
  induction codes generalizing c with
  | nil => exact ⟨[], c, rfl, fun after => rfl⟩
  | cons x r ih =>
    have hx := hcodes x List.mem_cons_self
    obtain ⟨b, c1, hw, hv⟩ := writeCode_valid c hc x hx
    obtain ⟨bs, c2, hws, hr⟩ := ih (fun y hy => hcodes y (List.mem_cons_of_mem _ hy)) c1 hv
    refine ⟨b ++ bs, c2, by simp [writeCodes, hw, hws], fun after => ?_⟩
    obtain ⟨s', hrd, hs'⟩ := readCode_writeCode list_delivers c x hx b c1 hw (bs ++ after)
      (b ++ bs ++ after) (by rw [foldr_cons_append, List.append_assoc])
    subst hs'
    simp only [List.length_cons, readCodes, hrd, hr, Res.bind_ok]

/-- The state reached by a new point after any sequence of code words, read or written. -/
inductive Reachable : CodeState → Prop
  | new : Reachable CodeState.new
  | write {c : CodeState} {code : Nat} {bits : List Bool} {c' : CodeState} :
      Reachable c → writeCode c code = .ok (bits, c') → Reachable c'
  | read {c : CodeState} {s : Buf} {code : Nat} {c' : CodeState} {s' : Buf} :
      Reachable c → readCode readBit readBits5 c s = .ok (code, c', s') → Reachable c'

theorem updated_valid {c : CodeState} (hc : c.Valid) {code : Nat} {c' : CodeState}
    (h : updatedCodeStatistics c code = .ok c') : c'.Valid := by
  by_cases hlt : code < 32
  · obtain ⟨c'', h', hv⟩ := updated_ok c hc code hlt
    rw [h] at h'
    cases h'
    exact hv
  · unfold updatedCodeStatistics at h
    have : c.stats[code]? = none := by
      rw [List.getElem?_eq_none_iff, hc.counters]; omega
    rw [this] at h
    cases h

theorem readCode_updated {σ : Type} {rb : σ → Res (Bool × σ)} {r5 : σ → Res (Nat × σ)} {c : CodeState}
    {s : σ} {code : Nat} {c' : CodeState} {s' : σ}
    (h : readCode rb r5 c s = .ok (code, c', s')) : updatedCodeStatistics c code = .ok c' := by
  unfold readCode at h
  rw [Res.bind_eq_ok] at h
  obtain ⟨⟨x, s1⟩, _, h⟩ := h
  rw [Res.bind_eq_ok] at h
  obtain ⟨u, hu, h⟩ := h
  simp only [Res.ok.injEq, Prod.mk.injEq] at h
  obtain ⟨rfl, rfl, rfl⟩ := h
  exact hu

/-- **C11.** In every state a point can reach by reading or writing code words, the adaptive code is
consistent (`CodeState.Valid`: existing mode, short codes that are code words, exact counters below
the byte limit), and any further code word can be written: adapting never reports a coding error. -/
theorem C11_adaptive_state (c : CodeState) (h : Reachable c) :
    c.Valid ∧ (∀ n ∈ c.stats, n ≤ 100) ∧
      ∀ code < 32, ∃ bits c', writeCode c code = .ok (bits, c') := by
  have hv : c.Valid := by
    induction h with
    | new => exact new_valid
    | write _ hw ih => exact updated_valid ih (writeCode_ok hw).2
    | read _ hr ih => exact updated_valid ih (readCode_updated hr)
  refine ⟨hv, ?_, ?_⟩
  · intro n hn
    have h1 : n ≤ c.stats.sum := by
      obtain ⟨i, hi, rfl⟩ := List.getElem_of_mem hn
      exact le_sum_of_getElem? _ i _ (List.getElem?_eq_getElem hi)
    have h2 := hv.bounded
    have h3 := hv.counted
    have h4 : adaptAfter c.startupMode ≤ 100 := by unfold adaptAfter; split <;> omega
    omega
  · intro code hcode
    obtain ⟨bits, c', hw, _⟩ := writeCode_valid c hv code hcode
    exact ⟨bits, c', hw⟩

/-- Non-trivial case: seven code words, past the first adaptation. -/
example : (writeCodes CodeState.new [1, 17, 31, 31, 31, 31, 31] >>= fun r =>
      readCodes 7 CodeState.new (r.1 ++ [true, false]) >>= fun q =>
      .ok (q.1, q.2.2, q.2.1.mode, q.2.1.mode41)) =
    .ok ([1, 17, 31, 31, 31, 31, 31], [true, false], 4, 31) := by decide +kernel

end Verif.Tssc
