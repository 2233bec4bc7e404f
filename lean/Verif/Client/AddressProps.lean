import Verif.Client.Address

/-!
# Reading addresses (C94)
-/

namespace Verif.Client

/-! ## Positions -/

theorem indexByte_none {b : Byte} {l : List Byte} : indexByte b l = none ↔ b ∉ l := by
  induction l with
  | nil => simp [indexByte]
  | cons c cs ih =>
    unfold indexByte
    by_cases h : c = b
    · simp [h]
    · rw [if_neg h, Option.map_eq_none_iff, ih]
      simp [Ne.symm h]

theorem indexByte_isSome {b : Byte} {l : List Byte} : (indexByte b l).isSome = true ↔ b ∈ l := by
  rw [← not_iff_not, ← indexByte_none]
  cases indexByte b l <;> simp

theorem indexByte_mid {b : Byte} {p : List Byte} (q : List Byte) (h : b ∉ p) : indexByte b (p ++ b :: q) = some p.length := by
  induction p with
  | nil => simp [indexByte]
  | cons c cs ih =>
    rw [List.cons_append, indexByte, if_neg (by rintro rfl; simp at h), ih (fun hm => h (by simp [hm]))]
    rfl

theorem indexByte_some {b : Byte} {l : List Byte} {i : Nat} (h : indexByte b l = some i) :
    ∃ p q, l = p ++ b :: q ∧ b ∉ p ∧ p.length = i := by
  induction l generalizing i with
  | nil => simp [indexByte] at h
  | cons c cs ih =>
    unfold indexByte at h
    by_cases hc : c = b
    · rw [if_pos hc] at h
      injection h with h
      exact ⟨[], cs, by rw [hc]; rfl, by simp, h⟩
    · rw [if_neg hc] at h
      obtain ⟨k, hk, rfl⟩ := Option.map_eq_some_iff.mp h
      obtain ⟨p, q, rfl, hp, rfl⟩ := ih hk
      exact ⟨c :: p, q, rfl, by simp [hp, Ne.symm hc], rfl⟩

theorem lastIndexByte_none {b : Byte} {l : List Byte} : lastIndexByte b l = none ↔ b ∉ l := by
  induction l with
  | nil => simp [lastIndexByte]
  | cons c cs ih =>
    unfold lastIndexByte
    cases h : lastIndexByte b cs with
    | some i =>
      have : ¬ b ∉ cs := fun hn => by rw [ih.mpr hn] at h; cases h
      simp only [reduceCtorEq, List.mem_cons, not_or, false_iff, not_and]
      exact fun _ => this
    | none =>
      have := ih.mp h
      by_cases hc : c = b
      · simp [hc]
      · simp [hc, Ne.symm hc, this]

theorem lastIndexByte_mid {b : Byte} (p : List Byte) {q : List Byte} (h : b ∉ q) : lastIndexByte b (p ++ b :: q) = some p.length := by
  induction p with
  | nil => rw [List.nil_append, lastIndexByte, lastIndexByte_none.mpr h]; simp
  | cons c cs ih => rw [List.cons_append, lastIndexByte, ih]; rfl

theorem lastIndexByte_some {b : Byte} {l : List Byte} {i : Nat} (h : lastIndexByte b l = some i) :
    ∃ p q, l = p ++ b :: q ∧ b ∉ q ∧ p.length = i := by
  induction l generalizing i with
  | nil => simp [lastIndexByte] at h
  | cons c cs ih =>
    unfold lastIndexByte at h
    cases hl : lastIndexByte b cs with
    | some k =>
      rw [hl] at h
      injection h with h
      obtain ⟨p, q, rfl, hq, rfl⟩ := ih hl
      exact ⟨c :: p, q, rfl, hq, h⟩
    | none =>
      rw [hl] at h
      dsimp only at h
      split at h
      · injection h with h
        rename_i hc
        exact ⟨[], cs, by rw [hc]; rfl, lastIndexByte_none.mp hl, h⟩
      · cases h

theorem splitRest_eq {a host : List Byte} {i j k : Nat} {r : List Byte × List Byte} : splitRest a i j k host = some r ↔
    lbracket ∉ a.drop j ∧ rbracket ∉ a.drop k ∧ r = (host, a.drop (i + 1)) := by
  unfold splitRest
  simp only [indexByte_isSome]
  by_cases h1 : lbracket ∈ a.drop j
  · simp [h1]
  · by_cases h2 : rbracket ∈ a.drop k
    · simp [h1, h2]
    · simp [h1, h2, eq_comm]

/-- C94, which texts are addresses: exactly `host:port` with no colon or bracket in either part, and `[host]:port` with no bracket in either
part and no colon in the port. -/
theorem C94_split (a host port : List Byte) : splitHostPort a = some (host, port) ↔
    (a = host ++ colon :: port ∧ (∀ b ∈ host ++ port, b ≠ 58#8 ∧ b ≠ 91#8 ∧ b ≠ 93#8)) ∨
    (a = 91#8 :: host ++ [93#8, 58#8] ++ port ∧ (∀ b ∈ host ++ port, b ≠ 91#8 ∧ b ≠ 93#8) ∧ 58#8 ∉ port) := by
  constructor
  · intro h
    unfold splitHostPort at h
    cases hl : lastIndexByte colon a with
    | none => rw [hl] at h; cases h
    | some i =>
      rw [hl] at h
      dsimp only at h
      obtain ⟨p, q, rfl, hq, rfl⟩ := lastIndexByte_some hl
      split at h
      · rename_i hb
        right
        cases p with
        | nil => simp [colon, lbracket] at hb
        | cons c p =>
          have hc : c = lbracket := by simpa using hb
          subst hc
          cases he : indexByte rbracket (lbracket :: p ++ colon :: q) with
          | none => rw [he] at h; cases h
          | some e =>
            rw [he] at h
            dsimp only at h
            split at h
            · rename_i hei
              obtain ⟨h1, h2, h3⟩ := splitRest_eq.mp h
              obtain ⟨p', q', hpq, hp', hlen⟩ := indexByte_some he
              have hlp : p'.length + 1 = (lbracket :: p).length := by rw [hlen]; exact hei
              -- the closing bracket ends the part before the last colon
              have hsplit : p' ++ [rbracket] = lbracket :: p ∧ q' = colon :: q := by
                have e1 : (p' ++ [rbracket]) ++ q' = (lbracket :: p) ++ colon :: q := by rw [hpq]; simp
                exact List.append_inj e1 (by simp at hlp ⊢; omega)
              obtain ⟨hs1, -⟩ := hsplit
              cases p' with
              | nil => simp [rbracket, lbracket] at hs1
              | cons d p'' =>
                simp only [List.cons_append, List.cons.injEq] at hs1
                obtain ⟨rfl, rfl⟩ := hs1
                have hhost : host = p'' := by
                  have := congrArg Prod.fst h3
                  simp only at this
                  rw [this, ← hlen]
                  simp
                have hport : port = q := by
                  have := congrArg Prod.snd h3
                  simp only at this
                  rw [this]
                  rw [List.drop_append]
                  simp
                subst hhost hport
                refine ⟨by simp [lbracket, rbracket, colon], ?_, hq⟩
                intro b hb
                constructor
                · rintro rfl
                  apply h1
                  rw [List.cons_append, List.drop_one, List.tail_cons]
                  simp only [List.mem_append, List.mem_cons] at hb ⊢
                  rcases hb with hb | hb
                  · exact Or.inl (Or.inl hb)
                  · exact Or.inr (Or.inr hb)
                · rintro rfl
                  rcases List.mem_append.mp hb with hb | hb
                  · exact hp' (List.mem_cons_of_mem _ hb)
                  · apply h2
                    rw [← hlen]
                    have : (lbracket :: (host ++ [rbracket]) ++ colon :: port).drop ((lbracket :: host).length + 1) = colon :: port := by
                      rw [List.drop_append]
                      simp
                    rw [this]
                    exact List.mem_cons_of_mem _ hb
            · cases h
      · left
        simp only [List.take_left'] at h
        split at h
        · cases h
        · rename_i hb hcol
          rw [indexByte_isSome] at hcol
          obtain ⟨h1, h2, h3⟩ := splitRest_eq.mp h
          rw [List.drop_zero] at h1 h2
          have h4 : (p ++ colon :: q).drop (p.length + 1) = q := by rw [List.drop_append]; simp
          rw [h4] at h3
          injection h3 with h3 h5
          subst h3 h5
          refine ⟨rfl, ?_⟩
          intro b hb
          refine ⟨?_, ?_, ?_⟩ <;> rintro rfl
          · rcases List.mem_append.mp hb with hb | hb
            · exact hcol hb
            · exact hq hb
          · apply h1
            simp only [List.mem_append, List.mem_cons] at hb ⊢
            rcases hb with hb | hb
            · exact Or.inl hb
            · exact Or.inr (Or.inr hb)
          · apply h2
            simp only [List.mem_append, List.mem_cons] at hb ⊢
            rcases hb with hb | hb
            · exact Or.inl hb
            · exact Or.inr (Or.inr hb)
  · rintro (⟨rfl, h⟩ | ⟨rfl, h, hp⟩)
    · have hq : colon ∉ port := fun hm => (h _ (List.mem_append_right _ hm)).1 rfl
      have hh : colon ∉ host := fun hm => (h _ (List.mem_append_left _ hm)).1 rfl
      have hall : ∀ c, (c = lbracket ∨ c = rbracket) → c ∉ host ++ colon :: port := by
        intro c hc hm
        simp only [List.mem_append, List.mem_cons] at hm
        rcases hm with hm | hm | hm
        · rcases hc with rfl | rfl
          · exact (h _ (List.mem_append_left _ hm)).2.1 rfl
          · exact (h _ (List.mem_append_left _ hm)).2.2 rfl
        · subst hm; rcases hc with hc | hc <;> simp [colon, lbracket, rbracket] at hc
        · rcases hc with rfl | rfl
          · exact (h _ (List.mem_append_right _ hm)).2.1 rfl
          · exact (h _ (List.mem_append_right _ hm)).2.2 rfl
      unfold splitHostPort
      rw [lastIndexByte_mid _ hq]
      dsimp only
      rw [if_neg]
      · rw [show (host ++ colon :: port).take host.length = host from by simp, if_neg (by rw [indexByte_isSome]; exact hh)]
        apply splitRest_eq.mpr
        refine ⟨by rw [List.drop_zero]; exact hall _ (Or.inl rfl), by rw [List.drop_zero]; exact hall _ (Or.inr rfl), ?_⟩
        rw [List.drop_append]
        simp
      · intro hc
        exact hall _ (Or.inl rfl) (List.mem_of_mem_head? hc)
    · have e : 91#8 :: host ++ [93#8, 58#8] ++ port = (lbracket :: host ++ [rbracket]) ++ colon :: port := by simp [lbracket, rbracket, colon]
      have e2 : 91#8 :: host ++ [93#8, 58#8] ++ port = (lbracket :: host) ++ rbracket :: (colon :: port) := by simp [lbracket, rbracket, colon]
      have hr : rbracket ∉ lbracket :: host := by
        intro hm
        rcases List.mem_cons.mp hm with hm | hm
        · simp [lbracket, rbracket] at hm
        · exact (h _ (List.mem_append_left _ hm)).2 rfl
      unfold splitHostPort
      rw [e, lastIndexByte_mid _ (show colon ∉ port from hp)]
      dsimp only
      rw [if_pos (by simp), ← e, e2, indexByte_mid _ hr]
      dsimp only
      rw [if_pos (by simp)]
      apply splitRest_eq.mpr
      refine ⟨?_, ?_, ?_⟩
      · simp only [List.cons_append, List.drop_one, List.tail_cons, List.mem_append, List.mem_cons, not_or]
        refine ⟨fun hm => (h _ (List.mem_append_left _ hm)).1 rfl, by decide, by decide, fun hm => (h _ (List.mem_append_right _ hm)).1 rfl⟩
      · rw [List.drop_append]
        simp only [List.length_cons]
        intro hm
        rw [List.drop_eq_nil_of_le (by simp), List.nil_append, show host.length + 1 + 1 - (host.length + 1) = 1 by omega] at hm
        simp only [List.drop_succ_cons, List.drop_zero, List.mem_cons] at hm
        rcases hm with hm | hm
        · simp [rbracket, colon] at hm
        · exact (h _ (List.mem_append_right _ hm)).2 rfl
      · have e3 : ((lbracket :: host) ++ rbracket :: (colon :: port)).take (lbracket :: host).length = lbracket :: host := by simp
        rw [e3, ← e2, e, List.drop_append]
        simp

/-! ## Ports -/

theorem parseUintLoop_value {s : List Byte} {n m : Nat} : Text.parseUintLoop s n = .value m ↔
    (∀ b ∈ s, 48 ≤ b.toNat ∧ b.toNat ≤ 57) ∧ m = s.foldl (fun a b => a * 10 + (b.toNat - 48)) n ∧ (s = [] ∨ m < 2 ^ 64) := by
  induction s generalizing n with
  | nil => simp [Text.parseUintLoop, eq_comm]
  | cons b s ih =>
    unfold Text.parseUintLoop
    by_cases hb : 48 ≤ b.toNat ∧ b.toNat ≤ 57
    · rw [if_pos hb]
      have hmono : ∀ (l : List Byte) (k : Nat), k ≤ l.foldl (fun a b => a * 10 + (b.toNat - 48)) k := by
        intro l
        induction l with
        | nil => intro k; exact Nat.le_refl _
        | cons c l il => intro k; exact Nat.le_trans (by dsimp only; omega) (il _)
      by_cases hlt : n * 10 + (b.toNat - 48) < 2 ^ 64
      · rw [if_pos hlt, ih]
        constructor
        · rintro ⟨h1, rfl, h3⟩
          refine ⟨?_, rfl, Or.inr ?_⟩
          · intro c hc
            rcases List.mem_cons.mp hc with rfl | hc
            · exact hb
            · exact h1 c hc
          · rcases h3 with rfl | h3
            · exact hlt
            · exact h3
        · rintro ⟨h1, rfl, h3⟩
          exact ⟨fun c hc => h1 c (by simp [hc]), rfl, Or.inr (by simpa using h3)⟩
      · rw [if_neg hlt]
        constructor
        · intro h; cases h
        · rintro ⟨-, rfl, h3⟩
          exfalso
          have := hmono s (n * 10 + (b.toNat - 48))
          have h3' : (b :: s).foldl (fun a b => a * 10 + (b.toNat - 48)) n < 2 ^ 64 := by simpa using h3
          rw [List.foldl_cons] at h3'
          omega
    · rw [if_neg hb]
      constructor
      · intro h; cases h
      · rintro ⟨h1, -⟩
        exact absurd (h1 b (by simp)) hb

theorem parseUint_value {s : List Byte} {m : Nat} : Text.parseUint s = .value m ↔
    s ≠ [] ∧ (∀ b ∈ s, 48 ≤ b.toNat ∧ b.toNat ≤ 57) ∧ Format.readDecimal s = m ∧ m < 2 ^ 64 := by
  unfold Text.parseUint
  by_cases hs : s = []
  · simp [hs]
  · rw [if_neg hs, parseUintLoop_value]
    simp only [hs, false_or, ne_eq, not_false_eq_true, true_and]
    constructor
    · rintro ⟨h1, h2, h3⟩; exact ⟨h1, h2.symm, h3⟩
    · rintro ⟨h1, h2, h3⟩; exact ⟨h1, h2.symm, h3⟩

theorem digits_sign {t : List Byte} (hne : t ≠ []) (hd : ∀ b ∈ t, 48 ≤ b.toNat ∧ b.toNat ≤ 57) :
    Text.sign t = (false, t) ∧ Text.sign (43#8 :: t) = (false, t) := by
  constructor
  · cases t with
    | nil => exact absurd rfl hne
    | cons b t =>
      have := hd b (by simp)
      have h1 : b ≠ 45#8 := by rintro rfl; simp at this
      have h2 : b ≠ 43#8 := by rintro rfl; simp at this
      simp [Text.sign, h1, h2]
  · simp [Text.sign]

/-- Which texts are port numbers. -/
theorem atoi_port (port : BitVec 16) (t : List Byte) : (∃ n : Int, atoi t = some n ∧ ¬ (n < 1 ∨ n > 65535) ∧ BitVec.ofInt 16 n = port) ↔
    ∃ digits, (t = digits ∨ t = 43#8 :: digits) ∧ digits ≠ [] ∧ (∀ b ∈ digits, 48 ≤ b.toNat ∧ b.toNat ≤ 57) ∧
    Format.readDecimal digits = port.toNat ∧ 0 < port.toNat := by
  have hport := port.isLt
  constructor
  · rintro ⟨n, h1, h2, h3⟩
    unfold atoi at h1
    cases hp : Text.parseUint (Text.sign t).2 with
    | bad => rw [hp] at h1; cases h1
    | large => rw [hp] at h1; cases h1
    | value m =>
      rw [hp] at h1
      dsimp only at h1
      obtain ⟨g1, g2, g3, g4⟩ := parseUint_value.mp hp
      have hs : (Text.sign t).1 = false := by
        cases hs : (Text.sign t).1 with
        | false => rfl
        | true =>
          rw [hs, if_pos rfl] at h1
          split at h1
          · injection h1 with h1; omega
          · cases h1
      rw [hs] at h1
      simp only [Bool.false_eq_true, if_false] at h1
      split at h1
      · injection h1 with h1
        refine ⟨(Text.sign t).2, ?_, g1, g2, ?_, ?_⟩
        · cases t with
          | nil => left; rfl
          | cons b t =>
            unfold Text.sign at hs ⊢
            by_cases hb : b = 45#8
            · simp [hb] at hs
            · by_cases hb2 : b = 43#8
              · right; simp [hb2]
              · left; simp [hb, hb2]
        · have : (BitVec.ofInt 16 n).toNat = port.toNat := by rw [h3]
          rw [BitVec.toNat_ofInt] at this
          omega
        · have : (BitVec.ofInt 16 n).toNat = port.toNat := by rw [h3]
          rw [BitVec.toNat_ofInt] at this
          omega
      · cases h1
  · rintro ⟨digits, ht, hne, hd, hv, hpos⟩
    obtain ⟨s1, s2⟩ := digits_sign hne hd
    have hst : Text.sign t = (false, digits) := by
      rcases ht with rfl | rfl
      · exact s1
      · exact s2
    refine ⟨(port.toNat : Int), ?_, by omega, ?_⟩
    · unfold atoi
      rw [hst]
      dsimp only
      rw [parseUint_value.mpr ⟨hne, hd, hv, by omega⟩]
      simp only [Bool.false_eq_true, if_false]
      rw [if_pos (by omega)]
    · apply BitVec.eq_of_toNat_eq
      rw [BitVec.toNat_ofInt]
      omega

/-- C94, which ports: an address is accepted exactly when its port is decimal digits, possibly after a plus sign, that denote a number from
1 to 65535; that number is the port. -/
theorem C94_port (a host : List Byte) (port : BitVec 16) : readAddress a = some (host, port) ↔
    ∃ digits, (splitHostPort a = some (host, digits) ∨ splitHostPort a = some (host, 43#8 :: digits)) ∧ digits ≠ [] ∧
      (∀ b ∈ digits, 48 ≤ b.toNat ∧ b.toNat ≤ 57) ∧ Format.readDecimal digits = port.toNat ∧ 0 < port.toNat := by
  unfold readAddress
  cases hs : splitHostPort a with
  | none => simp
  | some r =>
    obtain ⟨h, t⟩ := r
    dsimp only
    have := atoi_port port t
    constructor
    · intro hr
      cases ha : atoi t with
      | none => rw [ha] at hr; cases hr
      | some n =>
        rw [ha] at hr
        dsimp only at hr
        split at hr
        · cases hr
        · rename_i hn
          injection hr with hr
          injection hr with e1 e2
          obtain ⟨digits, g1, g2⟩ := this.mp ⟨n, ha, hn, e2⟩
          refine ⟨digits, ?_, g2⟩
          rw [e1]
          rcases g1 with rfl | rfl
          · exact Or.inl rfl
          · exact Or.inr rfl
    · rintro ⟨digits, g1, g2⟩
      have e : h = host ∧ (t = digits ∨ t = 43#8 :: digits) := by
        rcases g1 with g1 | g1 <;> injection g1 with g1 <;> injection g1 with e1 e2
        · exact ⟨e1, Or.inl e2⟩
        · exact ⟨e1, Or.inr e2⟩
      obtain ⟨n, h1, h2, h3⟩ := this.mpr ⟨digits, e.2, g2⟩
      rw [h1]
      dsimp only
      rw [if_neg h2, h3, e.1]

/-- C94, where the connection goes: for a host name without a colon the text given to the network names the very host and port that were
read. Missing from the full statement: hosts with a colon, that is IPv6 addresses (`C94_ipv6_false`). -/
theorem C94_target_partial (a host : List Byte) (port : BitVec 16) (h : readAddress a = some (host, port)) (hc : 58#8 ∉ host) :
    splitHostPort (joinAddress host port) = some (host, Format.decimal port.toNat) ∧
    Format.readDecimal (Format.decimal port.toNat) = port.toNat := by
  obtain ⟨digits, hs, -⟩ := (C94_port a host port).mp h
  have hb : ∀ b ∈ host, b ≠ 91#8 ∧ b ≠ 93#8 := by
    have : ∃ q, splitHostPort a = some (host, q) := by
      rcases hs with hs | hs
      · exact ⟨_, hs⟩
      · exact ⟨_, hs⟩
    obtain ⟨q, hq⟩ := this
    intro b hb
    rcases (C94_split a host q).mp hq with ⟨-, h2⟩ | ⟨-, h2, -⟩
    · exact (h2 b (List.mem_append_left _ hb)).2
    · exact h2 b (List.mem_append_left _ hb)
  refine ⟨(C94_split _ _ _).mpr (Or.inl ⟨rfl, ?_⟩), Format.readDecimal_decimal _⟩
  intro b hm
  rcases List.mem_append.mp hm with hm | hm
  · exact ⟨by rintro rfl; exact hc hm, hb b hm⟩
  · have := Format.decimal_digits _ b hm
    refine ⟨?_, ?_, ?_⟩ <;> rintro rfl <;> simp at this

/-- C94 fails for IPv6 addresses: the brackets are taken off and not put back, so whenever the host has a colon the text given to the network
is no address, and the connection fails. -/
theorem C94_ipv6_false (a host : List Byte) (port : BitVec 16) (h : readAddress a = some (host, port)) (hc : 58#8 ∈ host) :
    splitHostPort (joinAddress host port) = none := by
  obtain ⟨digits, hs, -⟩ := (C94_port a host port).mp h
  have hb : lbracket ∉ host := by
    have : ∃ q, splitHostPort a = some (host, q) := by
      rcases hs with hs | hs
      · exact ⟨_, hs⟩
      · exact ⟨_, hs⟩
    obtain ⟨q, hq⟩ := this
    intro hb
    rcases (C94_split a host q).mp hq with ⟨-, h2⟩ | ⟨-, h2, -⟩
    · exact (h2 _ (List.mem_append_left _ hb)).2.1 rfl
    · exact (h2 _ (List.mem_append_left _ hb)).1 rfl
  cases hr : splitHostPort (joinAddress host port) with
  | none => rfl
  | some r =>
    exfalso
    obtain ⟨h', q⟩ := r
    have hd : colon ∉ Format.decimal port.toNat := by
      intro hm
      have := Format.decimal_digits _ _ hm
      simp [colon] at this
    rcases (C94_split _ _ _).mp hr with ⟨e, h2⟩ | ⟨e, -⟩
    · have hq : colon ∉ q := fun hm => (h2 _ (List.mem_append_right _ hm)).1 rfl
      have e1 := lastIndexByte_mid host hd
      have e2 := lastIndexByte_mid h' hq
      rw [← joinAddress, e, e2] at e1
      injection e1 with e1
      unfold joinAddress at e
      obtain ⟨rfl, -⟩ := List.append_inj e e1.symm
      exact (h2 _ (List.mem_append_left _ hc)).1 rfl
    · unfold joinAddress at e
      cases host with
      | nil => simp at hc
      | cons c host =>
        simp only [List.cons_append, List.cons.injEq] at e
        apply hb
        rw [e.1]
        exact List.mem_cons_self ..

/-- `localhost:7165`, `:+7165`, `[::1]:7165`; the last one becomes `::1:7165`. Not accepted: no port, port 0, port 65536, colons without
brackets. -/
example : readAddress ("localhost:7165".toList.map fun c => BitVec.ofNat 8 c.toNat) =
      some ("localhost".toList.map fun c => BitVec.ofNat 8 c.toNat, 7165) ∧
    readAddress (":+7165".toList.map fun c => BitVec.ofNat 8 c.toNat) = some ([], 7165) ∧
    readAddress ("[::1]:7165".toList.map fun c => BitVec.ofNat 8 c.toNat) = some ([58#8, 58#8, 49#8], 7165) ∧
    (["localhost", "localhost:0", "localhost:65536", "::1:7165", "[::1]7165", "h:-1", "h:1_0"].all fun t =>
      (readAddress (t.toList.map fun c => BitVec.ofNat 8 c.toNat)).isNone) = true := by decide +kernel

end Verif.Client
