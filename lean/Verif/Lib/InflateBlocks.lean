import Verif.Lib.InflateCode

/-!
# Blocks: the readers of `Lib.Inflate` against RFC 1951
-/

namespace Verif.Lib.Gzip

open Rfc

/-! ## Matches -/

theorem lengthBase_eq (i : Nat) : lengthBase (257 + i) = lengthTable[i]? := by
  by_cases h : i < 29
  · have : ∀ j : Fin 29, lengthBase (257 + j) = lengthTable[(j : Nat)]? := by decide
    exact this ⟨i, h⟩
  · rw [List.getElem?_eq_none (by show 29 ≤ i; omega)]
    unfold lengthBase
    rw [if_neg (by omega), if_neg (by omega), if_neg (by omega), if_neg (by omega), if_neg (by omega), if_neg (by omega), if_neg (by omega)]

theorem distBase_eq (d : Nat) : distBase d = distTable[d]? := by
  by_cases h : d < 30
  · have : ∀ j : Fin 30, distBase j = distTable[(j : Nat)]? := by decide
    exact this ⟨d, h⟩
  · rw [List.getElem?_eq_none (by show 30 ≤ d; omega)]
    unfold distBase
    rw [if_neg (by omega), if_neg (by omega)]

theorem distTable_pos {d base n : Nat} (h : distTable[d]? = some (base, n)) : 1 ≤ base := by
  have : ∀ c ∈ distTable, 1 ≤ c.1 := by decide
  exact this _ (List.mem_of_getElem? h)

theorem copyBack_iff (dist : Nat) (h1 : 1 ≤ dist) : ∀ (len : Nat) (out out' : List Byte), dist ≤ out.length →
    (Repeated out dist len out' ↔ out' = copyBack dist len out)
  | 0, out, out', h2 => by
    rw [copyBack]
    constructor
    · rintro ⟨hp, hl, -⟩
      exact (hp.eq_of_length (by omega)).symm
    · rintro rfl
      exact ⟨List.prefix_refl _, rfl, fun i hi hj => by omega⟩
  | len + 1, out, out', h2 => by
    rw [copyBack, ← copyBack_iff dist h1 len (out ++ [out.getD (out.length - dist) 0]) out' (by rw [List.length_append]; omega)]
    have hg : out[out.length - dist]? = some (out.getD (out.length - dist) 0) := by
      rw [List.getD_eq_getElem?_getD, List.getElem?_eq_getElem (by omega), Option.getD_some]
    constructor
    · rintro ⟨hp, hl, hr⟩
      have hx := hr out.length (le_refl _) (by omega)
      obtain ⟨m, rfl⟩ := hp
      cases m with
      | nil => simp at hl
      | cons b m =>
        rw [List.getElem?_append_right (le_refl _), List.getElem?_append_left (by omega), hg, Nat.sub_self, List.getElem?_cons_zero] at hx
        injection hx with hx
        subst hx
        refine ⟨⟨m, by rw [List.append_assoc]; rfl⟩, ?_, ?_⟩
        · rw [hl]; simp; omega
        · intro i hi
          apply hr i
          rw [List.length_append] at hi
          omega
    · rintro ⟨hp, hl, hr⟩
      rw [List.length_append, List.length_singleton] at hl hr
      refine ⟨(List.prefix_append _ _).trans hp, by omega, ?_⟩
      intro i hi hj
      by_cases hx : out.length + 1 ≤ i
      · exact hr i hx hj
      · have : i = out.length := by omega
        subst this
        obtain ⟨m, rfl⟩ := hp
        rw [List.append_assoc, List.getElem?_append_right (le_refl _), Nat.sub_self, List.getElem?_append_left (show out.length - dist < out.length by omega), hg]
        rfl

theorem readLength_iff (i len : Nat) (l r : List Bool) :
    readLength (257 + i) l = some (len, r) ↔ ∃ b n x, lengthTable[i]? = some (b, n) ∧ x < 2 ^ n ∧ len = b + x ∧ l = lsb n x ++ r := by
  unfold readLength
  rw [lengthBase_eq]
  constructor
  · intro h
    split at h
    · cases h
    · rename_i b n hb
      split at h
      · cases h
      · rename_i x m hx
        injection h with h
        injection h with h1 h2
        subst h1 h2
        obtain ⟨h3, h4⟩ := (take_iff _ _ _ _).mp hx
        exact ⟨b, n, x, hb, h3, rfl, h4⟩
  · rintro ⟨b, n, x, hb, hx, rfl, rfl⟩
    rw [hb]
    dsimp only
    rw [(take_iff n x _ r).mpr ⟨hx, rfl⟩]

theorem readDist_iff {dists : List Nat} (hf : Fits dists) (dist : Nat) (l r : List Bool) :
    readDist (table dists) l = some (dist, r) ↔
      ∃ d b n y, Coded dists d ∧ distTable[d]? = some (b, n) ∧ y < 2 ^ n ∧ dist = b + y ∧ l = code dists d ++ (lsb n y ++ r) := by
  unfold readDist
  constructor
  · intro h
    split at h
    · cases h
    · rename_i d m hd
      split at h
      · cases h
      · rename_i b n hb
        split at h
        · cases h
        · rename_i x m' hx
          injection h with h
          injection h with h1 h2
          subst h1 h2
          obtain ⟨h3, h4⟩ := (take_iff _ _ _ _).mp hx
          obtain ⟨h5, h6⟩ := (symbol_iff hf _ _ _).mp hd
          exact ⟨d, b, n, x, h5, by rw [← distBase_eq]; exact hb, h3, rfl, by rw [h6, h4]⟩
  · rintro ⟨d, b, n, y, hc, hb, hy, rfl, rfl⟩
    rw [(symbol_iff hf d _ _).mpr ⟨hc, rfl⟩]
    dsimp only
    rw [distBase_eq, hb]
    dsimp only
    rw [(take_iff n y _ r).mpr ⟨hy, rfl⟩]

/-! ## Symbols -/

theorem readSymbols_sound {lits dists : List Nat} (hl : Fits lits) (hd : Fits dists) : ∀ (fuel : Nat) (out out' : List Byte) (l r : List Bool),
    readSymbols (table lits) (table dists) fuel out l = some (out', r) → ∃ m, l = m ++ r ∧ Symbols lits dists out m out'
  | 0, _, _, _, _, h => by cases h
  | fuel + 1, out, out', l, r, h => by
    rw [readSymbols] at h
    split at h
    · cases h
    · rename_i v l1 hv
      obtain ⟨hc, rfl⟩ := (symbol_iff hl _ _ _).mp hv
      split_ifs at h with h1 h2
      · obtain ⟨m, rfl, hm⟩ := readSymbols_sound hl hd fuel _ _ _ _ h
        have hb : (BitVec.ofNat 8 v).toNat = v := by rw [BitVec.toNat_ofNat, Nat.mod_eq_of_lt (by omega)]
        refine ⟨code lits v ++ m, by rw [List.append_assoc], ?_⟩
        have := Symbols.literal (lits := lits) (dists := dists) out out' m (BitVec.ofNat 8 v) (by rw [hb]; exact hc) hm
        rw [hb] at this
        exact this
      · subst h2
        injection h with h
        injection h with h3 h4
        subst h3 h4
        exact ⟨code lits 256, rfl, Symbols.stop out hc⟩
      · split at h
        · cases h
        · rename_i out1 l2 hm
          obtain ⟨m, rfl, hsym⟩ := readSymbols_sound hl hd fuel _ _ _ _ h
          obtain ⟨i, rfl⟩ : ∃ i, v = 257 + i := ⟨v - 257, by omega⟩
          unfold readMatch at hm
          split at hm
          · cases hm
          · rename_i len l3 hlen
            split at hm
            · cases hm
            · rename_i dist l4 hdist
              split_ifs at hm with hback
              injection hm with hm
              injection hm with h5 h6
              subst h6
              obtain ⟨lb, ln, x, a1, a2, rfl, rfl⟩ := (readLength_iff _ _ _ _).mp hlen
              obtain ⟨d, db, dn, y, b1, b2, b3, rfl, rfl⟩ := (readDist_iff hd _ _ _).mp hdist
              have hpos := distTable_pos b2
              refine ⟨code lits (257 + i) ++ lsb ln x ++ code dists d ++ lsb dn y ++ m, by simp only [List.append_assoc], ?_⟩
              exact Symbols.copy out out1 out' m i lb ln x d db dn y hc a1 a2 b1 b2 b3 (by omega)
                ((copyBack_iff _ (by omega) _ _ _ (by omega)).mpr h5.symm) hsym

theorem readSymbols_complete {lits dists : List Nat} (hl : Fits lits) (hd : Fits dists) {out out' : List Byte} {m : List Bool}
    (h : Symbols lits dists out m out') : ∀ (fuel : Nat) (r : List Bool), m.length < fuel →
    readSymbols (table lits) (table dists) fuel out (m ++ r) = some (out', r) := by
  induction h with
  | stop out hc =>
    intro fuel r hf
    obtain ⟨f, rfl⟩ : ∃ f, fuel = f + 1 := ⟨fuel - 1, by omega⟩
    rw [readSymbols, (symbol_iff hl 256 _ r).mpr ⟨hc, rfl⟩]
    dsimp only
    rw [if_neg (by omega), if_pos rfl]
  | literal out out' l b hc hr ih =>
    intro fuel r hf
    obtain ⟨f, rfl⟩ : ∃ f, fuel = f + 1 := ⟨fuel - 1, by omega⟩
    have hpos := code_ne_nil hc
    rw [List.length_append] at hf
    rw [readSymbols, List.append_assoc, (symbol_iff hl b.toNat _ (l ++ r)).mpr ⟨hc, rfl⟩]
    dsimp only
    rw [if_pos b.isLt, BitVec.ofNat_toNat, BitVec.setWidth_eq, ih f r (by omega)]
  | copy out out1 out' l i lb ln x d db dn y hc hi hx hcd hdt hy hback hrep hr ih =>
    intro fuel r hf
    obtain ⟨f, rfl⟩ : ∃ f, fuel = f + 1 := ⟨fuel - 1, by omega⟩
    have hpos := code_ne_nil hc
    simp only [List.length_append] at hf
    have hdp := distTable_pos hdt
    simp only [List.append_assoc]
    rw [readSymbols, (symbol_iff hl (257 + i) _ _).mpr ⟨hc, rfl⟩]
    dsimp only
    rw [if_neg (by omega), if_neg (by omega)]
    unfold readMatch
    rw [(readLength_iff i (lb + x) _ _).mpr ⟨lb, ln, x, hi, hx, rfl, rfl⟩]
    dsimp only
    rw [(readDist_iff hd (db + y) _ _).mpr ⟨d, db, dn, y, hcd, hdt, hy, rfl, rfl⟩]
    dsimp only
    rw [if_neg (by omega)]
    dsimp only
    rw [← (copyBack_iff _ (by omega) _ _ _ hback).mp hrep, ih f r (by omega)]

/-! ## Lengths -/

theorem lengths_le {cl so lens : List Nat} {m : List Bool} (h : Lengths cl so m lens) : so.length ≤ lens.length := by
  induction h with
  | stop so => exact le_refl _
  | one so lens l n h hc hr ih => rw [List.length_append] at ih; omega
  | again so lens l n x hx hc hr ih => simp only [List.length_append] at ih ⊢; omega
  | zeros so lens l x hx hc hr ih => simp only [List.length_append] at ih; omega
  | zerosMore so lens l x hx hc hr ih => simp only [List.length_append] at ih; omega

theorem lengths_small {cl so lens : List Nat} {m : List Bool} (h : Lengths cl so m lens) : (∀ n ∈ so, n ≤ 15) → ∀ n ∈ lens, n ≤ 15 := by
  induction h with
  | stop so => exact id
  | one so lens l n h hc hr ih =>
    intro hs
    apply ih
    intro k hk
    rcases List.mem_append.mp hk with hk | hk
    · exact hs k hk
    · rw [List.mem_singleton] at hk; omega
  | again so lens l n x hx hc hr ih =>
    intro hs
    apply ih
    intro k hk
    rcases List.mem_append.mp hk with hk | hk
    · exact hs k hk
    · rw [List.eq_of_mem_replicate hk]; exact hs n (by simp)
  | zeros so lens l x hx hc hr ih =>
    intro hs
    apply ih
    intro k hk
    rcases List.mem_append.mp hk with hk | hk
    · exact hs k hk
    · rw [List.eq_of_mem_replicate hk]; omega
  | zerosMore so lens l x hx hc hr ih =>
    intro hs
    apply ih
    intro k hk
    rcases List.mem_append.mp hk with hk | hk
    · exact hs k hk
    · rw [List.eq_of_mem_replicate hk]; omega

theorem readLengths_sound {cl : List Nat} (hf : Fits cl) (h19 : cl.length = 19) (n : Nat) : ∀ (fuel : Nat) (so lens : List Nat) (l r : List Bool),
    readLengths (table cl) n fuel so l = some (lens, r) → so.length ≤ n → ∃ m, l = m ++ r ∧ Lengths cl so m lens ∧ lens.length = n
  | 0, _, _, _, _, h, _ => by cases h
  | fuel + 1, so, lens, l, r, h, hn => by
    rw [readLengths] at h
    split_ifs at h with h1
    · injection h with h
      injection h with h2 h3
      subst h2 h3
      exact ⟨[], rfl, Lengths.stop so, by omega⟩
    · split at h
      · cases h
      · rename_i x l1 hx
        obtain ⟨hc, rfl⟩ := (symbol_iff hf _ _ _).mp hx
        have hx19 := coded_lt hc
        split at h
        · cases h
        · rename_i v base nb hrep
          split at h
          · cases h
          · rename_i e l2 he
            obtain ⟨he1, rfl⟩ := (take_iff _ _ _ _).mp he
            split_ifs at h with h2
            obtain ⟨m, rfl, hm, hlen⟩ := readLengths_sound hf h19 n fuel _ _ _ _ h (by rw [List.length_append, List.length_replicate]; omega)
            refine ⟨code cl x ++ lsb nb e ++ m, by simp only [List.append_assoc], ?_, hlen⟩
            unfold repeats at hrep
            split_ifs at hrep with c1 c2 c3
            · injection hrep with hrep
              injection hrep with r1 hrep
              injection hrep with r2 r3
              subst r1 r2 r3
              have : e = 0 := by omega
              subst this
              have := Lengths.one (cl := cl) so lens m x (by omega) hc hm
              simpa [lsb] using this
            · subst c2
              cases hlast : so.getLast? with
              | none => rw [hlast] at hrep; cases hrep
              | some p =>
                rw [hlast] at hrep
                injection hrep with hrep
                injection hrep with r1 hrep
                injection hrep with r2 r3
                subst r1 r2 r3
                obtain ⟨so', rfl⟩ := List.getLast?_eq_some_iff.mp hlast
                exact Lengths.again so' lens m p e he1 hc hm
            · subst c3
              injection hrep with hrep
              injection hrep with r1 hrep
              injection hrep with r2 r3
              subst r1 r2 r3
              exact Lengths.zeros so lens m e he1 hc hm
            · have : x = 18 := by omega
              subst this
              injection hrep with hrep
              injection hrep with r1 hrep
              injection hrep with r2 r3
              subst r1 r2 r3
              exact Lengths.zerosMore so lens m e he1 hc hm

theorem readLengths_step {cl : List Nat} (hf : Fits cl) {n fuel : Nat} {so : List Nat} {x v base nb e : Nat} {l : List Bool} (hc : Coded cl x)
    (hrep : repeats x so = some (v, base, nb)) (he : e < 2 ^ nb) (hlen : so.length + (base + e) ≤ n) (hb : 0 < base) :
    readLengths (table cl) n (fuel + 1) so (code cl x ++ (lsb nb e ++ l)) = readLengths (table cl) n fuel (so ++ List.replicate (base + e) v) l := by
  rw [readLengths, if_neg (by omega), (symbol_iff hf x _ _).mpr ⟨hc, rfl⟩]
  dsimp only
  rw [hrep]
  dsimp only
  rw [(take_iff nb e _ l).mpr ⟨he, rfl⟩]
  dsimp only
  rw [if_neg (by omega)]

theorem readLengths_complete {cl : List Nat} (hf : Fits cl) (n : Nat) {so lens : List Nat} {m : List Bool} (h : Lengths cl so m lens) :
    lens.length = n → ∀ (fuel : Nat) (r : List Bool), n - so.length < fuel → readLengths (table cl) n fuel so (m ++ r) = some (lens, r) := by
  induction h with
  | stop so =>
    intro hn fuel r hfu
    obtain ⟨f, rfl⟩ : ∃ f, fuel = f + 1 := ⟨fuel - 1, by omega⟩
    rw [readLengths, if_pos (by omega)]
    rfl
  | one so lens l k hk hc hr ih =>
    intro hn fuel r hfu
    obtain ⟨f, rfl⟩ : ∃ f, fuel = f + 1 := ⟨fuel - 1, by omega⟩
    have hle := lengths_le hr
    rw [List.length_append, List.length_singleton] at hle
    have := readLengths_step (n := n) (fuel := f) (so := so) (v := k) (base := 1) (nb := 0) (e := 0) (l := l ++ r) hf hc
      (by unfold repeats; rw [if_pos (by omega)]) (by decide) (by omega) (by decide)
    rw [show lsb 0 0 = [] from rfl, List.nil_append] at this
    rw [List.append_assoc, this]
    exact ih hn f r (by rw [List.length_append, List.length_singleton]; omega)
  | again so lens l k x hx hc hr ih =>
    intro hn fuel r hfu
    obtain ⟨f, rfl⟩ : ∃ f, fuel = f + 1 := ⟨fuel - 1, by omega⟩
    have hle := lengths_le hr
    simp only [List.length_append, List.length_singleton, List.length_replicate] at hle hfu
    have := readLengths_step (n := n) (fuel := f) (so := so ++ [k]) (v := k) (base := 3) (nb := 2) (e := x) (l := l ++ r) hf hc
      (by unfold repeats; rw [if_neg (by omega), if_pos rfl, List.getLast?_append]; rfl) hx
      (by simp only [List.length_append, List.length_singleton]; omega) (by decide)
    simp only [List.append_assoc] at this ih ⊢
    rw [this]
    exact ih hn f r (by simp only [List.length_append, List.length_singleton, List.length_replicate]; omega)
  | zeros so lens l x hx hc hr ih =>
    intro hn fuel r hfu
    obtain ⟨f, rfl⟩ : ∃ f, fuel = f + 1 := ⟨fuel - 1, by omega⟩
    have hle := lengths_le hr
    simp only [List.length_append, List.length_replicate] at hle hfu
    have := readLengths_step (n := n) (fuel := f) (so := so) (v := 0) (base := 3) (nb := 3) (e := x) (l := l ++ r) hf hc
      (by unfold repeats; rw [if_neg (by omega), if_neg (by omega), if_pos rfl]) hx (by omega) (by decide)
    simp only [List.append_assoc] at this ih ⊢
    rw [this]
    exact ih hn f r (by simp only [List.length_append, List.length_replicate]; omega)
  | zerosMore so lens l x hx hc hr ih =>
    intro hn fuel r hfu
    obtain ⟨f, rfl⟩ : ∃ f, fuel = f + 1 := ⟨fuel - 1, by omega⟩
    have hle := lengths_le hr
    simp only [List.length_append, List.length_replicate] at hle hfu
    have := readLengths_step (n := n) (fuel := f) (so := so) (v := 0) (base := 11) (nb := 7) (e := x) (l := l ++ r) hf hc
      (by unfold repeats; rw [if_neg (by omega), if_neg (by omega), if_neg (by omega)]) hx (by omega) (by decide)
    simp only [List.append_assoc] at this ih ⊢
    rw [this]
    exact ih hn f r (by simp only [List.length_append, List.length_replicate]; omega)

theorem takeThrees_iff : ∀ (n : Nat) (vs : List Nat) (l r : List Bool),
    takeThrees n l = some (vs, r) ↔ vs.length = n ∧ (∀ v ∈ vs, v < 8) ∧ l = vs.flatMap (lsb 3) ++ r
  | 0, vs, l, r => by
    simp only [takeThrees, Option.some.injEq, Prod.mk.injEq]
    constructor
    · rintro ⟨rfl, rfl⟩; simp
    · rintro ⟨h1, -, h2⟩
      rw [List.length_eq_zero_iff] at h1
      subst h1
      exact ⟨rfl, h2⟩
  | n + 1, vs, l, r => by
    rw [takeThrees]
    constructor
    · intro h
      split at h
      · cases h
      · rename_i v m hm
        split at h
        · cases h
        · rename_i vs' m' hm'
          injection h with h
          injection h with h1 h2
          subst h1 h2
          obtain ⟨a1, a2, a3⟩ := (takeThrees_iff n vs' m m').mp hm'
          obtain ⟨b1, b2⟩ := (take_iff _ _ _ _).mp hm
          refine ⟨by rw [List.length_cons, a1], ?_, by rw [b2, a3, List.flatMap_cons, List.append_assoc]⟩
          intro k hk
          rcases List.mem_cons.mp hk with rfl | hk
          · exact b1
          · exact a2 k hk
    · rintro ⟨h1, h2, rfl⟩
      cases vs with
      | nil => simp at h1
      | cons v vs =>
        rw [(take_iff 3 v _ (vs.flatMap (lsb 3) ++ r)).mpr ⟨h2 v (by simp), by rw [List.flatMap_cons, List.append_assoc]⟩]
        dsimp only
        rw [(takeThrees_iff n vs _ r).mpr ⟨by simpa using h1, fun k hk => h2 k (by simp [hk]), rfl⟩]

theorem arrange_iff (given cl : List Nat) :
    cl = arrange given ↔ cl.length = 19 ∧ ∀ i, i < 19 → cl[order.getD i 0]? = some (given.getD i 0) := by
  have h1 : ∀ i : Fin 19, codeOrder.idxOf (order.getD i 0) = i ∧ order.getD i 0 < 19 := by decide
  have h2 : ∀ s : Fin 19, order.getD (codeOrder.idxOf (s : Nat)) 0 = s ∧ codeOrder.idxOf (s : Nat) < 19 := by decide
  constructor
  · rintro rfl
    refine ⟨by simp [arrange], fun i hi => ?_⟩
    obtain ⟨a, b⟩ := h1 ⟨i, hi⟩
    dsimp only at a b
    unfold arrange
    rw [List.getElem?_map, List.getElem?_range b, Option.map_some, a]
  · rintro ⟨hl, h⟩
    apply List.ext_getElem?
    intro s
    by_cases hs : s < 19
    · obtain ⟨a, b⟩ := h2 ⟨s, hs⟩
      dsimp only at a b
      have := h _ b
      rw [a] at this
      rw [this]
      unfold arrange
      rw [List.getElem?_map, List.getElem?_range hs, Option.map_some]
    · rw [List.getElem?_eq_none (by omega), List.getElem?_eq_none (by simp [arrange]; omega)]

theorem arrange_small {given : List Nat} (h : ∀ n ∈ given, n < 8) : ∀ n ∈ arrange given, n ≤ 15 := by
  intro n hn
  unfold arrange at hn
  obtain ⟨s, -, rfl⟩ := List.mem_map.mp hn
  rw [List.getD_eq_getElem?_getD]
  cases hg : given[codeOrder.idxOf s]? with
  | none => simp
  | some k => have := h k (List.mem_of_getElem? hg); simp only [Option.getD_some]; omega

theorem readHeader_sound {lits dists : List Nat} {l r : List Bool} (h : readHeader l = some ((lits, dists), r)) :
    ∃ m, l = m ++ r ∧ Codes m lits dists ∧ Fits lits ∧ Fits dists := by
  unfold readHeader at h
  split at h
  · cases h
  rename_i hlit l1 h1
  split_ifs at h with c1
  split at h
  · cases h
  rename_i hdist l2 h2
  split_ifs at h with c2
  split at h
  · cases h
  rename_i hclen l3 h3
  split at h
  · cases h
  rename_i given l4 h4
  split_ifs at h with c3
  split at h
  · cases h
  rename_i lens l5 h5
  split_ifs at h with c4
  injection h with h
  injection h with h6 h7
  injection h6 with h8 h9
  subst h7
  obtain ⟨a1, rfl⟩ := (take_iff _ _ _ _).mp h1
  obtain ⟨a2, rfl⟩ := (take_iff _ _ _ _).mp h2
  obtain ⟨a3, rfl⟩ := (take_iff _ _ _ _).mp h3
  obtain ⟨a4, a5, rfl⟩ := (takeThrees_iff _ _ _ _).mp h4
  have hsm := arrange_small a5
  have hcl : CodeOk (arrange given) := (complete_iff _ hsm).mp (by simpa using c3)
  have hfit := codeOk_fits hsm hcl
  obtain ⟨b1, b2⟩ := (arrange_iff given _).mp rfl
  obtain ⟨m, rfl, hm, hlen⟩ := readLengths_sound hfit b1 _ _ _ _ _ _ h5 (by simp)
  have h15 := lengths_small hm (by simp)
  rw [Bool.and_eq_true] at c4
  rw [h8, h9] at c4
  have hl15 : ∀ n ∈ lits, n ≤ 15 := fun n hn => h15 n (List.mem_of_mem_take (by rw [h8]; exact hn))
  have hd15 : ∀ n ∈ dists, n ≤ 15 := fun n hn => h15 n (List.mem_of_mem_drop (by rw [h9]; exact hn))
  have hlok := (complete_iff _ hl15).mp c4.1
  have hdok := (complete_iff _ hd15).mp c4.2
  have hll : lits.length = hlit + 257 := by rw [← h8, List.length_take]; omega
  have hdl : dists.length = hdist + 1 := by rw [← h9, List.length_drop]; omega
  have hcat : lits ++ dists = lens := by rw [← h8, ← h9, List.take_append_drop]
  refine ⟨_, ?_, Codes.intro given (arrange given) lits dists m (by omega) a5 b1 b2 hcl (by omega) (by omega) (by rw [hcat]; exact hm) hlok hdok,
    codeOk_fits hl15 hlok, codeOk_fits hd15 hdok⟩
  rw [hll, hdl, a4]
  simp only [Nat.add_sub_cancel, List.append_assoc]

theorem readHeader_complete {lits dists : List Nat} {m : List Bool} (h : Codes m lits dists) (r : List Bool) :
    readHeader (m ++ r) = some ((lits, dists), r) ∧ Fits lits ∧ Fits dists := by
  obtain ⟨given, cl, _, _, l, hg, hg7, hcl, hcl', hok, hl, hd, hs, hlok, hdok⟩ := h
  obtain rfl := (arrange_iff given cl).mpr ⟨hcl, hcl'⟩
  have hsm := arrange_small hg7
  have hfit := codeOk_fits hsm hok
  have h15 := lengths_small hs (by simp)
  have hl15 : ∀ n ∈ lits, n ≤ 15 := fun n hn => h15 n (by simp [hn])
  have hd15 : ∀ n ∈ dists, n ≤ 15 := fun n hn => h15 n (by simp [hn])
  refine ⟨?_, codeOk_fits hl15 hlok, codeOk_fits hd15 hdok⟩
  have e1 : lits.length - 257 + 257 = lits.length := by omega
  have e2 : dists.length - 1 + 1 = dists.length := by omega
  have e3 : given.length - 4 + 4 = given.length := by omega
  unfold readHeader
  simp only [List.append_assoc]
  rw [(take_iff 5 (lits.length - 257) _ _).mpr ⟨by omega, rfl⟩]
  dsimp only
  rw [if_neg (by omega), (take_iff 5 (dists.length - 1) _ _).mpr ⟨by omega, rfl⟩]
  dsimp only
  rw [if_neg (by omega), (take_iff 4 (given.length - 4) _ _).mpr ⟨by omega, rfl⟩]
  dsimp only
  rw [e3, (takeThrees_iff given.length given _ _).mpr ⟨rfl, hg7, rfl⟩]
  dsimp only
  rw [if_neg (by rw [(complete_iff _ hsm).mpr hok]; simp), e1, e2,
    readLengths_complete hfit (lits.length + dists.length) hs (by rw [List.length_append]) _ r (by simp)]
  dsimp only
  rw [List.take_left' rfl, List.drop_left' rfl, (complete_iff _ hl15).mpr hlok, (complete_iff _ hd15).mpr hdok]
  rfl

/-! ## Blocks -/

theorem fixedLits_eq : fixedLits = (List.range 288).map fixedLit := by decide +kernel

theorem fits_lits : Fits ((List.range 288).map fixedLit) := by
  constructor
  · decide +kernel
  · decide +kernel

theorem fits_dists : Fits (List.replicate 32 5) := by
  constructor
  · intro n hn; rw [List.eq_of_mem_replicate hn]; omega
  · decide +kernel

theorem readBlock_sound {pos type : Nat} {out out' : List Byte} {l r : List Bool} (h : readBlock type out l = some (out', r))
    (hpos : (pos + l.length) % 8 = 0) : ∃ m, l = m ++ r ∧ Block pos type out m out' := by
  match type, h with
  | 0, h =>
    change readStored out l = _ at h
    unfold readStored at h
    split at h
    · cases h
    rename_i n l1 h1
    split at h
    · cases h
    rename_i nn l2 h2
    split_ifs at h with c
    split at h
    · cases h
    rename_i bs l3 h3
    injection h with h
    injection h with h4 h5
    subst h4 h5
    obtain ⟨a1, a2⟩ := (take_iff _ _ _ _).mp h1
    obtain ⟨a3, rfl⟩ := (take_iff _ _ _ _).mp h2
    obtain ⟨rfl, rfl⟩ := (takeBytes_iff _ _ _ _).mp h3
    have hnn : nn = 65535 - bs.length := by omega
    subst hnn
    unfold align at a2
    have hk : (l.take (l.length % 8)).length = l.length % 8 := by
      rw [List.length_take]; have := Nat.mod_le l.length 8; omega
    refine ⟨_, ?_, Block.stored out bs (l.take (l.length % 8)) (by omega) (by omega) a1⟩
    conv_lhs => rw [← List.take_append_drop (l.length % 8) l, a2]
    simp only [List.append_assoc]
  | 1, h =>
    change readSymbols (table fixedLits) (table fixedDists) (l.length + 1) out l = _ at h
    rw [fixedLits_eq] at h
    obtain ⟨m, rfl, hm⟩ := readSymbols_sound fits_lits fits_dists _ _ _ _ _ h
    exact ⟨m, rfl, Block.fixed out out' m hm⟩
  | 2, h =>
    change readDynamic out l = _ at h
    unfold readDynamic at h
    split at h
    · cases h
    rename_i lits dists l1 h1
    obtain ⟨c, hcl, hc, hl, hd⟩ := readHeader_sound h1
    subst hcl
    obtain ⟨m, rfl, hm⟩ := readSymbols_sound hl hd _ _ _ _ _ (by assumption)
    exact ⟨c ++ m, by rw [List.append_assoc], Block.own out out' c m lits dists hc hm⟩
  | _ + 3, h => cases h

theorem readBlock_complete {pos type : Nat} {out out' : List Byte} {m : List Bool} (h : Block pos type out m out') (r : List Bool)
    (hpos : (pos + (m ++ r).length) % 8 = 0) : readBlock type out (m ++ r) = some (out', r) := by
  cases h with
  | stored _ data pad hp hpp hd =>
    change readStored out _ = _
    unfold readStored align
    have hk : ((pad ++ lsb 16 data.length ++ lsb 16 (65535 - data.length) ++ bytes data) ++ r).length % 8 = pad.length := by
      generalize ((pad ++ lsb 16 data.length ++ lsb 16 (65535 - data.length) ++ bytes data) ++ r).length = k at *
      omega
    rw [hk]
    simp only [List.append_assoc]
    rw [List.drop_left' rfl, (take_iff 16 data.length _ _).mpr ⟨hd, rfl⟩]
    dsimp only
    rw [(take_iff 16 (65535 - data.length) _ _).mpr ⟨by omega, rfl⟩]
    dsimp only
    rw [if_neg (by simp), (takeBytes_iff data.length data _ _).mpr ⟨rfl, rfl⟩]
  | fixed _ _ l h =>
    change readSymbols (table fixedLits) (table fixedDists) _ out _ = _
    rw [fixedLits_eq]
    exact readSymbols_complete fits_lits fits_dists h _ _ (by rw [List.length_append]; omega)
  | own _ _ c l lits dists hc h =>
    change readDynamic out _ = _
    unfold readDynamic
    obtain ⟨h1, hl, hd⟩ := readHeader_complete hc (l ++ r)
    rw [List.append_assoc, h1]
    dsimp only
    exact readSymbols_complete hl hd h _ _ (by rw [List.length_append]; omega)

theorem inflate_sound : ∀ (fuel pos : Nat) (out out' : List Byte) (l r : List Bool), inflate fuel out l = some (out', r) → (pos + l.length) % 8 = 0 →
    ∃ m, l = m ++ r ∧ Blocks pos out m out'
  | 0, _, _, _, _, _, h, _ => by cases h
  | fuel + 1, pos, out, out', l, r, h, hpos => by
    rw [inflate] at h
    split at h
    · cases h
    rename_i final l1 h1
    split at h
    · cases h
    rename_i type l2 h2
    split at h
    · cases h
    rename_i out1 l3 h3
    obtain ⟨a1, rfl⟩ := (take_iff _ _ _ _).mp h1
    obtain ⟨a2, rfl⟩ := (take_iff _ _ _ _).mp h2
    simp only [List.length_append, lsb_length] at hpos
    obtain ⟨m, rfl, hm⟩ := readBlock_sound (pos := pos + 3) h3 (by omega)
    rw [List.length_append] at hpos
    split_ifs at h with c
    · subst c
      injection h with h
      injection h with h4 h5
      subst h4 h5
      exact ⟨lsb 1 1 ++ lsb 2 type ++ m, by simp only [List.append_assoc], Blocks.last pos type a2 out out1 m hm⟩
    · have : final = 0 := by omega
      subst this
      obtain ⟨m', rfl, hm'⟩ := inflate_sound fuel (pos + 3 + m.length) out1 out' _ _ h (by omega)
      exact ⟨lsb 1 0 ++ lsb 2 type ++ m ++ m', by simp only [List.append_assoc], Blocks.more pos type a2 out out1 out' m m' hm hm'⟩

theorem inflate_complete {pos : Nat} {out out' : List Byte} {m : List Bool} (h : Blocks pos out m out') : ∀ (fuel : Nat) (r : List Bool), m.length < fuel →
    (pos + (m ++ r).length) % 8 = 0 → inflate fuel out (m ++ r) = some (out', r) := by
  induction h with
  | last pos type ht out out' l h =>
    intro fuel r hf hpos
    obtain ⟨f, rfl⟩ : ∃ f, fuel = f + 1 := ⟨fuel - 1, by omega⟩
    simp only [List.append_assoc] at hpos ⊢
    rw [inflate, (take_iff 1 1 _ _).mpr ⟨by omega, rfl⟩]
    dsimp only
    rw [(take_iff 2 type _ _).mpr ⟨ht, rfl⟩]
    dsimp only
    rw [readBlock_complete h r (by simp only [List.length_append, lsb_length] at hpos ⊢; omega)]
    rfl
  | more pos type ht out out1 out' l m h hr ih =>
    intro fuel r hf hpos
    obtain ⟨f, rfl⟩ : ∃ f, fuel = f + 1 := ⟨fuel - 1, by omega⟩
    simp only [List.length_append, lsb_length] at hf
    simp only [List.append_assoc] at hpos ⊢
    rw [inflate, (take_iff 1 0 _ _).mpr ⟨by omega, rfl⟩]
    dsimp only
    rw [(take_iff 2 type _ _).mpr ⟨ht, rfl⟩]
    dsimp only
    rw [readBlock_complete h (m ++ r) (by simp only [List.length_append, lsb_length] at hpos ⊢; omega)]
    dsimp only
    rw [if_neg (by omega)]
    exact ih f r (by omega) (by simp only [List.length_append, lsb_length] at hpos ⊢; omega)

end Verif.Lib.Gzip
