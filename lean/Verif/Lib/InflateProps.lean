import Verif.Lib.InflateBlocks

/-!
# `decompressGZip` reads exactly the files of RFC 1952
-/

namespace Verif.Lib.Gzip

open Rfc

/-! ## Header -/

theorem number_append : ∀ l m : List Bool, number (l ++ m) = number l + 2 ^ l.length * number m
  | [], m => by simp [number]
  | b :: l, m => by
    rw [List.cons_append, number, number_append l m, number, List.length_cons, Nat.pow_succ']
    ring

theorem bits_ext {l m : List Bool} (h : l.length = m.length) (hn : number l = number m) : l = m := by
  rw [← lsb_number l, ← lsb_number m, h, hn]

/-- The two bytes of a number below 65536. -/
def twoBytes (v : Nat) : List Byte := [BitVec.ofNat 8 (v % 256), BitVec.ofNat 8 (v / 256)]

theorem bytes_two {v : Nat} (h : v < 65536) : bytes (twoBytes v) = lsb 16 v := by
  apply bits_ext
  · rw [bytes_length, lsb_length]; rfl
  · unfold twoBytes
    rw [bytes_cons, bytes_cons, number_append, number_append, number_lsb, number_lsb, number_lsb, lsb_length, lsb_length]
    simp only [bytes, List.flatMap_nil, number, BitVec.toNat_ofNat]
    omega

theorem number_two (v : Nat) (h : v < 65536) : number (bytes (twoBytes v)) = v := by
  rw [bytes_two h, number_lsb]
  omega

theorem number_pair (a b : Byte) : number (bytes [a, b]) = a.toNat + 256 * b.toNat := by
  have ha := a.isLt
  have hb := b.isLt
  rw [bytes_cons, bytes_cons, number_append, number_append, number_lsb, number_lsb, lsb_length, lsb_length]
  simp only [bytes, List.flatMap_nil, number]
  omega

theorem pair_eq (a b : Byte) : [a, b] = twoBytes (a.toNat + 256 * b.toNat) := by
  have ha := a.isLt
  have hb := b.isLt
  have h1 : BitVec.ofNat 8 ((a.toNat + 256 * b.toNat) % 256) = a := by
    apply BitVec.eq_of_toNat_eq; rw [BitVec.toNat_ofNat]; omega
  have h2 : BitVec.ofNat 8 ((a.toNat + 256 * b.toNat) / 256) = b := by
    apply BitVec.eq_of_toNat_eq; rw [BitVec.toNat_ofNat]; omega
  unfold twoBytes
  rw [h1, h2]

theorem two_of_length {l : List Byte} (h : l.length = 2) : l = twoBytes (number (bytes l)) ∧ number (bytes l) < 65536 := by
  obtain ⟨a, b, rfl⟩ := List.length_eq_two.mp h
  have ha := a.isLt
  have hb := b.isLt
  rw [number_pair]
  exact ⟨pair_eq a b, by omega⟩

theorem twoBytes_append (data : List Byte) :
    [BitVec.ofNat 8 (data.length % 256), BitVec.ofNat 8 (data.length / 256)] ++ data = twoBytes data.length ++ data := by
  unfold twoBytes; rfl

theorem takeText_iff : ∀ (n : Nat) (bs : List Byte) (l r : List Bool),
    takeText n l = some (bs, r) ↔ (∃ t, bs = t ++ [0] ∧ 0 ∉ t ∧ t.length < n) ∧ l = bytes bs ++ r
  | 0, bs, l, r => by
    constructor
    · intro h; cases h
    · rintro ⟨⟨t, -, -, h⟩, -⟩; omega
  | n + 1, bs, l, r => by
    rw [takeText]
    constructor
    · intro h
      split at h
      · cases h
      rename_i b m hm
      have hb := (takeByte_iff _ _ _).mp hm
      split_ifs at h with h0
      · injection h with h
        injection h with h1 h2
        subst h0 h1 h2
        exact ⟨⟨[], rfl, by simp, by simp⟩, by rw [hb]; rfl⟩
      · split at h
        · cases h
        rename_i bs' m' hm'
        injection h with h
        injection h with h1 h2
        subst h1 h2
        obtain ⟨⟨t, rfl, ht, hn⟩, rfl⟩ := (takeText_iff n _ _ _).mp hm'
        refine ⟨⟨b :: t, rfl, ?_, by simpa using hn⟩, by rw [hb, bytes_cons, List.append_assoc]⟩
        rw [List.mem_cons, not_or]
        exact ⟨fun h => h0 h.symm, ht⟩
    · rintro ⟨⟨t, rfl, ht, hn⟩, rfl⟩
      cases t with
      | nil =>
        rw [(takeByte_iff 0 (bytes ([] ++ [0]) ++ r) r).mpr (by rw [List.nil_append, bytes_cons, List.append_assoc]; rfl)]
        rfl
      | cons b t =>
        rw [List.mem_cons, not_or] at ht
        rw [(takeByte_iff b _ (bytes (t ++ [0]) ++ r)).mpr (by rw [List.cons_append, bytes_cons, List.append_assoc])]
        dsimp only
        rw [if_neg (fun h => ht.1 h.symm), (takeText_iff n (t ++ [0]) _ r).mpr ⟨⟨t, rfl, ht.2, by simpa using hn⟩, rfl⟩]
        rfl

theorem takeTextIf_iff (c : Bool) (bs : List Byte) (l r : List Bool) :
    takeTextIf c l = some (bs, r) ↔ (if c then Text bs else bs = []) ∧ l = bytes bs ++ r := by
  unfold takeTextIf
  cases c with
  | false =>
    simp only [Bool.false_eq_true, if_false, Option.some.injEq, Prod.mk.injEq]
    constructor
    · rintro ⟨rfl, rfl⟩; exact ⟨rfl, rfl⟩
    · rintro ⟨rfl, rfl⟩; exact ⟨rfl, rfl⟩
  | true =>
    simp only [if_true]
    rw [takeText_iff]
    unfold Text
    constructor
    · rintro ⟨⟨t, h1, h2, h3⟩, h4⟩; exact ⟨⟨t, h1, h2, by omega⟩, h4⟩
    · rintro ⟨⟨t, h1, h2, h3⟩, h4⟩; exact ⟨⟨t, h1, h2, by omega⟩, h4⟩

theorem takeExtra_iff (flags : Byte) (bs : List Byte) (l r : List Bool) :
    takeExtra flags l = some (bs, r) ↔
      (if flags.getLsbD 2 then ∃ data : List Byte, data.length < 65536 ∧ bs = [BitVec.ofNat 8 (data.length % 256), BitVec.ofNat 8 (data.length / 256)] ++ data
        else bs = []) ∧ l = bytes bs ++ r := by
  unfold takeExtra
  split_ifs with hf
  · constructor
    · intro h
      split at h
      · cases h
      rename_i size l1 h1
      split at h
      · cases h
      rename_i data l2 h2
      injection h with h
      injection h with h3 h4
      subst h3 h4
      obtain ⟨a1, rfl⟩ := (takeBytes_iff _ _ _ _).mp h1
      obtain ⟨a2, rfl⟩ := (takeBytes_iff _ _ _ _).mp h2
      rw [bitsOf_eq] at a2
      obtain ⟨b1, b2⟩ := two_of_length a1
      rw [← a2] at b1 b2
      exact ⟨⟨data, b2, by rw [twoBytes_append, ← b1]⟩, by rw [bytes_append, List.append_assoc]⟩
    · rintro ⟨⟨data, hd, rfl⟩, rfl⟩
      rw [twoBytes_append]
      rw [bytes_append, List.append_assoc, (takeBytes_iff 2 (twoBytes data.length) _ _).mpr ⟨rfl, rfl⟩]
      dsimp only
      rw [bitsOf_eq, number_two _ hd, (takeBytes_iff _ data _ r).mpr ⟨rfl, rfl⟩]
  · simp only [Option.some.injEq, Prod.mk.injEq]
    constructor
    · rintro ⟨rfl, rfl⟩; exact ⟨rfl, rfl⟩
    · rintro ⟨rfl, rfl⟩; exact ⟨rfl, rfl⟩

theorem takeHeaderCrc_iff (flags : Byte) (header : List Byte) (l r : List Bool) :
    takeHeaderCrc flags header l = some r ↔
      ∃ check : List Byte, (if flags.getLsbD 1 then bytes check = lsb 16 ((crc32 header).toNat % 65536) else check = []) ∧ l = bytes check ++ r := by
  unfold takeHeaderCrc
  split_ifs with hf
  · constructor
    · intro h
      split at h
      · cases h
      rename_i v l1 h1
      split_ifs at h with c
      injection h with h
      subst h
      obtain ⟨a1, rfl⟩ := (take_iff _ _ _ _).mp h1
      exact ⟨twoBytes v, by rw [bytes_two a1, c], by rw [bytes_two a1]⟩
    · rintro ⟨check, h, rfl⟩
      rw [h, (take_iff 16 _ _ r).mpr ⟨by omega, rfl⟩]
      dsimp only
      rw [if_pos rfl]
  · constructor
    · intro h
      injection h with h
      subst h
      exact ⟨[], rfl, rfl⟩
    · rintro ⟨check, rfl, rfl⟩
      rfl

theorem headerFlags_iff {h : List Byte} (hl : h.length = 10) (flags : Byte) :
    headerFlags h = some flags ↔ ∃ six : List Byte, six.length = 6 ∧ h = [0x1f, 0x8b, 8, flags] ++ six := by
  constructor
  · intro hh
    unfold headerFlags at hh
    split at hh
    · rename_i f six
      injection hh with hh
      subst hh
      exact ⟨six, by simpa using hl, rfl⟩
    · cases hh
  · rintro ⟨six, -, rfl⟩
    rfl

theorem takeHeader_iff (l r : List Bool) :
    takeHeader l = some r ↔ ∃ (flags : Byte) (six extra name comment check : List Byte), Header flags six extra name comment check ∧
      l = bytes ([0x1f, 0x8b, 8, flags] ++ six ++ extra ++ name ++ comment ++ check) ++ r := by
  unfold takeHeader
  constructor
  · intro h
    split at h
    · cases h
    rename_i hd l1 h1
    split at h
    · cases h
    rename_i flags h2
    split at h
    · cases h
    rename_i extra l2 h3
    split at h
    · cases h
    rename_i name l3 h4
    split at h
    · cases h
    rename_i comment l4 h5
    obtain ⟨a1, rfl⟩ := (takeBytes_iff _ _ _ _).mp h1
    obtain ⟨six, a2, rfl⟩ := (headerFlags_iff a1 _).mp h2
    obtain ⟨a3, rfl⟩ := (takeExtra_iff _ _ _ _).mp h3
    obtain ⟨a4, rfl⟩ := (takeTextIf_iff _ _ _ _).mp h4
    obtain ⟨a5, rfl⟩ := (takeTextIf_iff _ _ _ _).mp h5
    obtain ⟨check, a6, rfl⟩ := (takeHeaderCrc_iff _ _ _ _).mp h
    refine ⟨flags, six, extra, name, comment, check, ⟨a2, a3, a4, a5, a6⟩, ?_⟩
    simp only [bytes_append, List.append_assoc]
  · rintro ⟨flags, six, extra, name, comment, check, ⟨a2, a3, a4, a5, a6⟩, rfl⟩
    rw [(takeBytes_iff 10 ([0x1f, 0x8b, 8, flags] ++ six) _ (bytes extra ++ (bytes name ++ (bytes comment ++ (bytes check ++ r))))).mpr
      ⟨by rw [List.length_append, a2]; rfl, by simp only [bytes_append, List.append_assoc]⟩]
    dsimp only
    rw [(headerFlags_iff (by rw [List.length_append, a2]; rfl) flags).mpr ⟨six, a2, rfl⟩]
    dsimp only
    rw [(takeExtra_iff flags extra _ _).mpr ⟨a3, rfl⟩]
    dsimp only
    rw [(takeTextIf_iff _ name _ _).mpr ⟨a4, rfl⟩]
    dsimp only
    rw [(takeTextIf_iff _ comment _ _).mpr ⟨a5, rfl⟩]
    dsimp only
    rw [(takeHeaderCrc_iff flags _ _ r).mpr ⟨check, a6, rfl⟩]

/-! ## Members -/

theorem takeMember_iff {l : List Bool} (h8 : l.length % 8 = 0) (out : List Byte) (r : List Bool) :
    takeMember l = some (out, r) ↔ ∃ m, l = m ++ r ∧ Member m out := by
  unfold takeMember
  constructor
  · intro h
    split at h
    · cases h
    rename_i l1 h1
    split at h
    · cases h
    rename_i out1 l2 h2
    split at h
    · cases h
    rename_i digest l3 h3
    split at h
    · cases h
    rename_i size l4 h4
    split_ifs at h with c
    injection h with h
    injection h with h5 h6
    subst h5 h6
    obtain ⟨flags, six, extra, name, comment, check, hh, rfl⟩ := (takeHeader_iff _ _).mp h1
    rw [List.length_append, bytes_length] at h8
    have h18 : l1.length % 8 = 0 := by omega
    obtain ⟨m, rfl, hm⟩ := inflate_sound _ 0 _ _ _ _ h2 (by omega)
    obtain ⟨a1, a2⟩ := (take_iff _ _ _ _).mp h3
    obtain ⟨a3, rfl⟩ := (take_iff _ _ _ _).mp h4
    obtain ⟨rfl, rfl⟩ := c
    unfold align at a2
    rw [List.length_append] at h18
    have hk : (l2.take (l2.length % 8)).length = l2.length % 8 := by
      rw [List.length_take]; have := Nat.mod_le l2.length 8; omega
    refine ⟨_, ?_, Member.intro flags six extra name comment check hh m (l2.take (l2.length % 8)) out1 hm (by omega) (by omega)⟩
    conv_lhs => rw [← List.take_append_drop (l2.length % 8) l2, a2]
    simp only [List.append_assoc]
  · rintro ⟨_, rfl, hm⟩
    obtain ⟨flags, six, extra, name, comment, check, hh, m, pad, _, hb, hp, hal⟩ := hm
    simp only [List.append_assoc] at h8 ⊢
    rw [(takeHeader_iff _ (m ++ (pad ++ (lsb 32 (crc32 out).toNat ++ (lsb 32 (out.length % 2 ^ 32) ++ r))))).mpr
      ⟨flags, six, extra, name, comment, check, hh, by simp only [List.append_assoc]⟩]
    dsimp only
    rw [List.length_append, bytes_length] at h8
    rw [inflate_complete hb _ _ (by rw [List.length_append]; omega) (by omega)]
    dsimp only
    have hk : (pad ++ (lsb 32 (crc32 out).toNat ++ (lsb 32 (out.length % 2 ^ 32) ++ r))).length % 8 = pad.length := by
      have e2 := List.length_append (as := m) (bs := pad ++ (lsb 32 (crc32 out).toNat ++ (lsb 32 (out.length % 2 ^ 32) ++ r)))
      rw [e2] at h8
      generalize (pad ++ (lsb 32 (crc32 out).toNat ++ (lsb 32 (out.length % 2 ^ 32) ++ r))).length = k at *
      omega
    unfold align
    rw [hk, List.drop_left' rfl, (take_iff 32 _ _ _).mpr ⟨(crc32 out).isLt, rfl⟩]
    dsimp only
    rw [(take_iff 32 _ _ r).mpr ⟨Nat.mod_lt _ (by decide), rfl⟩]
    dsimp only
    rw [if_pos ⟨rfl, rfl⟩]

theorem member_length {m : List Bool} {out : List Byte} (h : Member m out) : m.length % 8 = 0 ∧ 8 ≤ m.length := by
  obtain ⟨flags, six, extra, name, comment, check, hh, l, pad, _, hb, hp, hal⟩ := h
  simp only [List.length_append, lsb_length, bytes_length]
  omega

theorem file_length {m : List Bool} {out : List Byte} (h : File m out) : m.length % 8 = 0 ∧ 8 ≤ m.length := by
  induction h with
  | one l out h => exact member_length h
  | more l m out out' h hr ih =>
    have := member_length h
    rw [List.length_append]
    omega

theorem takeMembers_iff : ∀ (fuel : Nat) (l : List Bool), l.length % 8 = 0 → l.length < 8 * fuel → ∀ out, (takeMembers fuel l = some out ↔ File l out)
  | 0, l, h8, hf, out => by omega
  | fuel + 1, l, h8, hf, out => by
    rw [takeMembers]
    constructor
    · intro h
      split at h
      · cases h
      rename_i out1 l1 h1
      obtain ⟨m, rfl, hm⟩ := (takeMember_iff h8 _ _).mp h1
      split_ifs at h with c
      · subst c
        injection h with h
        subst h
        rw [List.append_nil]
        exact File.one m out1 hm
      · split at h
        · cases h
        rename_i rest h2
        injection h with h
        subst h
        have hl := member_length hm
        rw [List.length_append] at h8 hf
        exact File.more m l1 out1 rest hm ((takeMembers_iff fuel l1 (by omega) (by omega) rest).mp h2)
    · intro h
      cases h with
      | one _ _ h =>
        rw [(takeMember_iff h8 out []).mpr ⟨l, by simp, h⟩]
        rfl
      | more l1 m out1 out2 h hr =>
        have hl := member_length h
        have hl2 := file_length hr
        rw [(takeMember_iff h8 out1 m).mpr ⟨l1, rfl, h⟩]
        dsimp only
        rw [List.length_append] at h8 hf
        rw [if_neg (by intro h0; rw [h0] at hl2; simp at hl2), (takeMembers_iff fuel m (by omega) (by omega) out2).mpr hr]

/-! ## A file for any text: stored blocks -/

theorem stored_byte (v : Nat) (h : v < 2) : lsb 1 v ++ lsb 2 0 ++ [false, false, false, false, false] = bytes [BitVec.ofNat 8 v] := by
  rcases (show v = 0 ∨ v = 1 by omega) with rfl | rfl <;> decide

theorem stored_blocks : ∀ (n : Nat) (data : List Byte), data.length ≤ n → ∀ (k : Nat) (out : List Byte),
    ∃ bs : List Byte, Blocks (8 * k) out (bytes bs) (out ++ data)
  | n, data, hn, k, out => by
    by_cases h : data.length < 65536
    · refine ⟨[1] ++ twoBytes data.length ++ twoBytes (65535 - data.length) ++ data, ?_⟩
      have := Blocks.last (8 * k) 0 (by decide) out (out ++ data) _
        (Block.stored out data [false, false, false, false, false] (by decide) (by simp only [List.length_cons, List.length_nil]; omega) h)
      have e := stored_byte 1 (by decide)
      simp only [bytes_append, bytes_two h, bytes_two (show 65535 - data.length < 65536 by omega)]
      rw [show bytes [1] = bytes [BitVec.ofNat 8 1] from rfl, ← e]
      simp only [List.append_assoc] at this ⊢
      exact this
    · match n, hn with
      | 0, hn => omega
      | n + 1, hn =>
        obtain ⟨bs, hbs⟩ := stored_blocks n (data.drop 65535) (by rw [List.length_drop]; omega) (k + 5 + 65535) (out ++ data.take 65535)
        have hl : (data.take 65535).length = 65535 := by rw [List.length_take]; omega
        refine ⟨[0] ++ twoBytes 65535 ++ twoBytes 0 ++ data.take 65535 ++ bs, ?_⟩
        have hb := Block.stored (pos := 8 * k + 3) out (data.take 65535) [false, false, false, false, false] (by decide)
          (by simp only [List.length_cons, List.length_nil]; omega) (by omega)
        rw [hl] at hb
        have e := stored_byte 0 (by decide)
        rw [List.append_assoc, List.take_append_drop] at hbs
        have := Blocks.more (8 * k) 0 (by decide) out _ (out ++ data) _ (bytes bs) hb (by
          simp only [List.length_append, lsb_length, bytes_length, hl, List.length_cons, List.length_nil]
          rw [show 8 * k + 3 + (0 + 1 + 1 + 1 + 1 + 1 + 16 + 16 + 8 * 65535) = 8 * (k + 5 + 65535) from by omega]
          exact hbs)
        simp only [bytes_append, bytes_two (show 65535 < 65536 by omega), bytes_two (show 0 < 65536 by omega)]
        rw [show bytes [0] = bytes [BitVec.ofNat 8 0] from rfl, ← e]
        simp only [List.append_assoc] at this ⊢
        exact this

theorem four_bytes (v : Nat) (h : v < 2 ^ 32) : lsb 32 v = bytes (twoBytes (v % 65536) ++ twoBytes (v / 65536)) := by
  apply bits_ext
  · rw [lsb_length, bytes_length]; rfl
  · rw [bytes_append, bytes_two (by omega), bytes_two (by omega), number_append, number_lsb, number_lsb, number_lsb, lsb_length]
    omega

end Verif.Lib.Gzip

namespace Verif.Lib.Gzip

/-- `decompressGZip` accepts exactly the files of RFC 1952 and gives what they stand for: blocks of any kind, codes and matches chosen in any way, and
members in any number; whatever is damaged or incomplete is refused. -/
theorem C130_decompress (data out : List Byte) : decompressGZip data = some out ↔ Rfc.File (Rfc.bytes data) out := by
  unfold decompressGZip
  rw [bitsOf_eq]
  exact takeMembers_iff _ _ (by rw [bytes_length]; omega) (by rw [bytes_length]; omega) out

/-- A file stands for one text only. -/
theorem C130_unambiguous (data a b : List Byte) (ha : Rfc.File (Rfc.bytes data) a) (hb : Rfc.File (Rfc.bytes data) b) : a = b := by
  have h1 := (C130_decompress data a).mpr ha
  have h2 := (C130_decompress data b).mpr hb
  rw [h1] at h2
  injection h2

/-- Refused is exactly what is no such file. -/
theorem C130_refused (data : List Byte) : decompressGZip data = none ↔ ¬ ∃ out, Rfc.File (Rfc.bytes data) out := by
  constructor
  · rintro h ⟨out, ho⟩
    rw [(C130_decompress data out).mpr ho] at h
    cases h
  · intro h
    cases hd : decompressGZip data with
    | none => rfl
    | some out => exact absurd ⟨out, (C130_decompress data out).mp hd⟩ h

open Rfc in
/-- Every text has a file. -/
theorem C130_any_text (out : List Byte) : ∃ data, decompressGZip data = some out := by
  obtain ⟨bs, hbs⟩ := stored_blocks out.length out (le_refl _) 0 []
  refine ⟨[0x1f, 0x8b, 8, 0] ++ [0, 0, 0, 0, 0, 255] ++ [] ++ [] ++ [] ++ [] ++ bs ++ (twoBytes ((crc32 out).toNat % 65536) ++ twoBytes ((crc32 out).toNat / 65536)) ++
    (twoBytes (out.length % 2 ^ 32 % 65536) ++ twoBytes (out.length % 2 ^ 32 / 65536)), ?_⟩
  rw [C130_decompress]
  apply File.one
  have hh : Header 0 [0, 0, 0, 0, 0, 255] [] [] [] [] := ⟨rfl, by simp, by simp, by simp, by simp⟩
  have := Member.intro 0 [0, 0, 0, 0, 0, 255] [] [] [] [] hh (bytes bs) [] out hbs (by decide) (by rw [bytes_length]; simp)
  rw [four_bytes _ (crc32 out).isLt, four_bytes _ (Nat.mod_lt _ (by decide)), List.append_nil, ← bytes_append, ← bytes_append, ← bytes_append] at this
  exact this

set_option maxRecDepth 10000

/-! Files of a common compressor: fixed codes, with a name; a block with its own codes; a stored block. -/

/-- Fixed codes, a name. -/
def exFixed : List Byte :=
  [31, 139, 8, 8, 5, 0, 0, 0, 2, 255, 97, 98, 99, 46, 116, 120, 116, 0, 203, 72, 205, 201, 201, 87, 200, 64, 39, 1, 227, 81, 61, 141, 23, 0,
    0, 0]

/-- Own codes. -/
def exOwn : List Byte :=
  [31, 139, 8, 0, 0, 0, 0, 0, 2, 3, 5, 193, 1, 1, 0, 0, 0, 130, 160, 173, 216, 255, 15, 1, 108, 139, 41, 67, 144, 216, 196, 8, 10, 203, 148,
    178, 3, 241, 183, 157, 30, 60, 0, 0, 0]

/-- What it stands for. -/
def exOwnText : List Byte :=
  [97, 97, 97, 97, 99, 99, 99, 98, 97, 97, 99, 97, 98, 98, 97, 99, 97, 97, 97, 98, 97, 97, 97, 97, 98, 97, 98, 97, 97, 99, 99, 97, 98, 97, 97,
    99, 97, 97, 98, 97, 97, 97, 97, 98, 98, 97, 97, 97, 99, 98, 97, 99, 97, 98, 98, 97, 98, 98, 97, 99]

/-- Stored. -/
def exStored : List Byte := [31, 139, 8, 0, 0, 0, 0, 0, 2, 3, 1, 6, 0, 249, 255, 115, 116, 111, 114, 101, 100, 11, 249, 67, 86, 6, 0, 0, 0]

theorem exFixed_text : decompressGZip exFixed = some [104, 101, 108, 108, 111, 32, 104, 101, 108, 108, 111, 32, 104, 101, 108, 108, 111, 32, 104, 101, 108, 108, 111] := by
  decide +kernel

theorem exOwn_text : decompressGZip exOwn = some exOwnText := by decide +kernel

theorem exStored_text : decompressGZip exStored = some [115, 116, 111, 114, 101, 100] := by decide +kernel

/- C130 is met by all three, also one after another. -/
example : Rfc.File (Rfc.bytes exFixed) [104, 101, 108, 108, 111, 32, 104, 101, 108, 108, 111, 32, 104, 101, 108, 108, 111, 32, 104, 101, 108, 108, 111] ∧
    Rfc.File (Rfc.bytes exOwn) exOwnText ∧ Rfc.File (Rfc.bytes exStored) [115, 116, 111, 114, 101, 100] ∧
    Rfc.File (Rfc.bytes (exStored ++ exStored)) [115, 116, 111, 114, 101, 100, 115, 116, 111, 114, 101, 100] :=
  ⟨(C130_decompress _ _).mp exFixed_text, (C130_decompress _ _).mp exOwn_text, (C130_decompress _ _).mp exStored_text,
    (C130_decompress _ _).mp (by decide +kernel)⟩

/- What is no file: a changed byte, a byte too many, a byte missing, nothing. -/
example : decompressGZip (exStored.set 15 117) = none ∧ decompressGZip (exStored ++ [0]) = none ∧ decompressGZip exStored.dropLast = none ∧
    decompressGZip [] = none := by decide +kernel

/- The checksum of the digits 1 to 9, the usual vector. -/
example : crc32 [49, 50, 51, 52, 53, 54, 55, 56, 57] = 0xCBF43926 := by decide +kernel

end Verif.Lib.Gzip
