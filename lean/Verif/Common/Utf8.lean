import Verif.Common.Basic

/-!
# UTF-8 texts, after Go's `unicode/utf8` and `strings`

Go strings are byte lists. A `range` loop or a conversion to `[]rune` reads them as UTF-8, every byte that does not belong to a well
formed sequence as U+FFFD (`utf8.RuneError`); a conversion of runes to a string writes them as UTF-8. The functions are the library's,
written out so that the text functions of data/ExpressionTree.go L1986-2587 need no assumption about them.
-/

namespace Verif.Utf8

/-- `utf8.RuneError`. (package utf8 within data/ExpressionTree.go L2280, L2009, L2581) -/
def runeError : Nat := 0xFFFD

/-- A Unicode scalar value (`utf8.ValidRune`). (package utf8 within data/ExpressionTree.go L2280, L2009, L2581) -/
def Valid (r : Nat) : Prop := r < 0xD800 ∨ 0xE000 ≤ r ∧ r < 0x110000

instance (r : Nat) : Decidable (Valid r) := by unfold Valid; infer_instance

/-- A continuation byte. (package utf8 within data/ExpressionTree.go L2280, L2009, L2581) -/
def isCont (b : Byte) : Bool := 0x80 ≤ b.toNat && b.toNat ≤ 0xBF

/-- The bounds of the second byte after a first one (`acceptRanges`). (package utf8 within data/ExpressionTree.go L2280, L2009, L2581) -/
def accept (b0 : Nat) : Nat × Nat :=
  if b0 = 0xE0 then (0xA0, 0xBF)
  else if b0 = 0xED then (0x80, 0x9F)
  else if b0 = 0xF0 then (0x90, 0xBF)
  else if b0 = 0xF4 then (0x80, 0x8F)
  else (0x80, 0xBF)

/-- `utf8.DecodeRuneInString`: the first rune and its width. (package utf8 within data/ExpressionTree.go L2280, L2009, L2581) -/
def decode (s : List Byte) : Nat × Nat :=
  match s with
  | [] => (runeError, 0)
  | b0 :: s =>
    let x0 := b0.toNat
    if x0 < 0x80 then (x0, 1)
    else if x0 < 0xC2 ∨ 0xF4 < x0 then (runeError, 1)
    else match s with
      | [] => (runeError, 1)
      | b1 :: s =>
        let x1 := b1.toNat
        if x1 < (accept x0).1 ∨ (accept x0).2 < x1 then (runeError, 1)
        else if x0 < 0xE0 then ((x0 - 0xC0) * 64 + (x1 - 0x80), 2)
        else match s with
          | [] => (runeError, 1)
          | b2 :: s =>
            if !isCont b2 then (runeError, 1)
            else if x0 < 0xF0 then ((x0 - 0xE0) * 4096 + (x1 - 0x80) * 64 + (b2.toNat - 0x80), 3)
            else match s with
              | [] => (runeError, 1)
              | b3 :: _ =>
                if !isCont b3 then (runeError, 1)
                else ((x0 - 0xF0) * 262144 + (x1 - 0x80) * 4096 + (b2.toNat - 0x80) * 64 + (b3.toNat - 0x80), 4)

/-- A byte of a given value. (package utf8 within data/ExpressionTree.go L2280, L2009, L2581) -/
def byte (n : Nat) : Byte := BitVec.ofNat 8 n

/-- `utf8.AppendRune`: a number that is no scalar value is written as U+FFFD. (package utf8 within data/ExpressionTree.go L2280, L2009, L2581) -/
def encode (r : Nat) : List Byte :=
  if r < 0x80 then [byte r]
  else if r < 0x800 then [byte (0xC0 + r / 64), byte (0x80 + r % 64)]
  else if ¬ Valid r then [byte 0xEF, byte 0xBF, byte 0xBD]
  else if r < 0x10000 then [byte (0xE0 + r / 4096), byte (0x80 + r / 64 % 64), byte (0x80 + r % 64)]
  else [byte (0xF0 + r / 262144), byte (0x80 + r / 4096 % 64), byte (0x80 + r / 64 % 64), byte (0x80 + r % 64)]

/-- The runes of a text as a `range` loop meets them, `n` bytes at most. (package utf8 within data/ExpressionTree.go L2280, L2009, L2581) -/
def runesAux : Nat → List Byte → List Nat
  | 0, _ => []
  | n + 1, s => if s = [] then [] else (decode s).1 :: runesAux n (s.drop (decode s).2)

/-- `[]rune(s)`. (package utf8 within data/ExpressionTree.go L2280, L2009, L2581) -/
def runes (s : List Byte) : List Nat := runesAux s.length s

/-- `string(runes)`. (package utf8 within data/ExpressionTree.go L2280, L2009, L2581) -/
def text (rs : List Nat) : List Byte := rs.flatMap encode

/-- `utf8.DecodeLastRuneInString`: the last rune and its width. The rune starts at the nearest byte before the last one that is not a
continuation, at most three bytes away. (package utf8 within data/ExpressionTree.go L2280, L2009, L2581) -/
def decodeLast (s : List Byte) : Nat × Nat :=
  match s.reverse with
  | [] => (runeError, 0)
  | b :: t =>
    if b.toNat < 0x80 then (b.toNat, 1)
    else match (t.take 3).findIdx? fun c => !isCont c with
      | none => (runeError, 1)
      | some i =>
        let w := i + 2
        let d := decode (s.drop (s.length - w))
        if d.2 = w then d else (runeError, 1)

/-- `strings.TrimLeftFunc`, `n` runes at most. (data/ExpressionTree.go L2555) -/
def trimLeftAux (cut : Nat → Bool) : Nat → List Byte → List Byte
  | 0, s => s
  | n + 1, s => if s ≠ [] ∧ cut (decode s).1 = true then trimLeftAux cut n (s.drop (decode s).2) else s

/-- data/ExpressionTree.go L2555 -/
def trimLeft (cut : Nat → Bool) (s : List Byte) : List Byte := trimLeftAux cut s.length s

/-- `strings.TrimRightFunc`, `n` runes at most. (data/ExpressionTree.go L2568) -/
def trimRightAux (cut : Nat → Bool) : Nat → List Byte → List Byte
  | 0, s => s
  | n + 1, s => if s ≠ [] ∧ cut (decodeLast s).1 = true then trimRightAux cut n (s.take (s.length - (decodeLast s).2)) else s

/-- data/ExpressionTree.go L2568 -/
def trimRight (cut : Nat → Bool) (s : List Byte) : List Byte := trimRightAux cut s.length s

/-- `unicode.IsSpace`. (data/ExpressionTree.go L2542) -/
def isSpace (r : Nat) : Bool :=
  (9 ≤ r && r ≤ 13) || r == 0x20 || r == 0x85 || r == 0xA0 || r == 0x1680 || (0x2000 ≤ r && r ≤ 0x200A) || r == 0x2028 || r == 0x2029 ||
    r == 0x202F || r == 0x205F || r == 0x3000

/-- `strings.TrimSpace`, without its shortcut for ASCII. (data/ExpressionTree.go L2542) -/
def trimSpace (s : List Byte) : List Byte := trimRight isSpace (trimLeft isSpace s)

/-! ## Facts -/

theorem byte_toNat {n : Nat} (h : n < 256) : (byte n).toNat = n := by
  rw [byte, BitVec.toNat_ofNat]
  omega

theorem isCont_byte {n : Nat} (h : n < 64) : isCont (byte (0x80 + n)) = true := by
  rw [isCont, byte_toNat (by omega)]
  simp
  omega

/-- Reading back what was written. -/
theorem decode_encode {r : Nat} (h : Valid r) (rest : List Byte) : decode (encode r ++ rest) = (r, (encode r).length) := by
  have hv := h
  unfold Valid at h
  unfold encode
  by_cases h1 : r < 0x80
  · rw [if_pos h1]
    simp only [List.singleton_append, decode, List.length_singleton]
    rw [byte_toNat (by omega), if_pos h1]
  rw [if_neg h1]
  by_cases h2 : r < 0x800
  · rw [if_pos h2]
    simp only [List.cons_append, List.nil_append, decode, List.length_cons, List.length_nil]
    rw [byte_toNat (n := 0xC0 + r / 64) (by omega), byte_toNat (n := 0x80 + r % 64) (by omega), if_neg (by omega), if_neg (by omega)]
    have ha : accept (0xC0 + r / 64) = (0x80, 0xBF) := by
      unfold accept
      rw [if_neg (by omega), if_neg (by omega), if_neg (by omega), if_neg (by omega)]
    rw [ha, if_neg (by dsimp only; omega), if_pos (by omega)]
    rw [Prod.mk.injEq]
    exact ⟨by omega, rfl⟩
  rw [if_neg h2, if_neg (by simpa using hv)]
  by_cases h3 : r < 0x10000
  · rw [if_pos h3]
    simp only [List.cons_append, List.nil_append, decode, List.length_cons, List.length_nil]
    rw [isCont_byte (Nat.mod_lt _ (by omega))]
    rw [byte_toNat (n := 0xE0 + r / 4096) (by omega), byte_toNat (n := 0x80 + r / 64 % 64) (by omega),
      byte_toNat (n := 0x80 + r % 64) (by omega), if_neg (by omega), if_neg (by omega)]
    have ha : ¬ (0x80 + r / 64 % 64 < (accept (0xE0 + r / 4096)).1 ∨ (accept (0xE0 + r / 4096)).2 < 0x80 + r / 64 % 64) := by
      unfold accept
      split
      · dsimp only; omega
      · rw [if_neg (show ¬ 0xE0 + r / 4096 = 0xF0 by omega), if_neg (show ¬ 0xE0 + r / 4096 = 0xF4 by omega)]
        split <;> dsimp only <;> omega
    rw [if_neg ha, if_neg (by omega), if_neg (by decide), if_pos (by omega)]
    rw [Prod.mk.injEq]
    exact ⟨by omega, rfl⟩
  · rw [if_neg h3]
    simp only [List.cons_append, List.nil_append, decode, List.length_cons, List.length_nil]
    rw [isCont_byte (Nat.mod_lt _ (by omega)), isCont_byte (Nat.mod_lt _ (by omega))]
    rw [byte_toNat (n := 0xF0 + r / 262144) (by omega), byte_toNat (n := 0x80 + r / 4096 % 64) (by omega),
      byte_toNat (n := 0x80 + r / 64 % 64) (by omega), byte_toNat (n := 0x80 + r % 64) (by omega), if_neg (by omega), if_neg (by omega)]
    have ha : ¬ (0x80 + r / 4096 % 64 < (accept (0xF0 + r / 262144)).1 ∨ (accept (0xF0 + r / 262144)).2 < 0x80 + r / 4096 % 64) := by
      unfold accept
      rw [if_neg (show ¬ 0xF0 + r / 262144 = 0xE0 by omega), if_neg (show ¬ 0xF0 + r / 262144 = 0xED by omega)]
      split
      · dsimp only; omega
      · split <;> dsimp only <;> omega
    rw [if_neg ha, if_neg (by omega), if_neg (by decide), if_neg (by omega), if_neg (by decide)]
    rw [Prod.mk.injEq]
    exact ⟨by omega, rfl⟩

theorem encode_length (r : Nat) : 1 ≤ (encode r).length ∧ (encode r).length ≤ 4 := by
  unfold encode
  repeat' split
  all_goals simp

theorem encode_ne_nil (r : Nat) : encode r ≠ [] := by
  have := (encode_length r).1
  intro h
  rw [h] at this
  exact absurd this (by decide)

theorem runesAux_text {rs : List Nat} (h : ∀ r ∈ rs, Valid r) : ∀ n, (text rs).length ≤ n → runesAux n (text rs) = rs := by
  induction rs with
  | nil => intro n _; cases n <;> simp [runesAux, text]
  | cons r rs ih =>
    intro n hn
    have he : text (r :: rs) = encode r ++ text rs := by simp [text]
    have hl := (encode_length r).1
    rw [he, List.length_append] at hn
    obtain ⟨m, rfl⟩ : ∃ m, n = m + 1 := ⟨n - 1, by omega⟩
    rw [runesAux, he, if_neg (by simp [encode_ne_nil]), decode_encode (h r (by simp))]
    dsimp only
    rw [List.drop_left, ih (fun x hx => h x (by simp [hx])) m (by omega)]

/-- The runes of the text of scalar values are these values. -/
theorem runes_text {rs : List Nat} (h : ∀ r ∈ rs, Valid r) : runes (text rs) = rs := runesAux_text h _ (Nat.le_refl _)

/-- Width of a rune that was read. -/
theorem decode_width {s : List Byte} (h : s ≠ []) : 1 ≤ (decode s).2 ∧ (decode s).2 ≤ s.length := by
  unfold decode
  repeat' (first | split | (dsimp only; split))
  all_goals simp_all

theorem notCont_byte {n : Nat} (h : 0xC0 ≤ n) (h' : n < 256) : isCont (byte n) = false := by
  rw [isCont, byte_toNat h']
  simp
  omega

theorem drop_end (pre e : List Byte) : (pre ++ e).drop ((pre ++ e).length - e.length) = e := by
  rw [List.length_append, Nat.add_sub_cancel, List.drop_left]

/-- The last rune read is the last one written. -/
theorem decodeLast_encode {r : Nat} (h : Valid r) (pre : List Byte) :
    decodeLast (pre ++ encode r) = (r, (encode r).length) := by
  have hd := decode_encode h []
  rw [List.append_nil] at hd
  have hdrop := drop_end pre (encode r)
  have hv := h
  unfold Valid at h
  by_cases h1 : r < 0x80
  · have he : encode r = [byte r] := if_pos h1
    rw [he] at hd hdrop ⊢
    unfold decodeLast
    rw [List.reverse_append, List.reverse_singleton, List.singleton_append]
    dsimp only
    rw [byte_toNat (by omega), if_pos h1]
    rfl
  by_cases h2 : r < 0x800
  · have he : encode r = [byte (0xC0 + r / 64), byte (0x80 + r % 64)] := by
      unfold encode
      rw [if_neg h1, if_pos h2]
    rw [he] at hd hdrop ⊢
    unfold decodeLast
    rw [List.reverse_append]
    simp only [List.reverse_cons, List.reverse_nil, List.nil_append, List.cons_append]
    rw [byte_toNat (by omega), if_neg (by omega)]
    simp only [List.take_succ_cons, List.findIdx?_cons, notCont_byte (n := 0xC0 + r / 64) (by omega) (by omega), Bool.not_false, if_true]
    rw [show (0 + 2) = [byte (0xC0 + r / 64), byte (0x80 + r % 64)].length from rfl, hdrop, hd, if_pos rfl]
  by_cases h3 : r < 0x10000
  · have he : encode r = [byte (0xE0 + r / 4096), byte (0x80 + r / 64 % 64), byte (0x80 + r % 64)] := by
      unfold encode
      rw [if_neg h1, if_neg h2, if_neg (by simpa using hv), if_pos h3]
    rw [he] at hd hdrop ⊢
    unfold decodeLast
    rw [List.reverse_append]
    simp only [List.reverse_cons, List.reverse_nil, List.nil_append, List.cons_append]
    rw [byte_toNat (by omega), if_neg (by omega)]
    simp only [List.take_succ_cons, List.findIdx?_cons, notCont_byte (n := 0xE0 + r / 4096) (by omega) (by omega),
      isCont_byte (n := r / 64 % 64) (by omega), Bool.not_false, Bool.not_true, if_true, Bool.false_eq_true, if_false, Option.map_some]
    rw [show (0 + 1 + 2) = [byte (0xE0 + r / 4096), byte (0x80 + r / 64 % 64), byte (0x80 + r % 64)].length from rfl, hdrop, hd, if_pos rfl]
  · have he : encode r = [byte (0xF0 + r / 262144), byte (0x80 + r / 4096 % 64), byte (0x80 + r / 64 % 64), byte (0x80 + r % 64)] := by
      unfold encode
      rw [if_neg h1, if_neg h2, if_neg (by simpa using hv), if_neg h3]
    rw [he] at hd hdrop ⊢
    unfold decodeLast
    rw [List.reverse_append]
    simp only [List.reverse_cons, List.reverse_nil, List.nil_append, List.cons_append]
    rw [byte_toNat (by omega), if_neg (by omega)]
    simp only [List.take_succ_cons, List.findIdx?_cons, notCont_byte (n := 0xF0 + r / 262144) (by omega) (by omega),
      isCont_byte (n := r / 64 % 64) (by omega), isCont_byte (n := r / 4096 % 64) (by omega), Bool.not_false, Bool.not_true, if_true,
      Bool.false_eq_true, if_false, Option.map_some]
    rw [show (0 + 1 + 1 + 2) = [byte (0xF0 + r / 262144), byte (0x80 + r / 4096 % 64), byte (0x80 + r / 64 % 64),
      byte (0x80 + r % 64)].length from rfl, hdrop, hd, if_pos rfl]

theorem text_cons (r : Nat) (rs : List Nat) : text (r :: rs) = encode r ++ text rs := by simp [text]

theorem text_append (a b : List Nat) : text (a ++ b) = text a ++ text b := by simp [text]

theorem text_length (rs : List Nat) : rs.length ≤ (text rs).length := by
  induction rs with
  | nil => simp
  | cons r rs ih =>
    have := (encode_length r).1
    rw [text_cons, List.length_append, List.length_cons]
    omega

/-- Trimming on the left removes the runes to be cut up to the first that is not. -/
theorem trimLeft_text (cut : Nat → Bool) {rs : List Nat} (h : ∀ r ∈ rs, Valid r) : trimLeft cut (text rs) = text (rs.dropWhile cut) := by
  have aux : ∀ (rs : List Nat), (∀ r ∈ rs, Valid r) → ∀ n, (text rs).length ≤ n → trimLeftAux cut n (text rs) = text (rs.dropWhile cut) := by
    intro rs
    induction rs with
    | nil => intro _ n _; cases n <;> simp [trimLeftAux, text]
    | cons r rs ih =>
      intro h n hn
      have hl := (encode_length r).1
      rw [text_cons, List.length_append] at hn
      obtain ⟨m, rfl⟩ : ∃ m, n = m + 1 := ⟨n - 1, by omega⟩
      rw [trimLeftAux, text_cons, decode_encode (h r (by simp))]
      dsimp only
      by_cases hc : cut r = true
      · rw [if_pos ⟨by simp [encode_ne_nil], hc⟩, List.drop_left, ih (fun x hx => h x (by simp [hx])) m (by omega),
          List.dropWhile_cons_of_pos hc]
      · rw [if_neg (fun hh => hc hh.2), List.dropWhile_cons_of_neg hc, text_cons]
  exact aux rs h _ (Nat.le_refl _)

/-- Trimming on the right removes the runes to be cut from the last backwards up to the first that is not. -/
theorem trimRight_text (cut : Nat → Bool) {rs : List Nat} (h : ∀ r ∈ rs, Valid r) :
    trimRight cut (text rs) = text (rs.reverse.dropWhile cut).reverse := by
  have aux : ∀ (rs : List Nat), (∀ r ∈ rs, Valid r) → ∀ n, (text rs.reverse).length ≤ n →
      trimRightAux cut n (text rs.reverse) = text (rs.dropWhile cut).reverse := by
    intro rs
    induction rs with
    | nil => intro _ n _; cases n <;> simp [trimRightAux, text]
    | cons r rs ih =>
      intro h n hn
      have hl := (encode_length r).1
      have he : text (r :: rs).reverse = text rs.reverse ++ encode r := by
        rw [List.reverse_cons, text_append]
        simp [text]
      rw [he, List.length_append] at hn
      obtain ⟨m, rfl⟩ : ∃ m, n = m + 1 := ⟨n - 1, by omega⟩
      rw [trimRightAux, he, decodeLast_encode (h r (by simp))]
      dsimp only
      by_cases hc : cut r = true
      · rw [if_pos ⟨by simp [encode_ne_nil], hc⟩, List.length_append, Nat.add_sub_cancel, List.take_left,
          ih (fun x hx => h x (by simp [hx])) m (by omega), List.dropWhile_cons_of_pos hc]
      · rw [if_neg (fun hh => hc hh.2), List.dropWhile_cons_of_neg hc, he]
  have := aux rs.reverse (fun r hr => h r (List.mem_reverse.1 hr)) (text rs).length (by rw [List.reverse_reverse])
  rw [List.reverse_reverse] at this
  exact this

end Verif.Utf8
