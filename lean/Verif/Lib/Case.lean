import Verif.Lib.Laws
import Verif.Lib.TrimProps
import Verif.Expr.StringProps
import Verif.Meta.SignalRef
import Verif.Expr.NumProps
import Verif.Expr.TextProps

/-!
# C139: letter case

`strings.ToUpper`, `strings.ToLower`, `strings.EqualFold` and the search of `(?i)` with a quoted text, written out as Go has them: character by character, a
byte that is no UTF-8 being U+FFFD. For ASCII, and for the characters beyond ASCII that belong to an ASCII letter (dotless and dotted i, long s, Kelvin
sign), the mapping is that of package unicode; for the others it is a parameter, of which only is said that it stays beyond ASCII.
-/

namespace Verif.Lib

open Verif.Expr

/-- The case mapping of characters beyond ASCII (package unicode within data/ExpressionTree.go L1466-3267). -/
structure Runes where
  upper : Nat → Nat
  lower : Nat → Nat
  /-- the first character of those that `SimpleFold` goes through -/
  first : Nat → Nat
  /-- only the characters of `toUpper` and `sameAs` below belong to an ASCII letter -/
  upper_beyond : ∀ r, 128 ≤ r → 128 ≤ upper r
  first_beyond : ∀ r, 128 ≤ r → 128 ≤ first r
  /-- U+FFFD, for which a byte that is no UTF-8 is taken, has no letter case -/
  upper_error : upper 0xFFFD = 0xFFFD
  lower_error : lower 0xFFFD = 0xFFFD

/-- A capital ASCII letter. (`unicode.ToUpper`, data/ExpressionTree.go L2581) -/
def capitalRune (r : Nat) : Nat := if 97 ≤ r ∧ r ≤ 122 then r - 32 else r

/-- `unicode.ToUpper` (within data/ExpressionTree.go L2581; transport/SignalKind.go L145). The dotless i and the long s have ASCII capitals. -/
def toUpper (U : Runes) (r : Nat) : Nat :=
  if r < 128 then capitalRune r else if r = 0x131 then 0x49 else if r = 0x17F then 0x53 else if r = 0x212A then r else U.upper r

/-- `unicode.ToLower` (within data/ExpressionTree.go L2009). The dotted capital I and the Kelvin sign have ASCII small letters. -/
def toLower (U : Runes) (r : Nat) : Nat :=
  if r < 128 then (if 65 ≤ r ∧ r ≤ 90 then r + 32 else r) else if r = 0x130 then 0x69 else if r = 0x212A then 0x6B else U.lower r

/-- The first of the characters that are the same letter case aside, as `unicode.SimpleFold` goes through them (within data/ExpressionTree.go L2258, L3141). The
long s and the Kelvin sign belong to ASCII letters, the two other letters i do not. -/
def sameAs (U : Runes) (r : Nat) : Nat :=
  if r < 128 then capitalRune r else if r = 0x17F then 0x53 else if r = 0x212A then 0x4B else if r = 0x130 ∨ r = 0x131 then r else U.first r

/-- `strings.ToUpper` (data/ExpressionTree.go L2581). -/
def upperText (U : Runes) (s : Str) : Str := Utf8.text ((Utf8.runes s).map (toUpper U))

/-- `strings.ToLower` (data/ExpressionTree.go L2009). -/
def lowerText (U : Runes) (s : Str) : Str := Utf8.text ((Utf8.runes s).map (toLower U))

/-- `strings.EqualFold` (data/ExpressionTree.go L3141). -/
def equalText (U : Runes) (s t : Str) : Bool := (Utf8.runes s).map (sameAs U) == (Utf8.runes t).map (sameAs U)

/-- How many bytes of a text match characters letter case aside, if the text begins with them. (`regexp`, data/ExpressionTree.go L2258) -/
def matchLength (U : Runes) : List Nat → Str → Option Nat
  | [], _ => some 0
  | r :: rs, s =>
    if s = [] then none
    else if sameAs U (Utf8.decode s).1 = sameAs U r then (matchLength U rs (s.drop (Utf8.decode s).2)).map (· + (Utf8.decode s).2) else none

/-- The matches from left to right; where none begins the search goes on after the next character. (`regexp`, data/ExpressionTree.go L2258-2264) -/
def scan (U : Runes) (ts : List Nat) : Nat → Str → Nat → List (Nat × Nat)
  | 0, _, _ => []
  | n + 1, s, pos =>
    if s = [] then []
    else match matchLength U ts s with
      | some w => (pos, pos + w) :: scan U ts n (s.drop w) (pos + w)
      | none => scan U ts n (s.drop (Utf8.decode s).2) (pos + (Utf8.decode s).2)

/-- The matches of the empty text: before the first character and after each. (`regexp`, data/ExpressionTree.go L2258-2264) -/
def emptyMatches : Nat → Str → Nat → List (Nat × Nat)
  | 0, _, pos => [(pos, pos)]
  | n + 1, s, pos => if s = [] then [(pos, pos)] else (pos, pos) :: emptyMatches n (s.drop (Utf8.decode s).2) (pos + (Utf8.decode s).2)

/-- The matches of `(?i)` with a quoted text (data/ExpressionTree.go L2258). A text that is no UTF-8 does not compile. A text with U+FFFD, which may or may
not match bytes that are no UTF-8, and one of more than a million bytes are left open. -/
def foldFind (R : Rest) (U : Runes) (s t : Str) : Option (List (Nat × Nat)) :=
  if Utf8.text (Utf8.runes t) ≠ t then none
  else if 0xFFFD ∈ Utf8.runes t ∨ t.length > 1000000 then R.foldMatches s t
  else if t = [] then some (emptyMatches s.length s 0)
  else some (scan U (Utf8.runes t) s.length s 0)

/-- The libraries with letter case written out. (data/ExpressionTree.go L1380-3350) -/
def Rest.withCase (R : Rest) (U : Runes) : Rest :=
  { R with upper := upperText U, lower := lowerText U, equalFold := equalText U, foldMatches := foldFind R U }

/-! ## ASCII -/

theorem runes_ascii {s : Str} (h : ∀ b ∈ s, b.toNat < 128) : Utf8.runes s = s.map BitVec.toNat := runesAux_ascii s h _ (Nat.le_refl _)

theorem text_of_ascii : ∀ {w : List Nat}, (∀ c ∈ w, c < 128) → Utf8.text w = w.map (BitVec.ofNat 8)
  | [], _ => rfl
  | c :: w, h => by
    have hc := h c (by simp)
    rw [Utf8.text_cons, text_of_ascii fun c hc => h c (by simp [hc])]
    unfold Utf8.encode
    rw [if_pos (by omega)]
    rfl

theorem capitalRune_lt {r : Nat} (h : r < 128) : capitalRune r < 128 := by unfold capitalRune; split <;> omega

theorem upperText_ascii (U : Runes) {s : Str} (h : ∀ b ∈ s, b.toNat < 128) : upperText U s = s.map Text.upperByte := by
  unfold upperText
  rw [runes_ascii h, List.map_map, text_of_ascii]
  · rw [List.map_map]
    refine List.map_congr_left fun b hb => ?_
    have hb := h b hb
    show BitVec.ofNat 8 (toUpper U b.toNat) = Text.upperByte b
    unfold toUpper Text.upperByte capitalRune
    rw [if_pos hb]
    split
    · apply BitVec.eq_of_toNat_eq
      rw [BitVec.toNat_ofNat, BitVec.toNat_sub]
      simp
      omega
    · simp
  · intro c hc
    obtain ⟨b, hb, rfl⟩ := List.mem_map.1 hc
    have hb := h b hb
    show toUpper U b.toNat < 128
    unfold toUpper
    rw [if_pos hb]
    exact capitalRune_lt hb

/-- What is assumed of upper case elsewhere holds. -/
theorem upperAscii_withCase (R : Rest) (U : Runes) : UpperAscii (go (R.withCase U)) := by
  intro s h
  show upperText U s = _
  rw [upperText_ascii U h]
  rfl

/-- What is assumed of texts elsewhere holds. -/
theorem textLaws_withCase (U : Runes) : (goText (upperText U)).Laws := goText_laws _ fun _ h => upperText_ascii U h

/-! ## Texts as characters -/

/-- The characters of a text, each with its bytes; a byte that is no UTF-8 is a U+FFFD of its own. -/
inductive Chars : Str → List (Nat × Str) → Prop
  | nil : Chars [] []
  | cons {s : Str} {cs : List (Nat × Str)} (h : s ≠ []) (hs : Chars (s.drop (Utf8.decode s).2) cs) :
    Chars s (((Utf8.decode s).1, s.take (Utf8.decode s).2) :: cs)

/-- Their bytes. -/
def bytesOf (cs : List (Nat × Str)) : Str := (cs.map Prod.snd).flatten

theorem Chars.bytes {s : Str} {cs : List (Nat × Str)} (h : Chars s cs) : bytesOf cs = s := by
  induction h with
  | nil => rfl
  | cons h hs ih =>
    unfold bytesOf at ih ⊢
    rw [List.map_cons, List.flatten_cons, ih]
    exact List.take_append_drop _ _

theorem Chars.unique {s : Str} {cs cs' : List (Nat × Str)} (h : Chars s cs) (h' : Chars s cs') : cs = cs' := by
  induction h generalizing cs' with
  | nil =>
    cases h' with
    | nil => rfl
    | cons h _ => exact absurd rfl h
  | cons h hs ih =>
    cases h' with
    | nil => exact absurd rfl h
    | cons _ hs' => rw [ih hs']

theorem Chars.runesAux {s : Str} {cs : List (Nat × Str)} (h : Chars s cs) : ∀ n, s.length ≤ n → Utf8.runesAux n s = cs.map Prod.fst := by
  induction h with
  | nil => intro n _; cases n <;> simp [Utf8.runesAux]
  | @cons s cs h hs ih =>
    intro n hn
    have hw := Utf8.decode_width h
    obtain ⟨m, rfl⟩ : ∃ m, n = m + 1 := ⟨n - 1, by omega⟩
    rw [Utf8.runesAux, if_neg h, ih m (by rw [List.length_drop]; omega)]
    rfl

theorem Chars.runes {s : Str} {cs : List (Nat × Str)} (h : Chars s cs) : Utf8.runes s = cs.map Prod.fst := h.runesAux _ (Nat.le_refl _)

theorem Chars.length {s : Str} {cs : List (Nat × Str)} (h : Chars s cs) : cs.length ≤ s.length := by
  induction h with
  | nil => exact Nat.le_refl _
  | @cons s cs h hs ih =>
    have hw := Utf8.decode_width h
    rw [List.length_drop] at ih
    rw [List.length_cons]
    omega

theorem chars_exist : ∀ (n : Nat) (s : Str), s.length ≤ n → ∃ cs, Chars s cs
  | 0, s, h => by
    rw [List.length_eq_zero_iff.1 (Nat.le_zero.1 h)]
    exact ⟨[], .nil⟩
  | n + 1, s, h => by
    by_cases hs : s = []
    · subst hs; exact ⟨[], .nil⟩
    · have hw := Utf8.decode_width hs
      obtain ⟨cs, hc⟩ := chars_exist n (s.drop (Utf8.decode s).2) (by rw [List.length_drop]; omega)
      exact ⟨_, .cons hs hc⟩

/-- Every text has its characters. -/
theorem chars_of (s : Str) : ∃ cs, Chars s cs := chars_exist _ s (Nat.le_refl _)

/-! ## C75: Replace with letter case aside -/

/-- Characters that begin as others do, letter case aside. -/
def Begins (U : Runes) (ts : List Nat) (cs : List (Nat × Str)) : Prop := (cs.take ts.length).map (fun c => sameAs U c.1) = ts.map (sameAs U)

instance (U : Runes) (ts : List Nat) (cs : List (Nat × Str)) : Decidable (Begins U ts cs) := by unfold Begins; infer_instance

/-- Characters cut up into what stands between occurrences and these, and what follows the last. -/
def cutChars (last : List (Nat × Str)) : List (List (Nat × Str) × List (Nat × Str)) → List (Nat × Str)
  | [] => last
  | (p, m) :: qs => p ++ m ++ cutChars last qs

/-- The cuts are at the leftmost occurrences that do not overlap. -/
def FoldParts (U : Runes) (ts : List Nat) (last : List (Nat × Str)) : List (List (Nat × Str) × List (Nat × Str)) → Prop
  | [] => ∀ j, ¬ Begins U ts (last.drop j)
  | (p, m) :: qs => m.map (fun c => sameAs U c.1) = ts.map (sameAs U) ∧ (∀ j < p.length, ¬ Begins U ts ((p ++ m ++ cutChars last qs).drop j)) ∧
    FoldParts U ts last qs

/-- The bytes of both. -/
def bytesOfCut (q : List (Nat × Str) × List (Nat × Str)) : Str × Str := (bytesOf q.1, bytesOf q.2)

theorem bytesOf_append (a b : List (Nat × Str)) : bytesOf (a ++ b) = bytesOf a ++ bytesOf b := by simp [bytesOf]

theorem bytesOf_cons (c : Nat × Str) (b : List (Nat × Str)) : bytesOf (c :: b) = c.2 ++ bytesOf b := by simp [bytesOf]

theorem cut_bytes (last : List (Nat × Str)) : ∀ qs, cutUp (bytesOf last) (qs.map bytesOfCut) = bytesOf (cutChars last qs)
  | [] => rfl
  | (p, m) :: qs => by
    show bytesOf p ++ bytesOf m ++ cutUp (bytesOf last) (qs.map bytesOfCut) = _
    rw [cut_bytes last qs, cutChars, bytesOf_append, bytesOf_append]

theorem begins_cons (U : Runes) (r : Nat) (ts : List Nat) (c : Nat × Str) (cs : List (Nat × Str)) :
    Begins U (r :: ts) (c :: cs) ↔ sameAs U c.1 = sameAs U r ∧ Begins U ts cs := by
  simp [Begins]

theorem begins_nil (U : Runes) (r : Nat) (ts : List Nat) : ¬ Begins U (r :: ts) [] := by simp [Begins]

theorem matchLength_chars (U : Runes) : ∀ (ts : List Nat) {s : Str} {cs : List (Nat × Str)}, Chars s cs →
    (Begins U ts cs → matchLength U ts s = some (bytesOf (cs.take ts.length)).length ∧
      Chars (s.drop (bytesOf (cs.take ts.length)).length) (cs.drop ts.length)) ∧ (¬ Begins U ts cs → matchLength U ts s = none)
  | [], s, cs, h => ⟨fun _ => ⟨rfl, by simpa [bytesOf] using h⟩, fun hn => absurd (by simp [Begins]) hn⟩
  | r :: ts, _, _, .nil => ⟨fun h => absurd h (begins_nil U r ts), fun _ => by simp [matchLength]⟩
  | r :: ts, s, _, .cons (cs := cs) h hs => by
    obtain ⟨ih1, ih2⟩ := matchLength_chars U ts hs
    have hw := Utf8.decode_width h
    have hl : (s.take (Utf8.decode s).2).length = (Utf8.decode s).2 := by rw [List.length_take]; omega
    constructor
    · intro hb
      obtain ⟨e, hb⟩ := (begins_cons _ _ _ _ _).1 hb
      obtain ⟨g1, g2⟩ := ih1 hb
      have hlen : (bytesOf ((((Utf8.decode s).1, s.take (Utf8.decode s).2) :: cs).take (r :: ts).length)).length =
          (Utf8.decode s).2 + (bytesOf (cs.take ts.length)).length := by
        rw [List.length_cons, List.take_succ_cons, bytesOf_cons, List.length_append, hl]
      rw [hlen]
      refine ⟨?_, ?_⟩
      · rw [matchLength, if_neg h, if_pos e, g1, Option.map_some, Nat.add_comm]
      · rw [List.length_cons, List.drop_succ_cons, ← List.drop_drop]
        exact g2
    · intro hb
      rw [matchLength, if_neg h]
      by_cases e : sameAs U (Utf8.decode s).1 = sameAs U r
      · rw [if_pos e, ih2 fun g => hb ((begins_cons _ _ _ _ _).2 ⟨e, g⟩), Option.map_none]
      · rw [if_neg e]

theorem begins_take {U : Runes} {ts : List Nat} {cs : List (Nat × Str)} (h : Begins U ts cs) : (cs.take ts.length).length = ts.length := by
  have := congrArg List.length h
  simpa using this

theorem scan_chars (U : Runes) (ts : List Nat) (ht : ts ≠ []) : ∀ (n : Nat) {s : Str} {cs : List (Nat × Str)} (pos : Nat), Chars s cs → cs.length ≤ n →
    ∃ qs last, cs = cutChars last qs ∧ FoldParts U ts last qs ∧ scan U ts n s pos = offsets pos (qs.map bytesOfCut) := by
  have none_ : ∀ j, ¬ Begins U ts (([] : List (Nat × Str)).drop j) := by
    intro j
    rw [List.drop_nil]
    cases ts with
    | nil => exact absurd rfl ht
    | cons r ts => exact begins_nil U r ts
  intro n
  induction n with
  | zero =>
    intro s cs pos h hn
    have : cs = [] := List.length_eq_zero_iff.1 (by omega)
    subst this
    exact ⟨[], [], rfl, none_, rfl⟩
  | succ n ih =>
    intro s cs pos h hn
    cases h with
    | nil => exact ⟨[], [], rfl, none_, by simp [scan, offsets]⟩
    | @cons _ cs h hs =>
      have hw := Utf8.decode_width h
      have hl : (s.take (Utf8.decode s).2).length = (Utf8.decode s).2 := by rw [List.length_take]; omega
      have hc : Chars s (((Utf8.decode s).1, s.take (Utf8.decode s).2) :: cs) := .cons h hs
      generalize hx : (((Utf8.decode s).1, s.take (Utf8.decode s).2) : Nat × Str) = c at hc hn ⊢
      have hc2 : c.2.length = (Utf8.decode s).2 := by rw [← hx]; exact hl
      obtain ⟨m1, m2⟩ := matchLength_chars U ts hc
      by_cases hb : Begins U ts (c :: cs)
      · obtain ⟨g1, g2⟩ := m1 hb
        have hpos : 0 < ts.length := List.length_pos_iff.2 ht
        obtain ⟨qs, last, e1, e2, e3⟩ := ih (pos + (bytesOf ((c :: cs).take ts.length)).length) g2 (by
          rw [List.length_drop]; simp only [List.length_cons] at hn ⊢; omega)
        refine ⟨([], (c :: cs).take ts.length) :: qs, last, ?_, ⟨hb, fun j hj => absurd hj (Nat.not_lt_zero j), e2⟩, ?_⟩
        · rw [cutChars, ← e1, List.nil_append, List.take_append_drop]
        · rw [scan, if_neg h, g1]
          dsimp only
          rw [e3]
          rfl
      · obtain ⟨qs, last, e1, e2, e3⟩ := ih (pos + (Utf8.decode s).2) hs (by simp only [List.length_cons] at hn; omega)
        have hscan : scan U ts (n + 1) s pos = offsets (pos + (Utf8.decode s).2) (qs.map bytesOfCut) := by
          rw [scan, if_neg h, m2 hb]
          exact e3
        cases qs with
        | nil =>
          refine ⟨[], c :: last, by rw [cutChars]; rw [cutChars] at e1; rw [e1], ?_, ?_⟩
          · intro j
            cases j with
            | zero => rw [cutChars] at e1; rw [← e1]; exact hb
            | succ j => exact e2 j
          · rw [hscan]; rfl
        | cons q qs =>
          obtain ⟨p, m⟩ := q
          obtain ⟨e2, e4, e5⟩ := e2
          rw [cutChars] at e1
          refine ⟨(c :: p, m) :: qs, last, by rw [cutChars, e1]; rfl, ⟨e2, ?_, e5⟩, ?_⟩
          · intro j hj
            cases j with
            | zero =>
              show ¬ Begins U ts (c :: p ++ m ++ cutChars last qs)
              rw [List.cons_append, List.cons_append, ← e1]
              exact hb
            | succ j => exact e4 j (by simpa using hj)
          · rw [hscan]
            show offsets _ ((bytesOf p, bytesOf m) :: _) = offsets _ ((bytesOf (c :: p), bytesOf m) :: _)
            rw [offsets, offsets, bytesOf_cons, List.length_append, hc2, Nat.add_assoc pos]

theorem foldParts_unique {U : Runes} {ts : List Nat} : ∀ (qs qs' : List (List (Nat × Str) × List (Nat × Str))) (last last' : List (Nat × Str)),
    FoldParts U ts last qs → FoldParts U ts last' qs' → cutChars last qs = cutChars last' qs' → qs = qs' ∧ last = last' := by
  have at_ : ∀ (p m x : List (Nat × Str)), m.map (fun c => sameAs U c.1) = ts.map (sameAs U) → Begins U ts ((p ++ m ++ x).drop p.length) := by
    intro p m x hm
    have hl : m.length = ts.length := by simpa using congrArg List.length hm
    rw [List.append_assoc, List.drop_left]
    unfold Begins
    rw [← hl, List.take_left]
    exact hm
  intro qs
  induction qs with
  | nil =>
    intro qs' last last' h h' e
    cases qs' with
    | nil => exact ⟨rfl, e⟩
    | cons q qs' =>
      obtain ⟨p, m⟩ := q
      rw [cutChars, cutChars] at e
      exact absurd (e ▸ at_ p m _ h'.1) (h _)
  | cons q qs ih =>
    intro qs' last last' h h' e
    obtain ⟨p, m⟩ := q
    cases qs' with
    | nil =>
      rw [cutChars, cutChars] at e
      exact absurd (e ▸ at_ p m _ h.1) (h' _)
    | cons q' qs' =>
      obtain ⟨p', m'⟩ := q'
      have hp : p.length = p'.length := by
        rcases Nat.lt_trichotomy p.length p'.length with g | g | g
        · refine absurd ?_ (h'.2.1 _ g)
          rw [cutChars, cutChars] at e
          rw [← e]
          exact at_ p m _ h.1
        · exact g
        · refine absurd ?_ (h.2.1 _ g)
          rw [cutChars, cutChars] at e
          rw [e]
          exact at_ p' m' _ h'.1
      have hm : m.length = m'.length := by
        have h1 := congrArg List.length h.1
        have h2 := congrArg List.length h'.1
        simp only [List.length_map] at h1 h2
        omega
      rw [cutChars, cutChars, List.append_assoc, List.append_assoc] at e
      obtain ⟨e1, e⟩ := List.append_inj e hp
      obtain ⟨e2, e⟩ := List.append_inj e hm
      obtain ⟨e3, e4⟩ := ih qs' last last' h.2.2 h'.2.2 e
      exact ⟨by rw [e1, e2, e3], e4⟩

/-- **Every text is cut up at the leftmost occurrences in one way.** -/
theorem C75_cuts (U : Runes) (s : Str) {t : Str} (ht : Utf8.runes t ≠ []) :
    ∃ cs qs last, Chars s cs ∧ cs = cutChars last qs ∧ FoldParts U (Utf8.runes t) last qs ∧
      ∀ qs' last', cs = cutChars last' qs' → FoldParts U (Utf8.runes t) last' qs' → qs' = qs ∧ last' = last := by
  obtain ⟨cs, hc⟩ := chars_of s
  obtain ⟨qs, last, e, hp, _⟩ := scan_chars U (Utf8.runes t) ht cs.length 0 hc (Nat.le_refl _)
  exact ⟨cs, qs, last, hc, e, hp, fun qs' last' e' hp' => foldParts_unique _ _ _ _ hp' hp (e' ▸ e)⟩

theorem runes_ne_nil {t : Str} (ht : t ≠ []) : Utf8.runes t ≠ [] := by
  unfold Utf8.runes
  cases t with
  | nil => exact absurd rfl ht
  | cons b t => rw [List.length_cons, Utf8.runesAux, if_neg (by simp)]; simp

/-- **Replace with letter case aside**: each leftmost occurrence is replaced, and every other byte of the text is kept as it is, be it UTF-8 or not. The text
looked for is UTF-8 without U+FFFD, the replacement contains no dollar sign. -/
theorem C75_ignore_case (R : Rest) (U : Runes) {s t r : Str} (hr : 36#8 ∉ r) (ht : t ≠ []) (hv : Utf8.text (Utf8.runes t) = t)
    (hf : 0xFFFD ∉ Utf8.runes t) (hl : t.length ≤ 1000000) {qs : List (List (Nat × Str) × List (Nat × Str))} {last : List (Nat × Str)}
    (hc : Chars s (cutChars last qs)) (hp : FoldParts U (Utf8.runes t) last qs) :
    call (P := go (R.withCase U)) .replace [.string s, .string t, .string r, .boolean true] =
      .ok (.string (putFor (fun _ => r) (bytesOf last) (qs.map bytesOfCut))) := by
  have hs : cutUp (bytesOf last) (qs.map bytesOfCut) = s := by rw [cut_bytes, hc.bytes]
  have hm : (go (R.withCase U)).foldMatches (cutUp (bytesOf last) (qs.map bytesOfCut)) t = some (offsets 0 (qs.map bytesOfCut)) := by
    rw [hs]
    show foldFind R U s t = _
    unfold foldFind
    rw [if_neg (by simpa using hv), if_neg (by simp only [not_or]; exact ⟨hf, by omega⟩), if_neg ht]
    obtain ⟨qs', last', e, hp', h⟩ := scan_chars U (Utf8.runes t) (runes_ne_nil ht) s.length 0 hc hc.length
    obtain ⟨rfl, -⟩ := foldParts_unique _ _ _ _ hp hp' e
    rw [h]
  have := C75_ignore_case_partial hr t _ _ hm
  rwa [hs] at this

/-- `xKelviny` with the Kelvin sign for K, cut up by `KEL`; and a byte that is no UTF-8 stays. -/
example : ∃ (U : Runes) (qs : List (List (Nat × Str) × List (Nat × Str))) (last : List (Nat × Str)),
    Chars (120#8 :: 0xFF#8 :: Utf8.text [0x212A] ++ lit "elvin") (cutChars last qs) ∧ FoldParts U (Utf8.runes (lit "KEL")) last qs ∧
    qs.map bytesOfCut = [([120#8, 0xFF#8], Utf8.text [0x212A] ++ lit "el")] ∧ bytesOf last = lit "vin" := by
  have no : ∀ {U : Runes} {cs : List (Nat × Str)}, (∀ j ≤ cs.length, ¬ Begins U (Utf8.runes (lit "KEL")) (cs.drop j)) →
      ∀ j, ¬ Begins U (Utf8.runes (lit "KEL")) (cs.drop j) := by
    intro U cs h j
    by_cases hj : j ≤ cs.length
    · exact h j hj
    · rw [List.drop_eq_nil_iff.2 (by omega), ← List.drop_length (l := cs)]
      exact h _ (Nat.le_refl _)
  refine ⟨⟨id, id, id, fun _ h => h, fun _ h => h, rfl, rfl⟩,
    [([(120, [120#8]), (0xFFFD, [0xFF#8])], [(0x212A, Utf8.text [0x212A]), (101, lit "e"), (108, lit "l")])],
    [(118, lit "v"), (105, lit "i"), (110, lit "n")], ?_, ⟨by decide +kernel, by decide +kernel, no (by decide +kernel)⟩, by decide +kernel, by decide +kernel⟩
  exact .cons (by decide) (.cons (by decide) (.cons (by decide) (.cons (by decide) (.cons (by decide) (.cons (by decide) (.cons (by decide)
    (.cons (by decide) .nil)))))))

theorem emptyMatches_chars {s : Str} {cs : List (Nat × Str)} (h : Chars s cs) : ∀ (n pos : Nat), cs.length ≤ n → ∀ p : Str, p.length = pos →
    ∀ r : Str, ∀ P : Prim, (∀ m, expand P m r.length r = r) → ∀ w : Str, w.length ≤ pos → (p.drop w.length).length = pos - w.length →
    splice P (p ++ s) r w.length (emptyMatches n s pos) = p.drop w.length ++ r ++ (cs.map fun c => c.2 ++ r).flatten := by
  induction h with
  | nil =>
    intro n pos _ p hp r P he w hw _
    have : emptyMatches n ([] : Str) pos = [(pos, pos)] := by cases n <;> rfl
    rw [this, splice, splice, he, List.append_nil, ← hp, List.take_length, List.drop_length]
    rfl
  | @cons s cs h hs ih =>
    intro n pos hn p hp r P he w hw hd
    obtain ⟨n, rfl⟩ : ∃ m, n = m + 1 := ⟨n - 1, by rw [List.length_cons] at hn; omega⟩
    have hw' := Utf8.decode_width h
    have hl : (s.take (Utf8.decode s).2).length = (Utf8.decode s).2 := by rw [List.length_take]; omega
    rw [emptyMatches, if_neg h, splice, he]
    have h1 : (p ++ s).take pos = p := by rw [← hp, List.take_left]
    have h2 := ih n (pos + (Utf8.decode s).2) (by rw [List.length_cons] at hn; omega) (p ++ s.take (Utf8.decode s).2)
      (by rw [List.length_append, hl, hp]) r P he p (by omega) (by rw [List.drop_left, hl, hp]; omega)
    rw [List.append_assoc, List.take_append_drop, hp, ← hp, List.drop_left, hp] at h2
    rw [h1, h2, List.map_cons, List.flatten_cons]

/-- **Replacing the empty text with letter case aside** puts the replacement before the first character and after each. -/
theorem C75_ignore_case_empty (R : Rest) (U : Runes) {s r : Str} (hr : 36#8 ∉ r) {cs : List (Nat × Str)} (hc : Chars s cs) :
    call (P := go (R.withCase U)) .replace [.string s, .string [], .string r, .boolean true] =
      .ok (.string (r ++ (cs.map fun c => c.2 ++ r).flatten)) := by
  have hm : (go (R.withCase U)).foldMatches s [] = some (emptyMatches s.length s 0) := by
    show foldFind R U s [] = _
    unfold foldFind
    rw [if_neg (by simp [Utf8.runes, Utf8.runesAux, Utf8.text]), if_neg (by simp [Utf8.runes, Utf8.runesAux]), if_pos rfl]
  have h := emptyMatches_chars hc s.length 0 hc.length [] rfl r (go (R.withCase U)) (fun m => expand_plain hr m _) [] (Nat.le_refl _) rfl
  rw [replace_fold hm]
  simpa using h

/-- A text of `e` acute and a byte that is no UTF-8. -/
example : Chars (Utf8.text [0xE9] ++ [0xFF#8]) [(0xE9, Utf8.text [0xE9]), (0xFFFD, [0xFF#8])] :=
  .cons (by decide) (.cons (by decide) .nil)

/-- **A text to be replaced that is no UTF-8 is an error**, letter case aside, whatever it is looked for in. -/
theorem C75_ignore_case_error (R : Rest) (U : Runes) (s r : Str) {t : Str} (ht : Utf8.text (Utf8.runes t) ≠ t) :
    call (P := go (R.withCase U)) .replace [.string s, .string t, .string r, .boolean true] = .err := by
  refine (C75_not_compiled ?_ r).1
  show foldFind R U s t = none
  unfold foldFind
  rw [if_pos ht]

example : Utf8.text (Utf8.runes [97#8, 0xFF#8]) ≠ [97#8, 0xFF#8] := by decide

/-! ## C139: what letter case sets apart -/

/-- A character that is an ASCII one, letter case aside: the two capitals or small letters, and of those beyond ASCII the given. -/
def Matches (beyond : Nat → Byte → Prop) (r : Nat) (b : Byte) : Prop :=
  r = b.toNat ∨ (∃ i < 26, r = 65 + i ∧ b.toNat = 97 + i) ∨ (∃ i < 26, r = 97 + i ∧ b.toNat = 65 + i) ∨ beyond r b

/-- The long s and the Kelvin sign. -/
def FoldBeyond (r : Nat) (b : Byte) : Prop := r = 0x17F ∧ (b = 83#8 ∨ b = 115#8) ∨ r = 0x212A ∧ (b = 75#8 ∨ b = 107#8)

/-- The long s and the dotless i. -/
def UpperBeyond (r : Nat) (b : Byte) : Prop := r = 0x17F ∧ (b = 83#8 ∨ b = 115#8) ∨ r = 0x131 ∧ (b = 73#8 ∨ b = 105#8)

theorem capital_iff {a b : Nat} : capitalRune a = capitalRune b ↔
    a = b ∨ (∃ i < 26, a = 65 + i ∧ b = 97 + i) ∨ (∃ i < 26, a = 97 + i ∧ b = 65 + i) := by
  unfold capitalRune
  constructor
  · intro h
    by_cases e : a = b
    · exact .inl e
    · right
      split at h <;> split at h
      · omega
      · exact .inr ⟨a - 97, by omega, by omega, by omega⟩
      · exact .inl ⟨b - 97, by omega, by omega, by omega⟩
      · omega
  · rintro (rfl | ⟨i, hi, rfl, rfl⟩ | ⟨i, hi, rfl, rfl⟩)
    · rfl
    · rw [if_neg (by omega), if_pos (by omega)]; omega
    · rw [if_pos (by omega), if_neg (by omega)]; omega

theorem byte_eq_iff {b : Byte} {n : Nat} (hn : n < 256) : b = BitVec.ofNat 8 n ↔ b.toNat = n := by
  rw [← BitVec.toNat_inj, BitVec.toNat_ofNat, Nat.mod_eq_of_lt hn]

theorem same_iff (U : Runes) {r : Nat} {b : Byte} (hb : b.toNat < 128) : sameAs U r = sameAs U b.toNat ↔ Matches FoldBeyond r b := by
  have e : sameAs U b.toNat = capitalRune b.toNat := if_pos hb
  have hc := capitalRune_lt hb
  have e83 : b = 83#8 ↔ b.toNat = 83 := byte_eq_iff (by omega)
  have e115 : b = 115#8 ↔ b.toNat = 115 := byte_eq_iff (by omega)
  have e75 : b = 75#8 ↔ b.toNat = 75 := byte_eq_iff (by omega)
  have e107 : b = 107#8 ↔ b.toNat = 107 := byte_eq_iff (by omega)
  rw [e]
  unfold Matches FoldBeyond
  rw [e83, e115, e75, e107]
  generalize b.toNat = n at *
  by_cases hr : r < 128
  · rw [sameAs, if_pos hr, capital_iff]
    constructor
    · rintro (h | h | h)
      · exact .inl h
      · exact .inr (.inl h)
      · exact .inr (.inr (.inl h))
    · rintro (h | h | h | h)
      · exact .inl h
      · exact .inr (.inl h)
      · exact .inr (.inr h)
      · omega
  · have key : ∀ m : Nat, m < 128 → m ∈ [83, 75] → (m = capitalRune n ↔ n = m ∨ n = m + 32) := by
      intro m _ hm
      have : m = 83 ∨ m = 75 := by simpa using hm
      unfold capitalRune
      split <;> omega
    rw [sameAs, if_neg hr]
    constructor
    · intro h
      refine .inr (.inr (.inr ?_))
      by_cases h1 : r = 0x17F
      · rw [if_pos h1] at h
        exact .inl ⟨h1, (key 83 (by omega) (by simp)).1 h⟩
      · rw [if_neg h1] at h
        by_cases h2 : r = 0x212A
        · rw [if_pos h2] at h
          exact .inr ⟨h2, (key 75 (by omega) (by simp)).1 h⟩
        · rw [if_neg h2] at h
          by_cases h3 : r = 0x130 ∨ r = 0x131
          · rw [if_pos h3] at h; omega
          · rw [if_neg h3] at h
            have := U.first_beyond r (by omega)
            omega
    · rintro (h | ⟨i, hi, h, _⟩ | ⟨i, hi, h, _⟩ | ⟨h, g⟩ | ⟨h, g⟩)
      · omega
      · omega
      · omega
      · rw [if_pos h]
        exact (key 83 (by omega) (by simp)).2 g
      · rw [if_neg (by omega), if_pos h]
        exact (key 75 (by omega) (by simp)).2 g

theorem upper_iff (U : Runes) {r : Nat} {b : Byte} (hb : b.toNat < 128) : toUpper U r = toUpper U b.toNat ↔ Matches UpperBeyond r b := by
  have e : toUpper U b.toNat = capitalRune b.toNat := if_pos hb
  have hc := capitalRune_lt hb
  have e83 : b = 83#8 ↔ b.toNat = 83 := byte_eq_iff (by omega)
  have e115 : b = 115#8 ↔ b.toNat = 115 := byte_eq_iff (by omega)
  have e73 : b = 73#8 ↔ b.toNat = 73 := byte_eq_iff (by omega)
  have e105 : b = 105#8 ↔ b.toNat = 105 := byte_eq_iff (by omega)
  rw [e]
  unfold Matches UpperBeyond
  rw [e83, e115, e73, e105]
  generalize b.toNat = n at *
  by_cases hr : r < 128
  · rw [toUpper, if_pos hr, capital_iff]
    constructor
    · rintro (h | h | h)
      · exact .inl h
      · exact .inr (.inl h)
      · exact .inr (.inr (.inl h))
    · rintro (h | h | h | h)
      · exact .inl h
      · exact .inr (.inl h)
      · exact .inr (.inr h)
      · omega
  · have key : ∀ m : Nat, m < 128 → m ∈ [83, 73] → (m = capitalRune n ↔ n = m ∨ n = m + 32) := by
      intro m _ hm
      have : m = 83 ∨ m = 73 := by simpa using hm
      unfold capitalRune
      split <;> omega
    rw [toUpper, if_neg hr]
    constructor
    · intro h
      refine .inr (.inr (.inr ?_))
      by_cases h1 : r = 0x131
      · rw [if_pos h1] at h
        exact .inr ⟨h1, (key 73 (by omega) (by simp)).1 h⟩
      · rw [if_neg h1] at h
        by_cases h2 : r = 0x17F
        · rw [if_pos h2] at h
          exact .inl ⟨h2, (key 83 (by omega) (by simp)).1 h⟩
        · rw [if_neg h2] at h
          by_cases h3 : r = 0x212A
          · rw [if_pos h3] at h; omega
          · rw [if_neg h3] at h
            have := U.upper_beyond r (by omega)
            omega
    · rintro (h | ⟨i, hi, h, _⟩ | ⟨i, hi, h, _⟩ | ⟨h, g⟩ | ⟨h, g⟩)
      · omega
      · omega
      · omega
      · rw [if_neg (by omega), if_pos h]
        exact (key 83 (by omega) (by simp)).2 g
      · rw [if_pos h]
        exact (key 73 (by omega) (by simp)).2 g

theorem map_forall₂ {f : Nat → Nat} {Q : Nat → Byte → Prop} : ∀ (rs : List Nat) (t : Str), (∀ r, ∀ b ∈ t, f r = f b.toNat ↔ Q r b) →
    (rs.map f = (t.map BitVec.toNat).map f ↔ List.Forall₂ Q rs t)
  | [], [], _ => by simp
  | [], _ :: _, _ => by simp
  | _ :: _, [], _ => by simp
  | r :: rs, b :: t, h => by
    rw [List.map_cons, List.map_cons, List.map_cons, List.cons.injEq, List.forall₂_cons, h r b (by simp),
      map_forall₂ rs t fun r b hb => h r b (by simp [hb])]

/-- **What `=` takes for an ASCII text**: the texts with the same characters, letter case aside, the long s being an s and the Kelvin sign a k, and no other. -/
theorem C139_equal (R : Rest) (U : Runes) (s : Str) {t : Str} (ht : ∀ b ∈ t, b.toNat < 128) :
    ∃ eq : Bool, applyOp (P := go (R.withCase U)) .equal (.string s) (.string t) = .ok (.boolean eq) ∧
      (eq = true ↔ List.Forall₂ (Matches FoldBeyond) (Utf8.runes s) t) := by
  refine ⟨equalText U s t, rfl, ?_⟩
  unfold equalText
  rw [beq_iff_eq, runes_ascii ht]
  exact map_forall₂ _ _ fun r b hb => same_iff U (ht b hb)

theorem encode_head_beyond {r : Nat} (h : 128 ≤ r) : ∃ b rest, Utf8.encode r = b :: rest ∧ 128 ≤ b.toNat := by
  unfold Utf8.encode
  rw [if_neg (by omega)]
  have hb : ∀ n, (Utf8.byte n).toNat = n % 256 := fun n => BitVec.toNat_ofNat n 8
  split
  · exact ⟨_, _, rfl, by rw [hb]; omega⟩
  split
  · exact ⟨_, _, rfl, by rw [hb]; omega⟩
  split
  · exact ⟨_, _, rfl, by rw [hb]; omega⟩
  · rename_i h1 h2 h3
    have : r ≤ 0x10FFFF := by
      have := Classical.not_not.1 h2
      unfold Utf8.Valid at this
      omega
    exact ⟨_, _, rfl, by rw [hb]; omega⟩

theorem text_eq_ascii : ∀ {v w : List Nat}, (∀ c ∈ w, c < 128) → Utf8.text v = Utf8.text w → v = w
  | [], [], _, _ => rfl
  | [], c :: w, _, h => by
    rw [Utf8.text_cons] at h
    exact absurd (List.append_eq_nil_iff.1 h.symm).1 (Utf8.encode_ne_nil c)
  | c :: v, [], _, h => by
    rw [Utf8.text_cons] at h
    exact absurd (List.append_eq_nil_iff.1 h).1 (Utf8.encode_ne_nil c)
  | c :: v, d :: w, hw, h => by
    have hd := hw d (by simp)
    have ed : Utf8.encode d = [Utf8.byte d] := by unfold Utf8.encode; rw [if_pos (by omega)]
    have bd : (Utf8.byte d).toNat = d := by
      have : (Utf8.byte d).toNat = d % 256 := BitVec.toNat_ofNat d 8
      omega
    rw [Utf8.text_cons, Utf8.text_cons, ed] at h
    by_cases hc : c < 128
    · have ec : Utf8.encode c = [Utf8.byte c] := by unfold Utf8.encode; rw [if_pos (by omega)]
      have bc : (Utf8.byte c).toNat = c := by
        have : (Utf8.byte c).toNat = c % 256 := BitVec.toNat_ofNat c 8
        omega
      rw [ec] at h
      obtain ⟨h1, h2⟩ := List.cons.inj h
      have := congrArg BitVec.toNat h1
      rw [bd, bc] at this
      rw [this, text_eq_ascii (fun c hc => hw c (by simp [hc])) h2]
    · obtain ⟨b, rest, e, hb⟩ := encode_head_beyond (r := c) (by omega)
      rw [e] at h
      obtain ⟨h1, _⟩ := List.cons.inj h
      rw [h1] at hb
      omega

/-- **Which texts have the capitals of an ASCII text**: those with the same characters, letter case aside, the long s being an s and the dotless i an i. -/
theorem C139_capitals (U : Runes) (s : Str) {t : Str} (ht : ∀ b ∈ t, b.toNat < 128) :
    upperText U s = upperText U t ↔ List.Forall₂ (Matches UpperBeyond) (Utf8.runes s) t := by
  rw [← map_forall₂ (f := toUpper U) _ _ fun r b hb => upper_iff U (ht b hb), ← runes_ascii ht]
  constructor
  · intro h
    refine text_eq_ascii ?_ h
    intro c hc
    rw [runes_ascii ht, List.map_map] at hc
    obtain ⟨b, hb, rfl⟩ := List.mem_map.1 hc
    have hb := ht b hb
    show toUpper U b.toNat < 128
    rw [toUpper, if_pos hb]
    exact capitalRune_lt hb
  · intro h
    unfold upperText
    rw [h]

theorem forall₂_beyond {Q Q' : Nat → Byte → Prop} : ∀ {rs : List Nat} {t : Str}, (∀ r ∈ rs, ∀ b, Q r b → Q' r b) →
    List.Forall₂ Q rs t → List.Forall₂ Q' rs t
  | _, _, _, .nil => .nil
  | _, _, h, .cons a as => .cons (h _ (by simp) _ a) (forall₂_beyond (fun r hr b => h r (by simp [hr]) b) as)

/-- **The six comparisons of texts agree**, when one is ASCII and the other has neither a dotless i nor a Kelvin sign. Exactly one of `<`, `=` and `>` holds. -/
theorem C139_consistent_partial (R : Rest) (U : Runes) {s t : Str} (ht : ∀ b ∈ t, b.toNat < 128) (hi : 0x131 ∉ Utf8.runes s) (hk : 0x212A ∉ Utf8.runes s) :
    ∃ lt eq gt : Bool, ExactlyOne lt eq gt ∧
      applyOp (P := go (R.withCase U)) .lessThan (.string s) (.string t) = .ok (.boolean lt) ∧
      applyOp (P := go (R.withCase U)) .equal (.string s) (.string t) = .ok (.boolean eq) ∧
      applyOp (P := go (R.withCase U)) .greaterThan (.string s) (.string t) = .ok (.boolean gt) ∧
      applyOp (P := go (R.withCase U)) .lessThanOrEqual (.string s) (.string t) = .ok (.boolean (lt || eq)) ∧
      applyOp (P := go (R.withCase U)) .greaterThanOrEqual (.string s) (.string t) = .ok (.boolean (gt || eq)) ∧
      applyOp (P := go (R.withCase U)) .notEqual (.string s) (.string t) = .ok (.boolean (!eq)) := by
  refine C47_consistent_partial go_ordered ?_ rfl rfl rfl trivial trivial
  rintro a b ⟨⟩ ⟨⟩
  show equalText U s t = true ↔ upperText U s = upperText U t
  obtain ⟨_, h1, h2⟩ := C139_equal R U s ht
  have : equalText U s t = true ↔ List.Forall₂ (Matches FoldBeyond) (Utf8.runes s) t := by
    unfold equalText
    rw [beq_iff_eq, runes_ascii ht]
    exact map_forall₂ _ _ fun r b hb => same_iff U (ht b hb)
  rw [this, C139_capitals U s ht]
  constructor
  · refine forall₂_beyond fun r hr b h => ?_
    rcases h with h | h | h | h | ⟨h, _⟩
    · exact .inl h
    · exact .inr (.inl h)
    · exact .inr (.inr (.inl h))
    · exact .inr (.inr (.inr (.inl h)))
    · exact absurd (h ▸ hr) hk
  · refine forall₂_beyond fun r hr b h => ?_
    rcases h with h | h | h | h | ⟨h, _⟩
    · exact .inl h
    · exact .inr (.inl h)
    · exact .inr (.inr (.inl h))
    · exact .inr (.inr (.inr (.inl h)))
    · exact absurd (h ▸ hr) hi

/-- A text with a long s and an e acute beside `Sept`. -/
example : (∀ b ∈ lit "Sept", b.toNat < 128) ∧ 0x131 ∉ Utf8.runes (Utf8.text [0x17F, 0xE9]) ∧ 0x212A ∉ Utf8.runes (Utf8.text [0x17F, 0xE9]) := by decide

/-- Refuted: one of `<`, `=` and `>` holds. The Kelvin sign is both equal to and greater than `k`; the dotless i is neither less than, equal to nor greater
than `i`, and yet both at most and at least `i`. -/
theorem C139_consistent_false (R : Rest) (U : Runes) :
    applyOp (P := go (R.withCase U)) .equal (.string (Utf8.text [0x212A])) (.string (lit "k")) = .ok (.boolean true) ∧
    applyOp (P := go (R.withCase U)) .greaterThan (.string (Utf8.text [0x212A])) (.string (lit "k")) = .ok (.boolean true) ∧
    applyOp (P := go (R.withCase U)) .lessThan (.string (Utf8.text [0x131])) (.string (lit "i")) = .ok (.boolean false) ∧
    applyOp (P := go (R.withCase U)) .equal (.string (Utf8.text [0x131])) (.string (lit "i")) = .ok (.boolean false) ∧
    applyOp (P := go (R.withCase U)) .greaterThan (.string (Utf8.text [0x131])) (.string (lit "i")) = .ok (.boolean false) ∧
    applyOp (P := go (R.withCase U)) .lessThanOrEqual (.string (Utf8.text [0x131])) (.string (lit "i")) = .ok (.boolean true) := by
  have r1 : Utf8.runes (Utf8.text [0x212A]) = [0x212A] := by decide
  have r2 : Utf8.runes (Utf8.text [0x131]) = [0x131] := by decide
  have u1 : upperText U (Utf8.text [0x212A]) = Utf8.text [0x212A] := by unfold upperText; rw [r1]; rfl
  have u2 : upperText U (Utf8.text [0x131]) = lit "I" := by unfold upperText; rw [r2]; rfl
  have u3 : upperText U (lit "k") = lit "K" := rfl
  have u4 : upperText U (lit "i") = lit "I" := rfl
  refine ⟨?_, ?_, ?_, ?_, ?_, ?_⟩
  · show Res.ok (Val.boolean (equalText U _ _)) = _
    unfold equalText
    rw [r1]
    rfl
  · show Res.ok (Val.boolean (strLt (upperText U _) (upperText U _))) = _
    rw [u1, u3, show strLt (lit "K") (Utf8.text [0x212A]) = true by decide]
  · show Res.ok (Val.boolean (strLt (upperText U _) (upperText U _))) = _
    rw [u2, u4, show strLt (lit "I") (lit "I") = false by decide]
  · show Res.ok (Val.boolean (equalText U _ _)) = _
    unfold equalText
    rw [r2]
    rfl
  · show Res.ok (Val.boolean (strLt (upperText U _) (upperText U _))) = _
    rw [u2, u4, show strLt (lit "I") (lit "I") = false by decide]
  · show Res.ok (Val.boolean (!strLt (upperText U _) (upperText U _))) = _
    rw [u2, u4, show strLt (lit "I") (lit "I") = false by decide]
    rfl

/-- Refuted: texts with other bytes are unequal, letter case aside. All bytes that are no UTF-8 are one character. -/
theorem C139_bytes_false (R : Rest) (U : Runes) :
    applyOp (P := go (R.withCase U)) .equal (.string [0xFE#8]) (.string [0xFF#8]) = .ok (.boolean true) ∧
    applyOp (P := go (R.withCase U)) .equal (.string [0xFE#8]) (.string (Utf8.text [0xFFFD])) = .ok (.boolean true) := by
  constructor <;> (show Res.ok (Val.boolean (equalText U _ _)) = _; unfold equalText; rw [beq_iff_eq.2]; rfl)

/-! ## Upper, Lower, IndexOf -/

/-- A small ASCII letter. -/
def smallByte (b : Byte) : Byte := if 65 ≤ b.toNat ∧ b.toNat ≤ 90 then b + 32#8 else b

/-- **Upper and Lower change the letters of an ASCII text and nothing else.** -/
theorem C139_upper_lower (R : Rest) (U : Runes) {s : Str} (h : ∀ b ∈ s, b.toNat < 128) :
    call (P := go (R.withCase U)) .upper [.string s] = .ok (.string (s.map Text.upperByte)) ∧
    call (P := go (R.withCase U)) .lower [.string s] = .ok (.string (s.map smallByte)) := by
  constructor
  · show Res.ok (Val.string (upperText U s)) = _
    rw [upperText_ascii U h]
  · show Res.ok (Val.string (lowerText U s)) = _
    unfold lowerText
    rw [runes_ascii h, List.map_map, text_of_ascii]
    · rw [List.map_map]
      congr 2
      refine List.map_congr_left fun b hb => ?_
      have hb := h b hb
      show BitVec.ofNat 8 (toLower U b.toNat) = smallByte b
      unfold toLower smallByte
      rw [if_pos hb]
      split
      · apply BitVec.eq_of_toNat_eq
        rw [BitVec.toNat_ofNat, BitVec.toNat_add]
        simp
      · simp
    · intro c hc
      obtain ⟨b, hb, rfl⟩ := List.mem_map.1 hc
      have hb := h b hb
      show toLower U b.toNat < 128
      unfold toLower
      rw [if_pos hb]
      split <;> omega

/-- Refuted: Upper and Lower keep what has no letter case. Bytes that are no UTF-8 become U+FFFD, three bytes each. -/
theorem C139_upper_false (R : Rest) (U : Runes) :
    call (P := go (R.withCase U)) .upper [.string [0xFF#8]] = .ok (.string [0xEF#8, 0xBF#8, 0xBD#8]) ∧
    call (P := go (R.withCase U)) .lower [.string [0xFF#8]] = .ok (.string [0xEF#8, 0xBF#8, 0xBD#8]) := by
  have e : Utf8.runes [0xFF#8] = [0xFFFD] := by decide
  have t : Utf8.text [0xFFFD] = [0xEF#8, 0xBF#8, 0xBD#8] := by decide
  constructor
  · show Res.ok (Val.string (upperText U _)) = _
    unfold upperText
    rw [e, List.map_cons, List.map_nil, show toUpper U 0xFFFD = U.upper 0xFFFD from rfl, U.upper_error, t]
  · show Res.ok (Val.string (lowerText U _)) = _
    unfold lowerText
    rw [e, List.map_cons, List.map_nil, show toLower U 0xFFFD = U.lower 0xFFFD from rfl, U.lower_error, t]

/-- **IndexOf with letter case aside is the position of the first occurrence in an ASCII text**, as it is with letter case. -/
theorem C139_index_of (R : Rest) (U : Runes) {s t : Str} (hs : ∀ b ∈ s, b.toNat < 128) (ht : ∀ b ∈ t, b.toNat < 128) (hl : s.length < 2 ^ 31) :
    ∃ r : BitVec 32, call (P := go (R.withCase U)) .indexOf [.string s, .string t, .boolean true] = .ok (.int32 r) ∧
      ((r.toInt = -1 ∧ ∀ i, ¬ OccursAt (s.map Text.upperByte) (t.map Text.upperByte) i) ∨
       ∃ i : Nat, r.toInt = i ∧ OccursAt (s.map Text.upperByte) (t.map Text.upperByte) i ∧
         ∀ j < i, ¬ OccursAt (s.map Text.upperByte) (t.map Text.upperByte) j) := by
  have e : ∀ {x : Str}, (∀ b ∈ x, b.toNat < 128) → fold (go (R.withCase U)) (!true) x = x.map Text.upperByte := fun h => upperText_ascii U h
  have h := C53_index_of (P := go (R.withCase U)) s t (.some true) (by rw [e hs, List.length_map]; exact hl)
  rwa [e hs, e ht] at h

/-- Refuted: beyond ASCII it is a position in another text. `a` stands at byte 2 of a long s and `a`; with letter case aside IndexOf gives 1. -/
theorem C139_index_of_false (R : Rest) (U : Runes) :
    call (P := go (R.withCase U)) .indexOf [.string (Utf8.text [0x17F, 0x61]), .string (lit "a"), .boolean false] = .ok (.int32 2) ∧
    call (P := go (R.withCase U)) .indexOf [.string (Utf8.text [0x17F, 0x61]), .string (lit "a"), .boolean true] = .ok (.int32 1) := ⟨rfl, rfl⟩

/-- Refuted: Split gives what stands between delimiters. With letter case aside it cuts the text where the delimiters stand in the capitals: of a long s, `a`,
`X` and `b` the part before `X` lacks the `a`; and where the capitals take more bytes it panics. -/
theorem C139_split_false (R : Rest) (U : Runes) :
    call (P := go (R.withCase U)) .split [.string (Utf8.text [0x17F, 97, 88, 98]), .string (lit "X"), .int32 0, .boolean false] =
      .ok (.string (Utf8.text [0x17F, 97])) ∧
    call (P := go (R.withCase U)) .split [.string (Utf8.text [0x17F, 97, 88, 98]), .string (lit "X"), .int32 0, .boolean true] =
      .ok (.string (Utf8.text [0x17F])) ∧
    call (P := go (R.withCase U)) .split [.string [0xFF#8, 0xFF#8, 88#8], .string (lit "X"), .int32 0, .boolean true] = .panic := by
  have r1 : Utf8.runes (Utf8.text [0x17F, 97, 88, 98]) = [0x17F, 97, 88, 98] := by decide
  have r2 : Utf8.runes [0xFF#8, 0xFF#8, 88#8] = [0xFFFD, 0xFFFD, 88] := by decide
  have u1 : upperText U (Utf8.text [0x17F, 97, 88, 98]) = lit "SAXB" := by unfold upperText; rw [r1]; rfl
  have u2 : upperText U [0xFF#8, 0xFF#8, 88#8] = Utf8.text [0xFFFD, 0xFFFD, 88] := by
    unfold upperText
    rw [r2]
    show Utf8.text [U.upper 0xFFFD, U.upper 0xFFFD, 88] = _
    rw [U.upper_error]
  have u3 : upperText U (lit "X") = lit "X" := rfl
  have h : ∀ s : Str, call (P := go (R.withCase U)) .split [.string s, .string (lit "X"), .int32 0, .boolean true] =
      (splitNthIndex (upperText U s) (upperText U (lit "X")) 0 >>= fun r => match r with
        | none => pure (.string [])
        | some (a, b) => do return .string (← slice s a b)) := fun _ => rfl
  refine ⟨rfl, ?_, ?_⟩
  · rw [h, u1, u3]
    rfl
  · rw [h, u2, u3]
    rfl

/-! ## Acronyms and names -/

/-- **Two characters only have the capital V**, as is taken of phasor types. -/
theorem C58_voltage (U : Runes) (r : Nat) : toUpper U r = 86 ↔ r = 86 ∨ r = 118 := by
  have := upper_iff U (r := r) (b := 86#8) (by decide)
  have e : toUpper U (86#8).toNat = 86 := rfl
  rw [e] at this
  rw [this]
  constructor
  · rintro (h | ⟨i, hi, _, h⟩ | ⟨i, hi, h, g⟩ | ⟨_, h⟩ | ⟨_, h⟩)
    · exact .inl h
    · have h : 86 = 97 + i := h
      omega
    · have g : 86 = 65 + i := g
      omega
    · exact absurd h (by decide)
    · exact absurd h (by decide)
  · rintro (rfl | rfl)
    · exact .inl rfl
    · exact .inr (.inr (.inl ⟨21, by omega, rfl, rfl⟩))

/-- Refuted: acronyms of signal kinds are the listed ones. With a long s, `SF` is still taken for status flags. -/
theorem C58_acronym_false (U : Runes) : Meta.parseAcronym (goText (upperText U)) (Utf8.text [0x17F, 0x66]) = 4 := by
  have : Utf8.runes (Utf8.text [0x17F, 0x66]) = [0x17F, 0x66] := by decide
  have : upperText U (Utf8.text [0x17F, 0x66]) = lit "SF" := by unfold upperText; rw [this]; rfl
  unfold Meta.parseAcronym
  rw [show (goText (upperText U)).upper (Utf8.text [0x17F, 0x66]) = lit "SF" from this]
  rfl

/-- **Convert knows the names of the value types** with the library as written out, nothing being assumed of upper case. -/
theorem C76_convert_names_go (R : Rest) (U : Runes) (v : Val (go (R.withCase U))) {t : VT} (ht : t ≠ .undefined) {n : Str} (h : ∀ b ∈ n, b.toNat < 128)
    (hn : n.map Text.upperByte = Toy.upper (lit t.name) ∨ n.map Text.upperByte = lit "SYSTEM." ++ Toy.upper (lit t.name)) :
    call .convert [v, .string n] = v.convert t := by
  refine C76_convert_names (upperAscii_withCase R U) v t ht n ?_
  show upperText U n = _ ∨ upperText U n = _
  rwa [upperText_ascii U h]

example : (lit "System.iNT32").map Text.upperByte = lit "SYSTEM." ++ Toy.upper (lit VT.int32.name) := by decide

end Verif.Lib
