import Verif.Common.Basic

/-!
# Text functions of Go's library

Texts are lists of bytes. `strings.ToUpper` and `strings.TrimSpace` depend on Unicode tables; they are parameters of which only the
behaviour on ASCII text is ever assumed (`TextLib.Laws`). Splitting, joining and the reading of decimal numbers are written out.
-/

namespace Verif

/-- `strings.ToUpper` and `strings.TrimSpace`. (transport/SignalKind.go L179, xml/XmlNode.go L211, data/DataSet.go L71) -/
structure TextLib where
  upper : List Byte → List Byte
  trim : List Byte → List Byte

namespace Text

/-- Upper case of an ASCII byte. (transport/SignalKind.go L179, xml/XmlNode.go L211, data/DataSet.go L71) -/
def upperByte (b : Byte) : Byte := if 97 ≤ b.toNat ∧ b.toNat ≤ 122 then b - 32#8 else b

/-- ASCII white space: blank, tab, line feed, vertical tab, form feed, carriage return.
(transport/SignalKind.go L179, xml/XmlNode.go L211, data/DataSet.go L71) -/
def isSpace (b : Byte) : Bool := b == 32#8 || (9 ≤ b.toNat && b.toNat ≤ 13)

/-- Text without the white space at its ends. (transport/SignalKind.go L179, xml/XmlNode.go L211, data/DataSet.go L71) -/
def trimAscii (s : List Byte) : List Byte := ((s.dropWhile isSpace).reverse.dropWhile isSpace).reverse

/-- transport/SignalKind.go L179, xml/XmlNode.go L211, data/DataSet.go L71 -/
def Ascii (s : List Byte) : Prop := ∀ b ∈ s, b.toNat < 128

end Text

/-- What is assumed of `strings.ToUpper` and `strings.TrimSpace`. (transport/SignalKind.go L179, xml/XmlNode.go L211, data/DataSet.go L71) -/
structure TextLib.Laws (L : TextLib) : Prop where
  upper_ascii : ∀ s, Text.Ascii s → L.upper s = s.map Text.upperByte
  trim_ascii : ∀ s, Text.Ascii s → L.trim s = Text.trimAscii s
  /-- a text between two ASCII bytes that are not white space is left as it is -/
  trim_ends : ∀ b s c, b.toNat < 128 → Text.isSpace b = false → c.toNat < 128 → Text.isSpace c = false → L.trim (b :: s ++ [c]) = b :: s ++ [c]

/-- A library that meets the laws. (transport/SignalKind.go L179, xml/XmlNode.go L211, data/DataSet.go L71) -/
def TextLib.ascii : TextLib := ⟨fun s => s.map Text.upperByte, Text.trimAscii⟩

theorem TextLib.ascii_laws : TextLib.ascii.Laws := by
  refine ⟨fun _ _ => rfl, fun _ _ => rfl, ?_⟩
  intro b s c _ hb _ hc
  show Text.trimAscii _ = _
  unfold Text.trimAscii
  rw [List.cons_append, List.dropWhile_cons_of_neg (by simp [hb]), ← List.cons_append, List.reverse_append, List.reverse_singleton,
    List.singleton_append, List.dropWhile_cons_of_neg (by simp [hc]), List.reverse_cons, List.reverse_reverse]

namespace Text

/-- `strings.Split(s, sep)` for a separator of one byte. (transport/MeasurementMetadata.go L72, xml/XmlNode.go L156, L208) -/
def split (sep : Byte) : List Byte → List (List Byte)
  | [] => [[]]
  | b :: s =>
    if b = sep then [] :: split sep s
    else match split sep s with
      | [] => [[b]]
      | p :: ps => (b :: p) :: ps

/-- `strings.Join(parts, sep)` for a separator of one byte. (transport/MeasurementMetadata.go L79) -/
def join (sep : Byte) : List (List Byte) → List Byte
  | [] => []
  | [p] => p
  | p :: ps => p ++ sep :: join sep ps

theorem split_ne_nil (sep : Byte) (s : List Byte) : split sep s ≠ [] := by
  cases s with
  | nil => simp [split]
  | cons b s =>
    unfold split
    split
    · simp
    · split <;> simp

theorem join_cons {sep : Byte} {p : List Byte} {ps : List (List Byte)} (h : ps ≠ []) : join sep (p :: ps) = p ++ sep :: join sep ps := by
  cases ps with
  | nil => exact absurd rfl h
  | cons q qs => rfl

/-- Joining what was split gives the text back. -/
theorem join_split (sep : Byte) (s : List Byte) : join sep (split sep s) = s := by
  induction s with
  | nil => rfl
  | cons b s ih =>
    unfold split
    by_cases hb : b = sep
    · rw [if_pos hb, join_cons (split_ne_nil _ _), ih, hb]; rfl
    · rw [if_neg hb]
      cases hs : split sep s with
      | nil => exact absurd hs (split_ne_nil _ _)
      | cons p ps =>
        rw [hs] at ih
        dsimp only
        cases ps with
        | nil => rw [show join sep [p] = p from rfl] at ih; rw [ih]; rfl
        | cons q qs => rw [join_cons (by simp)] at ih ⊢; rw [List.cons_append, ih]

/-- No part contains the separator. -/
theorem split_clean {sep : Byte} {s : List Byte} : ∀ p ∈ split sep s, sep ∉ p := by
  induction s with
  | nil => simp [split]
  | cons b s ih =>
    unfold split
    by_cases hb : b = sep
    · rw [if_pos hb]
      intro p hp
      rcases List.mem_cons.mp hp with rfl | hp
      · simp
      · exact ih p hp
    · rw [if_neg hb]
      cases hs : split sep s with
      | nil => exact absurd hs (split_ne_nil _ _)
      | cons q qs =>
        rw [hs] at ih
        intro p hp
        rcases List.mem_cons.mp hp with rfl | hp
        · intro h
          rcases List.mem_cons.mp h with h | h
          · exact hb h.symm
          · exact ih q (by simp) h
        · exact ih p (by simp [hp])

theorem split_clean_eq {sep : Byte} {s : List Byte} (h : sep ∉ s) : split sep s = [s] := by
  induction s with
  | nil => rfl
  | cons b s ih =>
    unfold split
    rw [if_neg (fun e => h (by simp [e])), ih (fun hs => h (by simp [hs]))]

theorem split_cons (sep b : Byte) (s : List Byte) : split sep (b :: s) = if b = sep then [] :: split sep s
    else match split sep s with
      | [] => [[b]]
      | p :: ps => (b :: p) :: ps := rfl

theorem split_append (sep : Byte) (s t : List Byte) : split sep (s ++ sep :: t) = split sep s ++ split sep t := by
  induction s with
  | nil => simp [split]
  | cons b s ih =>
    rw [List.cons_append, split_cons, split_cons]
    by_cases hb : b = sep
    · rw [if_pos hb, if_pos hb, ih, List.cons_append]
    · rw [if_neg hb, if_neg hb, ih]
      cases hs : split sep s with
      | nil => exact absurd hs (split_ne_nil _ _)
      | cons p ps => rfl

/-- Splitting what was joined from clean parts gives the parts back. -/
theorem split_join {sep : Byte} {ps : List (List Byte)} (hne : ps ≠ []) (h : ∀ p ∈ ps, sep ∉ p) : split sep (join sep ps) = ps := by
  induction ps with
  | nil => exact absurd rfl hne
  | cons p ps ih =>
    cases ps with
    | nil => exact split_clean_eq (h p (by simp))
    | cons q qs =>
      rw [join_cons (by simp), split_append, split_clean_eq (h p (by simp)), ih (by simp) (fun r hr => h r (by simp [hr]))]
      rfl

theorem split_length (sep : Byte) (s : List Byte) : (split sep s).length = s.count sep + 1 := by
  induction s with
  | nil => rfl
  | cons b s ih =>
    unfold split
    by_cases hb : b = sep
    · rw [if_pos hb, List.length_cons, ih, hb, List.count_cons_self]
    · rw [if_neg hb, List.count_cons_of_ne hb]
      cases hs : split sep s with
      | nil => exact absurd hs (split_ne_nil _ _)
      | cons p ps => rw [hs] at ih; simpa using ih

/-! ### Decimal numbers -/

/-- What `strconv.ParseUint(s, 10, 64)` finds: no number, a number too large, or a number. (Subscriber.go L579) -/
inductive Parsed where
  | bad
  | large
  | value (n : Nat)
  deriving DecidableEq, Repr

/-- The loop of `strconv.ParseUint` for base 10 and 64 bits, which stops at the first byte that is no digit or that makes the number
too large. (Subscriber.go L579) -/
def parseUintLoop : List Byte → Nat → Parsed
  | [], n => .value n
  | b :: s, n =>
    if 48 ≤ b.toNat ∧ b.toNat ≤ 57 then
      if n * 10 + (b.toNat - 48) < 2 ^ 64 then parseUintLoop s (n * 10 + (b.toNat - 48)) else .large
    else .bad

/-- `strconv.ParseUint(s, 10, 64)` (Subscriber.go L579) -/
def parseUint (s : List Byte) : Parsed := if s = [] then .bad else parseUintLoop s 0

/-- `n, _ := strconv.ParseUint(s, 10, 64)`: 0 for no number, the largest for one too large. (Subscriber.go L579) -/
def uintOrZero (s : List Byte) : Nat :=
  match parseUint s with
  | .bad => 0
  | .large => 2 ^ 64 - 1
  | .value n => n

/-- A sign and the rest. (transport/MeasurementMetadata.go L78) -/
def sign (s : List Byte) : Bool × List Byte :=
  match s with
  | b :: t => if b = 45#8 then (true, t) else if b = 43#8 then (false, t) else (false, s)
  | [] => (false, [])

/-- `n, _ := strconv.Atoi(s)` with ints of 64 bits: an optional sign and digits; 0 for no number, the nearest int for one too large.
(transport/MeasurementMetadata.go L78) -/
def atoiOrZero (s : List Byte) : Int :=
  let (neg, digits) := sign s
  match parseUint digits with
  | .bad => 0
  | .large => if neg then -2 ^ 63 else 2 ^ 63 - 1
  | .value n => if neg then (if n > 2 ^ 63 then -2 ^ 63 else -(n : Int)) else if n ≥ 2 ^ 63 then 2 ^ 63 - 1 else n

end Text

end Verif
