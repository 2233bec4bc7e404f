import Verif.Xml.Decode

/-!
# C120: what a document is

The documents that `LoadXml` is to accept, and the element trees they stand for, said without reading them: which bytes make a name, a text, a start tag,
an element. Apart from what is noted these are the well formed documents of XML 1.0 with name spaces.
-/

namespace Verif.Xml

open Verif.Expr (lit)

/-- Blanks only. -/
def Blank (s : Str) : Prop := ∀ b ∈ s, b = 32#8 ∨ b = 9#8 ∨ b = 10#8 ∨ b = 13#8

/-- A text is UTF-8 with characters allowed in documents only. -/
def Chars (s : Str) : Prop := ∃ rs : List Nat, s = Utf8.text rs ∧ ∀ r ∈ rs, Utf8.Valid r ∧ (r = 9 ∨ r = 10 ∨ r = 13 ∨ 32 ≤ r) ∧ r ≠ 0xFFFE ∧ r ≠ 0xFFFF

/-- A text is a name: UTF-8, the first character one that names may begin with, the others ones that may come later. -/
def IsName (T : NameLib) (n : Str) : Prop :=
  ∃ r rs, n = Utf8.text (r :: rs) ∧ (∀ x ∈ r :: rs, Utf8.Valid x) ∧ T.begins r = true ∧ ∀ x ∈ rs, T.follows x = true

/-- A name as written in a tag, and its prefix and local part. A colon that has nothing before it or after it belongs to the local part; this is
more than XML allows. -/
inductive QNameText (T : NameLib) : Str → QName → Prop
  | plain {n : Str} : IsName T n → 58#8 ∉ n → QNameText T n ([], n)
  | prefixed {p l : Str} : IsName T (p ++ 58#8 :: l) → p ≠ [] → l ≠ [] → 58#8 ∉ p → 58#8 ∉ l → QNameText T (p ++ 58#8 :: l) (p, l)
  | first {l : Str} : IsName T (58#8 :: l) → 58#8 ∉ l → QNameText T (58#8 :: l) ([], 58#8 :: l)
  | last {p : Str} : IsName T (p ++ [58#8]) → 58#8 ∉ p → QNameText T (p ++ [58#8]) ([], p ++ [58#8])

/-- What is between `&` and `;` for a character. -/
inductive EntityText : Str → Nat → Prop
  | lt : EntityText (lit "lt") 60
  | gt : EntityText (lit "gt") 62
  | amp : EntityText (lit "amp") 38
  | apos : EntityText (lit "apos") 39
  | quot : EntityText (lit "quot") 34
  | decimal {ds : Str} : ds ≠ [] → (∀ b ∈ ds, isDigit 10 b = true) → digitsValue 10 ds ≤ 0x10FFFF → EntityText (35#8 :: ds) (digitsValue 10 ds)
  | hex {ds : Str} : ds ≠ [] → (∀ b ∈ ds, isDigit 16 b = true) → digitsValue 16 ds ≤ 0x10FFFF →
      EntityText (35#8 :: 120#8 :: ds) (digitsValue 16 ds)

/-- A text as written and what it says, within quotes or outside (`none`): characters stand for themselves, line ends for `\n`, entities for the
character they name. -/
inductive TextBytes (q : Option Byte) : Str → Str → Prop
  | nil : TextBytes q [] []
  | byte {b : Byte} {raw out : Str} : b ≠ 38#8 → b ≠ 60#8 → b ≠ 13#8 → q ≠ some b → TextBytes q raw out → TextBytes q (b :: raw) (b :: out)
  | crlf {raw out : Str} : TextBytes q raw out → TextBytes q (13#8 :: 10#8 :: raw) (10#8 :: out)
  | cr {raw out : Str} : raw.head? ≠ some 10#8 → TextBytes q raw out → TextBytes q (13#8 :: raw) (10#8 :: out)
  | entity {e : Str} {r : Nat} {raw out : Str} : EntityText e r → TextBytes q raw out → TextBytes q (38#8 :: e ++ 59#8 :: raw) (Utf8.encode r ++ out)

/-- A text and the same with each line end as `\n`. -/
inductive LineEnds : Str → Str → Prop
  | nil : LineEnds [] []
  | byte {b : Byte} {raw out : Str} : b ≠ 13#8 → LineEnds raw out → LineEnds (b :: raw) (b :: out)
  | crlf {raw out : Str} : LineEnds raw out → LineEnds (13#8 :: 10#8 :: raw) (10#8 :: out)
  | cr {raw out : Str} : raw.head? ≠ some 10#8 → LineEnds raw out → LineEnds (13#8 :: raw) (10#8 :: out)

/-- Text between tags. -/
def TextRun (raw : Str) : Prop := raw ≠ [] ∧ ¬ lit "]]>" <:+: raw ∧ ∃ out, TextBytes none raw out ∧ Chars out

/-- The attributes of a start tag as written, and their names and values. Blanks between attributes may be missing; XML asks for them. -/
inductive AttrsText (T : NameLib) : Str → List (QName × Str) → Prop
  | nil : AttrsText T [] []
  | cons {sp n s1 s2 raw v more : Str} {q : QName} {b : Byte} {as : List (QName × Str)} : Blank sp → QNameText T n q → Blank s1 → Blank s2 →
      b = 34#8 ∨ b = 39#8 → TextBytes (some b) raw v → Chars v → AttrsText T more as →
      AttrsText T (sp ++ (n ++ (s1 ++ 61#8 :: (s2 ++ b :: (raw ++ b :: more))))) ((q, v) :: as)

/-- What is left of a directive such as a document type, with its `>`: within which quotes it begins and how many brackets are open. -/
inductive DirText : Option Byte → Nat → Str → Prop
  | stop : DirText none 0 [62#8]
  | unquote {b : Byte} {d : Nat} {raw : Str} : DirText none d raw → DirText (some b) d (b :: raw)
  | quoted {b c : Byte} {d : Nat} {raw : Str} : b ≠ c → DirText (some b) d raw → DirText (some b) d (c :: raw)
  | quote {b : Byte} {d : Nat} {raw : Str} : b = 39#8 ∨ b = 34#8 → DirText (some b) d raw → DirText none d (b :: raw)
  | up {d : Nat} {raw : Str} : DirText none d raw → DirText none (d + 1) (62#8 :: raw)
  | comment {c : Str} {d : Nat} {raw : Str} : ¬ lit "-->" <:+: c ++ lit "--" → DirText none d raw →
      DirText none d (60#8 :: (lit "!--" ++ (c ++ (lit "-->" ++ raw))))
  | down {d : Nat} {raw : Str} : ¬ lit "!--" <+: raw → DirText none (d + 1) raw → DirText none d (60#8 :: raw)
  | other {b : Byte} {d : Nat} {raw : Str} : b ≠ 39#8 → b ≠ 34#8 → b ≠ 62#8 → b ≠ 60#8 → DirText none d raw → DirText none d (b :: raw)

/-- What is not looked at: comments, instructions, CDATA, directives. -/
inductive Misc (T : NameLib) : Str → Prop
  | comment {c : Str} : ¬ lit "--" <:+: c ++ lit "-" → Misc T (lit "<!--" ++ (c ++ lit "-->"))
  | inst {n sp data : Str} : IsName T n → Blank sp → (∀ b, (sp ++ (data ++ lit "?>")).head? = some b → inName b = false) →
      (∀ b, data.head? = some b → isSpaceByte b = false) → ¬ lit "?>" <:+: data → (n = lit "xml" → declOk data = true) →
      Misc T (lit "<?" ++ (n ++ (sp ++ (data ++ lit "?>"))))
  | cdata {c out : Str} : ¬ lit "]]>" <:+: c → LineEnds c out → Chars out → Misc T (lit "<![CDATA[" ++ (c ++ lit "]]>"))
  | directive {b : Byte} {raw : Str} : b ≠ 45#8 → b ≠ 91#8 → DirText none 0 raw → Misc T (lit "<!" ++ b :: raw)

/-- The attributes of an element and of those around it, the nearest first. -/
abbrev Scope := List (QName × Str)

/-- The name space declared for a prefix, by the nearest declaration. -/
def declared (scope : Scope) (p : Str) : Option Str :=
  (scope.find? fun a => if p = [] then a.1 = ([], xmlns) ∨ a.1 = (xmlns, []) else a.1 = (xmlns, p)).map Prod.snd

/-- The name space of a name: that declared for its prefix; attributes without prefix are in none, `xmlns` and `xml` are what they are, and a
prefix that is not declared is the name space itself. -/
def spaceFor (scope : Scope) (q : QName) (element : Bool) : Str :=
  if q.1 = xmlns then xmlns
  else if q.1 = lit "xml" then xmlURL
  else if q.1 = [] then (if element ∧ q.2 ≠ xmlns then (declared scope []).getD [] else [])
  else (declared scope q.1).getD q.1

/-- The node of an element: its local name, its name space, its attributes in order, the bytes between its tags, its child elements. -/
def nodeIn (scope : Scope) (q : QName) (attrs : List (QName × Str)) (inner : Str) (children : List Tree) : Tree :=
  .node q.2 (spaceFor scope q true) (attrs.map fun a => (a.1.2, spaceFor scope a.1 false, a.2)) inner children

mutual
/-- An element as written, within a scope, and its tree. -/
inductive Element (T : NameLib) : Scope → Str → Tree → Prop
  | empty {scope : Scope} {n a sp : Str} {q : QName} {as : List (QName × Str)} : QNameText T n q → AttrsText T a as → Blank sp →
      (∀ b, (a ++ sp).head? = some b → inName b = false) →
      Element T scope (60#8 :: (n ++ (a ++ (sp ++ lit "/>")))) (nodeIn (as.reverse ++ scope) q as [] [])
  | full {scope : Scope} {n a sp sp' body : Str} {q : QName} {as : List (QName × Str)} {cs : List Tree} : QNameText T n q → AttrsText T a as →
      Blank sp → (∀ b, (a ++ sp).head? = some b → inName b = false) → Content T (as.reverse ++ scope) body cs → Blank sp' →
      Element T scope (60#8 :: (n ++ (a ++ (sp ++ 62#8 :: (body ++ (lit "</" ++ (n ++ (sp' ++ lit ">")))))))) (nodeIn (as.reverse ++ scope) q as body cs)
/-- What is between the tags of an element, and the child elements in it. Text ends where something with a `<` begins. -/
inductive Content (T : NameLib) : Scope → Str → List Tree → Prop
  | nil {scope : Scope} : Content T scope [] []
  | misc {scope : Scope} {raw rest : Str} {cs : List Tree} : Misc T raw → Content T scope rest cs → Content T scope (raw ++ rest) cs
  | text {scope : Scope} {raw rest : Str} {cs : List Tree} : TextRun raw → (∀ b, rest.head? = some b → b = 60#8) → Content T scope rest cs →
      Content T scope (raw ++ rest) cs
  | element {scope : Scope} {raw rest : Str} {t : Tree} {cs : List Tree} : Element T scope raw t → Content T scope rest cs →
      Content T scope (raw ++ rest) (t :: cs)
end

/-- What may come before the root. XML does not allow text there other than blanks, nor a declaration elsewhere than at the beginning. -/
inductive Prolog (T : NameLib) : Str → Prop
  | nil : Prolog T []
  | misc {raw rest : Str} : Misc T raw → Prolog T rest → Prolog T (raw ++ rest)
  | text {raw rest : Str} : TextRun raw → (∀ b, rest.head? = some b → b = 60#8) → Prolog T rest → Prolog T (raw ++ rest)

end Verif.Xml
