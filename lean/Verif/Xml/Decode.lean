import Verif.Common.Utf8
import Verif.Expr.Prim
import Verif.Xml.Load

/-!
# C120: reading a document (xml/XmlDocument.go L78-112)

`LoadXml` gives the bytes to the decoder of Go's encoding/xml and has every element read into an `XmlNode`: its name, its attributes, the bytes between
its tags (`InnerXml`) and its child elements (`ChildNodes`). Here is what that decoder does, written out from encoding/xml (Go 1.22, as go.mod asks; with
the settings of `NewDecoder`: strict, no entities of its own, no reader of other character sets). An error is `none`, whatever its message. The stack of
open elements of the decoder is here the recursion of `content`, its table of name spaces is handed down to the elements it holds for. What comes after
the end tag of the root is not read.
-/

namespace Verif.Xml

open Verif.Expr (lit)

/-- The tables `first` and `second` of encoding/xml, of characters that names may begin with and of others in names, beyond ASCII. (xml/XmlDocument.go L99) -/
structure NameLib where
  first : Nat → Bool
  second : Nat → Bool

/-- A name as written: prefix and local part (`xml.Name` before `translate`). (xml/XmlDocument.go L86-87) -/
abbrev QName := Str × Str

/-- `isNameByte` of encoding/xml. (xml/XmlDocument.go L99) -/
def isNameByte (b : Byte) : Bool :=
  (65 ≤ b.toNat && b.toNat ≤ 90) || (97 ≤ b.toNat && b.toNat ≤ 122) || (48 ≤ b.toNat && b.toNat ≤ 57) ||
    b.toNat == 95 || b.toNat == 58 || b.toNat == 46 || b.toNat == 45

/-- A byte that `readName` of encoding/xml reads on over. (xml/XmlDocument.go L99) -/
def inName (b : Byte) : Bool := 128 ≤ b.toNat || isNameByte b

/-- A byte that `Decoder.space` skips. (xml/XmlDocument.go L99) -/
def isSpaceByte (b : Byte) : Bool := b == 32#8 || b == 13#8 || b == 10#8 || b == 9#8

/-- `Decoder.space` (xml/XmlDocument.go L99) -/
def skipSpace (s : List Byte) : List Byte := s.dropWhile isSpaceByte

/-- A character that a name may begin with. U+FFFD, as which bytes that are no UTF-8 are read, is none. (xml/XmlDocument.go L99) -/
def NameLib.begins (T : NameLib) (r : Nat) : Bool :=
  if r < 128 then (65 ≤ r && r ≤ 90) || (97 ≤ r && r ≤ 122) || r == 95 || r == 58 else r != Utf8.runeError && T.first r

/-- A character that may come later in a name. (xml/XmlDocument.go L99) -/
def NameLib.follows (T : NameLib) (r : Nat) : Bool :=
  T.begins r || if r < 128 then (48 ≤ r && r ≤ 57) || r == 46 || r == 45 else r != Utf8.runeError && T.second r

/-- `isName` of encoding/xml. (xml/XmlDocument.go L99) -/
def isName (T : NameLib) (s : Str) : Bool :=
  match Utf8.runes s with
  | [] => false
  | r :: rs => T.begins r && rs.all T.follows

/-- `Decoder.readName`: after the name there has to be something. (xml/XmlDocument.go L99) -/
def readName (s : List Byte) : Option (Str × List Byte) :=
  if s.takeWhile inName = [] ∨ s.dropWhile inName = [] then none else some (s.takeWhile inName, s.dropWhile inName)

/-- `Decoder.name` (xml/XmlDocument.go L99) -/
def readTarget (T : NameLib) (s : List Byte) : Option (Str × List Byte) :=
  match readName s with
  | none => none
  | some (n, s) => if isName T n then some (n, s) else none

/-- `strings.Cut` at the colon, as `Decoder.nsname` uses it. (xml/XmlDocument.go L99) -/
def qualify (n : Str) : QName :=
  if 58#8 ∉ n ∨ n.takeWhile (· != 58#8) = [] ∨ (n.dropWhile (· != 58#8)).tail = [] then ([], n)
  else (n.takeWhile (· != 58#8), (n.dropWhile (· != 58#8)).tail)

/-- `Decoder.nsname` (xml/XmlDocument.go L99) -/
def readQName (T : NameLib) (s : List Byte) : Option (QName × List Byte) :=
  match readTarget T s with
  | none => none
  | some (n, s) => if n.count 58#8 > 1 then none else some (qualify n, s)

/-- The bytes before the first occurrence of `stop`, and those after it. (the loops of `rawToken` of encoding/xml and `strings.Index`, xml/XmlDocument.go L99) -/
def upTo (stop : List Byte) : List Byte → Option (Str × List Byte)
  | [] => if stop <+: [] then some ([], []) else none
  | b :: s => if stop <+: b :: s then some ([], (b :: s).drop stop.length) else (upTo stop s).map fun p => (b :: p.1, p.2)

/-- The byte that has to come next. (`mustgetc` of encoding/xml, xml/XmlDocument.go L99) -/
def expectByte (b : Byte) : List Byte → Option (List Byte)
  | [] => none
  | c :: s => if c = b then some s else none

/-- `isInCharacterRange` of encoding/xml. (xml/XmlDocument.go L99) -/
def inRange (r : Nat) : Bool :=
  r == 9 || r == 10 || r == 13 || (0x20 ≤ r && r ≤ 0xD7FF) || (0xE000 ≤ r && r ≤ 0xFFFD) || (0x10000 ≤ r && r ≤ 0x10FFFF)

/-- The loop at the end of `Decoder.text`, `n` bytes at most. (xml/XmlDocument.go L99) -/
def charsAux : Nat → List Byte → Bool
  | 0, s => s.isEmpty
  | n + 1, s =>
    s.isEmpty || (!((Utf8.decode s).1 == Utf8.runeError && (Utf8.decode s).2 == 1) && inRange (Utf8.decode s).1 && charsAux n (s.drop (Utf8.decode s).2))

/-- Whether a text is UTF-8 with allowed characters only (the loop at the end of `Decoder.text`). (xml/XmlDocument.go L99) -/
def charsOk (s : List Byte) : Bool := charsAux s.length s

/-- A digit to a base, 10 or 16. (`Decoder.text`, xml/XmlDocument.go L99) -/
def isDigit (base : Nat) (b : Byte) : Bool :=
  (48 ≤ b.toNat && b.toNat ≤ 57) || (base == 16 && ((97 ≤ b.toNat && b.toNat ≤ 102) || (65 ≤ b.toNat && b.toNat ≤ 70)))

/-- Its value. (`strconv.ParseUint` within `Decoder.text`, xml/XmlDocument.go L99) -/
def digitValue (b : Byte) : Nat := if b.toNat ≤ 57 then b.toNat - 48 else if b.toNat ≤ 70 then b.toNat - 55 else b.toNat - 87

/-- `strconv.ParseUint` of digits. (`Decoder.text`, xml/XmlDocument.go L99) -/
def digitsValue (base : Nat) (ds : Str) : Nat := ds.foldl (fun n b => n * base + digitValue b) 0

/-- The digits and the semicolon after `&#` or `&#x` (`Decoder.text`): no digits and numbers beyond the last character are errors. (xml/XmlDocument.go L99) -/
def charNumber (base : Nat) (s : List Byte) : Option (Nat × List Byte) :=
  match expectByte 59#8 (s.dropWhile (isDigit base)) with
  | some rest =>
    if s.takeWhile (isDigit base) = [] ∨ digitsValue base (s.takeWhile (isDigit base)) > 0x10FFFF then none
    else some (digitsValue base (s.takeWhile (isDigit base)), rest)
  | none => none

/-- The characters with names (`entity` of encoding/xml). (xml/XmlDocument.go L99) -/
def charNamed (n : Str) : Option Nat :=
  if n = lit "lt" then some 60
  else if n = lit "gt" then some 62
  else if n = lit "amp" then some 38
  else if n = lit "apos" then some 39
  else if n = lit "quot" then some 34
  else none

/-- What comes after `&` (`Decoder.text`): the character meant. (xml/XmlDocument.go L99) -/
def entity (s : List Byte) : Option (Nat × List Byte) :=
  match expectByte 35#8 s with
  | some s =>
    match expectByte 120#8 s with
    | some s => charNumber 16 s
    | none => charNumber 10 s
  | none =>
    match expectByte 59#8 (s.dropWhile inName) with
    | some rest => (charNamed (s.takeWhile inName)).map fun r => (r, rest)
    | none => none

/-- Writing to the buffer of the decoder before what is read next. (`Decoder.text`, xml/XmlDocument.go L99) -/
def put (out : Str) (r : Option (Str × List Byte)) : Option (Str × List Byte) := r.map fun p => (out ++ p.1, p.2)

/-- `\r` and `\r\n` are read as `\n` (`Decoder.text`). (xml/XmlDocument.go L99) -/
def newline (b1 b : Byte) : Str := if b = 13#8 then [10#8] else if b1 = 13#8 ∧ b = 10#8 then [] else [b]

/-- The loop of `Decoder.text`: `q` is the quote to end at, `b0` and `b1` the two bytes before; a pass of the loop reads at least a byte, so there are
less than `n`. (xml/XmlDocument.go L99) -/
def textAux (q : Option Byte) (cdata : Bool) : Nat → Byte → Byte → List Byte → Option (Str × List Byte)
  | 0, _, _, _ => none
  | _ + 1, _, _, [] => if cdata then none else some ([], [])
  | n + 1, b0, b1, b :: s =>
    if q = none ∧ b0 = 93#8 ∧ b1 = 93#8 ∧ b = 62#8 then (if cdata then some ([], s) else none)
    else if b = 60#8 ∧ cdata = false then (if q = none then some ([], b :: s) else none)
    else if q = some b then some ([], s)
    else if b = 38#8 ∧ cdata = false then
      match entity s with
      | none => none
      | some (r, s) => put (Utf8.encode r) (textAux q cdata n 0#8 0#8 s)
    else put (newline b1 b) (textAux q cdata n b1 b s)

/-- `Decoder.text`; of CDATA the last two bytes, `]]`, do not count. (xml/XmlDocument.go L99) -/
def readText (q : Option Byte) (cdata : Bool) (s : List Byte) : Option (Str × List Byte) :=
  match textAux q cdata (s.length + 1) 0#8 0#8 s with
  | none => none
  | some (t, rest) => if charsOk (if cdata then t.dropLast.dropLast else t) then some (if cdata then t.dropLast.dropLast else t, rest) else none

/-- An attribute (`rawToken`, `attrval`). (xml/XmlDocument.go L99) -/
def readAttr (T : NameLib) (s : List Byte) : Option ((QName × Str) × List Byte) :=
  match readQName T s with
  | none => none
  | some (a, s) =>
    match expectByte 61#8 (skipSpace s) with
    | none => none
    | some s =>
      match skipSpace s with
      | [] => none
      | b :: s => if b = 34#8 ∨ b = 39#8 then (readText (some b) false s).map fun p => ((a, p.1), p.2) else none

/-- The attributes of a start tag and its end; whether it is an empty element. Less than `n` attributes, each having a byte. (`rawToken`, xml/XmlDocument.go L99) -/
def readAttrs (T : NameLib) : Nat → List Byte → Option (List (QName × Str) × Bool × List Byte)
  | 0, _ => none
  | n + 1, s =>
    match skipSpace s with
    | [] => none
    | b :: s =>
      if b = 47#8 then (expectByte 62#8 s).map fun s => ([], true, s)
      else if b = 62#8 then some ([], false, s)
      else
        match readAttr T (b :: s) with
        | none => none
        | some (a, s) => (readAttrs T n s).map fun p => (a :: p.1, p.2)

/-- What `rawToken` gives: start tag, end tag, or what is not looked at (text, comments, instructions, directives). (xml/XmlDocument.go L99) -/
inductive Token where
  | start (name : QName) (attrs : List (QName × Str)) (empty : Bool)
  | close (name : QName)
  | other

/-- `procInst` of encoding/xml: the value of a parameter, empty if there is none. (xml/XmlDocument.go L99) -/
def procInst (param : Str) : Nat → Str → Str
  | 0, _ => []
  | n + 1, s =>
    match upTo param s with
    | some (_, c :: rest) => if c = 39#8 ∨ c = 34#8 then ((upTo [c] rest).map Prod.fst).getD [] else procInst param n rest
    | _ => []

/-- An ASCII letter in lower case. (`strings.EqualFold` within `rawToken`, xml/XmlDocument.go L99) -/
def lowerByte (b : Byte) : Byte := if 65 ≤ b.toNat ∧ b.toNat ≤ 90 then b + 32#8 else b

/-- The declaration is of version 1.0 and UTF-8, if it says (`rawToken`). (xml/XmlDocument.go L99) -/
def declOk (data : Str) : Bool :=
  (procInst (lit "version=") (data.length + 1) data == [] || procInst (lit "version=") (data.length + 1) data == lit "1.0") &&
  (procInst (lit "encoding=") (data.length + 1) data == [] || (procInst (lit "encoding=") (data.length + 1) data).map lowerByte == lit "utf-8")

/-- An instruction, after `<?` (`rawToken`). (xml/XmlDocument.go L99) -/
def readInst (T : NameLib) (s : List Byte) : Option (List Byte) :=
  match readTarget T s with
  | none => none
  | some (target, s) =>
    match upTo (lit "?>") (skipSpace s) with
    | none => none
    | some (data, s) => if target = lit "xml" ∧ declOk data = false then none else some s

/-- A directive, after `<!` and a byte (`rawToken`): quotes and nested brackets are respected, comments skipped. A bracket that begins no comment is read on
from the byte after it; the code reads on from the first byte that differs from `!--`, those before having no effect. (xml/XmlDocument.go L99) -/
def readDirective : Nat → Option Byte → Nat → List Byte → Option (List Byte)
  | 0, _, _, _ => none
  | _ + 1, _, _, [] => none
  | n + 1, q, depth, b :: s =>
    if q = none ∧ b = 62#8 ∧ depth = 0 then some s
    else if q = some b then readDirective n none depth s
    else if q ≠ none then readDirective n q depth s
    else if b = 39#8 ∨ b = 34#8 then readDirective n (some b) depth s
    else if b = 62#8 then readDirective n none (depth - 1) s
    else if b = 60#8 then
      (if lit "!--" <+: s then
        match upTo (lit "-->") (s.drop 3) with
        | none => none
        | some (_, s) => readDirective n none depth s
      else readDirective n none (depth + 1) s)
    else readDirective n none depth s

/-- A comment, after `<!--` (`rawToken`): the first `--` has to be followed by `>`. (xml/XmlDocument.go L99) -/
def readComment (s : List Byte) : Option (List Byte) :=
  match upTo (lit "--") s with
  | none => none
  | some (_, s) => expectByte 62#8 s

/-- What begins with `<!`, after that (`rawToken`). (xml/XmlDocument.go L99) -/
def readBang (s : List Byte) : Option (List Byte) :=
  match s with
  | [] => none
  | b :: s =>
    if b = 45#8 then
      match expectByte 45#8 s with
      | none => none
      | some s => readComment s
    else if b = 91#8 then (if lit "CDATA[" <+: s then (readText none true (s.drop 6)).map Prod.snd else none)
    else readDirective (s.length + 1) none 0 s

/-- An end tag, after `</` (`rawToken`). (xml/XmlDocument.go L99) -/
def readClose (T : NameLib) (s : List Byte) : Option (Token × List Byte) :=
  match readQName T s with
  | none => none
  | some (q, s) =>
    (expectByte 62#8 (skipSpace s)).map fun s => (.close q, s)

/-- A start tag, after `<` (`rawToken`). (xml/XmlDocument.go L99) -/
def readStart (T : NameLib) (s : List Byte) : Option (Token × List Byte) :=
  match readQName T s with
  | none => none
  | some (q, s) => (readAttrs T (s.length + 1) s).map fun p => (.start q p.1 p.2.1, p.2.2)

/-- `rawToken` of encoding/xml. (xml/XmlDocument.go L99) -/
def rawToken (T : NameLib) (s : List Byte) : Option (Token × List Byte) :=
  match s with
  | [] => none
  | b :: s =>
    if b = 60#8 then
      match s with
      | [] => none
      | c :: s =>
        if c = 47#8 then readClose T s
        else if c = 63#8 then (readInst T s).map fun s => (.other, s)
        else if c = 33#8 then (readBang s).map fun s => (.other, s)
        else readStart T (c :: s)
    else (readText none false (b :: s)).map fun p => (.other, p.2)

/-- The name spaces of prefixes, the default one being that of the empty prefix (`Decoder.ns`). (xml/XmlDocument.go L99) -/
abbrev Spaces := Str → Option Str

/-- `xmlnsPrefix` of encoding/xml. (xml/XmlDocument.go L99) -/
def xmlns : Str := lit "xmlns"

/-- `xmlURL` of encoding/xml, the name space of the prefix `xml`. (xml/XmlDocument.go L99) -/
def xmlURL : Str := lit "http://www.w3.org/XML/1998/namespace"

/-- The declarations among the attributes of a start tag (`Decoder.Token`). (xml/XmlDocument.go L99) -/
def declare (ns : Spaces) (attrs : List (QName × Str)) : Spaces :=
  attrs.foldl (fun ns a =>
    if a.1.1 = xmlns then Function.update ns a.1.2 (some a.2)
    else if a.1 = ([], xmlns) then Function.update ns [] (some a.2)
    else ns) ns

/-- The name space of a name, of an element or of an attribute (`Decoder.translate`). (xml/XmlDocument.go L99) -/
def translate (ns : Spaces) (q : QName) (element : Bool) : Str :=
  if q.1 = xmlns then xmlns
  else if q.1 = [] ∧ element = false then []
  else if q = ([], xmlns) then []
  else (ns (if q.1 = lit "xml" then xmlURL else q.1)).getD (if q.1 = lit "xml" then xmlURL else q.1)

/-- The node of an element (`UnmarshalXML`, L80-92); `ns` are the name spaces with those it declares. -/
def nodeOf (ns : Spaces) (q : QName) (attrs : List (QName × Str)) (inner : Str) (children : List Tree) : Tree :=
  .node q.2 (translate ns q true) (attrs.map fun a => (a.1.2, translate ns a.1 false, a.2)) inner children

/-- What is between the tags of an element named `q` and its end tag (the loop of `Decoder.unmarshal`): the child elements, what is left where the end tag
begins, and what is left after it. Every token has a byte, so there are less than `n`. (xml/XmlDocument.go L91, xml/XmlNode.go L40-42) -/
def content (T : NameLib) : Nat → Spaces → QName → List Byte → Option (List Tree × List Byte × List Byte)
  | 0, _, _, _ => none
  | n + 1, ns, q, s =>
    match rawToken T s with
    | none => none
    | some (.other, rest) => content T n ns q rest
    | some (.close q', rest) => if q' = q then some ([], s, rest) else none
    | some (.start q' attrs true, rest) =>
      (content T n ns q rest).map fun p => (nodeOf (declare ns attrs) q' attrs [] [] :: p.1, p.2)
    | some (.start q' attrs false, rest) =>
      match content T n (declare ns attrs) q' rest with
      | none => none
      | some (children, e, rest') =>
        (content T n ns q rest').map fun p => (nodeOf (declare ns attrs) q' attrs (rest.take (rest.length - e.length)) children :: p.1, p.2)

/-- `Decoder.Decode`: what comes before the root is skipped. (xml/XmlDocument.go L99) -/
def decodeAux (T : NameLib) : Nat → List Byte → Option Tree
  | 0, _ => none
  | n + 1, s =>
    match rawToken T s with
    | none => none
    | some (.other, rest) => decodeAux T n rest
    | some (.close _, _) => none
    | some (.start q attrs true, _) => some (nodeOf (declare (fun _ => none) attrs) q attrs [] [])
    | some (.start q attrs false, rest) =>
      (content T (rest.length + 1) (declare (fun _ => none) attrs) q rest).map fun p =>
        nodeOf (declare (fun _ => none) attrs) q attrs (rest.take (rest.length - p.2.1.length)) p.1

/-- The element tree that `LoadXml` decodes, `none` when it fails (xml/XmlDocument.go L95-103). -/
def decode (T : NameLib) (s : List Byte) : Option Tree := decodeAux T (s.length + 1) s

end Verif.Xml
