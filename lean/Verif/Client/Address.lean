import Verif.Common.Text
import Verif.Format.Props

/-!
# Addresses

Go's `net.SplitHostPort` and `strconv.Atoi` (library functions, written out from the library's source), the reading of an address in
`Subscriber.Dial` and `Subscriber.Listen`, and the address `DataSubscriber` hands to `net.Dial` and `net.Listen`.
-/

namespace Verif.Client

/-- `bytealg.IndexByteString` (Subscriber.go L196, L293) -/
def indexByte (b : Byte) : List Byte → Option Nat
  | [] => none
  | c :: cs => if c = b then some 0 else (indexByte b cs).map (· + 1)

/-- `bytealg.LastIndexByteString` (Subscriber.go L196, L293) -/
def lastIndexByte (b : Byte) : List Byte → Option Nat
  | [] => none
  | c :: cs =>
    match lastIndexByte b cs with
    | some i => some (i + 1)
    | none => if c = b then some 0 else none

/-- `:` (Subscriber.go L196, L293) -/
def colon : Byte := 58
/-- `[` (Subscriber.go L196, L293) -/
def lbracket : Byte := 91
/-- `]` (Subscriber.go L196, L293) -/
def rbracket : Byte := 93

/-- The end of `net.SplitHostPort`: no bracket from position `j`, no closing bracket from position `k`. (Subscriber.go L196, L293) -/
def splitRest (a : List Byte) (i j k : Nat) (host : List Byte) : Option (List Byte × List Byte) :=
  if (indexByte lbracket (a.drop j)).isSome then none
  else if (indexByte rbracket (a.drop k)).isSome then none
  else some (host, a.drop (i + 1))

/-- `net.SplitHostPort`; `none` is an error. (Subscriber.go L196, L293) -/
def splitHostPort (a : List Byte) : Option (List Byte × List Byte) :=
  match lastIndexByte colon a with
  | none => none
  | some i =>
    if a.head? = some lbracket then
      match indexByte rbracket a with
      | none => none
      | some e => if e + 1 = i then splitRest a i 1 (e + 1) ((a.take e).drop 1) else none
    else
      let host := a.take i
      if (indexByte colon host).isSome then none else splitRest a i 0 0 host

/-- `strconv.Atoi` with ints of 64 bits; `none` is an error. (Subscriber.go L202, L299) -/
def atoi (s : List Byte) : Option Int :=
  match Text.parseUint (Text.sign s).2 with
  | .value n =>
    if (Text.sign s).1 then if n ≤ 2 ^ 63 then some (-(n : Int)) else none
    else if n < 2 ^ 63 then some n else none
  | _ => none

/-- The reading of an address in `Dial` (Subscriber.go L196-210) and `Listen` (Subscriber.go L293-307): host and port. -/
def readAddress (a : List Byte) : Option (List Byte × BitVec 16) :=
  match splitHostPort a with
  | none => none
  | some (host, portname) =>
    match atoi portname with
    | none => none
    | some port => if port < 1 ∨ port > 65535 then none else some (host, BitVec.ofInt 16 port)

/-- The text given to `net.Dial` (DataSubscriber.go L361) and `net.Listen` (DataSubscriber.go L444). -/
def joinAddress (host : List Byte) (port : BitVec 16) : List Byte := host ++ colon :: Format.decimal port.toNat

end Verif.Client
