import Verif.Session.Model

/-!
# Reading the command channel

`runCommandChannelResponseThread` (DataSubscriber.go L802-808) reads through a `bufio.Reader` with `io.ReadFull`; the
reader, `ReadFull` and the socket are modelled from their documented behaviour.
-/

namespace Verif.Session

/-- The command channel: bytes in the `bufio.Reader`, then what the socket still gives, cut into the pieces in which it
arrives; after the last one the peer has closed the connection. (DataSubscriber.go L801-877) -/
structure Reader where
  buf : List Byte
  chunks : List (List Byte)

/-- Everything still to be read. (DataSubscriber.go L801-877) -/
def Reader.content (r : Reader) : List Byte := r.buf ++ r.chunks.flatten

/-- The default buffer size of `bufio.NewReader`. (DataSubscriber.go L801-877) -/
def bufioSize : Nat := 4096

/-- `net.Conn.Read` into `max` bytes: at most the piece that has arrived; `none` at the end. (DataSubscriber.go L801-877) -/
def sockRead (max : Nat) : List (List Byte) → Option (List Byte × List (List Byte))
  | [] => none
  | c :: cs => if c.length ≤ max then some (c, cs) else some (c.take max, c.drop max :: cs)

/-- `bufio.Reader.Read` into `max > 0` bytes: from the buffer if it holds something; else directly from the socket for
large reads, or through one filling of the buffer. (DataSubscriber.go L801-877) -/
def bufRead (max : Nat) (r : Reader) : Option (List Byte × Reader) :=
  if r.buf ≠ [] then some (r.buf.take max, { r with buf := r.buf.drop max })
  else if max ≥ bufioSize then
    (sockRead max r.chunks).map fun (b, cs) => (b, ⟨[], cs⟩)
  else
    (sockRead bufioSize r.chunks).map fun (b, cs) => (b.take max, ⟨b.drop max, cs⟩)

/-- `io.ReadFull` of `n` bytes: reads until it has them all; `none` when the stream ends before. Every read gives at least
one byte, so `n` reads suffice (`fuel`). (DataSubscriber.go L801-877) -/
def readFullAux : Nat → Nat → Reader → Option (List Byte) × Reader
  | _, 0, r => (some [], r)
  | 0, _ + 1, r => (none, r)
  | fuel + 1, n + 1, r =>
    match bufRead (n + 1) r with
    | none => (none, r)
    | some (b, r) =>
      match readFullAux fuel (n + 1 - b.length) r with
      | (some rest, r) => (some (b ++ rest), r)
      | (none, r) => (none, r)

/-- DataSubscriber.go L801-877 -/
def readFull (n : Nat) (r : Reader) : Option (List Byte) × Reader := readFullAux n n r

/-- What one turn of the loop meets: the surroundings of response processing, and what the two tests of
`ds.disconnecting` (L810, L862) see. -/
structure Turn where
  env : Env
  disconnecting1 : Bool
  disconnecting2 : Bool

/-- One turn of the loop (L805-807): `readPayloadHeader` (L809-859), `readPacket` (L861-877). A failed read ends the
connection; nothing is processed. -/
def turn (cfg : Cfg) (t : Turn) (r : Reader) (s : St) : Res (Reader × St) :=
  match readFull 4 r with
  | (h, r) =>
    if t.disconnecting1 then .ok (r, s)
    else match h with
      | none => .ok (r, s.emit .terminate)
      | some h =>
        match readPayloadHeader cfg (beNat h) s with
        | (s, false) => .ok (r, s)
        | (s, true) =>
          match readFull (beNat h) r with
          | (b, r) =>
            if t.disconnecting2 then .ok (r, s)
            else match b with
              | none => .ok (r, s.emit .terminate)
              | some body => do
                let s ← readPacket cfg t.env body s
                .ok (r, s)

/-- Successive turns. (DataSubscriber.go L801-877) -/
def turns (cfg : Cfg) : List Turn → Reader → St → Res (Reader × St)
  | [], r, s => .ok (r, s)
  | t :: ts, r, s => do
    let (r, s) ← turn cfg t r s
    turns cfg ts r s

end Verif.Session
