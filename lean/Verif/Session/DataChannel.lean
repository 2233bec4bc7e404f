import Verif.Session.Model

/-!
# Model of the UDP data channel of `sttp/transport/DataSubscriber.go`

`bufio.Reader.Read` with an empty buffer and a slice at least as long as that buffer (32768 bytes, above the 4096 of `bufio.NewReader`) reads right
into the slice, so one call gives one datagram, cut off after 32768 bytes. The goroutines of the two channels are taken to process one response
after the other, in any order; `signalIndexCacheMutex` sees to that only for the caches.
-/

namespace Verif.Session

/-- The subscriber and its count of bytes from the data channel (DataSubscriber.go L83). -/
structure Chan where
  st : St
  totalDataChannelBytesReceived : BitVec 64

/-- A turn of the loop of `runDataChannelResponseThread` (DataSubscriber.go L883-896) that reads a datagram. -/
def handleDatagram (cfg : Cfg) (env : Env) (datagram : List Byte) (c : Chan) : Res Chan := do
  let buffer := datagram.take maxPacketSize
  let st ← processServerResponse cfg env buffer c.st
  .ok ⟨st, c.totalDataChannelBytesReceived + BitVec.ofNat 64 buffer.length⟩

/-- What arrives: a packet on the command channel or a datagram. (DataSubscriber.go L801-807, L879-897) -/
inductive Arrival where
  | command (env : Env) (body : List Byte)
  | datagram (env : Env) (body : List Byte)

/-- The thread of its channel handles it (DataSubscriber.go L861-897). -/
def arrive (cfg : Cfg) : Arrival → Chan → Res Chan
  | .command env body, c => do
    let st ← receive cfg env body c.st
    .ok { c with st := st }
  | .datagram env body, c => handleDatagram cfg env body c

/-- Successive arrivals. (DataSubscriber.go L801-807, L879-897) -/
def arriveAll (cfg : Cfg) : List Arrival → Chan → Res Chan
  | [], c => .ok c
  | a :: as, c => do
    let c ← arrive cfg a c
    arriveAll cfg as c

end Verif.Session
