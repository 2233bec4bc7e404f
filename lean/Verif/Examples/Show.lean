import Verif.Ticks.Text
import Verif.Format.Float
import Verif.Format.Model

/-!
# What the examples show

`SimpleSubscribe`, `SimpleSubscribeReverse` and `SimpleResubscribe` take measurements from a reader in a loop; `AdvancedSubscribe` and
`AdvancedSubscribeReverse` have receivers of their own. Both show something at most every five seconds. The loggers are the default ones, so a status
message is a line of standard output and an error message one of standard error (Subscriber.go L692-704).

Simplifications. Instants are nanoseconds of the monotonic clock and `none` is the zero `time.Time`, from which more than five seconds have always passed
(`time.Since` is then the longest duration there is); `Seconds() < 5.0` is decided by the nanoseconds. `receivedNewMeasurements` of the advanced examples
takes a slice where `SetNewMeasurementsReceiver` wants a function of a pointer to a slice, which a compiler refuses; it is modelled as if it were handed
what the pointer is to. What the goroutines of an advanced example do comes one after the other.
-/

namespace Verif.Examples

open Verif.Ticks (bytes)

/-- Where a line goes (Subscriber.go L692-704). -/
inductive Sink where
  | out
  | err
  deriving DecidableEq

/-- A line that is written (Subscriber.go L692-704). -/
abbrev Line := Sink × List Byte

/-- `StatusMessage` with the default logger (Subscriber.go L466-474, L692-696). -/
def status (m : List Byte) : Line := (.out, m)

/-- `ErrorMessage` with the default logger (Subscriber.go L477-485, L700-704). -/
def error (m : List Byte) : Line := (.err, m)

/-- `DefaultConnectionEstablishedReceiver` (Subscriber.go L708-718). -/
def established (listening : Bool) (id : List Byte) : Line :=
  status (bytes "Connection ".toList ++ (if listening then bytes "from".toList else bytes "to".toList) ++ bytes " ".toList ++ id ++
    bytes " established.".toList)

/-- `DefaultConnectionTerminatedReceiver` (Subscriber.go L722-724). -/
def terminated (id : List Byte) : Line := error (bytes "Connection for ".toList ++ id ++ bytes " terminated.".toList)

/-- Five seconds (examples/SimpleSubscribe/SimpleSubscribe.go L50, examples/AdvancedSubscribe/AdvancedSubscribe.go L81). -/
def fiveSeconds : Int := 5000000000

/-- Not `time.Since(lastMessage).Seconds() < 5.0` (examples/SimpleSubscribe/SimpleSubscribe.go L50, examples/AdvancedSubscribe/AdvancedSubscribe.go L81). -/
def due (last : Option Int) (now : Int) : Bool :=
  match last with
  | none => true
  | some t => !decide (now - t < fiveSeconds)

/-- The first message (examples/SimpleSubscribe/SimpleSubscribe.go L53, examples/AdvancedSubscribe/AdvancedSubscribe.go L88). -/
def receiving : Line := status (bytes "Receiving measurements...".toList)

/-! ## The loop of the simple examples -/

/-- A measurement that `NextMeasurement` has returned, with the readings of the clock before and after the message, if there is one, and of the count.
(examples/SimpleSubscribe/SimpleSubscribe.go L48-66) -/
structure Taken where
  check : Int
  done : Int
  total : BitVec 64
  m : Ticks.Measurement

/-- The message of the simple examples (examples/SimpleSubscribe/SimpleSubscribe.go L58-64). -/
def simpleReport (x : Taken) : Line :=
  status (Format.decimal x.total.toNat ++ bytes " measurements received so far. Current measurement:\n    ".toList ++ x.m.text)

/-- One round of the loop: what is shown and `lastMessage` (examples/SimpleSubscribe/SimpleSubscribe.go L47-66). -/
def simpleRound (last : Option Int) (x : Taken) : Option Line × Option Int :=
  if due last x.check then
    match last with
    | none => (some receiving, some x.done)
    | some _ => (some (simpleReport x), some x.done)
  else (none, last)

/-- The loop: for each measurement taken, what is shown (examples/SimpleSubscribe/SimpleSubscribe.go L47-66). -/
def simpleLoop (last : Option Int) : List Taken → List (Option Line)
  | [] => []
  | x :: xs => (simpleRound last x).1 :: simpleLoop (simpleRound last x).2 xs

/-! ## The receivers of the advanced examples -/

/-- `lastMessage` and the count of measurements (examples/AdvancedSubscribe/AdvancedSubscribe.go L38-44, DataSubscriber.go L84). -/
structure Adv where
  last : Option Int
  total : BitVec 64
  deriving DecidableEq

/-- What happens to an advanced example: a connection is made (the receiver is the default one), a cache of signal indexes comes, a packet of measurements
comes, each with the number in its metadata, or the connection is lost. (examples/AdvancedSubscribe/AdvancedSubscribe.go L54-56) -/
inductive AdvEvent where
  | connected (id : List Byte)
  | cache (count : Nat)
  | packet (check done : Int) (ms : List (Ticks.Measurement × BitVec 64))
  | lost (id : List Byte)

/-- One line of the table (examples/AdvancedSubscribe/AdvancedSubscribe.go L101-112). -/
def advRow (x : Ticks.Measurement × BitVec 64) : Res (List Byte) := do
  let v ← Format.float x.1.value 6
  .ok (bytes "\t".toList ++ Format.decimal x.2.toNat ++ bytes "\t".toList ++ Guid.toString x.1.signalID ++ bytes "\t".toList ++ v ++ bytes "\n".toList)

/-- The lines of the table (examples/AdvancedSubscribe/AdvancedSubscribe.go L101-112). -/
def advRows : List (Ticks.Measurement × BitVec 64) → Res (List Byte)
  | [] => .ok []
  | x :: xs => do
    let r ← advRow x
    let rs ← advRows xs
    .ok (r ++ rs)

/-- The message of the advanced examples (examples/AdvancedSubscribe/AdvancedSubscribe.go L92-114); `measurements[0]` panics when there is none. -/
def advReport (total : BitVec 64) (ms : List (Ticks.Measurement × BitVec 64)) : Res (List Byte) := do
  let n ← Format.uint64With total 44#8
  match ms with
  | [] => .panic
  | x :: _ =>
    let rows ← advRows ms
    .ok (n ++ bytes " measurements received so far...\n".toList ++ bytes "Timestamp: ".toList ++ Ticks.text x.1.timestamp ++ bytes "\n".toList ++
      bytes "\tID\tSignal ID\t\t\t\tValue\n".toList ++ rows)

/-- `receivedNewMeasurements` (examples/AdvancedSubscribe/AdvancedSubscribe.go L80-115); the packet is counted after it (DataSubscriber.go L1254-1263). -/
def advPacket (s : Adv) (check done : Int) (ms : List (Ticks.Measurement × BitVec 64)) : Res (Adv × Option Line) :=
  if due s.last check then
    match s.last with
    | none => .ok (⟨some done, s.total + BitVec.ofNat 64 ms.length⟩, some receiving)
    | some _ => do
      let t ← advReport s.total ms
      .ok (⟨some done, s.total + BitVec.ofNat 64 ms.length⟩, some (status t))
  else .ok (⟨s.last, s.total + BitVec.ofNat 64 ms.length⟩, none)

/-- One event: what is shown. A connection begins with a count of zero (DataSubscriber.go L376, L473). `connectionTerminated` calls
`DefaultConnectionEstablishedReceiver`. (examples/AdvancedSubscribe/AdvancedSubscribe.go L76-123) -/
def advStep (listening : Bool) (s : Adv) : AdvEvent → Res (Adv × Option Line)
  | .connected id => .ok (⟨s.last, 0⟩, some (established listening id))
  | .cache n => .ok (s, some (status (bytes "Received signal index cache with ".toList ++ Format.decimal n ++ bytes " mappings".toList)))
  | .packet c d ms => advPacket s c d ms
  | .lost id => .ok (⟨none, s.total⟩, some (established listening id))

/-- The events in turn: for each of them, what is shown. (examples/AdvancedSubscribe/AdvancedSubscribe.go L76-123) -/
def advRun (listening : Bool) (s : Adv) : List AdvEvent → Res (Adv × List (Option Line))
  | [] => .ok (s, [])
  | e :: es => do
    let a ← advStep listening s e
    let b ← advRun listening a.1 es
    .ok (b.1, a.2 :: b.2)

/-- An advanced example at its start (examples/AdvancedSubscribe/AdvancedSubscribe.go L47-59). -/
def advStart : Adv := ⟨none, 0⟩

/-! ## The keys of `SimpleResubscribe` -/

/-- `getFilterExpression` (examples/SimpleResubscribe/SimpleResubscribe.go L72-80). -/
def filterExpression (count : Nat) : List Byte :=
  bytes "FILTER TOP ".toList ++ Format.decimal count ++ bytes " ActiveMeasurements WHERE SignalType <> 'STAT'".toList

/-- `readKey` (examples/SimpleResubscribe/ParseCmdLineArgs.go L59-62): a reader is made for each call, so what it has read besides the key is gone. A terminal
gives one line for each read, of which only the first byte matters here; at the end of the input the key is 0 and the error is dropped. -/
def readKey : List (List Byte) → Byte × List (List Byte)
  | [] => (0#8, [])
  | line :: lines => (line.headD 0#8, lines)

/-- The loop of `main` after `Dial` (examples/SimpleResubscribe/SimpleResubscribe.go L92-98), at most `n` rounds: the filter expressions subscribed with, and whether
the program has ended. -/
def resubscribe : Nat → Nat → List (List Byte) → List (List Byte) × Bool
  | 0, _, _ => ([], false)
  | n + 1, count, input =>
    if (readKey input).1 = 32#8 then ([], true)
    else (filterExpression (count + 1) :: (resubscribe n (count + 1) (readKey input).2).1, (resubscribe n (count + 1) (readKey input).2).2)

/-- The filter expressions of `main`, the first one before `Dial` (examples/SimpleResubscribe/SimpleResubscribe.go L82-98). -/
def resubscribeMain (n : Nat) (input : List (List Byte)) : List (List Byte) × Bool :=
  (filterExpression 1 :: (resubscribe n 1 input).1, (resubscribe n 1 input).2)

end Verif.Examples
