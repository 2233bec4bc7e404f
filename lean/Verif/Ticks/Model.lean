/-!
# Model of `sttp/ticks/Ticks.go`

`Ticks` is `uint64` in Go (Ticks.go L37), so `BitVec 64` here.
A `time.Time` is modelled by the number of nanoseconds since the Unix epoch as an unbounded
integer (Go's `time.Time` covers far more than 64-bit nanoseconds); zones and monotonic readings are left out.
-/

namespace Verif.Ticks

/-- Ticks.go L37 -/
abbrev Ticks := BitVec 64

/-- Ticks.go L40 -/
def tMin : Ticks := 0#64
/-- Ticks.go L43 -/
def tMax : Ticks := 3155378975999999999#64
/-- Ticks.go L46 -/
def perSecond : Ticks := 10000000#64
/-- Ticks.go L49 -/
def perMillisecond : Ticks := perSecond / 1000#64
/-- Ticks.go L52 -/
def perMicrosecond : Ticks := perSecond / 1000000#64
/-- Ticks.go L55 -/
def perMinute : Ticks := 60#64 * perSecond
/-- Ticks.go L58 -/
def perHour : Ticks := 60#64 * perMinute
/-- Ticks.go L61 -/
def perDay : Ticks := 24#64 * perHour
/-- Ticks.go L64 -/
def leapSecondFlag : Ticks := 1#64 <<< 63
/-- Ticks.go L67 -/
def leapSecondDirection : Ticks := 1#64 <<< 62
/-- Ticks.go L70 -/
def valueMask : Ticks := ~~~leapSecondFlag &&& ~~~leapSecondDirection
/-- Ticks.go L73 -/
def unixBaseOffset : Ticks := 621355968000000000#64

/-- Ticks.go L83-85. The Go result is the same 64 bits read as `int64`. -/
def timestampValue (t : Ticks) : Int := (t &&& valueMask).toInt

/-- `time.Unix(0, nsec)` of the Go library: the instant `nsec` nanoseconds after the epoch. (ticks/Ticks.go L88-100) -/
def timeUnix0 (nsec : BitVec 64) : Int := nsec.toInt

/-- `time.Time.UnixNano` of the Go library: `int64` seconds times 1e9 plus nanoseconds, wrapping. (ticks/Ticks.go L88-100) -/
def timeUnixNano (instant : Int) : BitVec 64 := BitVec.ofInt 64 instant

/-- Ticks.go L88-90 (function) and L143-145 (method, same body). -/
def toTime (t : Ticks) : Int := timeUnix0 (((t - unixBaseOffset) &&& valueMask) * 100#64)

/-- Ticks.go L93-95 -/
def fromUnixNano (ns : BitVec 64) : Ticks := ns / 100#64 + unixBaseOffset

/-- Ticks.go L98-100 -/
def fromTime (instant : Int) : Ticks := fromUnixNano (timeUnixNano instant)

/-- Ticks.go L103-105 (function; `> 0` on unsigned) and L162-164 (method, `!= 0`). -/
def isLeapSecond (t : Ticks) : Bool := (t &&& leapSecondFlag) > 0#64

/-- Ticks.go L108-110, and L113-115 / L166-168 as in-place updates. -/
def setLeapSecond (t : Ticks) : Ticks := t ||| leapSecondFlag

/-- Ticks.go L118-120 and L178-180 -/
def isNegativeLeapSecond (t : Ticks) : Bool :=
  isLeapSecond t && decide ((t &&& leapSecondDirection) > 0#64)

/-- Ticks.go L123-125, and L128-130 as in-place update. -/
def setNegativeLeapSecond (t : Ticks) : Ticks := t ||| leapSecondFlag ||| leapSecondDirection

/-- Ticks.go L170-176 -/
def setLeapSecondDirection (t : Ticks) (negative : Bool) : Ticks :=
  if negative then t ||| leapSecondDirection else t &&& ~~~leapSecondDirection

/-- Ticks.go L148-150 -/
def toUnixNano (t : Ticks) : BitVec 64 := ((t &&& valueMask) - unixBaseOffset) * 100#64

/-- The flag-changing operations of the Ticks API, as one operation type:
`SetLeapSecond`/`ApplyLeapSecond` (L108, L113, L166), `SetNegativeLeapSecond`/`ApplyNegativeLeapSecond`
(L123, L128), `SetLeapSecondDirection` (L170). -/
inductive FlagOp
  | setLeap
  | setNegative
  | setDirection (negative : Bool)
  deriving DecidableEq, Repr

/-- One flag operation applied to a Ticks value (Ticks.go L108-130, L166-176). -/
def FlagOp.apply (t : Ticks) : FlagOp → Ticks
  | .setLeap => setLeapSecond t
  | .setNegative => setNegativeLeapSecond t
  | .setDirection n => setLeapSecondDirection t n

end Verif.Ticks
