import Verif.Ticks.Model
import Verif.Lib.TimeText
import Verif.Guid.Text
import Verif.Modes.Model

/-! # The texts of timestamps and measurements (ticks/Ticks.go, transport/Measurement.go) -/

namespace Verif.Ticks

open Verif.Guid (Guid)

/-- The nanoseconds from 1 January of year 1, which `Verif.Lib.TimeText` counts from, to the Unix epoch, which `toTime` counts from (ticks/Ticks.go L143-145). -/
def epoch : Int := 62135596800000000000

/-- `Ticks.String` (ticks/Ticks.go L153-155) -/
def text (t : Ticks) : List Byte := Lib.TimeText.long (toTime t + epoch)

/-- `Ticks.ShortTime` (ticks/Ticks.go L158-160) -/
def shortTime (t : Ticks) : List Byte := Lib.TimeText.short (toTime t + epoch)

/-- A text of ASCII characters as bytes (transport/Measurement.go L62-68). -/
def bytes (l : List Char) : List Byte := l.map fun c => BitVec.ofNat 8 c.toNat

/-- `Measurement` (transport/Measurement.go L35-47); the value is the bits of a `float64`. -/
structure Measurement where
  signalID : Guid
  value : BitVec 64
  timestamp : Ticks
  flags : BitVec 32

/-- `Measurement.String` (transport/Measurement.go L62-68): `"%s @ %s = %s (%s)"` -/
def Measurement.text (m : Measurement) : List Byte :=
  Guid.toString m.signalID ++ bytes " @ ".toList ++ shortTime m.timestamp ++ bytes " = ".toList ++ Format.formatFloat m.value 3 ++
    bytes " (".toList ++ bytes (Modes.stateFlagsString m.flags) ++ bytes ")".toList

end Verif.Ticks
