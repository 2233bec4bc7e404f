import Verif.Common.Basic

/-!
# Model of `sttp/transport/tssc/PointMetadata.go`

The Go structure `pointMetadata` (L101-127) is split in two: `CodeState` holds the adaptive code (statistics,
modes), `Point` in `Decoder.lean` adds the remembered measurement fields. The function fields `writeBits`, `readBit` and
`readBits5` become parameters. `byte` and `int32` fields are natural numbers; the byte counters wrap at 256 explicitly;
the sizes computed by `adaptCommands` are integers without wrap-around, and `C11` proves that they stay far
below the 32-bit limits.
-/

namespace Verif.Tssc

/-- PointMetadata.go L67; the code words are L33-99. -/
def cEndOfStream : Nat := 0
/-- PointMetadata.go L68 -/
def cPointIDXor4 : Nat := 1
/-- PointMetadata.go L69 -/
def cPointIDXor8 : Nat := 2
/-- PointMetadata.go L70 -/
def cPointIDXor12 : Nat := 3
/-- PointMetadata.go L71 -/
def cPointIDXor16 : Nat := 4
/-- PointMetadata.go L72 -/
def cPointIDXor20 : Nat := 5
/-- PointMetadata.go L73 -/
def cPointIDXor24 : Nat := 6
/-- PointMetadata.go L74 -/
def cPointIDXor32 : Nat := 7
/-- PointMetadata.go L75 -/
def cTimeDelta1Forward : Nat := 8
/-- PointMetadata.go L76 -/
def cTimeDelta2Forward : Nat := 9
/-- PointMetadata.go L77 -/
def cTimeDelta3Forward : Nat := 10
/-- PointMetadata.go L78 -/
def cTimeDelta4Forward : Nat := 11
/-- PointMetadata.go L79 -/
def cTimeDelta1Reverse : Nat := 12
/-- PointMetadata.go L80 -/
def cTimeDelta2Reverse : Nat := 13
/-- PointMetadata.go L81 -/
def cTimeDelta3Reverse : Nat := 14
/-- PointMetadata.go L82 -/
def cTimeDelta4Reverse : Nat := 15
/-- PointMetadata.go L83 -/
def cTimestamp2 : Nat := 16
/-- PointMetadata.go L84 -/
def cTimeXor7Bit : Nat := 17
/-- PointMetadata.go L85 -/
def cStateFlags2 : Nat := 18
/-- PointMetadata.go L86 -/
def cStateFlags7Bit32 : Nat := 19
/-- PointMetadata.go L87 -/
def cValue1 : Nat := 20
/-- PointMetadata.go L88 -/
def cValue2 : Nat := 21
/-- PointMetadata.go L89 -/
def cValue3 : Nat := 22
/-- PointMetadata.go L90 -/
def cValueZero : Nat := 23
/-- PointMetadata.go L91 -/
def cValueXor4 : Nat := 24
/-- PointMetadata.go L92 -/
def cValueXor8 : Nat := 25
/-- PointMetadata.go L93 -/
def cValueXor12 : Nat := 26
/-- PointMetadata.go L94 -/
def cValueXor16 : Nat := 27
/-- PointMetadata.go L95 -/
def cValueXor20 : Nat := 28
/-- PointMetadata.go L96 -/
def cValueXor24 : Nat := 29
/-- PointMetadata.go L97 -/
def cValueXor28 : Nat := 30
/-- PointMetadata.go L98 -/
def cValueXor32 : Nat := 31

/-- The adaptive-code fields of `pointMetadata` (PointMetadata.go L109-122). -/
structure CodeState where
  /-- `commandStats [32]byte` -/
  stats : List Nat
  /-- `commandsSentSinceLastChange int32` -/
  sent : Nat
  mode : Nat
  mode21 : Nat
  mode31 : Nat
  mode301 : Nat
  mode41 : Nat
  mode401 : Nat
  mode4001 : Nat
  startupMode : Nat
  deriving DecidableEq, Repr

/-- `newPointMetadata` (PointMetadata.go L129-139), code part: all other fields are zero. -/
def CodeState.new : CodeState where
  stats := List.replicate 32 0
  sent := 0
  mode := 4
  mode21 := 0
  mode31 := 0
  mode301 := 0
  mode41 := cValue1
  mode401 := cValue2
  mode4001 := cValue3
  startupMode := 0

/-- Running state of the loop in `adaptCommands` (PointMetadata.go L232-241). -/
structure Top3 where
  code1 : Nat
  count1 : Nat
  code2 : Nat
  count2 : Nat
  code3 : Nat
  count3 : Nat
  total : Nat
  deriving DecidableEq, Repr

/-- Loop body of `adaptCommands` for index `i` (PointMetadata.go L243-269; zeroing L245 is done by `adaptCommands`). -/
def top3Step (t : Top3) (ci : Nat × Nat) : Top3 :=
  let count := ci.1
  let i := ci.2
  let t := { t with total := t.total + count }
  if count > t.count3 then
    if count > t.count1 then
      { t with code3 := t.code2, count3 := t.count2, code2 := t.code1, count2 := t.count1,
               code1 := i, count1 := count }
    else if count > t.count2 then
      { t with code3 := t.code2, count3 := t.count2, code2 := i, count2 := count }
    else { t with code3 := i, count3 := count }
  else t

/-- The loop of `adaptCommands` over all counters (PointMetadata.go L232-269). -/
def top3 (stats : List Nat) : Top3 :=
  stats.zipIdx.foldl top3Step ⟨0, 0, 1, 0, 2, 0, 0⟩

/-- `min` (PointMetadata.go L310-320) -/
def goMin (lv rv : Int) : Int := if lv < rv then lv else if rv < lv then rv else lv

/-- PointMetadata.go L271 -/
def mode1Size (t : Top3) : Int := (t.total : Int) * 5
/-- PointMetadata.go L272 -/
def mode2Size (t : Top3) : Int := (t.count1 : Int) + ((t.total : Int) - t.count1) * 6
/-- PointMetadata.go L273 -/
def mode3Size (t : Top3) : Int :=
  (t.count1 : Int) + (t.count2 : Int) * 2 + ((t.total : Int) - t.count1 - t.count2) * 7
/-- PointMetadata.go L274 -/
def mode4Size (t : Top3) : Int :=
  (t.count1 : Int) + (t.count2 : Int) * 2 + (t.count3 : Int) * 3 +
    ((t.total : Int) - t.count1 - t.count2 - t.count3) * 8

/-- `adaptCommands` (PointMetadata.go L231-308). The error branch L298-304 returns without resetting the
command counter; the model returns `err` only. -/
def adaptCommands (c : CodeState) : Res CodeState :=
  let t := top3 c.stats
  let c := { c with stats := c.stats.map (fun _ => 0) }
  let minSize := goMin (goMin (goMin (goMin 2147483647 (mode1Size t)) (mode2Size t)) (mode3Size t))
    (mode4Size t)
  if minSize = mode1Size t then
    .ok { c with mode := 1, sent := 0 }
  else if minSize = mode2Size t then
    .ok { c with mode := 2, mode21 := t.code1, sent := 0 }
  else if minSize = mode3Size t then
    .ok { c with mode := 3, mode31 := t.code1, mode301 := t.code2, sent := 0 }
  else if minSize = mode4Size t then
    .ok { c with mode := 4, mode41 := t.code1, mode401 := t.code2, mode4001 := t.code3, sent := 0 }
  else .err

/-- `updatedCodeStatistics` (PointMetadata.go L214-229). `commandStats[code]++` is a byte increment and
panics when `code` is not below 32. -/
def updatedCodeStatistics (c : CodeState) (code : Nat) : Res CodeState :=
  match c.stats[code]? with
  | none => .panic
  | some n =>
    let c := { c with sent := c.sent + 1, stats := c.stats.set code ((n + 1) % 256) }
    if c.startupMode = 0 ∧ c.sent > 5 then
      adaptCommands { c with startupMode := c.startupMode + 1 }
    else if c.startupMode = 1 ∧ c.sent > 20 then
      adaptCommands { c with startupMode := c.startupMode + 1 }
    else if c.startupMode = 2 ∧ c.sent > 100 then
      adaptCommands c
    else .ok c

/-- The `len` low bits of `v`, most significant first: what `writeBits(v, len)` appends to the bit stream. The
function itself belongs to the publisher and is not in the repository. (transport/tssc/PointMetadata.go L141-174) -/
def bitsOf (v : Nat) : Nat → List Bool
  | 0 => []
  | len + 1 => v.testBit len :: bitsOf v len

/-- `WriteCode` (PointMetadata.go L141-174): the bits written and the new state. -/
def writeCode (c : CodeState) (code : Nat) : Res (List Bool × CodeState) := do
  let bits ←
    (match c.mode with
    | 1 => .ok (bitsOf code 5)
    | 2 => if code = c.mode21 then .ok (bitsOf 1 1) else .ok (bitsOf code 6)
    | 3 => if code = c.mode31 then .ok (bitsOf 1 1)
           else if code = c.mode301 then .ok (bitsOf 1 2) else .ok (bitsOf code 7)
    | 4 => if code = c.mode41 then .ok (bitsOf 1 1)
           else if code = c.mode401 then .ok (bitsOf 1 2)
           else if code = c.mode4001 then .ok (bitsOf 1 3) else .ok (bitsOf code 8)
    | _ => Res.err)
  let c ← updatedCodeStatistics c code
  .ok (bits, c)

/-- `ReadCode` (PointMetadata.go L176-212) over a bit source `σ` with the two reader functions the Go
structure holds as fields (L125-126). -/
def readCode {σ : Type} (readBit : σ → Res (Bool × σ)) (readBits5 : σ → Res (Nat × σ))
    (c : CodeState) (s : σ) : Res (Nat × CodeState × σ) := do
  let (code, s) ←
    (match c.mode with
    | 1 => readBits5 s
    | 2 => do
      let (b, s) ← readBit s
      if b then .ok (c.mode21, s) else readBits5 s
    | 3 => do
      let (b, s) ← readBit s
      if b then .ok (c.mode31, s) else
        let (b, s) ← readBit s
        if b then .ok (c.mode301, s) else readBits5 s
    | 4 => do
      let (b, s) ← readBit s
      if b then .ok (c.mode41, s) else
        let (b, s) ← readBit s
        if b then .ok (c.mode401, s) else
          let (b, s) ← readBit s
          if b then .ok (c.mode4001, s) else readBits5 s
    | _ => (Res.err : Res (Nat × σ)))
  let c ← updatedCodeStatistics c code
  .ok (code, c, s)

end Verif.Tssc
