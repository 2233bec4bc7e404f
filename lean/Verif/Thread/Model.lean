import Mathlib.Logic.Function.Basic

/-!
# The thread wrapper

`sttp/thread/Thread.go` as a transition system: one `Thread` value, any number of callers of `Start`, `TryStart` and
`Join`, and the goroutines the starts launch. One step is one atomic action of one goroutine: a read or a write of the
`running` flag, a `Lock`, an `Unlock`, a `go` statement, the end of the wrapped function. The wrapped function is
present (`NewThread`) and does not panic.
-/

namespace Verif.Thread

/-- Where a caller of `Start` or `TryStart` is (Thread.go L45-72). -/
inductive SPc where
  | idle
  /-- `TryStart` saw the flag off (L66) and calls `Start` -/
  | tried
  /-- the flag was off at L50 -/
  | checked
  /-- holds the mutex (L54), has not launched yet -/
  | locked
  /-- launched the goroutine (L55) and returned -/
  | returned
  /-- the flag was on: `Start` panicked, `TryStart` returned false -/
  | refused
  deriving DecidableEq

/-- Where the goroutine launched by a start is (Thread.go L89-95). -/
inductive RPc where
  | none
  | launched
  /-- the flag is set (L93), the function runs (L94) -/
  | executing
  /-- the function returned -/
  | finished
  /-- the mutex is released (first deferred call, L91) -/
  | unlocked
  /-- the flag is cleared (L90) -/
  | done
  deriving DecidableEq

/-- Where a caller of `Join` is (Thread.go L75-83). -/
inductive JPc where
  | idle
  /-- the flag was on at L76 -/
  | waiting
  /-- holds the mutex (L80) -/
  | holding
  | returned
  deriving DecidableEq

/-- The thread and everybody using it (Thread.go L32-37). Starter `p` launches goroutine `p`. -/
structure St where
  mutex : Bool
  running : Bool
  start : Nat → SPc
  run : Nat → RPc
  join : Nat → JPc

/-- `NewThread` (Thread.go L40-42) before anybody calls anything. -/
def init : St := ⟨false, false, fun _ => .idle, fun _ => .none, fun _ => .idle⟩

/-- The atomic actions. (thread/Thread.go L40-98) -/
inductive Act where
  | tryStart (p : Nat)
  | startCheck (p : Nat)
  | startLock (p : Nat)
  | startGo (p : Nat)
  | runSet (p : Nat)
  | runEnd (p : Nat)
  | runUnlock (p : Nat)
  | runUnset (p : Nat)
  | joinCheck (j : Nat)
  | joinLock (j : Nat)
  | joinUnlock (j : Nat)

open Function (update)

/-- One action, `none` when it is not enabled (Thread.go L45-95). -/
def step (s : St) : Act → Option St
  | .tryStart p =>
    if s.start p = .idle then some { s with start := update s.start p (if s.running then .refused else .tried) }
    else none
  | .startCheck p =>
    if s.start p = .idle ∨ s.start p = .tried then
      some { s with start := update s.start p (if s.running then .refused else .checked) }
    else none
  | .startLock p =>
    if s.start p = .checked ∧ s.mutex = false then
      some { s with mutex := true, start := update s.start p .locked }
    else none
  | .startGo p =>
    if s.start p = .locked then
      some { s with start := update s.start p .returned, run := update s.run p .launched }
    else none
  | .runSet p =>
    if s.run p = .launched then some { s with running := true, run := update s.run p .executing } else none
  | .runEnd p =>
    if s.run p = .executing then some { s with run := update s.run p .finished } else none
  | .runUnlock p =>
    if s.run p = .finished then some { s with mutex := false, run := update s.run p .unlocked } else none
  | .runUnset p =>
    if s.run p = .unlocked then some { s with running := false, run := update s.run p .done } else none
  | .joinCheck j =>
    if s.join j = .idle then some { s with join := update s.join j (if s.running then .waiting else .returned) }
    else none
  | .joinLock j =>
    if s.join j = .waiting ∧ s.mutex = false then some { s with mutex := true, join := update s.join j .holding }
    else none
  | .joinUnlock j =>
    if s.join j = .holding then some { s with mutex := false, join := update s.join j .returned } else none

/-- A schedule. (thread/Thread.go L40-98) -/
def exec (s : St) : List Act → Option St
  | [] => some s
  | a :: as => (step s a).bind (fun t => exec t as)

/-- `t` can follow `s` under some schedule. (thread/Thread.go L40-98) -/
def Leads (s t : St) : Prop := ∃ as, exec s as = some t

end Verif.Thread
