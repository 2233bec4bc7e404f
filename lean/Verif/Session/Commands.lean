import Verif.Session.Cases

/-!
# Commands of the application during a connection

`Subscribe` and `Unsubscribe` of `sttp/transport/DataSubscriber.go` without the UDP data channel, and histories of a
connection in which they alternate with packets from the publisher.
-/

namespace Verif.Session

/-- `Unsubscribe` (L573-595) without a data channel. The moment during which `disconnecting` is set is the subject of
`C22_unsubscribe_false`. -/
def unsubscribe (env : Env) (s : St) : Res St :=
  if !s.connected || !s.validated then .ok s
  else do
    let s ← sendCommand env cmdUnsubscribe [] s
    .ok { s with disconnecting := false }

/-- `Subscribe` (L458-571) without a data channel; `params` are the bytes of the parameter string. The environments are
those of the two writes. -/
def subscribe (cfg : Cfg) (env1 env2 : Env) (params : List Byte) (s : St) : Res St :=
  if !s.connected then .err
  else if decide (cfg.version ≥ 2) && !s.validated then .err
  else do
    let s ← if s.subscribed then unsubscribe env1 s else .ok s
    let s := { s with totalMeasurementsReceived := 0 }
    let s ← sendCommand env2 cmdSubscribe ([flagCompact] ++ beBytes 4 params.length ++ params) s
    .ok { s with tsscResetRequested := true }

/-- What can happen during a connection. (DataSubscriber.go L458-606, L899-945) -/
inductive Action where
  | packet (env : Env) (body : List Byte)
  | subscribe (env1 env2 : Env) (params : List Byte)
  | unsubscribe (env : Env)

/-- One action; a call that returns an error changes nothing. (DataSubscriber.go L458-606, L899-945) -/
def Action.run (cfg : Cfg) (s : St) : Action → Res St
  | .packet env body => receive cfg env body s
  | .subscribe env1 env2 params =>
    match Session.subscribe cfg env1 env2 params s with
    | .err => .ok s
    | r => r
  | .unsubscribe env => Session.unsubscribe env s

/-- A history. (DataSubscriber.go L458-606, L899-945) -/
def runActions (cfg : Cfg) : List Action → St → Res St
  | [], s => .ok s
  | a :: as, s => do
    let s ← a.run cfg s
    runActions cfg as s

end Verif.Session
