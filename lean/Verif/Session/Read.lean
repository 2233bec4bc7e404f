import Verif.Session.PublishProps
import Verif.Sync.Reader

/-!
# C106 with a measurement reader: what is published is read

The slices that the application is given (`C106_published_is_received`) are the batches of the measurement reader (sttp/MeasurementReader.go L41-45, `C38`),
whose callback the goroutine of the command channel runs between packets (DataSubscriber.go L1253-1261): while it waits for a reader, that goroutine
does nothing else, so the packets are processed as without it.
-/

namespace Verif.Session

/-- From the publisher to `NextMeasurement`: of the packets of C106, however they arrive, the measurements returned by `NextMeasurement`, to whichever
goroutines, contexts ending at any time, are at every moment the beginning of what was published, in order, none lost, repeated or changed; and from every
moment on readers that keep calling get all of it. Without `Close` of the reader (`C38_close_crashes_false`, `C128_stop_false`). -/
theorem C106_published_is_read (cfg : Cfg) (hver : 1 < cfg.version.toNat) (s : St) (hs : s.keyIVs = none) (n : Nat) (text : List Byte)
    (htext : text.length ≤ 8192) (bodies : List (List Byte)) (outs : List (List Measurement)) (t : Told)
    (hsend : SendsAll cfg Told.new bodies outs t) (hsize : ∀ b ∈ bodies, b.length < 2 ^ 32)
    (env : Env) (envs : List Env) (hlen : envs.length = bodies.length) (hw : ∀ e ∈ envs, e.writeOk = true)
    (tail : List Byte) (r : Reader) (hr : r.Ok) (hc : r.content = frame (packet 0x80 6 n text) ++ ((bodies.map frame).flatten ++ tail)) :
    ∃ r' s' es, turns cfg ((env :: envs).map fun e => ⟨e, false, false⟩) r s = .ok (r', s') ∧ s'.log = s.log ++ es ∧
      ∀ as m, Sync.Reader.Act.close ∉ as → Sync.Reader.exec (Sync.Reader.init (delivered es)) as = some m →
        Sync.Reader.received m.log <+: outs.flatten ∧ m.panicked = false ∧
        ∃ bs m', Sync.Reader.exec m bs = some m' ∧ Sync.Reader.received m'.log = outs.flatten := by
  obtain ⟨r', s', es, h1, -, h2, h3, -⟩ := C106_published_is_received cfg hver s hs n text htext bodies outs t hsend hsize env envs hlen hw tail r hr hc
  refine ⟨r', s', es, h1, h2, fun as m ha h => ?_⟩
  rw [h3] at h
  obtain ⟨g1, g2, g3⟩ := Sync.Reader.C38_in_order_partial outs as ha m h
  exact ⟨⟨_, by rw [← List.append_assoc]; exact g1⟩, g2, g3⟩

end Verif.Session
