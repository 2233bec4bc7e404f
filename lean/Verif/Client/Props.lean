import Verif.Client.Moves
import Verif.Modes.Props

/-!
# Dialling, configuration and the connection sequence (C94, C95, C97)
-/

namespace Verif.Client

open Verif.Session (Env St Event Adds Confirms sendCommand cmdMetadataRefresh cmdSubscribe)

/-! ## Operations in parts -/

/-- What `connect` sets before it connects. -/
def configured (host : List Byte) (port : BitVec 16) (c : App) : App :=
  setOptions { c with
    hostname := host
    port := port
    connector := ⟨c.config.maxRetries, c.config.retryInterval, c.config.maxRetryInterval, c.config.autoReconnect⟩ }

/-- A dial that is not refused, in steps. -/
theorem dial_cases {net : Net} {r : Reached} {early : App → Res App} {a : List Byte} {cfg : Option Config} {c c' : App} {o : Outcome}
    (h : dial net r early a cfg c = .ok (c', o)) :
    (o = .refused ∧ c' = c ∧ (c.st.connected = true ∨ c.listening = true ∨ readAddress a = none)) ∨
    ∃ host port, readAddress a = some (host, port) ∧ c.st.connected = false ∧ c.listening = false ∧
      ∃ d, d = configured host port { c with config := cfg.getD c.config } ∧
      ((c.cancel = true ∧ o = .canceled ∧ c' = d) ∨
       (c.cancel = false ∧ ∃ e, e = { d with reconnectCallback := d.reconnectCallback || d.connector.autoReconnect } ∧
        ((r = .no ∧ o = .failed ∧ c' = { e with st := Session.setupConnection e.st }) ∨
         (r = .yes ∧ o = .success ∧ ∃ c1 c2, establishConnection net e = .ok c1 ∧ early c1 = .ok c2 ∧ handleConnect net c2 = .ok c')))) := by
  unfold dial at h
  split at h
  · rename_i hc
    injection h with h; injection h with h1 h2; exact .inl ⟨h2.symm, h1.symm, .inl hc⟩
  rename_i hc
  split at h
  · rename_i hl
    injection h with h; injection h with h1 h2; exact .inl ⟨h2.symm, h1.symm, .inr (.inl hl)⟩
  rename_i hl
  split at h
  · rename_i ha
    injection h with h; injection h with h1 h2; exact .inl ⟨h2.symm, h1.symm, .inr (.inr ha)⟩
  rename_i host port ha
  refine .inr ⟨host, port, ha, by simpa using hc, by simpa using hl, _, rfl, ?_⟩
  unfold connect at h
  dsimp only at h
  split at h
  · rename_i hx
    injection h with h; injection h with h1 h2; exact .inl ⟨hx, h2.symm, h1.symm⟩
  rename_i hx
  refine .inr ⟨(Bool.not_eq_true c.cancel).mp hx, _, rfl, ?_⟩
  split at h
  · injection h with h; injection h with h1 h2; exact .inl ⟨rfl, h2.symm, h1.symm⟩
  · rw [Res.bind_eq_ok] at h
    obtain ⟨c1, h1, h⟩ := h
    rw [Res.bind_eq_ok] at h
    obtain ⟨c2, h2, h⟩ := h
    rw [Res.bind_eq_ok] at h
    obtain ⟨c3, h3, h⟩ := h
    injection h with h; injection h with h4 h5
    subst h4
    exact .inr ⟨rfl, h5.symm, c1, c2, h1, h2, h3⟩

/-- Everything but the session is set before connecting. -/
theorem dial_only {lib : Lib} {net : Net} {r : Reached} {ps : List (Env × List Byte)} {a : List Byte} {cfg : Option Config} {c c' : App}
    {o : Outcome} (h : dial net r (packets lib ps) a cfg c = .ok (c', o)) (ho : o ≠ .refused) : ∃ host port rc,
      readAddress a = some (host, port) ∧ c.st.connected = false ∧ c.listening = false ∧
      Only { configured host port { c with config := cfg.getD c.config } with reconnectCallback := rc } c' := by
  rcases dial_cases h with ⟨h1, -⟩ | ⟨host, port, ha, hc, hl, d, rfl, h1⟩
  · exact absurd h1 ho
  · rcases h1 with ⟨-, -, rfl⟩ | ⟨-, e, rfl, ⟨-, -, rfl⟩ | ⟨-, -, c1, c2, h1, h2, h3⟩⟩
    · exact ⟨host, port, c.reconnectCallback, ha, hc, hl, rfl⟩
    · exact ⟨host, port, _, ha, hc, hl, rfl⟩
    · exact ⟨host, port, _, ha, hc, hl, ((establish_moves h1).1.trans (packets_moves h2).only).trans (handleConnect_moves h3).only⟩

/-! ## C94: dialling -/

/-- C94, refusals: while connected or listening, and for an address that cannot be read, `Dial` and `Listen` return an error and change nothing. -/
theorem C94_refused (net : Net) (r : Reached) (early : App → Res App) (opened : Bool) (a : List Byte) (cfg : Option Config) (c : App)
    (h : c.st.connected = true ∨ c.listening = true ∨ readAddress a = none) :
    dial net r early a cfg c = .ok (c, .refused) ∧ listen opened a cfg c = (c, .refused) := by
  unfold dial listen
  cases h1 : c.st.connected
  · cases h2 : c.listening
    · have h3 : readAddress a = none := by simpa [h1, h2] using h
      simp [h3]
    · simp
  · cases h2 : c.listening <;> simp

/-- C94, otherwise: the connector is given the host and the port of the address. -/
theorem C94_dialled (lib : Lib) (net : Net) (r : Reached) (ps : List (Env × List Byte)) (a : List Byte) (cfg : Option Config) (c c' : App)
    (o : Outcome) (h : dial net r (packets lib ps) a cfg c = .ok (c', o)) (ho : o ≠ .refused) :
    readAddress a = some (c'.hostname, c'.port) := by
  obtain ⟨host, port, rc, ha, -, -, h1⟩ := dial_only h ho
  rw [ha, h1]
  rfl

/-- C94 fails after `Disconnect`: the connector stays canceled, so that every later `Dial` returns "connection canceled" without an attempt to
connect, for every address and configuration. -/
theorem C94_redial_false (net : Net) (r : Reached) (early : App → Res App) (a : List Byte) (host : List Byte) (port : BitVec 16)
    (cfg : Option Config) (c : App) (hd : c.st.disconnecting = false) (ha : readAddress a = some (host, port)) :
    ∃ c', dial net r early a cfg (disconnect c) = .ok (c', .canceled) ∧ c'.st.connected = false ∧ c'.st.log = c.st.log ∧
      c'.cancel = true := by
  unfold disconnect dial
  simp only [hd, Bool.false_eq_true, if_false]
  rw [if_neg (by simp [Session.disconnectDone, Session.disconnect]), ha]
  dsimp only
  unfold connect
  dsimp only
  rw [if_pos (show (setOptions _).cancel = true from rfl)]
  exact ⟨_, rfl, rfl, rfl, rfl⟩

/-! ## C95: the configuration takes effect -/

/-- The options in use are those of the configuration. -/
structure Follows (c : App) : Prop where
  payload : c.compressPayloadData = c.config.compressPayloadData
  metadata : c.compressMetadata = c.config.compressMetadata
  cache : c.compressSignalIndexCache = c.config.compressSignalIndexCache
  version : c.version = c.config.version
  guids : c.swapGuidEndianness = !c.config.rfcGuidEncoding

theorem Follows.only {c c' : App} (h : Follows c) (ho : Only c c') : Follows c' := by
  rw [ho]; exact ⟨h.payload, h.metadata, h.cache, h.version, h.guids⟩

theorem follows_set (c : App) : Follows (setOptions c) := ⟨rfl, rfl, rfl, rfl, rfl⟩

theorem accept_only {net : Net} {c c' : App} (h : accept net c = .ok c') : Only c c' := by
  unfold accept at h
  split at h
  · injection h with h; subst h; rfl
  split at h
  · injection h with h; subst h; rfl
  · exact (establish_moves h).1

theorem metadataGoroutine_only {net : Net} {c c' : App} (h : metadataGoroutine net c = .ok c') : Only c c' := by
  unfold metadataGoroutine at h
  split at h
  · injection h with h; subst h; rfl
  · unfold handleMetadataReceived at h
    split at h
    · rw [Res.bind_eq_ok] at h
      obtain ⟨⟨c1, b⟩, h1, h⟩ := h
      injection h with h
      subst h
      exact Only.trans (Only.mk c c.st _ c.changes) (dsSubscribe_moves h1).only
    · injection h with h; subst h; rfl

/-- What a reconnection changes beside the session. -/
theorem reconnect_cases {lib : Lib} {net : Net} {r : Reached} {ps : List (Env × List Byte)} {c c' : App}
    (h : reconnect net r (packets lib ps) c = .ok c') :
    c' = c ∨ c' = disconnect c ∨ ∃ c1 c2, c.listening = false ∧ establishConnection net c = .ok c1 ∧ packets lib ps c1 = .ok c2 ∧
      handleConnect net c2 = .ok c' := by
  unfold reconnect at h
  split at h
  · injection h with h; exact .inl h.symm
  split at h
  · rename_i hr
    rw [Res.bind_eq_ok] at h
    obtain ⟨c1, h1, h⟩ := h
    rw [Res.bind_eq_ok] at h
    obtain ⟨c2, h2, h⟩ := h
    have hc : c2.st.connected = true := (packets_moves h2).adds.connected.trans (establish_moves h1).2.1
    rw [if_pos hc] at h
    refine .inr (.inr ⟨c1, c2, ?_, h1, h2, h⟩)
    cases hl : c.listening
    · rfl
    · rw [hl] at hr; simp at hr
  · injection h with h; exact .inr (.inl h.symm)

theorem Follows.disconnect {c : App} (h : Follows c) : Follows (disconnect c) := by
  unfold Client.disconnect
  split
  · exact h
  · exact ⟨h.payload, h.metadata, h.cache, h.version, h.guids⟩

theorem Follows.run {lib : Lib} {as : List Action} {c c' : App} (hf : Follows c) (h : run lib as c = .ok c') : Follows c' := by
  induction as generalizing c with
  | nil => injection h with h; subst h; exact hf
  | cons x as ih =>
    rw [Client.run, Res.bind_eq_ok] at h
    obtain ⟨c1, h1, h⟩ := h
    refine ih ?_ h
    clear ih h
    cases x with
    | dial net r ps a cfg =>
      unfold Action.run at h1
      dsimp only at h1
      rw [Res.bind_eq_ok] at h1
      obtain ⟨⟨c2, o⟩, h2, h1⟩ := h1
      injection h1 with h1
      subst h1
      by_cases ho : o = .refused
      · rcases dial_cases h2 with ⟨-, rfl, -⟩ | ⟨host, port, -, -, -, d, -, h3⟩
        · exact hf
        · rcases h3 with ⟨-, h3, -⟩ | ⟨-, e, -, ⟨-, h3, -⟩ | ⟨-, h3, -⟩⟩ <;> rw [ho] at h3 <;> cases h3
      · obtain ⟨host, port, rc, -, -, -, h3⟩ := dial_only h2 ho
        exact Follows.only (c := { configured host port { c with config := cfg.getD c.config } with reconnectCallback := rc })
          ⟨rfl, rfl, rfl, rfl, rfl⟩ h3
    | listen opened a cfg =>
      injection h1 with h1
      subst h1
      unfold listen
      split
      · exact hf
      split
      · exact hf
      split
      · exact hf
      · dsimp only
        split <;> exact ⟨rfl, rfl, rfl, rfl, rfl⟩
    | accept net => exact hf.only (accept_only h1)
    | disconnect => injection h1 with h1; subst h1; exact hf.disconnect
    | lost => injection h1 with h1; subst h1; exact ⟨hf.payload, hf.metadata, hf.cache, hf.version, hf.guids⟩
    | reconnect net r ps =>
      rcases reconnect_cases h1 with rfl | rfl | ⟨c2, c3, -, h2, h3, h4⟩
      · exact hf
      · exact hf.disconnect
      · exact hf.only (((establish_moves h2).1.trans (packets_moves h3).only).trans (handleConnect_moves h4).only)
    | packet env body => exact hf.only (packet_moves h1).only
    | metadata net => exact hf.only (metadataGoroutine_only h1)
    | changed net => exact hf.only (changed_moves h1).only
    | requestMetadata net => exact hf.only (requestMetadata_moves h1).only
    | subscribe net f s =>
      change Client.subscribe net f s c = .ok c1 at h1
      unfold Client.subscribe at h1
      dsimp only at h1
      have hs : Follows { c with sub := setSubscription f (s.getD settingsDefaults) } :=
        ⟨hf.payload, hf.metadata, hf.cache, hf.version, hf.guids⟩
      split at h1
      · rw [Res.bind_eq_ok] at h1
        obtain ⟨⟨c2, b⟩, h2, h1⟩ := h1
        injection h1 with h1
        subst h1
        exact hs.only (dsSubscribe_moves h2).only
      · injection h1 with h1; subst h1; exact hs
    | unsubscribe net =>
      change Client.unsubscribe net c = .ok c1 at h1
      unfold Client.unsubscribe at h1
      rw [Res.bind_eq_ok] at h1
      obtain ⟨st, -, h1⟩ := h1
      injection h1 with h1
      subst h1
      exact hf.only rfl

/-- C95, options: after any history of a new subscriber the options in use (compression, version, order of the bytes of identifiers) are those of
its configuration. -/
theorem C95_options (lib : Lib) (as : List Action) (c : App) (h : run lib as App.new = .ok c) :
    (c.cfg lib).compressMetadata = c.config.compressMetadata ∧
    (c.cfg lib).compressSignalIndexCache = c.config.compressSignalIndexCache ∧
    (c.cfg lib).version = c.config.version ∧
    ((c.cfg lib).swapGuidEndianness = true ↔ c.config.rfcGuidEncoding = false) ∧
    c.compressPayloadData = c.config.compressPayloadData := by
  have hf : Follows App.new := ⟨rfl, rfl, rfl, rfl, rfl⟩
  have := hf.run h
  refine ⟨this.metadata, this.cache, this.version, ?_, this.payload⟩
  show c.swapGuidEndianness = true ↔ _
  rw [this.guids]
  simp

/-- C95, given: a configuration given to a dial or a listen that is not refused is the one in use afterwards, and the connector has its retry
settings after a dial. -/
theorem C95_given (lib : Lib) (net : Net) (r : Reached) (ps : List (Env × List Byte)) (opened : Bool) (a : List Byte) (cfg : Config)
    (c c' : App) (o : Outcome) (ho : o ≠ .refused) :
    (dial net r (packets lib ps) a (some cfg) c = .ok (c', o) → c'.config = cfg ∧
      c'.connector = ⟨cfg.maxRetries, cfg.retryInterval, cfg.maxRetryInterval, cfg.autoReconnect⟩) ∧
    (listen opened a (some cfg) c = (c', o) → c'.config = cfg) := by
  constructor
  · intro h
    obtain ⟨host, port, rc, -, -, -, h1⟩ := dial_only h ho
    rw [h1]
    exact ⟨rfl, rfl⟩
  · intro h
    unfold listen at h
    split at h
    · injection h with _ h; exact absurd h.symm ho
    split at h
    · injection h with _ h; exact absurd h.symm ho
    split at h
    · injection h with _ h; exact absurd h.symm ho
    · dsimp only at h
      split at h <;> injection h with h _ <;> rw [← h] <;> rfl

/-- A new subscriber dialling without a configuration uses the documented defaults: retries without end, every second at first and every 30 seconds
at most, and everything automatic and compressed. -/
theorem C95_nil_partial (lib : Lib) (net : Net) (r : Reached) (ps : List (Env × List Byte)) (a : List Byte) (c' : App) (o : Outcome)
    (h : dial net r (packets lib ps) a none App.new = .ok (c', o)) : c'.config =
      { maxRetries := -1, retryInterval := 1000, maxRetryInterval := 30000, autoReconnect := true, autoRequestMetadata := true, autoSubscribe := true,
        compressPayloadData := true, compressMetadata := true, compressSignalIndexCache := true, metadataFilters := [], version := 2,
        rfcGuidEncoding := true } := by
  by_cases ho : o = .refused
  · rcases dial_cases h with ⟨-, rfl, -⟩ | ⟨host, port, -, -, -, d, -, h3⟩
    · rfl
    · rcases h3 with ⟨-, h3, -⟩ | ⟨-, e, -, ⟨-, h3, -⟩ | ⟨-, h3, -⟩⟩ <;> rw [ho] at h3 <;> cases h3
  · obtain ⟨host, port, rc, -, -, -, h1⟩ := dial_only h ho
    rw [h1]
    rfl

/-- C95 fails for `Dial` and `Listen` without a configuration once another was given: the one given before stays in use. The documentation says
"set value to nil for default values". -/
theorem C95_nil_false (lib : Lib) (net : Net) (r : Reached) (ps : List (Env × List Byte)) (opened : Bool) (a : List Byte) (c c' : App)
    (o : Outcome) (hd : c.config ≠ configDefaults) :
    (dial net r (packets lib ps) a none c = .ok (c', o) → c'.config ≠ configDefaults) ∧
    (listen opened a none c = (c', o) → c'.config ≠ configDefaults) := by
  constructor
  · intro h
    by_cases ho : o = .refused
    · rcases dial_cases h with ⟨-, rfl, -⟩ | ⟨host, port, -, -, -, d, -, h3⟩
      · exact hd
      · rcases h3 with ⟨-, h3, -⟩ | ⟨-, e, -, ⟨-, h3, -⟩ | ⟨-, h3, -⟩⟩ <;> rw [ho] at h3 <;> cases h3
    · obtain ⟨host, port, rc, -, -, -, h1⟩ := dial_only h ho
      rw [h1]
      exact hd
  · intro h
    unfold listen at h
    split at h
    · injection h with h _; rw [← h]; exact hd
    split at h
    · injection h with h _; rw [← h]; exact hd
    split at h
    · injection h with h _; rw [← h]; exact hd
    · dsimp only at h
      split at h <;> injection h with h _ <;> rw [← h] <;> exact hd

/-- C95 fails for `AutoReconnect`: after a dial with it, a dial without it still reconnects. A first dial that reaches nobody, a second one with
`AutoReconnect` off that succeeds, a lost connection: the next attempt to reconnect sends the modes again. -/
theorem C95_auto_reconnect_false (lib : Lib) (net : Net) (a : List Byte) (host : List Byte) (port : BitVec 16)
    (ha : readAddress a = some (host, port)) (on off : Config) (hon : on.autoReconnect = true)
    (hoff : off.autoReconnect = false ∧ off.autoRequestMetadata = false ∧ off.autoSubscribe = false) (hw : net.env.writeOk = true) :
    ∃ c word, run lib [.dial net .no [] a (some on), .dial net .yes [] a (some off), .lost, .reconnect net .yes []] App.new = .ok c ∧
      c.config.autoReconnect = false ∧ c.st.connected = true ∧ c.st.log = [.sent word, .sent word] := by
  obtain ⟨h1, h2, h3⟩ := hoff
  simp [run, Action.run, dial, ha, connect, setOptions, App.new, Session.St.new, establishConnection, Modes.sendOperationalModes,
    Session.sendCommand, Session.establish, Session.setupConnection, hw, Session.maxPacketSize, handleConnect, h1, h2, h3, packets, lost,
    reconnect, hon, Session.disconnect, Session.disconnectDone, St.emit, App.options]

/-! ## The first commands of a connection -/

theorem establish_exact {net : Net} {c c' : App} (h : establishConnection net c = .ok c') (hw : net.env.writeOk = true) : ∃ s1,
    s1.log = c.st.log ++ [.sent ([0, 0, 0, 5, 6] ++ beBytes 4 (Modes.operationalModes c.options).toNat)] ∧ s1.connected = true ∧
    s1.validated = c.st.validated ∧ s1.subscribed = false ∧
    (if c.establishedCallback then handleConnect net { c with st := s1 } = .ok c' else c' = { c with st := s1 }) := by
  unfold establishConnection at h
  dsimp only at h
  rw [Res.bind_eq_ok] at h
  obtain ⟨s1, h1, h⟩ := h
  have h1 := send_exact h1 rfl hw
  rw [beBytes_length] at h1
  refine ⟨s1, by rw [h1]; rfl, by rw [h1]; rfl, by rw [h1]; rfl, by rw [h1]; rfl, ?_⟩
  split at h
  · rename_i he; rw [if_pos he]; exact h
  · rename_i he; rw [if_neg he]; injection h with h; exact h.symm

theorem request_exact {net : Net} {c c' : App} (h : handleConnect net c = .ok c') (ha : c.config.autoRequestMetadata = true)
    (hc : c.st.connected = true) (hw : net.env.writeOk = true) :
    c'.st.log = c.st.log ++ [.sent (beBytes 4 ((metadataPayload c.config.metadataFilters).length + 1) ++ [1] ++
      metadataPayload c.config.metadataFilters)] := by
  unfold handleConnect at h
  rw [if_pos ha] at h
  unfold requestMetadata at h
  rw [Res.bind_eq_ok] at h
  obtain ⟨st, h1, h⟩ := h
  injection h with h
  rw [← h, send_exact h1 hc hw]
  rfl

theorem unsubscribe_exact {env : Env} {s s' : St} (h : Session.unsubscribe env s = .ok s') (hc : s.connected = true)
    (hw : env.writeOk = true) :
    s'.log = s.log ++ (if s.validated then [.sent [0, 0, 0, 1, 3]] else []) ∧ s'.connected = true ∧ s'.validated = s.validated := by
  unfold Session.unsubscribe at h
  rw [hc] at h
  cases hv : s.validated
  · rw [hv] at h
    injection h with h
    subst h
    exact ⟨by simp, hc, hv⟩
  · rw [hv] at h
    simp only [Bool.not_true, Bool.or_false, Bool.false_eq_true, if_false] at h
    rw [Res.bind_eq_ok] at h
    obtain ⟨s1, h1, h⟩ := h
    have h1 := send_exact h1 hc hw
    injection h with h
    subst h
    subst h1
    exact ⟨rfl, hc, hv⟩

/-- A `Subscribe` that goes through: the frame of the subscription, after that of `Unsubscribe` when there was a subscription. -/
theorem subscribe_exact {net : Net} {c c' : App} {b : Bool} (h : dsSubscribe net c = .ok (c', b)) (hc : c.st.connected = true)
    (hv : c.version.toNat < 2 ∨ c.st.validated = true) (hu : c.sub.udpDataChannel = true → net.udpOk = true)
    (hw : net.env.writeOk = true) : b = true ∧
    c'.st.log = c.st.log ++ (if c.st.subscribed ∧ c.st.validated then [.sent [0, 0, 0, 1, 3]] else []) ++
      [.sent (beBytes 4 ((Modes.subscribePayload c.info).length + 1) ++ [2] ++ Modes.subscribePayload c.info)] := by
  unfold dsSubscribe at h
  rw [if_neg (by simp [hc]), if_neg (by
    rcases hv with hv | hv
    · have : ¬ c.version ≥ 2 := fun hx => by have : 2 ≤ c.version.toNat := hx; omega
      rw [decide_eq_false this]; simp
    · simp [hv])] at h
  rw [Res.bind_eq_ok] at h
  obtain ⟨st, h1, h⟩ := h
  dsimp only at h
  rw [if_neg (by
    cases hd : c.sub.udpDataChannel
    · simp
    · simp [hu hd])] at h
  rw [Res.bind_eq_ok] at h
  obtain ⟨st2, h2, h⟩ := h
  injection h with h; injection h with h hb
  have h3 : st.log = c.st.log ++ (if c.st.subscribed ∧ c.st.validated then [.sent [0, 0, 0, 1, 3]] else []) ∧ st.connected = true := by
    unfold endSubscription at h1
    cases hs : c.st.subscribed
    · rw [hs] at h1
      injection h1 with h1
      subst h1
      simp [hc]
    · rw [hs, if_pos rfl] at h1
      obtain ⟨a1, a2, -⟩ := unsubscribe_exact h1 hc hw
      simp [a1, a2]
  refine ⟨hb.symm, ?_⟩
  rw [← h, send_exact h2 (by exact h3.2) hw]
  show st.log ++ _ = _
  rw [h3.1]
  rfl

/-! ## C95: the modes announced -/

/-- The word announces the configuration: protocol version (in five bits below version 10, where the other three are used otherwise), UTF-8, and
which compressions are wanted; no compressed data over UDP. -/
def Announces (cfg : Config) (udp : Bool) (w : BitVec 32) : Prop :=
  (10 ≤ cfg.version.toNat → w &&& 0xFF = cfg.version.setWidth 32) ∧
  (cfg.version.toNat < 10 → w &&& 0x1F = cfg.version.setWidth 32) ∧
  w &&& 0x300 = 0x200 ∧
  (w.getLsbD 29 = true ↔ cfg.compressPayloadData = true ∧ udp = false) ∧
  (w.getLsbD 30 = true ↔ cfg.compressSignalIndexCache = true) ∧
  (w.getLsbD 31 = true ↔ cfg.compressMetadata = true)

theorem announces_modes {c : App} (h : Follows c) : Announces c.config c.sub.udpDataChannel (Modes.operationalModes c.options) := by
  have he : Modes.KnownEncoding c.options.encoding := Or.inr (Or.inr rfl)
  unfold Announces
  rw [← h.payload, ← h.cache, ← h.metadata, ← h.version]
  by_cases hv : 10 ≤ c.version.toNat
  · obtain ⟨-, h1, h2, h3, h4, h5⟩ := Modes.C31_modes_partial c.options he hv
    refine ⟨fun _ => h1, fun hx => by omega, h2, ?_, by rw [h4]; rfl, by rw [h5]; rfl⟩
    rw [h3]
    simp [App.options]
  · obtain ⟨h1, -, -, -, h2, -, h3, h4, h5⟩ := Modes.C31_old_modes_partial c.options he (show c.version.toNat < 10 by omega)
    refine ⟨fun hx => by omega, fun _ => h1, h2, ?_, by rw [h4]; rfl, by rw [h5]; rfl⟩
    rw [h3]
    simp [App.options]

theorem beBytes_word (w : BitVec 32) : ∃ b0 b1 b2 b3, beBytes 4 w.toNat = [b0, b1, b2, b3] ∧
    w.toNat = ((b0.toNat * 256 + b1.toNat) * 256 + b2.toNat) * 256 + b3.toNat := by
  refine ⟨_, _, _, _, rfl, ?_⟩
  simp only [BitVec.toNat_ofNat]
  have := w.isLt
  omega

/-- An action in which a connection can begin, with the network as seen by it. -/
inductive Connects (net : Net) : Action → Prop
  | dial (r : Reached) (ps : List (Env × List Byte)) (a : List Byte) (cfg : Option Config) : Connects net (.dial net r ps a cfg)
  | accept : Connects net (.accept net)
  | reconnect (r : Reached) (ps : List (Env × List Byte)) : Connects net (.reconnect net r ps)

/-- How a connection begins: what is set before it, the establishment, packets that come early, and `handleConnect` (for an accepted connection
as part of the establishment). -/
theorem connects_cases {lib : Lib} {net : Net} {x : Action} {c c' : App} (hx : Connects net x) (h : x.run lib c = .ok c')
    (hc : c.st.connected = false) (hc' : c'.st.connected = true) : ∃ d, (Follows c → Follows d) ∧ d.st = c.st ∧
      d.sub = c.sub ∧ d.establishedCallback = c.establishedCallback ∧ Only d c' ∧
      ((x = .accept net ∧ c = d ∧ establishConnection net d = .ok c') ∨
       (∃ ps c1 c2, x ≠ .accept net ∧ establishConnection net d = .ok c1 ∧ packets lib ps c1 = .ok c2 ∧ handleConnect net c2 = .ok c')) := by
  cases hx with
  | dial r ps a cfg =>
    unfold Action.run at h
    dsimp only at h
    rw [Res.bind_eq_ok] at h
    obtain ⟨⟨c2, o⟩, h2, h⟩ := h
    injection h with h
    subst h
    rcases dial_cases h2 with ⟨-, rfl, -⟩ | ⟨host, port, -, -, -, d, rfl, h3⟩
    · rw [hc] at hc'; cases hc'
    · rcases h3 with ⟨-, -, rfl⟩ | ⟨-, e, he, ⟨-, -, rfl⟩ | ⟨-, -, c1, c2, h3, h4, h5⟩⟩
      · exact absurd (hc.symm.trans hc') (by simp)
      · rw [he] at hc'
        exact absurd (hc.symm.trans hc') (by simp)
      · exact ⟨e, fun _ => by rw [he]; exact ⟨rfl, rfl, rfl, rfl, rfl⟩, by rw [he]; rfl, by rw [he]; rfl, by rw [he]; rfl,
          ((establish_moves h3).1.trans (packets_moves h4).only).trans (handleConnect_moves h5).only,
          .inr ⟨ps, c1, c2, by simp, h3, h4, h5⟩⟩
  | accept =>
    change Client.accept net c = .ok c' at h
    refine ⟨c, id, rfl, rfl, rfl, accept_only h, .inl ⟨rfl, rfl, ?_⟩⟩
    unfold Client.accept at h
    split at h
    · injection h with h; subst h; rw [hc] at hc'; cases hc'
    split at h
    · injection h with h; subst h; rw [hc] at hc'; cases hc'
    · exact h
  | reconnect r ps =>
    rcases reconnect_cases h with rfl | rfl | ⟨c2, c3, -, h2, h3, h4⟩
    · rw [hc] at hc'; cases hc'
    · unfold Client.disconnect at hc'
      split at hc'
      · rw [hc] at hc'; cases hc'
      · cases hc'
    · exact ⟨c, id, rfl, rfl, rfl, ((establish_moves h2).1.trans (packets_moves h3).only).trans (handleConnect_moves h4).only,
        .inr ⟨ps, c2, c3, by simp, h2, h3, h4⟩⟩

/-- C95, modes: in every history, every connection begins by announcing the configuration in use, in a command 6 with the word of the modes. -/
theorem C95_modes (lib : Lib) (as : List Action) (c c' : App) (h : run lib as App.new = .ok c) (net : Net) (x : Action)
    (hx : Connects net x) (h1 : x.run lib c = .ok c') (hc : c.st.connected = false) (hc' : c'.st.connected = true)
    (hw : net.env.writeOk = true) : ∃ (w : BitVec 32) (b0 b1 b2 b3 : Byte) (rest : List Event),
      c'.st.log = c.st.log ++ .sent [0, 0, 0, 5, 6, b0, b1, b2, b3] :: rest ∧
      w.toNat = ((b0.toNat * 256 + b1.toNat) * 256 + b2.toNat) * 256 + b3.toNat ∧ Announces c'.config c.sub.udpDataChannel w := by
  have hf : Follows App.new := ⟨rfl, rfl, rfl, rfl, rfl⟩
  obtain ⟨d, hd, hst, hsub, -, ho, h2⟩ := connects_cases hx h1 hc hc'
  have hd := hd (hf.run h)
  obtain ⟨b0, b1, b2, b3, hb, hn⟩ := beBytes_word (Modes.operationalModes d.options)
  have ha := announces_modes hd
  rw [hsub] at ha
  have hcfg : c'.config = d.config := by rw [ho]
  refine ⟨Modes.operationalModes d.options, b0, b1, b2, b3, ?_⟩
  rw [hcfg]
  have start : ∀ c1, establishConnection net d = .ok c1 → ∃ rest, c1.st.log = c.st.log ++ .sent [0, 0, 0, 5, 6, b0, b1, b2, b3] :: rest := by
    intro c1 he
    obtain ⟨s1, e1, -, -, -, e2⟩ := establish_exact he hw
    rw [hb, hst] at e1
    split at e2
    · obtain ⟨es, e3, -⟩ := (handleConnect_moves e2).adds.log
      exact ⟨es, by rw [e3]; show s1.log ++ es = _; rw [e1]; simp⟩
    · rw [e2]; exact ⟨[], e1⟩
  rcases h2 with ⟨-, -, h2⟩ | ⟨ps, c1, c2, -, h2, h3, h4⟩
  · obtain ⟨rest, hr⟩ := start c' h2
    exact ⟨rest, hr, hn, ha⟩
  · obtain ⟨rest, hr⟩ := start c1 h2
    obtain ⟨es, e1, -⟩ := (packets_moves h3).adds.log
    obtain ⟨es2, e2, -⟩ := (handleConnect_moves h4).adds.log
    refine ⟨rest ++ es ++ es2, ?_, hn, ha⟩
    rw [e2, e1, hr]
    simp

/-! ## Cases -/

/-- Nothing is compressed or encrypted in the cases. -/
def exLib : Lib := ⟨fun _ => none, fun _ _ _ => .err⟩

/-- All writes succeed. -/
def exNet : Net := ⟨⟨true, none⟩, true⟩

/-- `localhost:7165` -/
def exAddress : List Byte := Modes.ascii "localhost:7165".toList

/-- The defaults without compression of metadata. -/
def exConfig : Config := { configDefaults with compressMetadata := false }

/-- The state after a history of a new subscriber. -/
def exState (as : List Action) : Option App := match run exLib as App.new with
  | .ok c => some c
  | _ => none

/-- An address that is read, and a dial while connected. -/
example : readAddress exAddress = some (Modes.ascii "localhost".toList, 7165) ∧
    ((exState [.dial exNet .yes [] exAddress (some exConfig)]).map fun c => (c.st.connected, c.hostname, c.port)) =
      some (true, Modes.ascii "localhost".toList, 7165) := by decide +kernel

/-- A dial with a configuration, one without one, and a connection begun by the publisher. -/
example : ((exState [.dial exNet .no [] exAddress (some exConfig), .dial exNet .yes [] exAddress none]).map
      fun c => (decide (c.config = exConfig), decide (exConfig = configDefaults), c.st.connected, c.st.log.head?)) =
      some (true, false, true, some (.sent [0, 0, 0, 5, 6, 0x60, 0, 2, 0x62])) ∧
    ((exState [.listen true exAddress (some exConfig), .accept exNet]).map fun c => (c.st.connected, c.st.log.head?)) =
      some (true, some (.sent [0, 0, 0, 5, 6, 0x60, 0, 2, 0x62])) := by decide +kernel

end Verif.Client
