import Verif.Client.Props

/-!
# The connection sequence (C97)
-/

namespace Verif.Client

open Verif.Session (Env St Event Adds Confirms sendCommand cmdMetadataRefresh cmdSubscribe)

/-! ## How a connection begins -/

/-- The frame of a command: length of what follows in four bytes, command code, payload. -/
def frame (k : Byte) (payload : List Byte) : Event := .sent (beBytes 4 (payload.length + 1) ++ k :: payload)

theorem frame_eq (k : Byte) (p : List Byte) : Event.sent (beBytes 4 (p.length + 1) ++ [k] ++ p) = frame k p := by
  simp [frame]

/-- The announcement a connection begins with. -/
def IsModes (e : Event) : Prop := ∃ p, p.length = 4 ∧ e = frame 6 p

theorem isModes (w : Nat) : IsModes (.sent ([0, 0, 0, 5, 6] ++ beBytes 4 w)) :=
  ⟨beBytes 4 w, by simp, by simp only [frame, beBytes_length]; rfl⟩

/-- C97, with metadata: when metadata is to be requested automatically, a connection begins with exactly the modes and one request for metadata,
which has the filters of the configuration behind their length in four bytes, or no payload without filters; in between there are at most
confirmations of early packets, and nothing is subscribed. Missing from the full statement: a dial after a `Listen` (`C97_twice_false`). -/
theorem C97_requests_partial (lib : Lib) (net : Net) (x : Action) (c c' : App) (hx : Connects net x) (h : x.run lib c = .ok c')
    (hc : c.st.connected = false) (hc' : c'.st.connected = true) (hw : net.env.writeOk = true)
    (hl : x = .accept net ↔ c.establishedCallback = true) (ha : c'.config.autoRequestMetadata = true) : ∃ m mid,
      IsModes m ∧ (∀ e ∈ mid, Sends [7, 8, 10] e) ∧
      c'.st.log = c.st.log ++ m :: mid ++ [frame 1 (if c'.config.metadataFilters = [] then [] else
        beBytes 4 c'.config.metadataFilters.length ++ c'.config.metadataFilters)] := by
  have hp : metadataPayload c'.config.metadataFilters = if c'.config.metadataFilters = [] then [] else
      beBytes 4 c'.config.metadataFilters.length ++ c'.config.metadataFilters := by
    unfold metadataPayload
    cases c'.config.metadataFilters <;> simp
  rw [← hp]
  obtain ⟨d, -, hst, -, hcb, ho, h2⟩ := connects_cases hx h hc hc'
  have hcfg : c'.config = d.config := by rw [ho]
  rw [hcfg] at ha ⊢
  rcases h2 with ⟨hxa, rfl, h2⟩ | ⟨ps, c1, c2, hxa, h2, h3, h4⟩
  · obtain ⟨s1, e1, e2, -, -, e5⟩ := establish_exact h2 hw
    rw [if_pos (hl.mp hxa)] at e5
    refine ⟨_, [], isModes (Modes.operationalModes c.options).toNat, by simp, ?_⟩
    rw [request_exact e5 ha e2 hw, frame_eq]
    show s1.log ++ _ = _
    rw [e1]
  · obtain ⟨s1, e1, e2, -, -, e5⟩ := establish_exact h2 hw
    rw [if_neg (fun hh => hxa (hl.mpr (hcb ▸ hh)))] at e5
    obtain ⟨mid, m1, m2⟩ := (packets_moves h3).adds.log
    have ho2 : c2.config = d.config := by rw [(packets_moves h3).only, e5]
    have hcc : c2.st.connected = true := (packets_moves h3).adds.connected.trans (by rw [e5]; exact e2)
    refine ⟨_, mid, isModes (Modes.operationalModes d.options).toNat, m2, ?_⟩
    rw [request_exact h4 (by rw [ho2]; exact ha) hcc hw, frame_eq, m1, e5]
    show s1.log ++ _ ++ _ = _
    rw [e1, hst, ho2]
    simp

/-- C97, without metadata: when a subscription is to be made at once, the connection begins with the modes and, at the end, the `Subscribe`
command with the subscription as set, provided this is a first connection or a protocol version below 2 (and the UDP socket, if any, can be
opened). In between there are at most confirmations and an `Unsubscribe`. Missing from the full statement: later connections
(`C97_reconnect_false`). -/
theorem C97_subscribes_partial (lib : Lib) (net : Net) (x : Action) (c c' : App) (hx : Connects net x) (h : x.run lib c = .ok c')
    (hc : c.st.connected = false) (hc' : c'.st.connected = true) (hw : net.env.writeOk = true)
    (hl : x = .accept net ↔ c.establishedCallback = true) (ha : c'.config.autoRequestMetadata = false)
    (hs : c'.config.autoSubscribe = true) (hu : c.sub.udpDataChannel = true → net.udpOk = true)
    (hv : c'.version.toNat < 2 ∨ c.st.validated = true) : ∃ m mid,
      IsModes m ∧ (∀ e ∈ mid, Sends [3, 7, 8, 10] e) ∧
      c'.st.log = c.st.log ++ m :: mid ++ [frame 2 (Modes.subscribePayload c'.info)] := by
  obtain ⟨d, -, hst, hsub, hcb, ho, h2⟩ := connects_cases hx h hc hc'
  have hcfg : c'.config = d.config := by rw [ho]
  have hver : c'.version = d.version := by rw [ho]
  have hinfo : c'.info = d.info := by rw [ho]; rfl
  rw [hcfg] at ha hs
  rw [hver] at hv
  rw [hinfo]
  have key : ∀ (f f' : App), handleConnect net f = .ok f' → f.config = d.config → f.version = d.version → f.sub = d.sub → f.info = d.info →
      f.st.connected = true → (f.version.toNat < 2 ∨ f.st.validated = true) →
      ∃ pre, (∀ e ∈ pre, Sends [3] e) ∧ f'.st.log = f.st.log ++ pre ++ [frame 2 (Modes.subscribePayload d.info)] := by
    intro f f' hf f1 f2 f3 f4 f5 f6
    unfold handleConnect at hf
    rw [f1, if_neg (by simp [ha]), if_pos hs, Res.bind_eq_ok] at hf
    obtain ⟨⟨f1', b⟩, g1, hf⟩ := hf
    injection hf with hf
    subst hf
    obtain ⟨-, g2⟩ := subscribe_exact g1 f5 f6 (by rw [f3, hsub]; exact hu) hw
    refine ⟨_, ?_, by rw [g2, frame_eq, f4]⟩
    intro e he
    split at he
    · rw [List.mem_singleton] at he; subst he; exact .inr ⟨3, by simp, rfl⟩
    · simp at he
  rcases h2 with ⟨hxa, rfl, h2⟩ | ⟨ps, c1, c2, hxa, h2, h3, h4⟩
  · obtain ⟨s1, e1, e2, e3, -, e5⟩ := establish_exact h2 hw
    rw [if_pos (hl.mp hxa)] at e5
    obtain ⟨pre, p1, p2⟩ := key _ _ e5 rfl rfl rfl rfl e2 (hv.imp id fun hv => e3.trans hv)
    refine ⟨_, pre, isModes (Modes.operationalModes c.options).toNat, fun e he => (p1 e he).mono (by simp), ?_⟩
    rw [p2]
    show s1.log ++ _ ++ _ = _
    rw [e1]
    simp
  · obtain ⟨s1, e1, e2, e3, -, e5⟩ := establish_exact h2 hw
    rw [if_neg (fun hh => hxa (hl.mpr (hcb ▸ hh)))] at e5
    obtain ⟨mid, m1, m2⟩ := (packets_moves h3).adds.log
    have ho2 : Only d c2 := (show Only d c1 by rw [e5]; rfl).trans (packets_moves h3).only
    have hcc : c2.st.connected = true := (packets_moves h3).adds.connected.trans (by rw [e5]; exact e2)
    have hvv : c2.version.toNat < 2 ∨ c2.st.validated = true := by
      rcases hv with hv | hv
      · left; rw [ho2]; exact hv
      · right
        have h1 : c1.st.validated = true := by rw [e5]; exact e3.trans (by rw [hst]; exact hv)
        clear h4 m1 m2 hcc ho2 key e5 h2
        induction ps generalizing c1 with
        | nil => injection h3 with h3; subst h3; exact h1
        | cons p ps ih =>
          obtain ⟨env, body⟩ := p
          rw [packets, Res.bind_eq_ok] at h3
          obtain ⟨c3, h5, h3⟩ := h3
          refine ih c3 h3 ?_
          unfold packet at h5
          rw [Res.bind_eq_ok] at h5
          obtain ⟨st, h6, h5⟩ := h5
          injection h5 with h5
          subst h5
          exact Session.receive_validated h1 h6
    obtain ⟨pre, p1, p2⟩ := key _ _ h4 (by rw [ho2]) (by rw [ho2]) (by rw [ho2]) (by rw [ho2]; rfl) hcc hvv
    refine ⟨_, mid ++ pre, isModes (Modes.operationalModes d.options).toNat, ?_, ?_⟩
    · intro e he
      rcases List.mem_append.mp he with he | he
      · exact (m2 e he).mono (by simp)
      · exact (p1 e he).mono (by simp)
    · rw [p2, m1, e5]
      show s1.log ++ _ ++ _ ++ _ = _
      rw [e1, hst]
      simp

/-- C97, neither: nothing but the modes is sent, and confirmations of early packets. -/
theorem C97_neither (lib : Lib) (net : Net) (x : Action) (c c' : App) (hx : Connects net x) (h : x.run lib c = .ok c')
    (hc : c.st.connected = false) (hc' : c'.st.connected = true) (hw : net.env.writeOk = true)
    (ha : c'.config.autoRequestMetadata = false) (hs : c'.config.autoSubscribe = false) : ∃ m mid,
      IsModes m ∧ (∀ e ∈ mid, Sends [7, 8, 10] e) ∧ c'.st.log = c.st.log ++ m :: mid := by
  obtain ⟨d, -, hst, -, -, ho, h2⟩ := connects_cases hx h hc hc'
  have hcfg : c'.config = d.config := by rw [ho]
  rw [hcfg] at ha hs
  have key : ∀ f f' : App, handleConnect net f = .ok f' → f.config = d.config → f' = f := by
    intro f f' hf f1
    unfold handleConnect at hf
    rw [f1, if_neg (by simp [ha]), if_neg (by simp [hs])] at hf
    injection hf with hf
    exact hf.symm
  have start : ∀ f, establishConnection net d = .ok f → ∃ m, IsModes m ∧ f.st.log = c.st.log ++ [m] := by
    intro f hf
    obtain ⟨s1, e1, -, -, -, e5⟩ := establish_exact hf hw
    refine ⟨_, isModes (Modes.operationalModes d.options).toNat, ?_⟩
    rw [← hst, ← e1]
    split at e5
    · rw [key _ _ e5 rfl]
    · rw [e5]
  rcases h2 with ⟨hxa, -, h2⟩ | ⟨ps, c1, c2, hxa, h2, h3, h4⟩
  · obtain ⟨m, m1, m2⟩ := start c' h2
    exact ⟨m, [], m1, by simp, m2⟩
  · obtain ⟨m, m1, m2⟩ := start c1 h2
    obtain ⟨mid, n1, n2⟩ := (packets_moves h3).adds.log
    refine ⟨m, mid, m1, n2, ?_⟩
    have ho2 : Only d c2 := (establish_moves h2).1.trans (packets_moves h3).only
    rw [key _ _ h4 (by rw [ho2]), n1, m2]
    simp

/-- C97, after metadata: each received metadata leads to one `Subscribe` with the subscription as set, when both are automatic, the connection is
up and validated, and the UDP socket, if any, can be opened. -/
theorem C97_after_metadata (net : Net) (c c' : App) (h : metadataGoroutine net c = .ok c') (hp : 0 < c.pending)
    (ha : c.config.autoRequestMetadata = true) (hs : c.config.autoSubscribe = true) (hc : c.st.connected = true)
    (hv : c.version.toNat < 2 ∨ c.st.validated = true) (hu : c.sub.udpDataChannel = true → net.udpOk = true)
    (hw : net.env.writeOk = true) : c'.pending + 1 = c.pending ∧
    c'.st.log = c.st.log ++ (if c.st.subscribed ∧ c.st.validated then [frame 3 []] else []) ++ [frame 2 (Modes.subscribePayload c.info)] := by
  unfold metadataGoroutine at h
  obtain ⟨n, hn⟩ := Nat.exists_eq_succ_of_ne_zero (Nat.pos_iff_ne_zero.mp hp)
  rw [hn] at h
  dsimp only at h
  unfold handleMetadataReceived at h
  rw [if_pos (by simp [ha, hs]), Res.bind_eq_ok] at h
  obtain ⟨⟨c1, b⟩, h1, h⟩ := h
  injection h with h
  subst h
  have hpend : c1.pending = n := by
    have hpm : ∀ {f f' : App} {b : Bool}, dsSubscribe net f = .ok (f', b) → f'.pending = f.pending := by
      intro f f' b hf
      unfold dsSubscribe at hf
      split at hf
      · injection hf with hf; injection hf with hf _; subst hf; rfl
      split at hf
      · injection hf with hf; injection hf with hf _; subst hf; rfl
      rw [Res.bind_eq_ok] at hf
      obtain ⟨st, -, hf⟩ := hf
      dsimp only at hf
      split at hf
      · injection hf with hf; injection hf with hf _; subst hf; rfl
      · rw [Res.bind_eq_ok] at hf
        obtain ⟨st2, -, hf⟩ := hf
        injection hf with hf; injection hf with hf _; subst hf; rfl
    exact hpm h1
  obtain ⟨-, h2⟩ := subscribe_exact h1 hc hv hu hw
  refine ⟨by omega, ?_⟩
  rw [h2, frame_eq]
  rfl

/-- C97, after metadata: with one of both off, received metadata leads to nothing more: an application that requests metadata itself subscribes
itself. -/
theorem C97_metadata_only (net : Net) (c c' : App) (h : metadataGoroutine net c = .ok c') (hp : 0 < c.pending)
    (ha : c.config.autoRequestMetadata = false ∨ c.config.autoSubscribe = false) : c'.pending + 1 = c.pending ∧ c'.st = c.st ∧ c'.sub = c.sub := by
  unfold metadataGoroutine at h
  obtain ⟨n, hn⟩ := Nat.exists_eq_succ_of_ne_zero (Nat.pos_iff_ne_zero.mp hp)
  rw [hn] at h
  dsimp only at h
  unfold handleMetadataReceived at h
  rw [if_neg (by rcases ha with ha | ha <;> simp [ha])] at h
  injection h with h
  subst h
  exact ⟨by rw [hn], rfl, rfl⟩

/-- A subscriber that requests metadata itself, with metadata received. -/
example : let c : App := { App.new with config := { configDefaults with autoRequestMetadata := false }, pending := 1 }
    0 < c.pending ∧ c.config.autoRequestMetadata = false ∧ c.config.autoSubscribe = true := by decide

/-! ## Histories -/

/-- How many `Subscribe` commands were sent. -/
def subscribes (l : List Event) : Nat := l.countP fun e => e.command = some 2

/-- How many times metadata was received. -/
def metadataReceived (l : List Event) : Nat := l.countP fun e => match e with | .metadata _ => true | _ => false

/-- The configuration an action brings. -/
def Action.config : Action → Option Config
  | .dial _ _ _ _ cfg => cfg
  | .listen _ _ cfg => cfg
  | _ => none

/-- The application itself subscribes. -/
def Action.isSubscribe : Action → Bool
  | .subscribe _ _ _ => true
  | _ => false

/-- No more subscriptions than metadata at any time, and metadata for the goroutines to come. -/
structure Ordered (c : App) : Prop where
  auto : c.config.autoRequestMetadata = true
  pre : ∀ p, p <+: c.st.log → subscribes p ≤ metadataReceived p
  pending : subscribes c.st.log + c.pending ≤ metadataReceived c.st.log

theorem subscribes_append (a b : List Event) : subscribes (a ++ b) = subscribes a + subscribes b := by
  simp [subscribes, List.countP_append]

theorem metadata_append (a b : List Event) : metadataReceived (a ++ b) = metadataReceived a + metadataReceived b := by
  simp [metadataReceived, List.countP_append]

theorem subscribes_none {cs : List Byte} {es : List Event} (h : ∀ e ∈ es, Sends cs e) (h2 : (2 : Byte) ∉ cs) : subscribes es = 0 := by
  unfold subscribes
  rw [List.countP_eq_zero]
  intro e he
  rcases h e he with h | ⟨k, hk, h⟩
  · simp [h]
  · rw [h]
    simp only [Option.some.injEq, decide_eq_true_eq]
    rintro rfl
    exact h2 hk

theorem prefix_append {p a b : List Event} (h : p <+: a ++ b) : p <+: a ∨ ∃ q, q <+: b ∧ p = a ++ q := by
  obtain ⟨t, ht⟩ := h
  rcases List.append_eq_append_iff.mp ht with ⟨x, h1, -⟩ | ⟨x, h1, h2⟩
  · exact .inl ⟨x, h1.symm⟩
  · exact .inr ⟨x, ⟨t, h2.symm⟩, h1⟩

/-- Further events, no more of them subscriptions than goroutines went. -/
theorem Ordered.step {c c' : App} (h : Ordered c) (hcfg : c'.config.autoRequestMetadata = true) (es : List Event)
    (hl : c'.st.log = c.st.log ++ es) (hp : subscribes es + c'.pending ≤ c.pending + metadataReceived es)
    (hs : subscribes es ≤ c.pending) : Ordered c' := by
  refine ⟨hcfg, ?_, ?_⟩
  · intro p hpre
    rw [hl] at hpre
    rcases prefix_append hpre with hpre | ⟨q, hq, rfl⟩
    · exact h.pre p hpre
    · have h1 : subscribes q ≤ subscribes es := List.Sublist.countP_le hq.sublist
      have h2 := h.pending
      rw [subscribes_append, metadata_append]
      omega
  · have := h.pending
    rw [hl, subscribes_append, metadata_append]
    omega

theorem Ordered.moves {c c' : App} {cs : List Byte} (h : Ordered c) (hm : Moves (Sends cs) c c') (h2 : (2 : Byte) ∉ cs)
    (hp : c'.pending = c.pending) : Ordered c' := by
  obtain ⟨es, e1, e2⟩ := hm.adds.log
  have := subscribes_none e2 h2
  exact h.step (by rw [hm.only]; exact h.auto) es e1 (by omega) (by omega)

theorem packet_pending {lib : Lib} {env : Env} {body : List Byte} {c c' : App} (h : packet lib env body c = .ok c') :
    ∃ es, c'.st.log = c.st.log ++ es ∧ c'.pending = c.pending + metadataReceived es := by
  obtain ⟨es, e1, -⟩ := (packet_moves h).adds.log
  refine ⟨es, e1, ?_⟩
  unfold packet at h
  rw [Res.bind_eq_ok] at h
  obtain ⟨st, h1, h⟩ := h
  injection h with h
  subst h
  dsimp only at e1 ⊢
  rw [e1, List.drop_left]
  rfl

theorem Ordered.packet {lib : Lib} {env : Env} {body : List Byte} {c c' : App} (h : Ordered c) (hp : packet lib env body c = .ok c') :
    Ordered c' := by
  have hm := packet_moves hp
  obtain ⟨es, e1, e2⟩ := packet_pending hp
  obtain ⟨es', e3, e4⟩ := hm.adds.log
  have : es' = es := List.append_cancel_left (e3.symm.trans e1)
  subst this
  have := subscribes_none e4 (by decide)
  exact h.step (by rw [hm.only]; exact h.auto) es' e1 (by omega) (by omega)

theorem Ordered.packets {lib : Lib} {ps : List (Env × List Byte)} {c c' : App} (h : Ordered c) (hp : packets lib ps c = .ok c') :
    Ordered c' := by
  induction ps generalizing c with
  | nil => injection hp with hp; subst hp; exact h
  | cons p ps ih =>
    obtain ⟨env, body⟩ := p
    rw [Client.packets, Res.bind_eq_ok] at hp
    obtain ⟨c1, h1, hp⟩ := hp
    exact ih (h.packet h1) hp

theorem requestMetadata_pending {net : Net} {c c' : App} (h : requestMetadata net c = .ok c') : c'.pending = c.pending := by
  unfold requestMetadata at h
  rw [Res.bind_eq_ok] at h
  obtain ⟨st, -, h⟩ := h
  injection h with h
  subst h
  rfl

theorem changed_pending {net : Net} {c c' : App} (h : changedGoroutine net c = .ok c') : c'.pending = c.pending := by
  unfold changedGoroutine at h
  split at h
  · injection h with h; subst h; rfl
  · unfold handleConfigurationChanged at h
    split at h
    · exact (requestMetadata_pending h).trans rfl
    · injection h with h; subst h; rfl

theorem Ordered.handleConnect {net : Net} {c c' : App} (h : Ordered c) (hh : handleConnect net c = .ok c') : Ordered c' := by
  have hm := handleConnect_requests hh h.auto
  unfold Client.handleConnect at hh
  rw [if_pos h.auto] at hh
  exact h.moves hm (by decide) (requestMetadata_pending hh)

theorem Ordered.same {c c' : App} (h : Ordered c) (h1 : c'.config.autoRequestMetadata = true) (h2 : c'.st.log = c.st.log)
    (h3 : c'.pending = c.pending) : Ordered c' :=
  h.step h1 [] (by rw [h2]; simp) (by simp [subscribes, metadataReceived, h3]) (by simp [subscribes])

theorem Ordered.establish {net : Net} {c c' : App} (h : Ordered c) (hh : establishConnection net c = .ok c') : Ordered c' := by
  unfold establishConnection at hh
  dsimp only at hh
  rw [Res.bind_eq_ok] at hh
  obtain ⟨st, h1, hh⟩ := hh
  have h1 := send_moves h1
  have h2 : Ordered { c with st := st } := by
    obtain ⟨es, e1, e2⟩ := h1.log
    have := subscribes_none e2 (by decide)
    exact h.step h.auto es e1 (by show _ + c.pending ≤ _; omega) (by omega)
  split at hh
  · exact h2.handleConnect hh
  · injection hh with hh; subst hh; exact h2

theorem subscribe_once {net : Net} {c c' : App} {b : Bool} (h : dsSubscribe net c = .ok (c', b)) :
    ∃ es, c'.st.log = c.st.log ++ es ∧ subscribes es ≤ 1 ∧ metadataReceived es = 0 ∧ c'.pending = c.pending ∧ c'.config = c.config := by
  unfold dsSubscribe at h
  split at h
  · injection h with h; injection h with h _; subst h; exact ⟨[], by simp, by simp [subscribes], rfl, rfl, rfl⟩
  split at h
  · injection h with h; injection h with h _; subst h; exact ⟨[], by simp, by simp [subscribes], rfl, rfl, rfl⟩
  rw [Res.bind_eq_ok] at h
  obtain ⟨st, h1, h⟩ := h
  have none_added : ∀ {env : Env} {k : Byte} {p : List Byte} {s s' : St}, sendCommand env k p s = .ok s' →
      ∃ es, s'.log = s.log ++ es ∧ subscribes es ≤ (if k = 2 then 1 else 0) ∧ metadataReceived es = 0 := by
    intro env k p s s' hs
    unfold sendCommand at hs
    split at hs
    · injection hs with hs; subst hs; exact ⟨[], by simp, by simp [subscribes], rfl⟩
    split at hs
    · cases hs
    split at hs <;> injection hs with hs <;> subst hs
    · refine ⟨_, rfl, ?_, rfl⟩
      unfold subscribes
      rw [List.countP_singleton, Session.command_frame]
      split <;> split <;> simp_all
    · exact ⟨[.error, .terminate], by simp [St.fail, St.emit], by simp [subscribes, Event.command], rfl⟩
  have h1 : ∃ es, st.log = c.st.log ++ es ∧ subscribes es = 0 ∧ metadataReceived es = 0 := by
    unfold endSubscription at h1
    split at h1
    · unfold Session.unsubscribe at h1
      split at h1
      · injection h1 with h1; subst h1; exact ⟨[], by simp, rfl, rfl⟩
      · rw [Res.bind_eq_ok] at h1
        obtain ⟨s1, h2, h1⟩ := h1
        injection h1 with h1
        subst h1
        obtain ⟨es, e1, e2, e3⟩ := none_added h2
        exact ⟨es, e1, by simpa [Session.cmdUnsubscribe] using e2, e3⟩
    · injection h1 with h1; subst h1; exact ⟨[], by simp, rfl, rfl⟩
  obtain ⟨es, e1, e2, e3⟩ := h1
  dsimp only at h
  split at h
  · injection h with h; injection h with h _; subst h
    exact ⟨es, e1, by omega, e3, rfl, rfl⟩
  · rw [Res.bind_eq_ok] at h
    obtain ⟨st2, h2, h⟩ := h
    injection h with h; injection h with h _; subst h
    obtain ⟨es2, f1, f2, f3⟩ := none_added h2
    refine ⟨es ++ es2, ?_, ?_, ?_, rfl, rfl⟩
    · show st2.log = _
      rw [f1]
      show st.log ++ es2 = _
      rw [e1, List.append_assoc]
    · have : subscribes es2 ≤ 1 := by simpa [cmdSubscribe] using f2
      rw [subscribes_append]; omega
    · rw [metadata_append]; omega

theorem Ordered.action {lib : Lib} {x : Action} {c c' : App} (h : Ordered c) (hx : x.run lib c = .ok c')
    (hs : x.isSubscribe = false) (hcfg : ∀ cfg, x.config = some cfg → cfg.autoRequestMetadata = true) : Ordered c' := by
  have hget : (x.config.getD c.config).autoRequestMetadata = true := by
    cases hk : x.config with
    | none => exact h.auto
    | some cfg => exact hcfg cfg hk
  have disc : ∀ {d : App}, Ordered d → Ordered (Client.disconnect d) := by
    intro d hd
    unfold Client.disconnect
    split
    · exact hd
    · exact hd.same hd.auto rfl rfl
  cases x with
  | dial net r ps a cfg =>
    unfold Action.run at hx
    dsimp only at hx
    rw [Res.bind_eq_ok] at hx
    obtain ⟨⟨c2, o⟩, h2, hx⟩ := hx
    injection hx with hx
    subst hx
    rcases dial_cases h2 with ⟨-, rfl, -⟩ | ⟨host, port, -, -, -, d, rfl, h3⟩
    · exact h
    · have hd : Ordered (configured host port { c with config := cfg.getD c.config }) := h.same hget rfl rfl
      rcases h3 with ⟨-, -, rfl⟩ | ⟨-, e, rfl, ⟨-, -, rfl⟩ | ⟨-, -, c1, c3, h3, h4, h5⟩⟩
      · exact hd
      · exact hd.same hget rfl rfl
      · refine Ordered.handleConnect (Ordered.packets (Ordered.establish ?_ h3) h4) h5
        exact hd.same hget rfl rfl
  | listen opened a cfg =>
    injection hx with hx
    subst hx
    unfold listen
    split
    · exact h
    split
    · exact h
    split
    · exact h
    · dsimp only
      split <;> exact h.same hget rfl rfl
  | accept net =>
    change Client.accept net c = .ok c' at hx
    unfold Client.accept at hx
    split at hx
    · injection hx with hx; subst hx; exact h
    split at hx
    · injection hx with hx; subst hx; exact h
    · exact h.establish hx
  | disconnect => injection hx with hx; subst hx; exact disc h
  | lost => injection hx with hx; subst hx; exact h.same h.auto rfl rfl
  | reconnect net r ps =>
    rcases reconnect_cases hx with rfl | rfl | ⟨c2, c3, -, h2, h3, h4⟩
    · exact h
    · exact disc h
    · exact Ordered.handleConnect (Ordered.packets (h.establish h2) h3) h4
  | packet env body => exact h.packet hx
  | metadata net =>
    change metadataGoroutine net c = .ok c' at hx
    unfold metadataGoroutine at hx
    split at hx
    · injection hx with hx; subst hx; exact h
    · rename_i n hn
      unfold handleMetadataReceived at hx
      split at hx
      · rw [Res.bind_eq_ok] at hx
        obtain ⟨⟨c1, b⟩, h1, hx⟩ := hx
        injection hx with hx
        subst hx
        obtain ⟨es, e1, e2, e3, e4, e5⟩ := subscribe_once h1
        exact h.step (by rw [e5]; exact h.auto) es e1 (by rw [e4]; show _ + n ≤ _; omega) (by omega)
      · injection hx with hx
        subst hx
        refine h.step h.auto [] (by simp) ?_ (by simp [subscribes])
        show 0 + n ≤ c.pending + 0
        omega
  | changed net => exact h.moves (changed_moves hx) (by decide) (changed_pending hx)
  | requestMetadata net => exact h.moves (requestMetadata_moves hx) (by decide) (requestMetadata_pending hx)
  | subscribe net f s => cases hs
  | unsubscribe net =>
    change Client.unsubscribe net c = .ok c' at hx
    unfold Client.unsubscribe at hx
    rw [Res.bind_eq_ok] at hx
    obtain ⟨st, h1, hx⟩ := hx
    injection hx with hx
    subst hx
    exact h.moves (cs := [3]) ⟨rfl, unsubscribe_moves h1⟩ (by decide) rfl

/-- C97, order: with metadata requested automatically in every configuration, in every history in which the application does not subscribe itself
(dialling, listening, lost and new connections, any packets, goroutines at any time), at every moment there have been at most as many `Subscribe`
commands as metadata received: a subscription is made only after metadata, one for each. -/
theorem C97_order (lib : Lib) (as : List Action) (c : App) (h : run lib as App.new = .ok c) (hs : ∀ x ∈ as, x.isSubscribe = false)
    (hcfg : ∀ x ∈ as, ∀ cfg, x.config = some cfg → cfg.autoRequestMetadata = true) :
    ∀ past, past <+: c.st.log → subscribes past ≤ metadataReceived past := by
  have gen : ∀ (as : List Action) (c0 : App), Ordered c0 → run lib as c0 = .ok c → (∀ x ∈ as, x.isSubscribe = false) →
      (∀ x ∈ as, ∀ cfg, x.config = some cfg → cfg.autoRequestMetadata = true) → Ordered c := by
    intro as
    induction as with
    | nil => intro c0 h0 h _ _; injection h with h; subst h; exact h0
    | cons x as ih =>
      intro c0 h0 h hs hcfg
      rw [run, Res.bind_eq_ok] at h
      obtain ⟨c1, h1, h⟩ := h
      exact ih c1 (h0.action h1 (hs x (by simp)) (hcfg x (by simp))) h (fun y hy => hs y (by simp [hy])) fun y hy => hcfg y (by simp [hy])
  have h0 : Ordered App.new := by
    refine ⟨rfl, ?_, by decide⟩
    intro p hp
    rw [show App.new.st.log = [] from rfl, List.prefix_nil] at hp
    subst hp
    decide
  exact (gen as App.new h0 h hs hcfg).pre

/-- No subscription: not automatic, and none sent so far beyond the given number. -/
theorem never_step {lib : Lib} {x : Action} {c c' : App} (h : x.run lib c = .ok c') (ha : c.config.autoSubscribe = false)
    (hs : x.isSubscribe = false) (hcfg : ∀ cfg, x.config = some cfg → cfg.autoSubscribe = false) :
    c'.config.autoSubscribe = false ∧ ∃ es, c'.st.log = c.st.log ++ es ∧ ∀ e ∈ es, Sends [1, 3, 6, 7, 8, 10] e := by
  have hget : (x.config.getD c.config).autoSubscribe = false := by
    cases hk : x.config with
    | none => exact ha
    | some cfg => exact hcfg cfg hk
  have disc : ∀ d : App, (Client.disconnect d).config = d.config ∧ (Client.disconnect d).st.log = d.st.log := by
    intro d
    unfold Client.disconnect
    split
    · exact ⟨rfl, rfl⟩
    · exact ⟨rfl, rfl⟩
  have moved : ∀ {cs : List Byte} {d d' : App}, Moves (Sends cs) d d' → d.config.autoSubscribe = false → (∀ k ∈ cs, k ∈ [(1 : Byte), 3, 6, 7, 8, 10]) →
      d'.config.autoSubscribe = false ∧ ∃ es, d'.st.log = d.st.log ++ es ∧ ∀ e ∈ es, Sends [1, 3, 6, 7, 8, 10] e := by
    intro cs d d' hm hd hk
    obtain ⟨es, e1, e2⟩ := hm.adds.log
    exact ⟨by rw [hm.only]; exact hd, es, e1, fun e he => (e2 e he).mono hk⟩
  have connected : ∀ {net : Net} {d d' : App}, handleConnect net d = .ok d' → d.config.autoSubscribe = false →
      d'.config.autoSubscribe = false ∧ ∃ es, d'.st.log = d.st.log ++ es ∧ ∀ e ∈ es, Sends [1, 3, 6, 7, 8, 10] e := by
    intro net d d' hh hd
    unfold handleConnect at hh
    split at hh
    · exact moved (requestMetadata_moves hh) hd (by simp)
    · rw [if_neg (by simp [hd])] at hh
      injection hh with hh
      subst hh
      exact ⟨hd, [], by simp, by simp⟩
  have joined : ∀ {a b d : App}, (∃ es, b.st.log = a.st.log ++ es ∧ ∀ e ∈ es, Sends [1, 3, 6, 7, 8, 10] e) →
      (∃ es, d.st.log = b.st.log ++ es ∧ ∀ e ∈ es, Sends [1, 3, 6, 7, 8, 10] e) →
      ∃ es, d.st.log = a.st.log ++ es ∧ ∀ e ∈ es, Sends [1, 3, 6, 7, 8, 10] e := by
    rintro a b d ⟨e1, h1, g1⟩ ⟨e2, h2, g2⟩
    refine ⟨e1 ++ e2, by rw [h2, h1]; simp, ?_⟩
    intro e he
    rcases List.mem_append.mp he with he | he
    · exact g1 e he
    · exact g2 e he
  have established : ∀ {net : Net} {d d' : App}, establishConnection net d = .ok d' → d.config.autoSubscribe = false →
      d'.config.autoSubscribe = false ∧ ∃ es, d'.st.log = d.st.log ++ es ∧ ∀ e ∈ es, Sends [1, 3, 6, 7, 8, 10] e := by
    intro net d d' hh hd
    unfold establishConnection at hh
    dsimp only at hh
    rw [Res.bind_eq_ok] at hh
    obtain ⟨st, h1, hh⟩ := hh
    obtain ⟨es, e1, e2⟩ := (send_moves h1).log
    have start : ∃ es, ({ d with st := st } : App).st.log = d.st.log ++ es ∧ ∀ e ∈ es, Sends [1, 3, 6, 7, 8, 10] e :=
      ⟨es, e1, fun e he => (e2 e he).mono (by decide)⟩
    split at hh
    · obtain ⟨h2, h3⟩ := connected hh hd
      exact ⟨h2, joined start h3⟩
    · injection hh with hh; subst hh; exact ⟨hd, start⟩
  have begun : ∀ {net : Net} {ps : List (Env × List Byte)} {d c1 c2 d' : App}, establishConnection net d = .ok c1 → packets lib ps c1 = .ok c2 →
      handleConnect net c2 = .ok d' → d.config.autoSubscribe = false →
      d'.config.autoSubscribe = false ∧ ∃ es, d'.st.log = d.st.log ++ es ∧ ∀ e ∈ es, Sends [1, 3, 6, 7, 8, 10] e := by
    intro net ps d c1 c2 d' h1 h2 h3 hd
    obtain ⟨a1, b1⟩ := established h1 hd
    obtain ⟨a2, b2⟩ := moved (packets_moves h2) a1 (by simp)
    obtain ⟨a3, b3⟩ := connected h3 a2
    exact ⟨a3, joined (joined b1 b2) b3⟩
  cases x with
  | dial net r ps a cfg =>
    unfold Action.run at h
    dsimp only at h
    rw [Res.bind_eq_ok] at h
    obtain ⟨⟨c2, o⟩, h2, h⟩ := h
    injection h with h
    subst h
    rcases dial_cases h2 with ⟨-, rfl, -⟩ | ⟨host, port, -, -, -, d, rfl, h3⟩
    · exact ⟨ha, [], by simp, by simp⟩
    · rcases h3 with ⟨-, -, rfl⟩ | ⟨-, e, rfl, ⟨-, -, rfl⟩ | ⟨-, -, c1, c3, h3, h4, h5⟩⟩
      · exact ⟨hget, [], by simp [configured, setOptions], by simp⟩
      · exact ⟨hget, [], by simp [configured, setOptions, Session.setupConnection], by simp⟩
      · have := begun h3 h4 h5 hget
        exact this
  | listen opened a cfg =>
    injection h with h
    subst h
    unfold listen
    split
    · exact ⟨ha, [], by simp, by simp⟩
    split
    · exact ⟨ha, [], by simp, by simp⟩
    split
    · exact ⟨ha, [], by simp, by simp⟩
    · dsimp only
      split <;> exact ⟨hget, [], by simp [setOptions], by simp⟩
  | accept net =>
    change Client.accept net c = .ok c' at h
    unfold Client.accept at h
    split at h
    · injection h with h; subst h; exact ⟨ha, [], by simp, by simp⟩
    split at h
    · injection h with h; subst h; exact ⟨ha, [], by simp, by simp⟩
    · exact established h ha
  | disconnect =>
    injection h with h
    subst h
    exact ⟨by rw [(disc c).1]; exact ha, [], by rw [(disc c).2]; simp, by simp⟩
  | lost => injection h with h; subst h; exact ⟨ha, [], by simp [lost, Session.disconnectDone, Session.disconnect], by simp⟩
  | reconnect net r ps =>
    rcases reconnect_cases h with rfl | rfl | ⟨c2, c3, -, h2, h3, h4⟩
    · exact ⟨ha, [], by simp, by simp⟩
    · exact ⟨by rw [(disc c).1]; exact ha, [], by rw [(disc c).2]; simp, by simp⟩
    · exact begun h2 h3 h4 ha
  | packet env body => exact moved (packet_moves h) ha (by simp)
  | metadata net =>
    change metadataGoroutine net c = .ok c' at h
    unfold metadataGoroutine at h
    split at h
    · injection h with h; subst h; exact ⟨ha, [], by simp, by simp⟩
    · unfold handleMetadataReceived at h
      rw [if_neg (by simp [ha])] at h
      injection h with h
      subst h
      exact ⟨ha, [], by simp, by simp⟩
  | changed net => exact moved (changed_moves h) ha (by simp)
  | requestMetadata net => exact moved (requestMetadata_moves h) ha (by simp)
  | subscribe net f s => cases hs
  | unsubscribe net =>
    change Client.unsubscribe net c = .ok c' at h
    unfold Client.unsubscribe at h
    rw [Res.bind_eq_ok] at h
    obtain ⟨st, h1, h⟩ := h
    injection h with h
    subst h
    exact moved (cs := [3]) ⟨rfl, unsubscribe_moves h1⟩ ha (by simp)

/-- C97, never: with automatic subscription off in the configuration in use and in those that follow, no history in which the application does not
subscribe itself sends a `Subscribe`. -/
theorem C97_never (lib : Lib) (as : List Action) (c c' : App) (h : run lib as c = .ok c') (ha : c.config.autoSubscribe = false)
    (hs : ∀ x ∈ as, x.isSubscribe = false) (hcfg : ∀ x ∈ as, ∀ cfg, x.config = some cfg → cfg.autoSubscribe = false) :
    ∃ es, c'.st.log = c.st.log ++ es ∧ subscribes es = 0 := by
  induction as generalizing c with
  | nil => injection h with h; subst h; exact ⟨[], by simp, rfl⟩
  | cons x as ih =>
    rw [run, Res.bind_eq_ok] at h
    obtain ⟨c1, h1, h⟩ := h
    obtain ⟨a1, es, e1, e2⟩ := never_step h1 ha (hs x (by simp)) (hcfg x (by simp))
    obtain ⟨es2, f1, f2⟩ := ih c1 h a1 (fun y hy => hs y (by simp [hy])) fun y hy => hcfg y (by simp [hy])
    refine ⟨es ++ es2, by rw [f1, e1]; simp, ?_⟩
    rw [subscribes_append, f2, subscribes_none e2 (by decide)]

/-! ## Where the sequence fails -/

/-- C97 fails after a lost connection: without metadata, with automatic subscription and protocol version 2 or above, the new connection is not
subscribed. `Subscribe` runs before the publisher has sent anything, when the new connection is not validated, and its error is dropped; nothing
the publisher sends later leads to a subscription. -/
theorem C97_reconnect_false (lib : Lib) (net : Net) (later : List (Env × List Byte)) (c : App) (hr : c.reconnectCallback = true)
    (hx : c.cancel = false) (hl : c.listening = false) (ha : c.config.autoRequestMetadata = false) (hs : c.config.autoSubscribe = true)
    (hv : 2 ≤ c.version.toNat) (hw : net.env.writeOk = true) : ∃ c1,
      run lib [.lost, .reconnect net .yes []] c = .ok c1 ∧ c1.st.connected = true ∧
      ∀ c', run lib (later.map fun p => .packet p.1 p.2) c1 = .ok c' → ∃ es, c'.st.log = c.st.log ++ es ∧ subscribes es = 0 := by
  have hv' : 2#8 ≤ c.version := show 2 ≤ c.version.toNat from hv
  have h1 : ∃ c1 w, run lib [.lost, .reconnect net .yes []] c = .ok c1 ∧ c1.st.connected = true ∧
      c1.st.log = c.st.log ++ [.sent ([0, 0, 0, 5, 6] ++ beBytes 4 w)] := by
    let st := Session.establish (Session.setupConnection (Session.disconnectDone (Session.disconnect c.st)))
    let e : Event := .sent ([0, 0, 0, 5, 6] ++ beBytes 4 (Modes.operationalModes c.options).toNat)
    refine ⟨{ c with st := st.emit e }, _, ?_, rfl, rfl⟩
    cases he : c.establishedCallback <;>
      simp [run, Action.run, lost, reconnect, Session.disconnect, Session.disconnectDone, hr, hx, hl, he, establishConnection,
        Session.establish, Session.setupConnection, Modes.sendOperationalModes, sendCommand, hw, Session.maxPacketSize, packets,
        handleConnect, ha, hs, dsSubscribe, hv', St.emit, App.options, st, e] <;> rfl
  obtain ⟨c1, w, h1, h2, h3⟩ := h1
  refine ⟨c1, h1, h2, fun c' h => ?_⟩
  have h4 : ∃ es, c'.st.log = c1.st.log ++ es ∧ subscribes es = 0 := by
    clear h1 h2 h3
    induction later generalizing c1 with
    | nil => injection h with h; subst h; exact ⟨[], by simp, rfl⟩
    | cons p ps ih =>
      rw [List.map_cons, run, Res.bind_eq_ok] at h
      obtain ⟨c2, h5, h⟩ := h
      obtain ⟨es, e1, e2⟩ := (packet_moves h5).adds.log
      obtain ⟨es2, f1, f2⟩ := ih c2 h
      exact ⟨es ++ es2, by rw [f1, e1]; simp, by rw [subscribes_append, f2, subscribes_none e2 (by decide)]⟩
  obtain ⟨es, e1, e2⟩ := h4
  refine ⟨.sent ([0, 0, 0, 5, 6] ++ beBytes 4 w) :: es, by rw [e1, h3]; simp, ?_⟩
  rw [← List.singleton_append, subscribes_append, e2]
  simp [subscribes, Event.command]

/-- C97 fails after a `Listen` that failed: it leaves its callback behind, so that the next dial requests the metadata twice. -/
theorem C97_twice_false (lib : Lib) (net : Net) (a : List Byte) (host : List Byte) (port : BitVec 16) (cfg : Config)
    (ha : readAddress a = some (host, port)) (hm : cfg.autoRequestMetadata = true) (hf : cfg.metadataFilters = []) (hw : net.env.writeOk = true) :
    ∃ c m, run lib [.listen false a (some cfg), .dial net .yes [] a (some cfg)] App.new = .ok c ∧
      c.st.log = [m, frame 1 [], frame 1 []] := by
  simp [run, Action.run, listen, dial, ha, connect, setOptions, App.new, Session.St.new, establishConnection, Modes.sendOperationalModes,
    sendCommand, Session.establish, Session.setupConnection, hw, Session.maxPacketSize, handleConnect, hm, packets, requestMetadata,
    metadataPayload, hf, St.emit, frame, Session.cmdMetadataRefresh]

/-! ## Cases -/

/-- With filters for the metadata; an early packet that is confirmed comes before the request. -/
example : ((exState [.dial exNet .yes [(⟨true, none⟩, [0x80, 1, 0, 0, 0, 2, 60, 62])] exAddress (some { exConfig with metadataFilters := [70, 73] })]).map
      fun c => (c.st.connected, decide (c.establishedCallback = false), c.config.autoRequestMetadata, c.st.log.map fun e => e.command)) =
    some (true, true, true, [some 6, none, none, some 1]) := by decide +kernel

/-- At once, without metadata, with protocol version 2; and with neither. -/
example : ((exState [.dial exNet .yes [] exAddress (some { exConfig with autoRequestMetadata := false })]).map
      fun c => (c.st.connected, decide (c.establishedCallback = false), c.config.autoSubscribe, c.st.log.map fun e => e.command)) =
      some (true, true, true, [some 6, some 2]) ∧
    ((exState [.dial exNet .yes [] exAddress (some { exConfig with autoRequestMetadata := false, autoSubscribe := false })]).map
      fun c => (c.st.connected, c.st.log.map fun e => e.command)) = some (true, [some 6]) := by decide +kernel

/-- The publisher connects to the subscriber. -/
example : ((exState [.listen true exAddress (some exConfig), .accept exNet]).map
      fun c => (c.st.connected, c.establishedCallback, c.listening, c.st.log.map fun e => e.command)) =
    some (true, true, true, [some 6, some 1]) := by decide +kernel

/-- Metadata received twice, a lost connection, another one with metadata: three subscriptions, each after its metadata. -/
example : ((exState [.dial exNet .yes [] exAddress (some exConfig), .packet ⟨true, none⟩ [0x80, 1, 0, 0, 0, 2, 60, 62], .metadata exNet,
      .packet ⟨true, none⟩ [0x80, 1, 0, 0, 0, 2, 60, 62], .metadata exNet, .lost, .reconnect exNet .yes [],
      .packet ⟨true, none⟩ [0x80, 6, 0, 0, 0, 0], .packet ⟨true, none⟩ [0x80, 1, 0, 0, 0, 2, 60, 62], .metadata exNet]).map
      fun c => (c.pending, subscribes c.st.log, metadataReceived c.st.log)) = some (0, 3, 3) := by decide +kernel

/-- A state as in `C97_reconnect_false`. -/
example : ((exState [.dial exNet .yes [] exAddress (some { exConfig with autoRequestMetadata := false })]).map
      fun c => (c.reconnectCallback, c.cancel, c.listening, c.config.autoRequestMetadata, c.config.autoSubscribe, c.version)) =
    some (true, false, false, false, true, 2) := by decide +kernel

end Verif.Client
