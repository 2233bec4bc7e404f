import Verif.Client.Sequence
import Verif.Session.SideProps

/-!
# A changed configuration (C124)
-/

namespace Verif.Client

open Verif.Session (Env St Event Adds Confirms sendCommand cmdMetadataRefresh cmdSubscribe)

/-- The request for metadata with these filters: their length in four bytes and the filters, or nothing. -/
def metadataRequest (filters : List Byte) : Event :=
  frame 1 (if filters = [] then [] else beBytes 4 filters.length ++ filters)

theorem metadataRequest_eq (filters : List Byte) : frame 1 (metadataPayload filters) = metadataRequest filters := by
  unfold metadataPayload metadataRequest
  cases filters <;> simp

/-! ## One notification -/

theorem receive_changed (cfg : Session.Cfg) (env : Env) (s : St) (hv : s.validated = true) (cc : Byte) (len data : List Byte) (hl : len.length = 4) :
    Session.receive cfg env (0x8A :: cc :: len ++ data) s =
      .ok (({ s with
        totalCommandChannelBytesReceived := s.totalCommandChannelBytesReceived + 4 + BitVec.ofNat 64 (0x8A :: cc :: len ++ data).length
        validated := true }.emit .status).emit .configurationChanged) := by
  unfold Session.receive Session.readPayloadHeader
  dsimp only
  rw [hv]
  simp only [Bool.not_true, Bool.false_eq_true, if_false]
  unfold Session.readPacket
  rw [List.cons_append, List.cons_append, Session.processServerResponse, if_neg (by simp [Session.responseHeaderSize, hl])]
  rfl

theorem receive_metadata (cfg : Session.Cfg) (env : Env) (s : St) (hv : s.validated = true) (len data : List Byte) (hl : len.length = 4)
    (hm : cfg.compressMetadata = false) :
    Session.receive cfg env (0x80 :: 1 :: len ++ data) s =
      .ok (({ s with
        totalCommandChannelBytesReceived := s.totalCommandChannelBytesReceived + 4 + BitVec.ofNat 64 (0x80 :: 1 :: len ++ data).length
        validated := true }.emit .status).emit (.metadata data)) := by
  unfold Session.receive Session.readPayloadHeader
  dsimp only
  rw [hv]
  simp only [Bool.not_true, Bool.false_eq_true, if_false]
  unfold Session.readPacket
  rw [List.cons_append, List.cons_append, Session.processServerResponse, if_neg (by simp [Session.responseHeaderSize, hl])]
  dsimp only
  have hd : ((0x80 : Byte) :: (1 : Byte) :: (len ++ data)).drop Session.responseHeaderSize = data := by
    show ((len ++ data).drop 4) = data
    rw [← hl, List.drop_left]
  rw [hd]
  simp only [Bool.not_true, Bool.false_and, Bool.false_eq_true, if_false]
  rw [if_pos (by rfl), Session.handleSucceeded, if_pos (by rfl), Session.handleMetadataRefresh, hm]
  rfl

/-- C124, noted: a notification on a validated connection is reported to the application, once, and starts one goroutine; nothing is sent yet. -/
theorem C124_noted (lib : Lib) (env : Env) (c : App) (hv : c.st.validated = true) (cc : Byte) (len data : List Byte) (hl : len.length = 4) :
    ∃ c', packet lib env (0x8A :: cc :: len ++ data) c = .ok c' ∧ c'.changes = c.changes + 1 ∧ c'.pending = c.pending ∧
      c'.st.log = c.st.log ++ [.status, .configurationChanged] ∧ c'.st.connected = c.st.connected ∧ c'.st.validated = true ∧
      c'.st.subscribed = c.st.subscribed ∧ Only c c' := by
  unfold packet
  rw [receive_changed _ env c.st hv cc len data hl, Res.bind_ok]
  refine ⟨_, rfl, ?_, ?_, ?_, rfl, rfl, rfl, rfl⟩
  · simp [St.emit, changeCount]
  · simp [St.emit, metadataCount]
  · simp [St.emit]

/-- C124, asks: with automatic requests, the goroutine of a notification sends the request for metadata with the filters of the configuration in use
then, and nothing else. -/
theorem C124_asks (net : Net) (c c' : App) (h : changedGoroutine net c = .ok c') (hp : 0 < c.changes)
    (ha : c.config.autoRequestMetadata = true) (hc : c.st.connected = true) (hw : net.env.writeOk = true) :
    c'.changes + 1 = c.changes ∧ c'.pending = c.pending ∧ c'.st = c.st.emit (metadataRequest c.config.metadataFilters) ∧ Only c c' := by
  have hm := changed_moves h
  have hpend := changed_pending h
  unfold changedGoroutine at h
  obtain ⟨n, hn⟩ := Nat.exists_eq_succ_of_ne_zero (Nat.pos_iff_ne_zero.mp hp)
  rw [hn] at h
  dsimp only at h
  unfold handleConfigurationChanged at h
  rw [if_pos (by exact ha)] at h
  unfold requestMetadata at h
  rw [Res.bind_eq_ok] at h
  obtain ⟨st, h1, h⟩ := h
  have h1 := send_exact h1 (by exact hc) hw
  injection h with h
  refine ⟨by rw [← h, hn], hpend, ?_, hm.only⟩
  rw [← h, h1, frame_eq, ← metadataRequest_eq]
  rfl

/-- C124, silent: without automatic requests the goroutine of a notification sends nothing and changes nothing. -/
theorem C124_silent (net : Net) (c : App) (ha : c.config.autoRequestMetadata = false) :
    changedGoroutine net c = .ok { c with changes := c.changes - 1 } := by
  unfold changedGoroutine
  cases hn : c.changes with
  | zero =>
    obtain ⟨_, _, _, _, _, _, _, _, _, _, _, _, _, _, _, _, _, _, _, _⟩ := c
    simp only at hn
    subst hn
    rfl
  | succ n =>
    show handleConfigurationChanged net { c with changes := n } = _
    unfold handleConfigurationChanged
    rw [if_neg (by simp [ha])]
    rfl

theorem metadataGoroutine_changes {net : Net} {c c' : App} (h : metadataGoroutine net c = .ok c') : c'.changes = c.changes := by
  unfold metadataGoroutine at h
  split at h
  · injection h with h; subst h; rfl
  · unfold handleMetadataReceived at h
    split at h
    · rw [Res.bind_eq_ok] at h
      obtain ⟨⟨c1, b⟩, h1, h⟩ := h
      injection h with h
      subst h
      unfold dsSubscribe at h1
      split at h1
      · injection h1 with h1; injection h1 with h1 _; subst h1; rfl
      split at h1
      · injection h1 with h1; injection h1 with h1 _; subst h1; rfl
      rw [Res.bind_eq_ok] at h1
      obtain ⟨st, -, h1⟩ := h1
      dsimp only at h1
      split at h1
      · injection h1 with h1; injection h1 with h1 _; subst h1; rfl
      · rw [Res.bind_eq_ok] at h1
        obtain ⟨st2, -, h1⟩ := h1
        injection h1 with h1; injection h1 with h1 _; subst h1; rfl
    · injection h with h; subst h; rfl

/-! ## The whole renewal -/

/-- C124, renewal: on a validated connection with automatic requests and subscription, a notification, its goroutine, the metadata the publisher
answers with and their goroutine send, in this order and with nothing else: the request for metadata, `Unsubscribe` if there was a subscription,
and `Subscribe` for the subscription as set. The application is told of the change and gets the metadata in between. -/
theorem C124_renewal (lib : Lib) (env env' : Env) (net net' : Net) (c c' : App) (cc : Byte) (len data len' xml : List Byte)
    (hl : len.length = 4) (hl' : len'.length = 4) (hv : c.st.validated = true) (hc : c.st.connected = true) (hch : c.changes = 0) (hp : c.pending = 0)
    (ha : c.config.autoRequestMetadata = true) (hs : c.config.autoSubscribe = true) (hm : c.compressMetadata = false)
    (hu : c.sub.udpDataChannel = true → net'.udpOk = true) (hw : net.env.writeOk = true) (hw' : net'.env.writeOk = true)
    (h : run lib [.packet env (0x8A :: cc :: len ++ data), .changed net, .packet env' (0x80 :: 1 :: len' ++ xml), .metadata net'] c = .ok c') :
    c'.changes = 0 ∧ c'.pending = 0 ∧
    c'.st.log = c.st.log ++ [.status, .configurationChanged, metadataRequest c.config.metadataFilters, .status, .metadata xml] ++
      (if c.st.subscribed then [frame 3 []] else []) ++ [frame 2 (Modes.subscribePayload c.info)] := by
  obtain ⟨c1, e1, a1, b1, l1, k1, v1, s1, o1⟩ := C124_noted lib env c hv cc len data hl
  rw [run, Res.bind_eq_ok] at h
  obtain ⟨d1, h1, h⟩ := h
  have : d1 = c1 := by
    have := h1.symm.trans e1
    injection this
  subst this
  rw [run, Res.bind_eq_ok] at h
  obtain ⟨c2, h2, h⟩ := h
  obtain ⟨a2, b2, l2, o2⟩ := C124_asks net d1 c2 h2 (by omega) (by rw [o1]; exact ha) (by rw [k1, hc]) hw
  rw [run, Res.bind_eq_ok] at h
  obtain ⟨c3, h3, h⟩ := h
  have o12 : Only c c2 := o1.trans o2
  have v2 : c2.st.validated = true := by rw [l2]; exact v1
  change packet lib env' _ c2 = .ok c3 at h3
  unfold packet at h3
  rw [receive_metadata _ env' c2.st v2 len' xml hl' (by show c2.compressMetadata = false; rw [o12]; exact hm), Res.bind_ok] at h3
  injection h3 with h3
  have hp3 : c3.pending = c2.pending + 1 := by rw [← h3]; simp [St.emit, metadataCount]
  have hc3 : c3.changes = c2.changes := by rw [← h3]; simp [St.emit, changeCount]
  have l3 : c3.st.log = c2.st.log ++ [.status, .metadata xml] := by rw [← h3]; simp [St.emit]
  have k3 : c3.st.connected = true := by rw [← h3]; show c2.st.connected = true; rw [l2]; show d1.st.connected = true; rw [k1, hc]
  have v3 : c3.st.validated = true := by rw [← h3]; rfl
  have s3 : c3.st.subscribed = c.st.subscribed := by rw [← h3]; show c2.st.subscribed = _; rw [l2]; exact s1
  have o13 : Only c c3 := o12.trans (by rw [← h3]; exact Only.mk _ _ _ _)
  rw [run, Res.bind_eq_ok] at h
  obtain ⟨c4, h4, h⟩ := h
  injection h with h
  subst h
  obtain ⟨p4, l4⟩ := C97_after_metadata net' c3 c4 h4 (by omega) (by rw [o13]; exact ha) (by rw [o13]; exact hs) k3 (.inr v3)
    (by rw [o13]; exact hu) hw'
  have hc4 : c4.changes = c3.changes := metadataGoroutine_changes h4
  have hi : c3.info = c.info := by rw [o13]; rfl
  refine ⟨by omega, by omega, ?_⟩
  rw [l4, l3, l2, hi, s3, v3]
  show d1.st.log ++ _ ++ _ ++ _ ++ _ = _
  rw [l1, o1]
  simp

/-! ## Histories -/

/-- How many requests for metadata were sent. -/
def metadataRequests (l : List Event) : Nat := l.countP fun e => e.command = some 1

/-- How many notifications of a changed configuration came. -/
def notifications (l : List Event) : Nat := l.countP fun e => match e with | .configurationChanged => true | _ => false

/-- A packet of the publisher, or a goroutine whose writes and socket succeed. -/
def Action.Serves : Action → Prop
  | .packet _ _ => True
  | .metadata net => net.env.writeOk = true ∧ net.udpOk = true
  | .changed net => net.env.writeOk = true
  | _ => False

theorem counts_none {cs : List Byte} {es : List Event} (h : ∀ e ∈ es, Sends cs e) (k : Byte) (hk : k ∉ cs) :
    (es.countP fun e => e.command = some k) = 0 := by
  rw [List.countP_eq_zero]
  intro e he
  rcases h e he with h | ⟨k', hk', h⟩
  · simp [h]
  · rw [h]
    simp only [Option.some.injEq, decide_eq_true_eq]
    rintro rfl
    exact hk hk'

theorem frame_command (k : Byte) (p : List Byte) : (frame k p).command = some k := by
  rw [← frame_eq]
  exact Session.command_frame _ _ _

theorem counts_frame (k : Byte) (p : List Byte) : metadataRequests [frame k p] = (if k = 1 then 1 else 0) ∧
    subscribes [frame k p] = (if k = 2 then 1 else 0) ∧ notifications [frame k p] = 0 ∧ metadataReceived [frame k p] = 0 := by
  refine ⟨?_, ?_, rfl, rfl⟩
  · unfold metadataRequests
    rw [List.countP_singleton, frame_command]
    by_cases hk : k = 1 <;> simp [hk]
  · unfold subscribes
    rw [List.countP_singleton, frame_command]
    by_cases hk : k = 2 <;> simp [hk]

theorem requests_append (a b : List Event) : metadataRequests (a ++ b) = metadataRequests a + metadataRequests b := by
  simp [metadataRequests, List.countP_append]

theorem notifications_append (a b : List Event) : notifications (a ++ b) = notifications a + notifications b := by
  simp [notifications, List.countP_append]

/-- What one action adds. -/
structure Served (c c' : App) (es : List Event) : Prop where
  log : c'.st.log = c.st.log ++ es
  only : Only c c'
  connected : c'.st.connected = true
  validated : c'.st.validated = true
  asked : metadataRequests es + c'.changes = c.changes + notifications es
  subscribed : subscribes es + c'.pending = c.pending + metadataReceived es
  requests : ∀ e ∈ es, e.command = some 1 → e = metadataRequest c.config.metadataFilters
  subscriptions : ∀ e ∈ es, e.command = some 2 → e = frame 2 (Modes.subscribePayload c.info)

theorem Served.trans {a b c : App} {es fs : List Event} (h1 : Served a b es) (h2 : Served b c fs) : Served a c (es ++ fs) := by
  have hi : b.info = a.info := by rw [h1.only]; rfl
  have hf : b.config = a.config := by rw [h1.only]
  refine ⟨by rw [h2.log, h1.log, List.append_assoc], h1.only.trans h2.only, h2.connected, h2.validated, ?_, ?_, ?_, ?_⟩
  · have := h1.asked
    have := h2.asked
    simp only [metadataRequests, notifications, List.countP_append] at *
    omega
  · have := h1.subscribed
    have := h2.subscribed
    simp only [subscribes, metadataReceived, List.countP_append] at *
    omega
  · intro e he hk
    rcases List.mem_append.mp he with he | he
    · exact h1.requests e he hk
    · rw [h2.requests e he hk, hf]
  · intro e he hk
    rcases List.mem_append.mp he with he | he
    · exact h1.subscriptions e he hk
    · rw [h2.subscriptions e he hk, hi]

theorem packet_changes {lib : Lib} {env : Env} {body : List Byte} {c c' : App} {es : List Event} (h : packet lib env body c = .ok c')
    (he : c'.st.log = c.st.log ++ es) : c'.changes = c.changes + notifications es ∧ c'.pending = c.pending + metadataReceived es := by
  unfold packet at h
  rw [Res.bind_eq_ok] at h
  obtain ⟨st, h1, h⟩ := h
  injection h with h
  subst h
  dsimp only at he ⊢
  rw [he, List.drop_left]
  exact ⟨rfl, rfl⟩

theorem subscribe_validated {net : Net} {c c' : App} {b : Bool} (h : dsSubscribe net c = .ok (c', b)) (hv : c.st.validated = true) :
    c'.st.validated = true := by
  unfold dsSubscribe at h
  split at h
  · injection h with h; injection h with h _; subst h; exact hv
  split at h
  · injection h with h; injection h with h _; subst h; exact hv
  rw [Res.bind_eq_ok] at h
  obtain ⟨st, h1, h⟩ := h
  have h1 : st.validated = true := by
    unfold endSubscription at h1
    split at h1
    · unfold Session.unsubscribe at h1
      split at h1
      · injection h1 with h1; subst h1; exact hv
      · rw [Res.bind_eq_ok] at h1
        obtain ⟨s1, h2, h1⟩ := h1
        injection h1 with h1
        subst h1
        exact (send_validated h2).trans hv
    · injection h1 with h1; subst h1; exact hv
  dsimp only at h
  split at h
  · injection h with h; injection h with h _; subst h; exact h1
  · rw [Res.bind_eq_ok] at h
    obtain ⟨st2, h2, h⟩ := h
    injection h with h; injection h with h _; subst h
    exact (send_validated h2).trans h1

theorem serves_step {lib : Lib} {x : Action} {c c' : App} (h : x.run lib c = .ok c') (hx : x.Serves) (hc : c.st.connected = true)
    (hv : c.st.validated = true) (ha : c.config.autoRequestMetadata = true) (hs : c.config.autoSubscribe = true) : ∃ es, Served c c' es := by
  have same : Served c c [] := ⟨by simp, rfl, hc, hv, Nat.zero_add _, Nat.zero_add _, by simp, by simp⟩
  cases x with
  | packet env body =>
    have hm := packet_moves h
    obtain ⟨es, e1, e2⟩ := hm.adds.log
    obtain ⟨f1, f2⟩ := packet_changes h e1
    have k1 := counts_none e2 1 (by decide)
    have k2 := counts_none e2 2 (by decide)
    refine ⟨es, e1, hm.only, hm.adds.connected.trans hc, ?_, ?_, ?_, ?_, ?_⟩
    · change packet lib env body c = .ok c' at h
      unfold packet at h
      rw [Res.bind_eq_ok] at h
      obtain ⟨st, h1, h⟩ := h
      injection h with h
      subst h
      exact Session.receive_validated hv h1
    · unfold metadataRequests; omega
    · unfold subscribes; omega
    · intro e he hk
      rw [List.countP_eq_zero] at k1
      exact absurd hk (by simpa using k1 e he)
    · intro e he hk
      rw [List.countP_eq_zero] at k2
      exact absurd hk (by simpa using k2 e he)
  | changed net =>
    by_cases hp : 0 < c.changes
    · obtain ⟨a, b, d, o⟩ := C124_asks net c c' h hp ha hc hx
      have hk : (metadataRequest c.config.metadataFilters).command = some 1 := frame_command _ _
      refine ⟨[metadataRequest c.config.metadataFilters], by rw [d]; rfl, o, by rw [d]; exact hc, by rw [d]; exact hv, ?_, ?_, ?_, ?_⟩
      · have h1 : metadataRequests [metadataRequest c.config.metadataFilters] = 1 := by simp [metadataRequests, hk]
        have h2 : notifications [metadataRequest c.config.metadataFilters] = 0 := by simp [notifications, metadataRequest, frame]
        omega
      · have h1 : subscribes [metadataRequest c.config.metadataFilters] = 0 := by simp [subscribes, hk]
        have h2 : metadataReceived [metadataRequest c.config.metadataFilters] = 0 := by simp [metadataReceived, metadataRequest, frame]
        omega
      · simp
      · intro e he hk2
        rw [List.mem_singleton.mp he, hk] at hk2
        exact absurd hk2 (by decide)
    · change changedGoroutine net c = .ok c' at h
      unfold changedGoroutine at h
      rw [show c.changes = 0 by omega] at h
      injection h with h
      subst h
      exact ⟨[], same⟩
  | metadata net =>
    by_cases hp : 0 < c.pending
    · obtain ⟨a, b⟩ := C97_after_metadata net c c' h hp ha hs hc (.inr hv) (fun _ => hx.2) hx.1
      have hch := metadataGoroutine_changes h
      have ho := metadataGoroutine_only h
      have hcv : c'.st.connected = true ∧ c'.st.validated = true := by
        change metadataGoroutine net c = .ok c' at h
        unfold metadataGoroutine at h
        split at h
        · injection h with h; subst h; exact ⟨hc, hv⟩
        · unfold handleMetadataReceived at h
          split at h
          · rw [Res.bind_eq_ok] at h
            obtain ⟨⟨c1, b⟩, h1, h⟩ := h
            injection h with h
            subst h
            exact ⟨(dsSubscribe_moves h1).adds.connected.trans hc, subscribe_validated h1 hv⟩
          · injection h with h; subst h; exact ⟨hc, hv⟩
      rw [hv] at b
      have h1 : (frame 2 (Modes.subscribePayload c.info)).command = some 2 := frame_command _ _
      have h2 : (frame 3 []).command = some 3 := frame_command _ _
      rw [List.append_assoc] at b
      have mem : ∀ e ∈ (if c.st.subscribed = true ∧ true = true then [frame 3 []] else []) ++ [frame 2 (Modes.subscribePayload c.info)],
          e = frame 3 [] ∨ e = frame 2 (Modes.subscribePayload c.info) := by
        intro e he
        rcases List.mem_append.mp he with he | he
        · split at he
          · exact .inl (List.mem_singleton.mp he)
          · cases he
        · exact .inr (List.mem_singleton.mp he)
      refine ⟨_, b, ho, hcv.1, hcv.2, ?_, ?_, ?_, ?_⟩
      · cases c.st.subscribed <;> simp only [Bool.false_eq_true, and_true, if_false, if_true, List.nil_append, requests_append,
          notifications_append, counts_frame, hch] <;> (show 0 + _ = _ + 0; omega)
      · cases c.st.subscribed <;> simp only [Bool.false_eq_true, and_true, if_false, if_true, List.nil_append, subscribes_append,
          metadata_append, counts_frame] <;> (show 1 + _ = _ + 0; omega)
      · intro e he hk
        rcases mem e he with rfl | rfl
        · rw [h2] at hk; exact absurd hk (by decide)
        · rw [h1] at hk; exact absurd hk (by decide)
      · intro e he hk
        rcases mem e he with rfl | rfl
        · rw [h2] at hk; exact absurd hk (by decide)
        · rfl
    · change metadataGoroutine net c = .ok c' at h
      unfold metadataGoroutine at h
      rw [show c.pending = 0 by omega] at h
      injection h with h
      subst h
      exact ⟨[], same⟩
  | dial => exact hx.elim
  | listen => exact hx.elim
  | accept => exact hx.elim
  | disconnect => exact hx.elim
  | lost => exact hx.elim
  | reconnect => exact hx.elim
  | requestMetadata => exact hx.elim
  | subscribe => exact hx.elim
  | unsubscribe => exact hx.elim

/-- C124, every notification: in whatever order the packets of the publisher come and the goroutines run on a validated connection with automatic
requests and subscription, one request for metadata is sent per notification and one `Subscribe` per metadata received, none too many and none
too few once the goroutines have run, and all of them are the same: the filters of the configuration, the subscription as set. -/
theorem C124_every (lib : Lib) (as : List Action) (c c' : App) (h : run lib as c = .ok c') (has : ∀ x ∈ as, x.Serves)
    (hc : c.st.connected = true) (hv : c.st.validated = true) (ha : c.config.autoRequestMetadata = true) (hs : c.config.autoSubscribe = true) :
    ∃ es, c'.st.log = c.st.log ++ es ∧
      metadataRequests es + c'.changes = c.changes + notifications es ∧
      subscribes es + c'.pending = c.pending + metadataReceived es ∧
      (∀ e ∈ es, e.command = some 1 → e = metadataRequest c.config.metadataFilters) ∧
      (∀ e ∈ es, e.command = some 2 → e = frame 2 (Modes.subscribePayload c.info)) := by
  have key : ∃ es, Served c c' es := by
    induction as generalizing c with
    | nil => injection h with h; subst h; exact ⟨[], by simp, rfl, hc, hv, Nat.zero_add _, Nat.zero_add _, by simp, by simp⟩
    | cons x as ih =>
      rw [run, Res.bind_eq_ok] at h
      obtain ⟨c1, h1, h⟩ := h
      obtain ⟨es, e⟩ := serves_step h1 (has x (by simp)) hc hv ha hs
      obtain ⟨fs, f⟩ := ih c1 h (fun y hy => has y (by simp [hy])) e.connected e.validated (by rw [e.only]; exact ha) (by rw [e.only]; exact hs)
      exact ⟨es ++ fs, e.trans f⟩
  obtain ⟨es, e⟩ := key
  exact ⟨es, e.log, e.asked, e.subscribed, e.requests, e.subscriptions⟩

/-- C124, manual: without automatic subscription the application renews the subscription itself: no packet and no goroutine does. -/
theorem C124_manual (lib : Lib) (as : List Action) (c c' : App) (h : run lib as c = .ok c')
    (has : ∀ x ∈ as, (∃ e b, x = .packet e b) ∨ (∃ net, x = .metadata net) ∨ ∃ net, x = .changed net) (hs : c.config.autoSubscribe = false) :
    ∃ es, c'.st.log = c.st.log ++ es ∧ subscribes es = 0 := by
  refine C97_never lib as c c' h hs ?_ ?_
  · intro x hx
    rcases has x hx with ⟨e, b, rfl⟩ | ⟨net, rfl⟩ | ⟨net, rfl⟩ <;> rfl
  · intro x hx cfg hcfg
    rcases has x hx with ⟨e, b, rfl⟩ | ⟨net, rfl⟩ | ⟨net, rfl⟩ <;> cases hcfg

/-! ## Cases -/

/-- A subscriber with a subscription. -/
def exChanges : List Action :=
  [.dial exNet .yes [] exAddress (some exConfig), .packet ⟨true, none⟩ [0x80, 1, 0, 0, 0, 2, 60, 62], .metadata exNet,
    .packet ⟨true, none⟩ [0x80, 2, 0, 0, 0, 0]]

/-- The hypotheses of the theorems hold after these. -/
example : ((exState exChanges).map fun c => ([c.st.connected, c.st.validated, c.st.subscribed, c.config.autoRequestMetadata,
      c.config.autoSubscribe, c.compressMetadata, c.sub.udpDataChannel], c.changes, c.pending)) =
    some ([true, true, true, true, true, false, false], 0, 0) := by decide +kernel

/-- Two notifications before the first goroutine runs, then both goroutines and both answers: two requests and two subscriptions beside the
first. -/
example : ((exState (exChanges ++ [.packet ⟨true, none⟩ [0x8A, 0, 0, 0, 0, 0], .packet ⟨true, none⟩ [0x8A, 0, 0, 0, 0, 0], .changed exNet,
      .packet ⟨true, none⟩ [0x80, 1, 0, 0, 0, 2, 60, 62], .changed exNet, .metadata exNet, .packet ⟨true, none⟩ [0x80, 1, 0, 0, 0, 2, 60, 62],
      .metadata exNet])).map fun c => (c.changes, c.pending, notifications c.st.log, metadataRequests c.st.log, subscribes c.st.log,
      metadataReceived c.st.log)) = some (0, 0, 2, 3, 3, 3) := by decide +kernel

/-- The renewal of `C124_renewal`, command by command. -/
example : ((exState (exChanges ++ [.packet ⟨true, none⟩ [0x8A, 0, 0, 0, 0, 0], .changed exNet, .packet ⟨true, none⟩ [0x80, 1, 0, 0, 0, 2, 60, 62],
      .metadata exNet])).map fun c => c.st.log.filterMap fun e => e.command) = some [6, 1, 2, 1, 3, 2] := by decide +kernel

/-- Without automatic requests a notification leaves one goroutine that does nothing. -/
example : ((exState [.dial exNet .yes [] exAddress (some { exConfig with autoRequestMetadata := false }), .packet ⟨true, none⟩ [0x8A, 0, 0, 0, 0, 0],
      .changed exNet]).map fun c => (c.changes, c.st.log.filterMap fun e => e.command)) = some (0, [6, 2]) := by decide +kernel

/-- Without automatic subscription the subscription of the application is not renewed. -/
example : ((exState [.dial exNet .yes [] exAddress (some { exConfig with autoSubscribe := false }), .subscribe exNet [84] none,
      .packet ⟨true, none⟩ [0x80, 2, 0, 0, 0, 0], .packet ⟨true, none⟩ [0x8A, 0, 0, 0, 0, 0], .changed exNet,
      .packet ⟨true, none⟩ [0x80, 1, 0, 0, 0, 2, 60, 62], .metadata exNet]).map
      fun c => (c.st.subscribed, c.config.autoSubscribe, c.st.log.filterMap fun e => e.command)) = some (true, false, [6, 1, 2, 1]) := by decide +kernel

end Verif.Client
