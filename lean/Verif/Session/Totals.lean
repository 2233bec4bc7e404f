import Verif.Session.DataChannel
import Verif.Session.TotalProps

/-!
# The bytes of the two channels (C134)
-/

namespace Verif.Session

/-- A subscriber with both channels; `udp` is `subscription.UdpDataChannel` (DataSubscriber.go L76-83, SubscriptionInfo.go L48-49). -/
structure Channels where
  chan : Chan
  udp : Bool

/-- What happens: the application chooses settings and calls `Subscribe` (Subscriber.go L389-441), something comes over the command channel or the application calls
(`Action`), a datagram comes. -/
inductive Move where
  | settings (udpPort : BitVec 16)
  | action (a : Action)
  | datagram (env : Env) (body : List Byte)

/-- One move. The settings are copied into the subscription (Subscriber.go L405-412). (DataSubscriber.go L801-897) -/
def Move.run (cfg : Cfg) (c : Channels) : Move → Res Channels
  | .settings udpPort => .ok { c with udp := decide (udpPort > 0) }
  | .action a => do
    let st ← a.run cfg c.chan.st
    .ok { c with chan := { c.chan with st := st } }
  | .datagram env body => do
    let chan ← handleDatagram cfg env body c.chan
    .ok { c with chan := chan }

/-- A history. (DataSubscriber.go L801-897) -/
def runMoves (cfg : Cfg) : List Move → Channels → Res Channels
  | [], c => .ok c
  | m :: ms, c => do
    let c ← m.run cfg c
    runMoves cfg ms c

/-- A connection begins: `setupConnection` (DataSubscriber.go L370-381) and `establishConnection`. -/
def Channels.connect (c : Channels) : Channels := { c with chan := ⟨reconnected c.chan.st, 0⟩ }

/-- `TotalCommandChannelBytesReceived` (DataSubscriber.go L1593-1595) -/
def Channels.totalCommandChannelBytesReceived (c : Channels) : BitVec 64 := c.chan.st.totalCommandChannelBytesReceived

/-- `TotalDataChannelBytesReceived` (DataSubscriber.go L1598-1604) -/
def Channels.totalDataChannelBytesReceived (c : Channels) : BitVec 64 :=
  if c.udp then c.chan.totalDataChannelBytesReceived else c.chan.st.totalCommandChannelBytesReceived

/-! ## Specification -/

/-- Bytes that came over the command channel. -/
def commandBytes : List Move → Nat
  | [] => 0
  | .action (.packet _ body) :: ms => 4 + body.length + commandBytes ms
  | _ :: ms => commandBytes ms

/-- Bytes of datagrams, of each at most the 32768 read. -/
def udpBytes : List Move → Nat
  | [] => 0
  | .datagram _ body :: ms => min 32768 body.length + udpBytes ms
  | _ :: ms => udpBytes ms

/-- The choice made last. -/
def chosen (udp : Bool) : List Move → Bool
  | [] => udp
  | .settings p :: ms => chosen (decide (p ≠ 0)) ms
  | _ :: ms => chosen udp ms

/-- Not a packet refused for its size before the handshake. -/
def Move.Fits (cfg : Cfg) (s : St) : Move → Prop
  | .action (.packet _ body) => s.validated = true ∨ body.length ≤ 8198 ∨ cfg.version.toNat < 2
  | _ => True

/-- No packet is refused for its size when it comes. -/
def FitAll (cfg : Cfg) : List Move → Channels → Prop
  | [], _ => True
  | m :: ms, c => m.Fits cfg c.chan.st ∧ ∀ c1, m.run cfg c = .ok c1 → FitAll cfg ms c1

/-! ## Lemmas -/

theorem process_bytes {cfg : Cfg} {env : Env} {buf : List Byte} {s s' : St} (h : processServerResponse cfg env buf s = .ok s') :
    s'.totalCommandChannelBytesReceived = s.totalCommandChannelBytesReceived := by
  obtain ⟨rc, cc, rest, -, -, ⟨-, h1⟩ | ⟨-, h1⟩⟩ := process_cases h
  · rw [h1]; rfl
  · exact h1.grows.bytes

theorem receive_counts {cfg : Cfg} {env : Env} {body : List Byte} {s s' : St} (h : receive cfg env body s = .ok s')
    (hf : s.validated = true ∨ body.length ≤ 8198 ∨ cfg.version.toNat < 2) :
    s'.totalCommandChannelBytesReceived = s.totalCommandChannelBytesReceived + BitVec.ofNat 64 (4 + body.length) := by
  have e4 : BitVec.ofNat 64 (4 + body.length) = 4 + BitVec.ofNat 64 body.length := by
    rw [BitVec.ofNat_add]; rfl
  rcases receive_cases h with ⟨h1, h2, h3, -⟩ | ⟨rc, cc, rest, hbody, -, ⟨-, h1⟩ | ⟨-, h1⟩⟩
  · rcases hf with hf | hf | hf
    · rw [hf] at h1; cases h1
    · omega
    · have : 2 ≤ cfg.version.toNat := h2
      omega
  · rw [h1, e4]; rfl
  · rw [h1.grows.bytes, e4]; rfl

theorem move_counts {cfg : Cfg} {m : Move} {c c' : Channels} (hf : m.Fits cfg c.chan.st) (h : m.run cfg c = .ok c') :
    c'.chan.st.totalCommandChannelBytesReceived = c.chan.st.totalCommandChannelBytesReceived + BitVec.ofNat 64 (commandBytes [m]) ∧
    c'.chan.totalDataChannelBytesReceived = c.chan.totalDataChannelBytesReceived + BitVec.ofNat 64 (udpBytes [m]) ∧
    c'.udp = chosen c.udp [m] := by
  cases m with
  | settings p =>
    injection h with h
    subst h
    refine ⟨by simp [commandBytes], by simp [udpBytes], ?_⟩
    show decide (p > 0) = decide (p ≠ 0)
    congr 1
    apply propext
    constructor
    · rintro hp rfl
      exact absurd hp (by decide)
    · intro hp
      rcases Nat.eq_zero_or_pos p.toNat with h0 | h0
      · exact absurd (BitVec.eq_of_toNat_eq h0) hp
      · exact h0
  | action a =>
    rw [Move.run, Res.bind_eq_ok] at h
    obtain ⟨st, h1, h⟩ := h
    injection h with h
    subst h
    refine ⟨?_, by simp [udpBytes], rfl⟩
    dsimp only
    cases a with
    | packet env body => exact receive_counts h1 hf
    | subscribe env1 env2 params =>
      have := C26_bytes cfg [.subscribe env1 env2 params] c.chan.st st (by simp [Action.Fits]) (by rw [runActions, h1]; rfl)
      exact this
    | unsubscribe env =>
      have := C26_bytes cfg [.unsubscribe env] c.chan.st st (by simp [Action.Fits]) (by rw [runActions, h1]; rfl)
      exact this
  | datagram env body =>
    rw [Move.run, Res.bind_eq_ok] at h
    obtain ⟨chan, h1, h⟩ := h
    injection h with h
    subst h
    unfold handleDatagram at h1
    dsimp only at h1
    rw [Res.bind_eq_ok] at h1
    obtain ⟨st, h2, h1⟩ := h1
    injection h1 with h1
    subst h1
    have b1 := process_bytes h2
    refine ⟨by simp [commandBytes, b1], ?_, rfl⟩
    dsimp only
    rw [List.length_take]
    rfl

/-! ## Theorems -/

/-- **What the two totals say**, over any history of a connection in which no packet is refused for its size before the handshake (C26): the bytes of the command
channel are those of its packets, headers included; the bytes of the data channel are those of the datagrams if the settings chosen last ask for datagrams, and the bytes
of the command channel if not, whatever they were for (modulo 2^64, the width of the counters). -/
theorem C134_totals (cfg : Cfg) (ms : List Move) (c c' : Channels) (hf : FitAll cfg ms c) (h : runMoves cfg ms c = .ok c') :
    c'.totalCommandChannelBytesReceived = c.totalCommandChannelBytesReceived + BitVec.ofNat 64 (commandBytes ms) ∧
    c'.chan.totalDataChannelBytesReceived = c.chan.totalDataChannelBytesReceived + BitVec.ofNat 64 (udpBytes ms) ∧ c'.udp = chosen c.udp ms := by
  induction ms generalizing c with
  | nil => injection h with h; subst h; exact ⟨by simp [commandBytes], by simp [udpBytes], rfl⟩
  | cons m ms ih =>
    rw [runMoves, Res.bind_eq_ok] at h
    obtain ⟨c1, h1, h2⟩ := h
    obtain ⟨a1, a2, a3⟩ := move_counts hf.1 h1
    obtain ⟨b1, b2, b3⟩ := ih c1 (hf.2 c1 h1) h2
    have cons1 : commandBytes (m :: ms) = commandBytes [m] + commandBytes ms := by
      cases m with
      | action a => cases a <;> simp [commandBytes]
      | _ => simp [commandBytes]
    have cons2 : udpBytes (m :: ms) = udpBytes [m] + udpBytes ms := by cases m <;> simp [udpBytes]
    have cons3 : chosen c.udp (m :: ms) = chosen (chosen c.udp [m]) ms := by cases m <;> rfl
    refine ⟨?_, ?_, ?_⟩
    · rw [b1, cons1, BitVec.ofNat_add, ← BitVec.add_assoc]
      unfold Channels.totalCommandChannelBytesReceived
      rw [a1]
    · rw [b2, a2, cons2, BitVec.ofNat_add, ← BitVec.add_assoc]
    · rw [b3, a3, cons3]

/-- C134 (the part that holds): since the connection began, while the settings chosen last ask for datagrams, the total of the data channel is the number of bytes that
came in datagrams, 32768 of each at most, and the total of the command channel what came over that, whatever came over the other one. -/
theorem C134_udp_partial (cfg : Cfg) (ms : List Move) (c c' : Channels) (hu : chosen c.udp ms = true) (hf : FitAll cfg ms c.connect)
    (h : runMoves cfg ms c.connect = .ok c') :
    c'.totalDataChannelBytesReceived.toNat = udpBytes ms % 2 ^ 64 ∧ c'.totalCommandChannelBytesReceived.toNat = commandBytes ms % 2 ^ 64 := by
  obtain ⟨a1, a2, a3⟩ := C134_totals cfg ms c.connect c' hf h
  unfold Channels.totalDataChannelBytesReceived
  rw [a3, show c.connect.udp = c.udp from rfl, hu, if_pos rfl, a1, a2]
  have z1 : c.connect.chan.totalDataChannelBytesReceived = 0 := rfl
  have z2 : c.connect.totalCommandChannelBytesReceived = 0 := (C26_start c.chan.st).2
  rw [z1, z2]
  simp

/-- **C134 is false of the code without datagrams**: the total of the data channel is then that of the command channel, with all that was no data. -/
theorem C134_without_false (cfg : Cfg) (ms : List Move) (c c' : Channels) (hu : chosen c.udp ms = false) (hf : FitAll cfg ms c.connect)
    (h : runMoves cfg ms c.connect = .ok c') : c'.totalDataChannelBytesReceived.toNat = commandBytes ms % 2 ^ 64 := by
  obtain ⟨a1, -, a3⟩ := C134_totals cfg ms c.connect c' hf h
  unfold Channels.totalDataChannelBytesReceived
  rw [a3, show c.connect.udp = c.udp from rfl, hu, if_neg (by simp)]
  have z2 : c.connect.totalCommandChannelBytesReceived = 0 := (C26_start c.chan.st).2
  rw [z2] at a1
  rw [show c'.chan.st.totalCommandChannelBytesReceived = c'.totalCommandChannelBytesReceived from rfl, a1]
  simp

/-- **C134 is false of the code**: the total goes down during a connection when the application subscribes again, with datagrams where there were none, and up again
when it goes back, by what came over the command channel. -/
theorem C134_falls_false (cfg : Cfg) (ms : List Move) (c c' : Channels) (port : BitVec 16) (hp : port ≠ 0) (hf : FitAll cfg ms c.connect)
    (h : runMoves cfg ms c.connect = .ok c') (hu : c'.udp = false) (hno : udpBytes ms = 0) :
    ∃ c'', Move.run cfg c' (.settings port) = .ok c'' ∧ c''.totalDataChannelBytesReceived = 0 ∧
      c'.totalDataChannelBytesReceived = BitVec.ofNat 64 (commandBytes ms) := by
  obtain ⟨a1, a2, a3⟩ := C134_totals cfg ms c.connect c' hf h
  refine ⟨_, rfl, ?_, ?_⟩
  · unfold Channels.totalDataChannelBytesReceived
    have : decide (port > 0) = true := by
      rw [decide_eq_true_eq]
      rcases Nat.eq_zero_or_pos port.toNat with h0 | h0
      · exact absurd (BitVec.eq_of_toNat_eq h0) hp
      · exact h0
    dsimp only
    rw [this, if_pos rfl, a2, hno]
    rfl
  · unfold Channels.totalDataChannelBytesReceived
    rw [hu, if_neg (by simp)]
    have z2 : c.connect.totalCommandChannelBytesReceived = 0 := (C26_start c.chan.st).2
    rw [z2] at a1
    rw [show c'.chan.st.totalCommandChannelBytesReceived = c'.totalCommandChannelBytesReceived from rfl, a1]
    simp

/-- A subscriber that has answered the handshake over the command channel, with datagrams, and one more packet: 23 bytes over the command channel, six in a datagram. -/
example : ∃ c', runMoves exCfg [.settings 9000, .action (.packet ⟨true, none⟩ (packet 0x80 0x06 0 [0x61, 0x62, 0x63])),
      .datagram ⟨true, none⟩ (packet 0xFF 0 0 []), .action (.packet ⟨true, none⟩ (packet 0x8A 0 0 []))] (Channels.connect ⟨⟨exSt, 7⟩, false⟩) = .ok c' ∧
    c'.totalDataChannelBytesReceived = 6 ∧ c'.totalCommandChannelBytesReceived = 23 := ⟨_, rfl, by decide, by decide⟩

/-- Without datagrams the handshake counts as data. -/
example : ∃ c', runMoves exCfg [.action (.packet ⟨true, none⟩ (packet 0x80 0x06 0 [0x61, 0x62, 0x63]))] (Channels.connect ⟨⟨exSt, 7⟩, false⟩) = .ok c' ∧
    c'.totalDataChannelBytesReceived = 13 := ⟨_, rfl, by decide⟩

/-- These histories fit. -/
example : FitAll exCfg [.settings 9000, .action (.packet ⟨true, none⟩ (packet 0x80 0x06 0 [0x61, 0x62, 0x63]))] (Channels.connect ⟨⟨exSt, 7⟩, false⟩) :=
  ⟨trivial, fun _ _ => ⟨.inr (.inl (by decide)), fun _ _ => trivial⟩⟩

end Verif.Session
