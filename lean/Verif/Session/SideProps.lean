import Verif.Session.Packet
import Verif.Session.Commands
import Verif.Session.BlockProps

/-!
# Properties C63 and C64: cipher keys and the subscribed flag
-/

namespace Verif.Session

/-! ## What handlers leave alone -/

/-- The cipher keys and the subscribed flag are kept. -/
structure Side (s s' : St) : Prop where
  keys : s'.keyIVs = s.keyIVs
  sub : s'.subscribed = s.subscribed

theorem Side.refl (s : St) : Side s s := ⟨rfl, rfl⟩

theorem Side.trans {a b c : St} (h1 : Side a b) (h2 : Side b c) : Side a c :=
  ⟨h2.keys.trans h1.keys, h2.sub.trans h1.sub⟩

theorem Side.setHalf (s : St) (i : Bool) (h : Half) : Side s (s.setHalf i h) := by cases i <;> exact ⟨rfl, rfl⟩

theorem sendCommand_side {env : Env} {c : Byte} {p : List Byte} {s s' : St} (h : sendCommand env c p s = .ok s') :
    Side s s' := by
  unfold sendCommand at h
  split at h
  · injection h with h; rw [h]; exact Side.refl _
  · split at h
    · cases h
    · split at h <;> injection h with h <;> subst h <;> exact ⟨rfl, rfl⟩

theorem tsscPrepare_side (i : Bool) (seq : BitVec 16) (s : St) : Side s (tsscPrepare i seq s).2.2 := by
  unfold tsscPrepare
  dsimp only
  refine Side.trans ?_ (Side.setHalf _ i _)
  split
  · split <;> exact ⟨(Side.setHalf s i _).keys, (Side.setHalf s i _).sub⟩
  · exact Side.setHalf s i _

theorem tsscBody_side {i : Bool} {data : List Byte} {seq : BitVec 16} {ms : List Measurement} {cache : Sic.Cache}
    {d : Tssc.Decoder} {n : BitVec 16} {s : St} {ms' : List Measurement} {s' : St}
    (h : tsscBody i data seq ms cache (d, n, s) = .ok (ms', s')) : Side s s' := by
  unfold tsscBody at h
  dsimp only at h
  split at h
  · injection h with h; injection h with h1 h2; rw [← h2]; exact Side.refl s
  · split at h
    · cases h
    · rw [Res.bind_eq_ok] at h
      obtain ⟨new, -, h⟩ := h
      split at h
      · cases h
      · injection h with h; injection h with h1 h2; rw [← h2]
        exact ⟨(Side.setHalf s i _).keys, (Side.setHalf s i _).sub⟩
      · injection h with h; injection h with h1 h2; rw [← h2]
        exact Side.setHalf s i _

theorem parseTSSC_side {i : Bool} {data : List Byte} {ms : List Measurement} {s : St}
    {ms' : List Measurement} {s' : St} (h : parseTSSC i data ms s = .ok (ms', s')) : Side s s' := by
  cases data with
  | nil => cases h
  | cons v rest =>
    by_cases hv : v = 85
    · subst hv
      rw [parseTSSC_eq, Res.bind_eq_ok] at h
      obtain ⟨n, -, h⟩ := h
      exact (tsscPrepare_side i _ s).trans (tsscBody_side h)
    · unfold parseTSSC at h
      dsimp only at h
      rw [if_pos hv] at h
      injection h with h; injection h with h1 h2; rw [← h2]
      exact ⟨(Side.setHalf s i _).keys, (Side.setHalf s i _).sub⟩

theorem parseCompact_side {cfg : Cfg} {i : Bool} {data : List Byte} {ms : List Measurement} {s : St}
    {ms' : List Measurement} {s' : St} (h : parseCompact cfg i data ms s = .ok (ms', s')) : Side s s' := by
  unfold parseCompact at h
  dsimp only at h
  split at h
  · injection h with h; injection h with h1 h2; rw [← h2]; exact Side.refl s
  · rw [Res.bind_eq_ok] at h
    obtain ⟨⟨m, f⟩, -, h⟩ := h
    injection h with h; injection h with h1 h2; rw [← h2]
    split <;> exact ⟨rfl, rfl⟩

theorem handleDataPacket_side {cfg : Cfg} {env : Env} {data : List Byte} {s s' : St}
    (h : handleDataPacket cfg env data s = .ok s') : Side s s' := by
  rcases handleDataPacket_cases h with rfl | ⟨flags, rest, payload, count, ms, s1, -, -, -, hp, -, -, rfl⟩
  · exact ⟨rfl, rfl⟩
  · have : Side s s1 := by
      split at hp
      · exact parseTSSC_side hp
      · exact parseCompact_side hp
    exact ⟨this.keys, this.sub⟩

theorem handleUpdateSignalIndexCache_side {cfg : Cfg} {env : Env} {data : List Byte} {s s' : St}
    (h : handleUpdateSignalIndexCache cfg env data s = .ok s') : Side s s' := by
  rcases handleUpdateSignalIndexCache_cases h with ⟨g, rfl⟩ | ⟨ci, payload, plain, sub, cache, s1, -, -, -, h2, rfl⟩
  · exact ⟨rfl, rfl⟩
  · have h1 : Side s { ({ s with subscriberID := sub }.setHalf ci ⟨cache, none⟩) with cacheIndex := ci } :=
      ⟨(Side.setHalf _ ci _).keys, (Side.setHalf _ ci _).sub⟩
    have h0 : Side s s1 := by
      split at h2
      · exact h1.trans (sendCommand_side h2)
      · rw [h2]; exact h1
    exact ⟨h0.keys, h0.sub⟩

theorem handleUpdateBaseTimes_side {data : List Byte} {s s' : St} (h : handleUpdateBaseTimes data s = .ok s') :
    Side s s' := by
  unfold handleUpdateBaseTimes at h
  rw [Res.bind_eq_ok] at h
  obtain ⟨_, -, h⟩ := h
  rw [Res.bind_eq_ok] at h
  obtain ⟨_, -, h⟩ := h
  split at h
  · cases h
  · rw [Res.bind_eq_ok] at h
    obtain ⟨_, -, h⟩ := h
    injection h with h; subst h; exact ⟨rfl, rfl⟩

theorem handleNotification_side {env : Env} {d : List Byte} {s s' : St} (h : handleNotification env d s = .ok s') :
    Side s s' := by
  unfold handleNotification at h
  split at h
  · cases h
  · have := sendCommand_side h
    exact ⟨this.keys, this.sub⟩

theorem handleBufferBlock_side {cfg : Cfg} {env : Env} {data : List Byte} {s s' : St}
    (h : handleBufferBlock cfg env data s = .ok s') : Side s s' := by
  unfold handleBufferBlock at h
  rw [Res.bind_eq_ok] at h
  obtain ⟨_, -, h⟩ := h
  dsimp only at h
  rw [Res.bind_eq_ok] at h
  obtain ⟨_, -, h⟩ := h
  split at h
  · injection h with h; rw [← h]; exact Side.refl _
  · rw [Res.bind_eq_ok] at h
    obtain ⟨s1, h1, h⟩ := h
    have hs := sendCommand_side h1
    rw [Res.bind_eq_ok] at h
    obtain ⟨_, -, h⟩ := h
    rw [Res.bind_eq_ok] at h
    obtain ⟨_, -, h⟩ := h
    split at h <;> injection h with h <;> subst h <;> exact ⟨hs.keys, hs.sub⟩

theorem handleMetadataRefresh_side {cfg : Cfg} {d : List Byte} {s s' : St}
    (h : handleMetadataRefresh cfg d s = .ok s') : Side s s' := by
  unfold handleMetadataRefresh at h
  dsimp only at h
  split at h
  · split at h <;> injection h with h <;> subst h <;> exact ⟨rfl, rfl⟩
  · injection h with h; subst h; exact ⟨rfl, rfl⟩

/-! ## Packets as bytes -/

theorem packet_of_length (body : List Byte) (h : 6 ≤ body.length) : ∃ rc cc n data, body = packet rc cc n data := by
  match body, h with
  | rc :: cc :: a :: b :: c :: d :: data, _ =>
    refine ⟨rc, cc, beNat [a, b, c, d], data, ?_⟩
    have : beBytes 4 (beNat [a, b, c, d]) = [a, b, c, d] := beBytes_beNat [a, b, c, d]
    rw [packet, this]
    rfl
  | [], h | [_], h | [_, _], h | [_, _, _], h | [_, _, _, _], h | [_, _, _, _, _], h => simp at h

theorem length_of_receive {cfg : Cfg} {env : Env} {body : List Byte} {s s' : St} (hv : s.validated = true)
    (h : receive cfg env body s = .ok s') : 6 ≤ body.length := by
  rcases receive_cases h with ⟨h1, _⟩ | ⟨_, _, _, _, h2, _⟩
  · rw [hv] at h1; cases h1
  · exact h2

/-- What a packet does to the flag: a success answering `Subscribe` sets it, one answering `Unsubscribe` clears it. -/
def subscribedAfter (body : List Byte) (old : Bool) : Bool :=
  match body with
  | 0x80#8 :: 0x02#8 :: _ => true
  | 0x80#8 :: 0x03#8 :: _ => false
  | _ => old

theorem subscribedAfter_packet (rc cc : Byte) (n : Nat) (data : List Byte) (old : Bool) :
    subscribedAfter (packet rc cc n data) old =
      if rc = 0x80 then (if cc = 0x02 then true else if cc = 0x03 then false else old) else old := by
  have hp : packet rc cc n data = rc :: cc :: (beBytes 4 n ++ data) := rfl
  rw [hp]
  unfold subscribedAfter
  split
  · rename_i h
    injection h with h1 h2
    injection h2 with h2 h3
    subst h1 h2
    rfl
  · rename_i h
    injection h with h1 h2
    injection h2 with h2 h3
    subst h1 h2
    rfl
  · rename_i h1 h2
    split
    · rename_i hrc
      subst hrc
      split
      · rename_i hcc; subst hcc; exact absurd rfl (h1 _)
      · split
        · rename_i hcc; subst hcc; exact absurd rfl (h2 _)
        · rfl
    · rfl

theorem receive_side {cfg : Cfg} {env : Env} {body : List Byte} {s s' : St} (hv : s.validated = true)
    (h : receive cfg env body s = .ok s') :
    (body.head? ≠ some rspUpdateCipherKeys → s'.keyIVs = s.keyIVs) ∧
    s'.subscribed = subscribedAfter body s.subscribed := by
  obtain ⟨rc, cc, n, data, rfl⟩ := packet_of_length body (length_of_receive hv h)
  have hd : (packet rc cc n data).head? = some rc := rfl
  rw [hd, subscribedAfter_packet]
  rw [receive_packet _ _ _ _ _ _ _ hv] at h
  have start : Side s (s.seen data) := ⟨rfl, rfl⟩
  have plain : rc ≠ 0x80 → Side (s.seen data) s' →
      (some rc ≠ some rspUpdateCipherKeys → s'.keyIVs = s.keyIVs) ∧
      s'.subscribed = if rc = 0x80 then (if cc = 0x02 then true else if cc = 0x03 then false else s.subscribed)
        else s.subscribed := by
    intro hne hs
    rw [if_neg hne]
    exact ⟨fun _ => hs.keys, hs.sub⟩
  by_cases hrc : rc = rspSucceeded
  · rw [if_pos hrc] at h
    subst hrc
    rw [if_pos (show rspSucceeded = 0x80 from rfl)]
    unfold handleSucceeded at h
    split at h
    · rename_i hcc
      subst hcc
      have hs := handleMetadataRefresh_side h
      exact ⟨fun _ => hs.keys, hs.sub⟩
    · split at h
      · rename_i hcc
        injection h with h
        subst h
        refine ⟨fun _ => rfl, ?_⟩
        rcases hcc with rfl | rfl <;> rfl
      · rename_i hcc
        have h2 : cc ≠ 0x02 := fun e => hcc (.inl e)
        have h3 : cc ≠ 0x03 := fun e => hcc (.inr e)
        rw [if_neg h2, if_neg h3]
        split at h <;> injection h with h <;> subst h <;> exact ⟨fun _ => rfl, rfl⟩
  rw [if_neg hrc] at h
  have hne : rc ≠ 0x80 := hrc
  clear hrc
  by_cases hrc : rc = rspFailed
  · rw [if_pos hrc] at h
    refine plain hne ?_
    unfold handleFailed at h
    dsimp only at h
    split at h
    · split at h <;> injection h with h <;> subst h <;> exact ⟨rfl, rfl⟩
    · injection h with h; subst h; exact ⟨rfl, rfl⟩
  rw [if_neg hrc] at h
  clear hrc
  by_cases hrc : rc = rspDataPacket
  · rw [if_pos hrc] at h
    exact plain hne (handleDataPacket_side h)
  rw [if_neg hrc] at h
  clear hrc
  by_cases hrc : rc = rspDataStartTime
  · rw [if_pos hrc] at h
    refine plain hne ?_
    unfold handleDataStartTime at h
    rw [Res.bind_eq_ok] at h
    obtain ⟨t, -, h⟩ := h
    injection h with h; subst h; exact ⟨rfl, rfl⟩
  rw [if_neg hrc] at h
  clear hrc
  by_cases hrc : rc = rspProcessingComplete
  · rw [if_pos hrc] at h
    injection h with h; subst h; exact plain hne ⟨rfl, rfl⟩
  rw [if_neg hrc] at h
  clear hrc
  by_cases hrc : rc = rspUpdateSignalIndexCache
  · rw [if_pos hrc] at h
    exact plain hne (handleUpdateSignalIndexCache_side h)
  rw [if_neg hrc] at h
  clear hrc
  by_cases hrc : rc = rspUpdateBaseTimes
  · rw [if_pos hrc] at h
    exact plain hne (handleUpdateBaseTimes_side h)
  rw [if_neg hrc] at h
  clear hrc
  by_cases hrc : rc = rspUpdateCipherKeys
  · rw [if_pos hrc] at h
    subst hrc
    rw [if_neg hne]
    refine ⟨fun hx => absurd rfl hx, ?_⟩
    unfold handleUpdateCipherKeys at h
    simp only [Res.bind_eq_ok] at h
    obtain ⟨_, -, _, -, _, -, _, -, h⟩ := h
    injection h with h; subst h; rfl
  rw [if_neg hrc] at h
  clear hrc
  by_cases hrc : rc = rspConfigurationChanged
  · rw [if_pos hrc] at h
    injection h with h; subst h; exact plain hne ⟨rfl, rfl⟩
  rw [if_neg hrc] at h
  clear hrc
  by_cases hrc : rc = rspBufferBlock
  · rw [if_pos hrc] at h
    exact plain hne (handleBufferBlock_side h)
  rw [if_neg hrc] at h
  clear hrc
  by_cases hrc : rc = rspNotify
  · rw [if_pos hrc] at h
    exact plain hne (handleNotification_side h)
  rw [if_neg hrc] at h
  clear hrc
  by_cases hrc : rc = rspNoOP
  · rw [if_pos hrc] at h
    injection h with h; subst h; exact plain hne ⟨rfl, rfl⟩
  rw [if_neg hrc] at h
  clear hrc
  injection h with h; subst h; exact plain hne ⟨rfl, rfl⟩

/-! ## C64: the subscribed flag -/

/-- What a history does to the flag, seen from outside: only the publisher's answers count. -/
def subscribedAfterAll : List Action → Bool → Bool
  | [], old => old
  | .packet _ body :: as, old => subscribedAfterAll as (subscribedAfter body old)
  | .subscribe _ _ _ :: as, old => subscribedAfterAll as old
  | .unsubscribe _ :: as, old => subscribedAfterAll as old

theorem unsubscribe_side {env : Env} {s s' : St} (h : unsubscribe env s = .ok s') : Side s s' := by
  unfold unsubscribe at h
  split at h
  · injection h with h; rw [← h]; exact Side.refl _
  · rw [Res.bind_eq_ok] at h
    obtain ⟨s1, h1, h⟩ := h
    injection h with h; subst h
    have := sendCommand_side h1
    exact ⟨this.keys, this.sub⟩

theorem subscribe_cases {cfg : Cfg} {e1 e2 : Env} {p : List Byte} {s s' : St}
    (h : subscribe cfg e1 e2 p s = .ok s') :
    ∃ s1 s2, (unsubscribe e1 s = .ok s1 ∨ s1 = s) ∧
      sendCommand e2 cmdSubscribe ([flagCompact] ++ beBytes 4 p.length ++ p)
        { s1 with totalMeasurementsReceived := 0 } = .ok s2 ∧ s' = { s2 with tsscResetRequested := true } := by
  unfold subscribe at h
  split at h
  · cases h
  · split at h
    · cases h
    · dsimp only at h
      split at h
      · rw [Res.bind_eq_ok] at h
        obtain ⟨s1, h1, h⟩ := h
        rw [Res.bind_eq_ok] at h
        obtain ⟨s2, h2, h⟩ := h
        injection h with h
        exact ⟨s1, s2, .inl h1, h2, h.symm⟩
      · rw [Res.bind_ok, Res.bind_eq_ok] at h
        obtain ⟨s2, h2, h⟩ := h
        injection h with h
        exact ⟨s, s2, .inr rfl, h2, h.symm⟩

theorem subscribe_side {cfg : Cfg} {e1 e2 : Env} {p : List Byte} {s s' : St}
    (h : subscribe cfg e1 e2 p s = .ok s') : Side s s' := by
  obtain ⟨s1, s2, h1, h2, rfl⟩ := subscribe_cases h
  have hs : Side s s1 := by
    rcases h1 with h1 | rfl
    · exact unsubscribe_side h1
    · exact Side.refl _
  have := sendCommand_side h2
  exact ⟨this.keys.trans hs.keys, this.sub.trans hs.sub⟩

theorem sendCommand_validated {env : Env} {c : Byte} {p : List Byte} {s s' : St}
    (h : sendCommand env c p s = .ok s') : s'.validated = s.validated := (sendCommand_frame h).validated

theorem action_validated {cfg : Cfg} {a : Action} {s s' : St} (hv : s.validated = true) (h : a.run cfg s = .ok s') :
    s'.validated = true := by
  have hu : ∀ {env : Env} {s s' : St}, unsubscribe env s = .ok s' → s'.validated = s.validated := by
    intro env s s' h
    unfold unsubscribe at h
    split at h
    · injection h with h; rw [h]
    · rw [Res.bind_eq_ok] at h
      obtain ⟨s1, h1, h⟩ := h
      injection h with h; subst h
      exact sendCommand_validated (s' := s1) h1
  cases a with
  | packet env body => exact receive_validated hv h
  | unsubscribe env => rw [hu h, hv]
  | subscribe e1 e2 p =>
    unfold Action.run at h
    dsimp only at h
    split at h
    · injection h with h; rw [← h, hv]
    · obtain ⟨s1, s2, h1, h2, rfl⟩ := subscribe_cases h
      have hs : s1.validated = s.validated := by
        rcases h1 with h1 | rfl
        · exact hu h1
        · rfl
      have := sendCommand_validated (s' := s2) h2
      exact (this.trans hs).trans hv

/-- **C64.** After any history of packets, `Subscribe` and `Unsubscribe` calls on a validated connection the subscriber
counts as subscribed exactly when the last success response for `Subscribe` or `Unsubscribe` was one for `Subscribe`;
without such a response the flag is what it was at the start. A new connection starts unsubscribed, and a disconnect
leaves the subscriber unsubscribed. -/
theorem C64_subscribed_flag (cfg : Cfg) :
    (∀ (as : List Action) (s s' : St), s.validated = true → runActions cfg as s = .ok s' →
      s'.subscribed = subscribedAfterAll as s.subscribed) ∧
    (∀ s, (reconnected s).subscribed = false) ∧ (∀ s, (disconnectDone (disconnect s)).subscribed = false) := by
  refine ⟨fun as => ?_, fun _ => rfl, fun _ => rfl⟩
  induction as with
  | nil => intro s s' _ h; injection h with h; rw [← h]; rfl
  | cons a as ih =>
    intro s s' hv h
    rw [runActions, Res.bind_eq_ok] at h
    obtain ⟨s1, h1, h⟩ := h
    have := ih s1 s' (action_validated hv h1) h
    rw [this]
    cases a with
    | packet env body => rw [subscribedAfterAll, (receive_side hv h1).2]
    | unsubscribe env => rw [subscribedAfterAll, (unsubscribe_side h1).sub]
    | subscribe e1 e2 p =>
      rw [subscribedAfterAll]
      unfold Action.run at h1
      dsimp only at h1
      split at h1
      · injection h1 with h1; rw [h1]
      · rw [(subscribe_side h1).sub]

/-- Subscribing, the answer, a notification, unsubscribing: subscribed until the second answer. -/
example : exSt.validated = true ∧
    subscribedAfterAll [.subscribe ⟨true, none⟩ ⟨true, none⟩ [1, 2], .packet ⟨true, none⟩ (packet 0x80 2 0 []),
      .packet ⟨true, none⟩ (packet 0x89 0 0 [0, 0, 0, 1]), .unsubscribe ⟨true, none⟩] false = true ∧
    subscribedAfterAll [.packet ⟨true, none⟩ (packet 0x80 2 0 []), .packet ⟨true, none⟩ (packet 0x80 3 0 [])] false =
      false ∧
    ∃ s', runActions exCfg [.subscribe ⟨true, none⟩ ⟨true, none⟩ [1, 2],
      .packet ⟨true, none⟩ (packet 0x80 2 0 [])] exSt = .ok s' ∧ s'.subscribed = true :=
  ⟨rfl, rfl, rfl, _, rfl, rfl⟩

/-! ## C63: cipher keys -/

/-- A cipher key message: an index byte, then the four blocks, each after its length. -/
def keyMessage (index : Byte) (k : KeyIVs) : List Byte :=
  [index] ++ beBytes 4 k.evenKey.length ++ k.evenKey ++ beBytes 4 k.evenIV.length ++ k.evenIV ++
    beBytes 4 k.oddKey.length ++ k.oddKey ++ beBytes 4 k.oddIV.length ++ k.oddIV

theorem readKey_append (pre key rest : List Byte) (hlen : (pre ++ beBytes 4 key.length ++ key ++ rest).length < 2 ^ 32) :
    readKey (pre ++ beBytes 4 key.length ++ key ++ rest) pre.length =
      .ok (key, (pre ++ beBytes 4 key.length ++ key).length) := by
  simp only [List.length_append, beBytes_length] at hlen
  unfold readKey
  rw [if_neg (by simp only [List.length_append]; omega)]
  have h1 : (pre ++ beBytes 4 key.length ++ key ++ rest).drop pre.length = beBytes 4 key.length ++ (key ++ rest) := by
    simp [List.append_assoc]
  rw [h1, readBE_beBytes 4 _ _ (by omega), Res.bind_ok]
  dsimp only
  rw [Nat.mod_eq_of_lt (show pre.length + 4 < 2 ^ 32 by omega),
    if_neg (by simp only [List.length_append, beBytes_length]; omega)]
  have h2 : (pre ++ beBytes 4 key.length ++ key ++ rest).drop (pre.length + 4) = key ++ rest := by
    have : pre.length + 4 = (pre ++ beBytes 4 key.length).length := by simp
    rw [this, List.append_assoc, List.drop_left]
  rw [h2, List.take_left, Nat.sub_self, List.replicate_zero, List.append_nil,
    Nat.mod_eq_of_lt (show pre.length + 4 + key.length < 2 ^ 32 by omega)]
  simp only [List.length_append, beBytes_length]

theorem receive_keys (cfg : Cfg) (env : Env) (cc : Byte) (n : Nat) (index : Byte) (k : KeyIVs) (s : St)
    (hv : s.validated = true) (hlen : (keyMessage index k).length < 2 ^ 32) :
    ∃ s', receive cfg env (packet 0x85 cc n (keyMessage index k)) s = .ok s' ∧ s'.keyIVs = some k := by
  have h0 : receive cfg env (packet 0x85 cc n (keyMessage index k)) s =
      handleUpdateCipherKeys (keyMessage index k) (s.seen (keyMessage index k)) := by
    rw [receive_packet _ _ _ _ _ _ _ hv]
    rfl
  rw [h0]
  generalize s.seen (keyMessage index k) = s1
  obtain ⟨ek, ei, ok, oi⟩ := k
  have r1 : readKey (keyMessage index ⟨ek, ei, ok, oi⟩) 1 = .ok (ek, ([index] ++ beBytes 4 ek.length ++ ek).length) := by
    have := readKey_append [index] ek (beBytes 4 ei.length ++ ei ++ beBytes 4 ok.length ++ ok ++ beBytes 4 oi.length ++ oi)
      (by simpa [keyMessage, List.append_assoc] using hlen)
    simpa [keyMessage, List.append_assoc] using this
  have r2 : readKey (keyMessage index ⟨ek, ei, ok, oi⟩) ([index] ++ beBytes 4 ek.length ++ ek).length =
      .ok (ei, ([index] ++ beBytes 4 ek.length ++ ek ++ beBytes 4 ei.length ++ ei).length) := by
    have := readKey_append ([index] ++ beBytes 4 ek.length ++ ek) ei
      (beBytes 4 ok.length ++ ok ++ beBytes 4 oi.length ++ oi)
      (by simpa [keyMessage, List.append_assoc] using hlen)
    simpa [keyMessage, List.append_assoc] using this
  have r3 : readKey (keyMessage index ⟨ek, ei, ok, oi⟩)
      ([index] ++ beBytes 4 ek.length ++ ek ++ beBytes 4 ei.length ++ ei).length =
      .ok (ok, ([index] ++ beBytes 4 ek.length ++ ek ++ beBytes 4 ei.length ++ ei ++ beBytes 4 ok.length ++ ok).length) := by
    have := readKey_append ([index] ++ beBytes 4 ek.length ++ ek ++ beBytes 4 ei.length ++ ei) ok
      (beBytes 4 oi.length ++ oi)
      (by simpa [keyMessage, List.append_assoc] using hlen)
    simpa [keyMessage, List.append_assoc] using this
  have r4 : ∃ i, readKey (keyMessage index ⟨ek, ei, ok, oi⟩)
      ([index] ++ beBytes 4 ek.length ++ ek ++ beBytes 4 ei.length ++ ei ++ beBytes 4 ok.length ++ ok).length =
      .ok (oi, i) := by
    have := readKey_append ([index] ++ beBytes 4 ek.length ++ ek ++ beBytes 4 ei.length ++ ei ++ beBytes 4 ok.length ++ ok)
      oi [] (by simpa [keyMessage, List.append_assoc] using hlen)
    exact ⟨_, by simpa [keyMessage, List.append_assoc] using this⟩
  obtain ⟨i, r4⟩ := r4
  unfold handleUpdateCipherKeys
  rw [r1, Res.bind_ok]
  dsimp only
  rw [r2, Res.bind_ok]
  dsimp only
  rw [r3, Res.bind_ok]
  dsimp only
  rw [r4, Res.bind_ok]
  exact ⟨_, rfl, rfl⟩

/-- Packets of a connection as far as keys are concerned. -/
inductive KeyMsg where
  | keys (cc : Byte) (n : Nat) (index : Byte) (k : KeyIVs)
  | other (body : List Byte)

def KeyMsg.bytes : KeyMsg → List Byte
  | .keys cc n index k => packet 0x85 cc n (keyMessage index k)
  | .other body => body

def KeyMsg.Ok : KeyMsg → Prop
  | .keys _ _ index k => (keyMessage index k).length < 2 ^ 32
  | .other body => body.head? ≠ some 0x85

/-- The keys in force: the last ones announced. -/
def keysInForce : List KeyMsg → Option KeyIVs → Option KeyIVs
  | [], old => old
  | .keys _ _ _ k :: ms, _ => keysInForce ms (some k)
  | .other _ :: ms, old => keysInForce ms old

/-- The payload of a data packet after deciphering with the keys `k`: bit 2 of the flags names the odd ones. -/
def plaintext (aes : List Byte → List Byte → List Byte → Res (List Byte)) (k : Option KeyIVs) (flags : Byte)
    (payload : List Byte) : Res (List Byte) :=
  match k with
  | none => .ok payload
  | some k => if flags.getLsbD 2 then aes k.oddKey k.oddIV payload else aes k.evenKey k.evenIV payload

theorem bitCipher : ∀ b : Byte, (b &&& flagCipherIndex > 0) ↔ b.getLsbD 2 = true := by decide +kernel

theorem decipher_eq (cfg : Cfg) (flags : Byte) (data : List Byte) (s : St) :
    decipher cfg flags data s = plaintext cfg.decipherAES s.keyIVs flags data := by
  unfold decipher plaintext
  cases s.keyIVs with
  | none => rfl
  | some k =>
    dsimp only
    by_cases h : flags &&& flagCipherIndex > 0
    · rw [if_pos h, if_pos ((bitCipher flags).1 h)]
    · rw [if_neg h, if_neg (fun hx => h ((bitCipher flags).2 hx))]

theorem keys_in_force (cfg : Cfg) : ∀ (ms : List (Env × KeyMsg)) (s s' : St), s.validated = true →
    (∀ m ∈ ms, m.2.Ok) → receiveAll cfg (ms.map (fun m => (m.1, m.2.bytes))) s = .ok s' →
    s'.keyIVs = keysInForce (ms.map (·.2)) s.keyIVs ∧ s'.validated = true := by
  intro ms
  induction ms with
  | nil => intro s s' hv _ h; injection h with h; rw [← h]; exact ⟨rfl, hv⟩
  | cons m ms ih =>
    intro s s' hv hok h
    rw [List.map_cons, receiveAll, Res.bind_eq_ok] at h
    obtain ⟨s1, h1, h⟩ := h
    have hv1 := receive_validated hv h1
    have hm := hok m (by simp)
    have := ih s1 s' hv1 (fun m hm => hok m (by simp [hm])) h
    refine ⟨?_, this.2⟩
    rw [this.1, List.map_cons]
    obtain ⟨env, m⟩ := m
    cases m with
    | keys cc n index k =>
      rw [keysInForce]
      obtain ⟨s2, h2, h3⟩ := receive_keys cfg env cc n index k s hv hm
      rw [show (env, KeyMsg.keys cc n index k).2.bytes = packet 0x85 cc n (keyMessage index k) from rfl] at h1
      rw [h2] at h1
      injection h1 with h1
      rw [← h1, h3]
    | other body => rw [keysInForce, (receive_side hv h1).1 hm]

/-- The keys are looked at only when deciphering. -/
theorem parse_alike (cfg : Cfg) (i : Bool) (c : Bool) (data : List Byte) (ms : List Measurement) (s : St)
    (k : Option KeyIVs) (b : BitVec 64) :
    (if c = true then parseTSSC i data ms { s with keyIVs := k, totalCommandChannelBytesReceived := b }
      else parseCompact cfg i data ms { s with keyIVs := k, totalCommandChannelBytesReceived := b }) =
    (if c = true then parseTSSC i data ms s else parseCompact cfg i data ms s).bind
      (fun r => .ok (r.1, { r.2 with keyIVs := k, totalCommandChannelBytesReceived := b })) := by
  have hh : ∀ j, ({ s with keyIVs := k, totalCommandChannelBytesReceived := b } : St).half j = s.half j := by
    intro j; cases j <;> rfl
  have hset : ∀ (t : St) j h, ({ t with keyIVs := k, totalCommandChannelBytesReceived := b } : St).setHalf j h =
      { t.setHalf j h with keyIVs := k, totalCommandChannelBytesReceived := b } := by
    intro t j h; cases j <;> rfl
  split
  · cases data with
    | nil => rfl
    | cons v rest =>
      by_cases hv : v = 85
      · subst hv
        rw [parseTSSC_eq, parseTSSC_eq]
        cases readBE 2 rest with
        | err => rfl
        | panic => rfl
        | ok n =>
          rw [Res.bind_ok, Res.bind_ok, hh]
          generalize BitVec.ofNat 16 n = seq
          have hprep : tsscPrepare i seq { s with keyIVs := k, totalCommandChannelBytesReceived := b } =
              ((tsscPrepare i seq s).1, (tsscPrepare i seq s).2.1,
                { (tsscPrepare i seq s).2.2 with keyIVs := k, totalCommandChannelBytesReceived := b }) := by
            cases i <;> unfold tsscPrepare <;> dsimp only <;> rw [hh] <;> by_cases h : seq = 0
            · rw [if_pos h, if_pos h]
              dsimp only
              split <;> rfl
            · rw [if_neg h, if_neg h]
              rfl
            · rw [if_pos h, if_pos h]
              dsimp only
              split <;> rfl
            · rw [if_neg h, if_neg h]
              rfl
          rw [hprep]
          generalize tsscPrepare i seq s = p
          obtain ⟨d, m, t⟩ := p
          unfold tsscBody
          dsimp only
          split
          · rfl
          · split
            · rfl
            · cases ofTsscAll (s.half i).cache (Tssc.decodeBlock d (List.drop 2 rest)).1 with
              | err => rfl
              | panic => rfl
              | ok new =>
                rw [Res.bind_ok, Res.bind_ok]
                split
                · rfl
                · rw [hset]; rfl
                · rw [hset]; rfl
      · unfold parseTSSC
        dsimp only
        rw [if_pos hv, if_pos hv, hh, hset]
        rfl
  · unfold parseCompact
    dsimp only
    rw [hh]
    split
    · rfl
    · generalize compactLoop _ data 0 ms = r
      cases r with
      | err => rfl
      | panic => rfl
      | ok r =>
        obtain ⟨m, f⟩ := r
        rw [Res.bind_ok, Res.bind_ok]
        cases f <;> rfl

/-- A data packet whose payload deciphers to `plain`, past the number of measurements. -/
theorem handleData_plain (cfg : Cfg) (env : Env) (flags : Byte) (enc plain : List Byte) (s : St)
    (h : plaintext cfg.decipherAES s.keyIVs flags enc = .ok plain) :
    handleDataPacket cfg env (flags :: enc) s =
      if (!flags.getLsbD 3 && !flags.getLsbD 1) = true then .ok s.fail else
      (readBE 4 plain).bind fun count =>
        (if flags.getLsbD 3 = true then parseTSSC (flags.getLsbD 4) (plain.drop 4) (sliceFor env count) s
          else parseCompact cfg (flags.getLsbD 4) (plain.drop 4) (sliceFor env count) s).bind fun r =>
        .ok { r.2.emit (.newMeasurements r.1) with
          totalMeasurementsReceived := r.2.totalMeasurementsReceived + BitVec.ofNat 64 count } := by
  unfold handleDataPacket
  dsimp only
  rw [bitCompressed, bitCompact, bitCache, decipher_eq, h]
  split
  · rfl
  · dsimp only
    cases readBE 4 plain with
    | err => rfl
    | panic => rfl
    | ok count =>
      change _ = Res.bind (if flags.getLsbD 3 = true then _ else _) _
      rw [Res.bind_ok]
      cases flags.getLsbD 3 <;> rfl

/-- The data packet with ciphered payload `enc` gives, for the keys in force, what the packet with the plain payload
gives without keys. -/
theorem data_alike (cfg : Cfg) (env : Env) (flags : Byte) (enc plain : List Byte) (s : St) (b : BitVec 64)
    (h : plaintext cfg.decipherAES s.keyIVs flags enc = .ok plain) :
    handleDataPacket cfg env (flags :: enc) s =
      (handleDataPacket cfg env (flags :: plain) { s with keyIVs := none, totalCommandChannelBytesReceived := b }).bind
        (fun t => .ok { t with keyIVs := s.keyIVs,
                               totalCommandChannelBytesReceived := s.totalCommandChannelBytesReceived }) := by
  rw [handleData_plain cfg env flags enc plain s h,
    handleData_plain cfg env flags plain plain { s with keyIVs := none, totalCommandChannelBytesReceived := b } rfl]
  split
  · rfl
  · cases readBE 4 plain with
    | err => rfl
    | panic => rfl
    | ok count =>
      have hb : ∀ {α β : Type} (a : α) (f : α → Res β), (Res.ok a).bind f = f a := fun _ _ => rfl
      rw [hb, hb, parse_alike cfg _ _ _ _ s none b]
      have hk : ∀ (r : Res (List Measurement × St)), (∀ ms t, r = .ok (ms, t) → Side s t ∧
          t.totalCommandChannelBytesReceived = s.totalCommandChannelBytesReceived) →
        (r.bind fun r => Res.ok { r.2.emit (.newMeasurements r.1) with
            totalMeasurementsReceived := r.2.totalMeasurementsReceived + BitVec.ofNat 64 count }) =
        (((r.bind fun r => Res.ok (r.1, { r.2 with keyIVs := none, totalCommandChannelBytesReceived := b })).bind
          fun r => Res.ok { r.2.emit (.newMeasurements r.1) with
            totalMeasurementsReceived := r.2.totalMeasurementsReceived + BitVec.ofNat 64 count }).bind
          fun t => Res.ok { t with keyIVs := s.keyIVs,
                                   totalCommandChannelBytesReceived := s.totalCommandChannelBytesReceived }) := by
        intro r hr
        cases r with
        | err => rfl
        | panic => rfl
        | ok r =>
          obtain ⟨ms, t⟩ := r
          obtain ⟨h1, h2⟩ := hr ms t rfl
          change Res.ok _ = Res.ok _
          rw [← h1.keys, ← h2]
          rfl
      refine hk (if flags.getLsbD 3 = true then parseTSSC (flags.getLsbD 4) (plain.drop 4) (sliceFor env count) s
        else parseCompact cfg (flags.getLsbD 4) (plain.drop 4) (sliceFor env count) s) (fun ms t hr => ?_)
      split at hr
      · exact ⟨parseTSSC_side hr, (parseTSSC_only hr).bytes⟩
      · exact ⟨parseCompact_side hr, (parseCompact_frame hr).bytes⟩

/-- **C63.** For every cipher (an arbitrary function of key, initialisation vector and bytes), every history of a
validated connection and every data packet after it: the payload is deciphered with the keys announced last, the odd or
the even ones as bit 2 of the packet's flags says, or taken as it is when none were announced. If deciphering fails the
connection is ended and nothing is delivered; otherwise the packet has exactly the effect of the plain packet on a
connection without keys. A new connection starts without keys. -/
theorem C63_cipher_keys (cfg : Cfg) :
    (∀ (ms : List (Env × KeyMsg)) (s s' : St), s.validated = true → (∀ m ∈ ms, m.2.Ok) →
      receiveAll cfg (ms.map (fun m => (m.1, m.2.bytes))) s = .ok s' →
      ∀ (env : Env) (cc : Byte) (n : Nat) (flags : Byte) (enc : List Byte),
        (flags.getLsbD 3 = true ∨ flags.getLsbD 1 = true) →
        (plaintext cfg.decipherAES (keysInForce (ms.map (·.2)) s.keyIVs) flags enc = .err →
          receive cfg env (packet 0x82 cc n (flags :: enc)) s' = .ok (s'.seen (flags :: enc)).fail) ∧
        (∀ plain, plaintext cfg.decipherAES (keysInForce (ms.map (·.2)) s.keyIVs) flags enc = .ok plain →
          receive cfg env (packet 0x82 cc n (flags :: enc)) s' =
            (receive cfg env (packet 0x82 cc n (flags :: plain)) { s' with keyIVs := none }).bind
              (fun t => .ok { t with
                keyIVs := s'.keyIVs
                totalCommandChannelBytesReceived := (s'.seen (flags :: enc)).totalCommandChannelBytesReceived }))) ∧
    (∀ s, (reconnected s).keyIVs = none) := by
  refine ⟨fun ms s s' hv hok h env cc n flags enc hf => ?_, fun _ => rfl⟩
  obtain ⟨hk, hv'⟩ := keys_in_force cfg ms s s' hv hok h
  rw [← hk]
  refine ⟨fun hx => ?_, fun plain hx => ?_⟩
  · rw [receive_data _ _ _ _ _ _ hv']
    unfold handleDataPacket
    dsimp only
    rw [bitCompressed, bitCompact, decipher_eq]
    have h0 : (!flags.getLsbD 3 && !flags.getLsbD 1) = false := by rcases hf with h | h <;> simp [h]
    rw [h0, show plaintext cfg.decipherAES (s'.seen (flags :: enc)).keyIVs flags enc = .err from hx]
    rfl
  · rw [receive_data _ _ _ _ _ _ hv', receive_data _ _ _ _ _ _ (show St.validated { s' with keyIVs := none } = true from hv')]
    rw [data_alike cfg env flags enc plain (s'.seen (flags :: enc))
      (({ s' with keyIVs := none } : St).seen (flags :: plain)).totalCommandChannelBytesReceived hx]
    rfl

/-- Two announcements, then a packet naming the odd keys of the second one. -/
example : exSt.validated = true ∧ (∀ m ∈ [KeyMsg.keys 0 0 0 ⟨[1], [2], [3], [4]⟩, .other (packet 0x80 2 0 []),
      .keys 0 0 1 ⟨[5], [6], [7], [8]⟩], m.Ok) ∧
    keysInForce [.keys 0 0 0 ⟨[1], [2], [3], [4]⟩, .other (packet 0x80 2 0 []), .keys 0 0 1 ⟨[5], [6], [7], [8]⟩] none =
      some ⟨[5], [6], [7], [8]⟩ ∧
    plaintext (fun k iv d => .ok (k ++ iv ++ d)) (some ⟨[5], [6], [7], [8]⟩) 0x06 [9] = .ok [7, 8, 9] ∧
    ∃ s', receiveAll exCfg [(⟨true, none⟩, (KeyMsg.keys 0 0 0 ⟨[1], [2], [3], [4]⟩).bytes),
      (⟨true, none⟩, packet 0x80 2 0 [])] exSt = .ok s' ∧ s'.keyIVs = some ⟨[1], [2], [3], [4]⟩ := by
  refine ⟨rfl, ?_, rfl, rfl, _, rfl, rfl⟩
  intro m hm
  simp only [List.mem_cons, List.not_mem_nil, or_false] at hm
  rcases hm with rfl | rfl | rfl
  · change (keyMessage 0 ⟨[1], [2], [3], [4]⟩).length < 2 ^ 32; decide
  · change (packet 0x80 2 0 []).head? ≠ some 0x85; decide
  · change (keyMessage 1 ⟨[5], [6], [7], [8]⟩).length < 2 ^ 32; decide

end Verif.Session
