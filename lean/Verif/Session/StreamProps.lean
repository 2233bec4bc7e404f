import Verif.Session.Stream
import Verif.Session.Cases

/-!
# Framing and reading (C21, C22)
-/

namespace Verif.Session

/-! ## Sending (C21) -/

/-- The protocol's framing: big-endian length of command and payload, command, payload. Specification of what the peer
does with the byte stream. -/
def parseCommands (l : List Byte) : Option (List (Byte × List Byte)) :=
  if l = [] then some []
  else if l.length < 5 then none
  else
    let n := beNat (l.take 4)
    if n = 0 ∨ l.length < 4 + n then none
    else
      match (l.drop 4).take n, parseCommands (l.drop (4 + n)) with
      | c :: p, some rest => some ((c, p) :: rest)
      | _, _ => none
  termination_by l.length
  decreasing_by
    simp only [List.length_drop]
    have : l.length ≠ 0 := by simpa using ‹¬ l = []›
    omega

/-- The commands sent one after the other, with the outcome of each write. -/
def sendAll : List (Env × Byte × List Byte) → St → Res St
  | [], s => .ok s
  | (env, c, p) :: rest, s => do
    let s ← sendCommand env c p s
    sendAll rest s

/-- The bytes written so far. -/
def written (log : List Event) : List Byte :=
  (log.filterMap fun e => match e with | .sent b => some b | _ => none).flatten

theorem written_append (a b : List Event) : written (a ++ b) = written a ++ written b := by
  simp [written, List.filterMap_append]

theorem parse_frame (c : Byte) (p : List Byte) (rest : List Byte) (hp : p.length + 1 < 2 ^ 32)
    (cs : List (Byte × List Byte)) (h : parseCommands rest = some cs) :
    parseCommands (beBytes 4 (p.length + 1) ++ [c] ++ p ++ rest) = some ((c, p) :: cs) := by
  have hl : (beBytes 4 (p.length + 1) ++ [c] ++ p ++ rest).length = 5 + p.length + rest.length := by
    simp; omega
  have e : beBytes 4 (p.length + 1) ++ [c] ++ p ++ rest = beBytes 4 (p.length + 1) ++ (c :: p ++ rest) := by simp
  have h4 : (beBytes 4 (p.length + 1) ++ [c] ++ p ++ rest).take 4 = beBytes 4 (p.length + 1) := by
    rw [e, List.take_append_of_le_length (by simp), List.take_of_length_le (by simp)]
  have hd : (beBytes 4 (p.length + 1) ++ [c] ++ p ++ rest).drop 4 = c :: p ++ rest := by
    rw [e, List.drop_append_of_le_length (by simp), List.drop_of_length_le (by simp), List.nil_append]
  have hb : beNat (beBytes 4 (p.length + 1)) = p.length + 1 := beNat_beBytes_of_lt (by omega)
  have hd2 : (beBytes 4 (p.length + 1) ++ [c] ++ p ++ rest).drop (4 + (p.length + 1)) = rest := by
    rw [← List.drop_drop, hd]
    have : c :: p ++ rest = (c :: p) ++ rest := rfl
    rw [this, List.drop_append_of_le_length (by simp), List.drop_of_length_le (by simp), List.nil_append]
  have ht : (c :: p ++ rest).take (p.length + 1) = c :: p := by
    have : c :: p ++ rest = (c :: p) ++ rest := rfl
    rw [this, List.take_append_of_le_length (by simp), List.take_of_length_le (by simp)]
  rw [parseCommands]
  have hne : beBytes 4 (p.length + 1) ++ [c] ++ p ++ rest ≠ [] := by
    intro hc
    rw [hc] at hl
    simp at hl
    omega
  rw [if_neg hne, if_neg (by omega), h4, hb]
  dsimp only
  rw [if_neg (by omega), hd, hd2, ht, h]

/-- C21 fails for large payloads: 32764 bytes make the send panic. -/
theorem C21_large_payload_panics (env : Env) (c : Byte) (s : St) (hs : s.connected = true) (p : List Byte)
    (hp : 32764 ≤ p.length) : sendCommand env c p s = .panic := by
  unfold sendCommand maxPacketSize
  rw [hs]
  simp
  omega

/-- A state to which it applies. -/
example : (establish St.new).connected = true ∧ 32764 ≤ (List.replicate 40000 (0 : Byte)).length :=
  ⟨rfl, by rw [List.length_replicate]; omega⟩

/-- C21 for payloads up to 32763 bytes: for every sequence of commands on an open connection whose writes succeed, sending
does not panic and the peer's framing splits what was written back into exactly that sequence. Missing from the full
statement: larger payloads, which panic (`C21_large_payload_panics`). -/
theorem C21_framing_partial (cmds : List (Env × Byte × List Byte)) (s : St) (hs : s.connected = true)
    (hw : ∀ x ∈ cmds, x.1.writeOk = true) (hl : ∀ x ∈ cmds, x.2.2.length ≤ 32763) :
    ∃ s', sendAll cmds s = .ok s' ∧ ∃ bytes, written s'.log = written s.log ++ bytes ∧
      parseCommands bytes = some (cmds.map fun x => x.2) := by
  induction cmds generalizing s with
  | nil => exact ⟨s, rfl, [], by simp, by rw [parseCommands]; simp⟩
  | cons x xs ih =>
    obtain ⟨env, c, p⟩ := x
    have h1 := hw (env, c, p) (by simp)
    have h2 := hl (env, c, p) (by simp)
    dsimp only at h1 h2
    have hsend : sendCommand env c p s = .ok (s.emit (.sent (beBytes 4 (p.length + 1) ++ [c] ++ p))) := by
      unfold sendCommand maxPacketSize
      rw [hs, h1]
      simp
      omega
    obtain ⟨s', h3, bytes, h4, h5⟩ := ih (s.emit (.sent (beBytes 4 (p.length + 1) ++ [c] ++ p))) hs
      (fun x hx => hw x (by simp [hx])) (fun x hx => hl x (by simp [hx]))
    refine ⟨s', ?_, beBytes 4 (p.length + 1) ++ [c] ++ p ++ bytes, ?_, ?_⟩
    · rw [sendAll, hsend, Res.bind_ok, h3]
    · rw [h4]
      have : (s.emit (.sent (beBytes 4 (p.length + 1) ++ [c] ++ p))).log =
          s.log ++ [.sent (beBytes 4 (p.length + 1) ++ [c] ++ p)] := rfl
      rw [this, written_append]
      simp [written]
    · rw [parse_frame c p bytes (by omega) _ h5]
      rfl

/-- A case meeting the hypotheses: three commands, one without payload. -/
example : ∃ cmds : List (Env × Byte × List Byte), cmds.length = 3 ∧ (∀ x ∈ cmds, x.1.writeOk = true) ∧
    (∀ x ∈ cmds, x.2.2.length ≤ 32763) :=
  ⟨[(⟨true, none⟩, 6, [1, 2, 3, 4]), (⟨true, none⟩, 10, []), (⟨true, none⟩, 8, [0, 0, 0, 9])], rfl, by simp, by simp⟩

/-- C21: when a write fails or the connection is closed, nothing of the command is put on the wire. -/
theorem C21_all_or_nothing (env : Env) (c : Byte) (p : List Byte) (s s' : St) (h : sendCommand env c p s = .ok s') :
    written s'.log = written s.log ∨
      written s'.log = written s.log ++ beBytes 4 (p.length + 1) ++ [c] ++ p := by
  unfold sendCommand at h
  split at h
  · left; injection h with h; rw [h]
  · split at h
    · cases h
    · split at h
      · right
        injection h with h
        subst h
        simp only [St.emit, written_append]
        simp [written]
      · left
        injection h with h
        subst h
        simp only [St.fail, St.emit, written_append]
        simp [written]

/-! ## Receiving (C22) -/

theorem sockRead_spec {max : Nat} {cs : List (List Byte)} (hm : 0 < max) (hne : ∀ c ∈ cs, c ≠ []) :
    (cs = [] ∧ sockRead max cs = none) ∨
    ∃ b cs', sockRead max cs = some (b, cs') ∧ b ≠ [] ∧ b.length ≤ max ∧ b ++ cs'.flatten = cs.flatten ∧
      ∀ c ∈ cs', c ≠ [] := by
  cases cs with
  | nil => left; exact ⟨rfl, rfl⟩
  | cons c cs =>
    right
    rw [sockRead]
    have hc := hne c (by simp)
    by_cases h : c.length ≤ max
    · rw [if_pos h]
      exact ⟨c, cs, rfl, hc, h, by simp, fun x hx => hne x (by simp [hx])⟩
    · rw [if_neg h]
      refine ⟨c.take max, c.drop max :: cs, rfl, ?_, by simp,
        by rw [List.flatten_cons, ← List.append_assoc, List.take_append_drop, List.flatten_cons], ?_⟩
      · intro hx
        have : (c.take max).length = 0 := by rw [hx]; rfl
        rw [List.length_take] at this
        omega
      · intro x hx
        rcases List.mem_cons.mp hx with hx | hx
        · subst hx
          intro hx
          have : (c.drop max).length = 0 := by rw [hx]; rfl
          rw [List.length_drop] at this
          omega
        · exact hne x (by simp [hx])

/-- The pieces a socket hands out are not empty. -/
def Reader.Ok (r : Reader) : Prop := ∀ c ∈ r.chunks, c ≠ []

theorem bufRead_spec {max : Nat} {r : Reader} (hm : 0 < max) (hr : r.Ok) :
    (r.content = [] ∧ bufRead max r = none) ∨
    ∃ b r', bufRead max r = some (b, r') ∧ b ≠ [] ∧ b.length ≤ max ∧ b ++ r'.content = r.content ∧ r'.Ok := by
  unfold bufRead
  by_cases hb : r.buf ≠ []
  · right
    rw [if_pos hb]
    refine ⟨r.buf.take max, { r with buf := r.buf.drop max }, rfl, ?_, by simp, ?_, hr⟩
    · intro hx
      have h1 : (r.buf.take max).length = 0 := by rw [hx]; rfl
      rw [List.length_take] at h1
      have h2 : r.buf.length ≠ 0 := by simpa using hb
      omega
    · unfold Reader.content
      rw [← List.append_assoc, List.take_append_drop]
  · rw [if_neg hb]
    have hb : r.buf = [] := by simpa using hb
    by_cases hx : max ≥ bufioSize
    · rw [if_pos hx]
      rcases sockRead_spec hm hr with ⟨h1, h2⟩ | ⟨b, cs', h1, h2, h3, h4, h5⟩
      · left
        exact ⟨by simp [Reader.content, hb, h1], by rw [h2]; rfl⟩
      · right
        exact ⟨b, ⟨[], cs'⟩, by rw [h1]; rfl, h2, h3, by simp [Reader.content, hb, h4], h5⟩
    · rw [if_neg hx]
      rcases sockRead_spec (max := bufioSize) (by decide) hr with ⟨h1, h2⟩ | ⟨b, cs', h1, h2, h3, h4, h5⟩
      · left
        exact ⟨by simp [Reader.content, hb, h1], by rw [h2]; rfl⟩
      · right
        refine ⟨b.take max, ⟨b.drop max, cs'⟩, by rw [h1]; rfl, ?_, by simp, ?_, h5⟩
        · intro hy
          have h6 : (b.take max).length = 0 := by rw [hy]; rfl
          rw [List.length_take] at h6
          have h7 : b.length ≠ 0 := by simpa using h2
          omega
        · unfold Reader.content
          rw [← List.append_assoc, List.take_append_drop, hb, h4]
          rfl

theorem readFullAux_spec (fuel n : Nat) (r : Reader) (hr : r.Ok) (hf : n ≤ fuel) :
    (r.content.length < n ∧ (readFullAux fuel n r).1 = none) ∨
    (n ≤ r.content.length ∧ ∃ r', readFullAux fuel n r = (some (r.content.take n), r') ∧
      r'.content = r.content.drop n ∧ r'.Ok) := by
  induction fuel generalizing n r with
  | zero =>
    have : n = 0 := by omega
    subst this
    right
    exact ⟨by omega, r, by simp [readFullAux], by simp, hr⟩
  | succ fuel ih =>
    cases n with
    | zero =>
      right
      exact ⟨by omega, r, by simp [readFullAux], by simp, hr⟩
    | succ n =>
      rw [readFullAux]
      rcases bufRead_spec (max := n + 1) (by omega) hr with ⟨h1, h2⟩ | ⟨b, r1, h1, h2, h3, h4, h5⟩
      · left
        rw [h1, h2]
        exact ⟨by simp, rfl⟩
      · rw [h1]
        dsimp only
        have hb : b.length ≠ 0 := by simpa using h2
        rcases ih (n + 1 - b.length) r1 h5 (by omega) with ⟨h6, h7⟩ | ⟨h6, r2, h7, h8, h9⟩
        · left
          constructor
          · rw [← h4, List.length_append]; omega
          · cases hq : readFullAux fuel (n + 1 - b.length) r1 with
            | mk x y =>
              rw [hq] at h7
              dsimp only at h7
              subst h7
              rfl
        · right
          rw [h7, ← h4]
          refine ⟨by simp; omega, r2, ?_, ?_, h9⟩
          · dsimp only
            rw [List.take_append, List.take_of_length_le h3]
          · rw [h8, List.drop_append, List.drop_of_length_le h3, List.nil_append]

theorem readFull_spec (n : Nat) (r : Reader) (hr : r.Ok) :
    (r.content.length < n ∧ (readFull n r).1 = none) ∨
    (n ≤ r.content.length ∧ ∃ r', readFull n r = (some (r.content.take n), r') ∧
      r'.content = r.content.drop n ∧ r'.Ok) := readFullAux_spec n n r hr (by omega)

/-- The wire image of a packet: big-endian length and body. -/
def frame (body : List Byte) : List Byte := beBytes 4 body.length ++ body

theorem turn_frame (cfg : Cfg) (env : Env) (body rest : List Byte) (r : Reader) (s : St) (hr : r.Ok)
    (hb : body.length < 2 ^ 32) (hc : r.content = frame body ++ rest)
    (hacc : s.validated = true ∨ cfg.version < 2 ∨ body.length ≤ maxInitialPacketSize) :
    ∃ r', r'.content = rest ∧ r'.Ok ∧
      turn cfg ⟨env, false, false⟩ r s = (receive cfg env body s >>= fun s => .ok (r', s)) := by
  have h4 : r.content.take 4 = beBytes 4 body.length := by
    rw [hc, frame, List.append_assoc, List.take_append_of_le_length (by simp), List.take_of_length_le (by simp)]
  have hd : r.content.drop 4 = body ++ rest := by
    rw [hc, frame, List.append_assoc, List.drop_append_of_le_length (by simp), List.drop_of_length_le (by simp),
      List.nil_append]
  have hn : beNat (beBytes 4 body.length) = body.length := beNat_beBytes_of_lt (by omega)
  rcases readFull_spec 4 r hr with ⟨h1, -⟩ | ⟨-, r1, h1, h2, h3⟩
  · rw [hc, frame] at h1; simp at h1
  · rw [h4] at h1
    rw [hd] at h2
    rcases readFull_spec body.length r1 h3 with ⟨h5, -⟩ | ⟨-, r2, h5, h6, h7⟩
    · rw [h2] at h5; simp at h5
    · rw [h2, List.take_append_of_le_length (by omega), List.take_of_length_le (by omega)] at h5
      rw [h2, List.drop_append_of_le_length (by omega), List.drop_of_length_le (by omega), List.nil_append] at h6
      refine ⟨r2, h6, h7, ?_⟩
      have hok : (readPayloadHeader cfg body.length s).2 = true := by
        unfold readPayloadHeader
        dsimp only
        rcases hacc with h | h | h
        · rw [h]; simp
        · cases s.validated
          · have : ¬ cfg.version ≥ 2 := by
              rw [ge_iff_le, BitVec.le_def]; rw [BitVec.lt_def] at h; omega
            simp only [Bool.not_false, if_true, if_neg this]
          · simp
        · cases s.validated
          · simp only [Bool.not_false, if_true]
            split
            · rw [if_neg (by omega)]
            · rfl
          · simp
      unfold turn receive
      rw [h1]
      dsimp only
      rw [hn]
      cases hp : readPayloadHeader cfg body.length s with
      | mk s1 b =>
        rw [hp] at hok
        dsimp only at hok
        subst hok
        dsimp only
        rw [h5]
        simp

/-- C22: for every sequence of packets and every way in which their bytes, followed by `tail`, arrive in (non-empty) pieces,
reading them hands exactly these packets, in order, to response processing; whatever response processing does (also a panic)
is what it does when handed these packets one by one; `tail` is left to be read. Packets are below 4 GiB, are not refused as
oversized first packets (C23), and no disconnect or unsubscribe is in progress, without which the statement fails
(`C22_unsubscribe_false`). -/
theorem C22_chunking_partial (cfg : Cfg) (ps : List (Env × List Byte)) (tail : List Byte) (r : Reader) (s : St) (hr : r.Ok)
    (hsize : ∀ p ∈ ps, p.2.length < 2 ^ 32)
    (hc : r.content = (ps.map fun p => frame p.2).flatten ++ tail)
    (hacc : cfg.version < 2 ∨ s.validated = true ∨ ∀ p ∈ ps, p.2.length ≤ maxInitialPacketSize) :
    ∃ r', r'.content = tail ∧ r'.Ok ∧
      turns cfg (ps.map fun p => ⟨p.1, false, false⟩) r s =
        (receiveAll cfg ps s >>= fun s => .ok (r', s)) := by
  induction ps generalizing r s with
  | nil => exact ⟨r, by simpa using hc, hr, rfl⟩
  | cons p ps ih =>
    obtain ⟨env, body⟩ := p
    have hb := hsize (env, body) (by simp)
    dsimp only at hb
    rw [List.map_cons, List.flatten_cons, List.append_assoc] at hc
    dsimp only at hc
    obtain ⟨r1, h1, h2, h3⟩ := turn_frame cfg env body _ r s hr hb hc (by
      rcases hacc with h | h | h
      · exact Or.inr (Or.inl h)
      · exact Or.inl h
      · exact Or.inr (Or.inr (h (env, body) (by simp))))
    cases hq : receive cfg env body s with
    | panic =>
      obtain ⟨r2, h4, h5, h6⟩ : ∃ r2 : Reader, r2.content = tail ∧ r2.Ok ∧ True :=
        ⟨⟨tail, []⟩, by simp [Reader.content], by intro c hc; simp at hc, trivial⟩
      refine ⟨r2, h4, h5, ?_⟩
      rw [List.map_cons, turns, h3, hq, receiveAll, hq]
      rfl
    | err =>
      obtain ⟨r2, h4, h5, h6⟩ : ∃ r2 : Reader, r2.content = tail ∧ r2.Ok ∧ True :=
        ⟨⟨tail, []⟩, by simp [Reader.content], by intro c hc; simp at hc, trivial⟩
      refine ⟨r2, h4, h5, ?_⟩
      rw [List.map_cons, turns, h3, hq, receiveAll, hq]
      rfl
    | ok s1 =>
      obtain ⟨r2, h4, h5, h6⟩ := ih r1 s1 h2 (fun p hp => hsize p (by simp [hp])) h1 (by
        rcases hacc with h | h | h
        · exact Or.inl h
        · exact Or.inr (Or.inl (receive_validated h hq))
        · exact Or.inr (Or.inr fun p hp => h p (by simp [hp])))
      refine ⟨r2, h4, h5, ?_⟩
      rw [List.map_cons, turns, h3, hq, Res.bind_ok, Res.bind_ok, receiveAll, hq, Res.bind_ok]
      exact h6

/-- A case meeting the hypotheses: two packets and one byte of a third, arriving in four pieces that cut through a header
and a body. -/
example : ∃ (ps : List (Env × List Byte)) (r : Reader), ps.length = 2 ∧ r.Ok ∧ r.chunks.length = 4 ∧
    (∀ p ∈ ps, p.2.length < 2 ^ 32) ∧ r.content = (ps.map fun p => frame p.2).flatten ++ [0] ∧
    (∀ p ∈ ps, p.2.length ≤ maxInitialPacketSize) :=
  ⟨[(⟨true, none⟩, [0x80, 6, 0, 0, 0, 0]), (⟨true, none⟩, [0x8A, 0, 0, 0, 0, 0])],
    ⟨[], [[0, 0], [0, 6, 0x80, 6, 0], [0, 0, 0, 0, 0, 0, 6, 0x8A, 0, 0, 0], [0, 0, 0]]⟩, rfl,
    by
      intro c hc
      simp only [List.mem_cons, List.not_mem_nil, or_false] at hc
      rcases hc with rfl | rfl | rfl | rfl <;> simp,
    rfl,
    by
      intro p hp
      simp only [List.mem_cons, List.not_mem_nil, or_false] at hp
      rcases hp with rfl | rfl <;> simp only [List.length_cons, List.length_nil] <;> omega,
    by decide,
    by
      intro p hp
      simp only [List.mem_cons, List.not_mem_nil, or_false] at hp
      unfold maxInitialPacketSize responseHeaderSize
      rcases hp with rfl | rfl <;> simp only [List.length_cons, List.length_nil] <;> omega⟩

/-- A byte sequence that does not contain a whole packet. -/
def Incomplete (l : List Byte) : Prop := l.length < 4 ∨ l.length < 4 + beNat (l.take 4)

/-- C22, the incomplete tail: when the stream ends within a packet, nothing of it is processed: whatever the pieces in which
it arrives, the turn that meets it ends the connection, after an error message only if the announced size was refused, and
nothing else is seen outside; subscription, caches, decoders, base times and buffer blocks are untouched. -/
theorem C22_incomplete_tail (cfg : Cfg) (env : Env) (r : Reader) (s : St) (hr : r.Ok) (ht : Incomplete r.content) :
    ∃ r' s', turn cfg ⟨env, false, false⟩ r s = .ok (r', s') ∧ KeepsData s s' ∧ s'.subscribed = s.subscribed ∧
      s'.keyIVs = s.keyIVs ∧ s'.subscriberID = s.subscriberID ∧
      (s'.log = s.log ++ [.terminate] ∨ s'.log = s.log ++ [.error, .terminate]) := by
  have hk : KeepsData s s := KeepsData.refl s
  unfold turn
  rcases readFull_spec 4 r hr with ⟨h1, h2⟩ | ⟨h0, r1, h1, h2, h3⟩
  · cases hq : readFull 4 r with
    | mk h r1 =>
      rw [hq] at h2
      dsimp only at h2
      subst h2
      exact ⟨r1, s.emit .terminate, by simp, KeepsData.emit s _, rfl, rfl, rfl, Or.inl rfl⟩
  · rw [h1]
    dsimp only
    have hlen : r1.content.length < beNat (r.content.take 4) := by
      rw [h2, List.length_drop]
      rcases ht with ht | ht
      · omega
      · omega
    generalize hn : beNat (r.content.take 4) = n at *
    have hs : ∃ s1 b, readPayloadHeader cfg n s = (s1, b) ∧ KeepsData s s1 ∧ s1.subscribed = s.subscribed ∧
        s1.keyIVs = s.keyIVs ∧ s1.subscriberID = s.subscriberID ∧
        (if b then s1.log = s.log else s1.log = s.log ++ [.error, .terminate]) := by
      unfold readPayloadHeader
      dsimp only
      split
      · split
        · split
          · exact ⟨_, _, rfl, ⟨rfl, rfl, rfl, rfl, rfl, rfl, rfl, rfl, rfl⟩, rfl, rfl, rfl, by simp [St.fail, St.emit]⟩
          · exact ⟨_, _, rfl, ⟨rfl, rfl, rfl, rfl, rfl, rfl, rfl, rfl, rfl⟩, rfl, rfl, rfl, by simp⟩
        · exact ⟨_, _, rfl, ⟨rfl, rfl, rfl, rfl, rfl, rfl, rfl, rfl, rfl⟩, rfl, rfl, rfl, by simp⟩
      · exact ⟨_, _, rfl, ⟨rfl, rfl, rfl, rfl, rfl, rfl, rfl, rfl, rfl⟩, rfl, rfl, rfl, by simp⟩
    obtain ⟨s1, b, hs1, hk1, hk2, hk3, hk4, hk5⟩ := hs
    rw [hs1]
    cases b
    · exact ⟨r1, s1, by simp, hk1, hk2, hk3, hk4, Or.inr (by simpa using hk5)⟩
    · rcases readFull_spec n r1 h3 with ⟨h5, h6⟩ | ⟨h5, -⟩
      · cases hq : readFull n r1 with
        | mk x r2 =>
          rw [hq] at h6
          dsimp only at h6
          subst h6
          refine ⟨r2, s1.emit .terminate, by simp, hk1.trans (KeepsData.emit s1 _), hk2, hk3, hk4, Or.inl ?_⟩
          have : s1.log = s.log := by simpa using hk5
          simp [St.emit, this]
      · omega

/-- A case meeting the hypotheses: a header announcing six bytes and four of them. -/
example : Incomplete (Reader.content ⟨[], [[0, 0, 0], [6, 0x8A, 0, 0, 0]]⟩) := by
  right; decide

/-- A configuration for the examples. -/
def exCfg : Cfg := ⟨2, false, false, false, true, false, some, fun _ _ d => .ok d⟩

/-- C22 fails while `Unsubscribe` runs (L573-606 sets `disconnecting` for a moment): a header read in that moment is dropped
although its body is still to come. The first four bytes of the body, which begins with a response code of at least 0x80, are
then taken for a packet size of 2 GiB or more, and none of the packets in the stream (up to 2 GiB of them) is processed. -/
theorem C22_unsubscribe_loses (cfg : Cfg) (env : Env) (rc : Byte) (body rest : List Byte) (r : Reader) (s : St)
    (hr : r.Ok) (hrc : 0x80 ≤ rc.toNat) (hb : 3 ≤ body.length) (hrest : body.length + rest.length < 2 ^ 31)
    (hc : r.content = frame (rc :: body) ++ rest) :
    ∃ r' s', turns cfg [⟨env, true, true⟩, ⟨env, false, false⟩] r s = .ok (r', s') ∧
      (s'.log = s.log ++ [.terminate] ∨ s'.log = s.log ++ [.error, .terminate]) := by
  have hd : r.content.drop 4 = rc :: body ++ rest := by
    rw [hc, frame, List.append_assoc, List.drop_append_of_le_length (by simp), List.drop_of_length_le (by simp),
      List.nil_append]
  rcases readFull_spec 4 r hr with ⟨h1, -⟩ | ⟨-, r1, h1, h2, h3⟩
  · rw [hc, frame] at h1; simp at h1
  · have hi : Incomplete r1.content := by
      right
      rw [h2, hd]
      obtain ⟨a, b, c, t, rfl⟩ : ∃ a b c t, body = a :: b :: c :: t := by
        rcases body with _ | ⟨a, _ | ⟨b, _ | ⟨c, t⟩⟩⟩
        · simp at hb
        · simp at hb
        · simp at hb
        · exact ⟨a, b, c, t, rfl⟩
      simp only [List.length_append, List.length_cons, List.cons_append, List.take_succ_cons, List.take_zero] at hrest ⊢
      have : beNat [rc, a, b, c] = ((rc.toNat * 256 + a.toNat) * 256 + b.toNat) * 256 + c.toNat := by
        simp [beNat]
      omega
    obtain ⟨r2, s2, h4, -, -, -, -, h5⟩ := C22_incomplete_tail cfg env r1 s h3 hi
    refine ⟨r2, s2, ?_, h5⟩
    rw [turns, turn, h1]
    simp only [if_true, Res.bind_ok]
    rw [turns, h4, Res.bind_ok]
    rfl

/-- The statement of C22 with an `Unsubscribe` in progress is false: the publisher sends one packet that reports a changed
configuration, and the application is never told. -/
theorem C22_unsubscribe_false : ¬ ∀ (env : Env) (body : List Byte) (r : Reader) (s s1 : St),
    r.Ok → r.content = frame body → receive exCfg env body s = .ok s1 →
    ∃ r' s', turns exCfg [⟨env, true, true⟩, ⟨env, false, false⟩] r s = .ok (r', s') ∧
      ∃ es, s'.log = s1.log ++ es := by
  intro h
  have hok : (Reader.mk [] [frame [0x8A, 0, 0, 0, 0, 0]]).Ok := by
    intro c hc
    rw [List.mem_singleton] at hc
    subst hc
    decide
  have hcont : (Reader.mk [] [frame [0x8A, 0, 0, 0, 0, 0]]).content = frame [0x8A, 0, 0, 0, 0, 0] := rfl
  obtain ⟨r1, s1, h1, es, h2⟩ := h ⟨true, none⟩ [0x8A, 0, 0, 0, 0, 0] _ (establish St.new) _ hok hcont rfl
  obtain ⟨r2, s2, h3, h4⟩ := C22_unsubscribe_loses exCfg ⟨true, none⟩ 0x8A [0, 0, 0, 0, 0] [] _ (establish St.new) hok
    (by decide) (by decide) (by decide) (by rw [hcont]; rfl)
  rw [h1] at h3
  injection h3 with h3
  injection h3 with h3 h5
  subst h5
  rw [h2] at h4
  have he : ∀ e, Event.configurationChanged ∈ [Event.status, Event.configurationChanged] ++ e := by simp
  rcases h4 with h4 | h4
  · have := he es
    change ([Event.status, Event.configurationChanged] ++ es) = [Event.terminate] at h4
    rw [h4] at this
    simp at this
  · have := he es
    change ([Event.status, Event.configurationChanged] ++ es) = [Event.error, Event.terminate] at h4
    rw [h4] at this
    simp at this

end Verif.Session
