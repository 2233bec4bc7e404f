import Verif.Session.Publisher

/-!
# C127: base times change while data packets are being decoded

With a UDP data channel two goroutines share `ds.baseTimeOffsets`, and no lock guards it: `handleUpdateBaseTimes` on the command channel stores two
words (DataSubscriber.go L1123), in the order the compiler chose, while `parseCompactMeasurements` on the data channel (L1357-1389) reads one of them for each
measurement with a short time, once (CompactMeasurement.go L279). A transition system: a turn of the command goroutine stores one word, a turn of
the data goroutine begins a packet, decodes one measurement or delivers the slice. Words of 64 bits are stored and loaded whole and in order
(a 64-bit platform; the reader sees the last store). The signal index cache and the subscription are the same throughout, the packets are not encrypted and
not TSSC, and the slice decoded into is new (C114). What follows a measurement that is refused is not modelled (see C24).
-/

namespace Verif.Session.Rotation

/-- The packet being decoded: the locals of `parseCompactMeasurements` and the measurements decoded (DataSubscriber.go L1373-1388). -/
structure Decoding where
  data : List Byte
  index : Nat
  todo : Nat
  ms : List Measurement

/-- The state shared, and what the goroutines still have to do. (DataSubscriber.go L158, L861-897, L1123)
`writes` are the stores to come, each with the element stored to; `packets` the data packets to come, each with its count and what follows it;
`out` the slices delivered; `failed`: a measurement was refused, or the program ended. -/
structure Rot where
  word : Bool → BitVec 64
  writes : List (Bool × BitVec 64)
  packets : List (Nat × List Byte)
  current : Option Decoding := none
  out : List (List Measurement) := []
  failed : Bool := false

/-- The stores of `handleUpdateBaseTimes` (DataSubscriber.go L1123) for an update that announces these base times; `first` is the element
stored to first. -/
def storesOf (first : Bool) (o0 o1 : BitVec 64) : List (Bool × BitVec 64) :=
  [(first, if first then o1 else o0), (!first, if first then o0 else o1)]

/-- A turn of the goroutine of the command channel: one store. (DataSubscriber.go L1123) -/
def commandTurn (s : Rot) : Rot :=
  match s.writes with
  | [] => s
  | (i, v) :: ws => { s with word := fun j => if j = i then v else s.word j, writes := ws }

/-- Decoding one measurement (DataSubscriber.go L1375-1387). -/
def decodeTurn (cache : Sic.Cache) (includeTime millis : Bool) (s : Rot) (c : Decoding) : Rot :=
  if c.index > c.data.length then { s with failed := true }
  else match Compact.decode ⟨cache, s.word false, s.word true, includeTime, millis⟩ Compact.CM.new (c.data.drop c.index) with
    | .ok (n, cm) => { s with current := some { c with index := c.index + n, todo := c.todo - 1, ms := c.ms ++ [ofCompact cm] } }
    | _ => { s with failed := true }

/-- A turn of the goroutine of the data channel. (DataSubscriber.go L879-897, L1224-1258, L1375-1388) -/
def dataTurn (cache : Sic.Cache) (includeTime millis : Bool) (s : Rot) : Rot :=
  if s.failed then s
  else match s.current with
    | none =>
      match s.packets with
      | [] => s
      | (n, data) :: ps => { s with packets := ps, current := some ⟨data, 0, n, []⟩ }
    | some c => if c.todo = 0 then { s with current := none, out := s.out ++ [c.ms] } else decodeTurn cache includeTime millis s c

/-- The turns of a schedule; true is a turn of the command channel. (DataSubscriber.go L861-897) -/
def turns (cache : Sic.Cache) (includeTime millis : Bool) : List Bool → Rot → Rot
  | [], s => s
  | true :: l, s => turns cache includeTime millis l (commandTurn s)
  | false :: l, s => turns cache includeTime millis l (dataTurn cache includeTime millis s)

/-! ## Specification -/

/-- The base time a measurement refers to (bit 7 of the flags). -/
def slot : Entry → Bool
  | .short e => e.flags.getLsbD 7
  | _ => false

/-- A packet as sent: its measurements, and bytes after them. -/
structure SentPacket where
  entries : List Entry
  tail : List Byte

/-- Its count and what follows it. -/
def SentPacket.image (millis : Bool) (p : SentPacket) : Nat × List Byte :=
  (p.entries.length, (p.entries.map (Entry.bytes millis)).flatten ++ p.tail)

/-- The turns of the data goroutine that a packet takes: one to begin, one for each measurement, one to deliver. -/
def SentPacket.turns (p : SentPacket) : Nat := p.entries.length + 2

/-- Begin with these base times, with these stores and packets to come. -/
def Rot.start (millis : Bool) (w : Bool → BitVec 64) (writes : List (Bool × BitVec 64)) (sent : List SentPacket) : Rot :=
  { word := w, writes := writes, packets := sent.map (SentPacket.image millis) }

/-- The measurement is what was sent, with the base time of its own element as it was at the beginning or as some update announced it. -/
def Dated (rs : List Sic.Rec) (millis : Bool) (w : Bool → BitVec 64) (writes : List (Bool × BitVec 64)) (e : Entry) (m : Measurement) : Prop :=
  ∃ v, (v = w (slot e) ∨ (slot e, v) ∈ writes) ∧ m = e.meaning rs millis (some (v, v))

/-! ## Lemmas -/

theorem meaning_slot (rs : List Sic.Rec) (millis : Bool) (w : Bool → BitVec 64) (e : Entry) :
    e.meaning rs millis (some (w false, w true)) = e.meaning rs millis (some (w (slot e), w (slot e))) := by
  cases e with
  | full e => rfl
  | bare f i v => rfl
  | short e =>
    unfold Entry.meaning slot ShortEntry.meaning
    simp only [Option.getD_some]
    cases e.flags.getLsbD 7 <;> rfl

theorem fits_any {cfg : Cfg} {t t' : BitVec 64 × BitVec 64} {e : Entry} (h : e.Fits cfg (some t)) : e.Fits cfg (some t') := by
  cases e with
  | full e => exact h
  | bare f i v => exact h
  | short e => exact ⟨h.1, h.2.1, by simp, h.2.2.2⟩

section

variable (cfg : Cfg) (rs : List Sic.Rec) (w : Bool → BitVec 64) (writes : List (Bool × BitVec 64)) (sent : List SentPacket)

/-- Where the data goroutine is. -/
def Place (s : Rot) : Prop :=
  s.failed = false ∧
    match s.current with
    | none => ∃ d r, sent = d ++ r ∧ s.packets = r.map (SentPacket.image cfg.useMillisecondResolution) ∧
        List.Forall₂ (fun p ms => List.Forall₂ (Dated rs cfg.useMillisecondResolution w writes) p.entries ms) d s.out
    | some c => ∃ d p r pre post, sent = d ++ p :: r ∧ p.entries = pre ++ post ∧
        s.packets = r.map (SentPacket.image cfg.useMillisecondResolution) ∧
        c.data = (p.image cfg.useMillisecondResolution).2 ∧ c.index = ((pre.map (Entry.bytes cfg.useMillisecondResolution)).flatten).length ∧
        c.todo = post.length ∧ List.Forall₂ (Dated rs cfg.useMillisecondResolution w writes) pre c.ms ∧
        List.Forall₂ (fun p ms => List.Forall₂ (Dated rs cfg.useMillisecondResolution w writes) p.entries ms) d s.out

/-- The words are those of the beginning or stored, and the stores to come are among those of the updates. -/
def Stored (s : Rot) : Prop :=
  (∀ i, s.word i = w i ∨ (i, s.word i) ∈ writes) ∧ ∀ x ∈ s.writes, x ∈ writes

variable {cfg rs w writes sent}

theorem stored_command {s : Rot} (h : Stored w writes s) : Stored w writes (commandTurn s) := by
  unfold commandTurn
  split
  · exact h
  · rename_i i v ws hw
    refine ⟨?_, fun x hx => h.2 x (by rw [hw]; exact List.mem_cons_of_mem _ hx)⟩
    intro j
    dsimp only
    by_cases hj : j = i
    · subst hj
      rw [if_pos rfl]
      exact .inr (h.2 _ (by rw [hw]; exact List.mem_cons_self))
    · rw [if_neg hj]
      exact h.1 j

theorem place_command {s : Rot} (h : Place cfg rs w writes sent s) : Place cfg rs w writes sent (commandTurn s) := by
  unfold commandTurn
  split
  · exact h
  · exact h

theorem dataTurn_keeps (cache : Sic.Cache) (t ms : Bool) (s : Rot) : (dataTurn cache t ms s).word = s.word ∧ (dataTurn cache t ms s).writes = s.writes := by
  unfold dataTurn
  split
  · exact ⟨rfl, rfl⟩
  · split
    · split <;> exact ⟨rfl, rfl⟩
    · split
      · exact ⟨rfl, rfl⟩
      · unfold decodeTurn
        split
        · exact ⟨rfl, rfl⟩
        · split <;> exact ⟨rfl, rfl⟩

/-- What is left to do, in turns of the data goroutine. -/
def leftOver (s : Rot) : Nat :=
  (s.packets.map fun p => p.1 + 2).sum + match s.current with
    | none => 0
    | some c => c.todo + 1

theorem place_data (hfit : ∀ p ∈ sent, ∀ e ∈ p.entries, e.Fits cfg (some (w false, w true))) {s : Rot} (h : Place cfg rs w writes sent s)
    (hs : Stored w writes s) :
    Place cfg rs w writes sent (dataTurn (Sic.build rs) cfg.includeTime cfg.useMillisecondResolution s) ∧
      leftOver (dataTurn (Sic.build rs) cfg.includeTime cfg.useMillisecondResolution s) = leftOver s - 1 := by
  obtain ⟨hf, hp⟩ := h
  unfold dataTurn
  rw [if_neg (by rw [hf]; simp)]
  cases hc : s.current with
  | none =>
    rw [hc] at hp
    obtain ⟨d, r, h1, h2, h3⟩ := hp
    cases r with
    | nil =>
      dsimp only
      rw [h2]
      show Place cfg rs w writes sent s ∧ leftOver s = leftOver s - 1
      refine ⟨⟨hf, ?_⟩, ?_⟩
      · rw [hc]; exact ⟨d, [], h1, h2, h3⟩
      · unfold leftOver; rw [hc, h2]; rfl
    | cons p r =>
      dsimp only
      rw [h2]
      refine ⟨⟨hf, d, p, r, [], p.entries, h1, rfl, rfl, rfl, rfl, rfl, .nil, h3⟩, ?_⟩
      unfold leftOver
      rw [hc, h2]
      simp only [List.map_cons, List.sum_cons]
      omega
  | some c =>
    rw [hc] at hp
    obtain ⟨d, p, r, pre, post, h1, h2, h3, h4, h5, h6, h7, h8⟩ := hp
    dsimp only
    cases post with
    | nil =>
      rw [if_pos (by rw [h6]; rfl)]
      refine ⟨⟨hf, d ++ [p], r, by rw [h1]; simp, h3, ?_⟩, ?_⟩
      · refine List.rel_append h8 (.cons ?_ .nil)
        rw [h2, List.append_nil]
        exact h7
      · unfold leftOver
        rw [hc]
        dsimp only
        rw [h6]
        simp
    | cons e post =>
      rw [if_neg (by rw [h6]; simp)]
      unfold decodeTurn
      have hdata : c.data = (pre.map (Entry.bytes cfg.useMillisecondResolution)).flatten ++
          (e.bytes cfg.useMillisecondResolution ++ ((post.map (Entry.bytes cfg.useMillisecondResolution)).flatten ++ p.tail)) := by
        rw [h4]
        unfold SentPacket.image
        rw [h2]
        simp
      rw [if_neg (by rw [h5, hdata, List.length_append]; omega)]
      have hdrop : c.data.drop c.index = e.bytes cfg.useMillisecondResolution ++
          ((post.map (Entry.bytes cfg.useMillisecondResolution)).flatten ++ p.tail) := by
        rw [h5, hdata, List.drop_left]
      obtain ⟨cm, c1, c2⟩ := entry_decode cfg rs (some (s.word false, s.word true)) (s.word false) (s.word true)
        (by intro o ho; injection ho with ho; subst ho; exact ⟨rfl, rfl⟩) e
        (fits_any (hfit p (by rw [h1]; simp) e (by rw [h2]; simp)))
      rw [hdrop, c2]
      dsimp only
      refine ⟨⟨hf, d, p, r, pre ++ [e], post, h1, by rw [h2]; simp, h3, h4, ?_, ?_, ?_, h8⟩, ?_⟩
      · dsimp only
        rw [h5]
        simp
      · dsimp only
        rw [h6]
        simp
      · refine List.rel_append h7 (.cons ⟨s.word (slot e), ?_, ?_⟩ .nil)
        · exact hs.1 (slot e)
        · rw [c1, meaning_slot]
      · unfold leftOver
        rw [hc]
        dsimp only
        rw [h6]
        simp only [List.length_cons]
        omega

theorem turns_place (hfit : ∀ p ∈ sent, ∀ e ∈ p.entries, e.Fits cfg (some (w false, w true))) (l : List Bool) {s : Rot} (h : Place cfg rs w writes sent s)
    (hs : Stored w writes s) :
    Place cfg rs w writes sent (turns (Sic.build rs) cfg.includeTime cfg.useMillisecondResolution l s) ∧
      leftOver (turns (Sic.build rs) cfg.includeTime cfg.useMillisecondResolution l s) = leftOver s - l.count false := by
  induction l generalizing s with
  | nil => exact ⟨h, by simp [turns]⟩
  | cons b l ih =>
    cases b with
    | true =>
      rw [turns]
      obtain ⟨h1, h2⟩ := ih (place_command h) (stored_command hs)
      refine ⟨h1, ?_⟩
      rw [h2]
      have : leftOver (commandTurn s) = leftOver s := by
        unfold commandTurn leftOver
        split <;> rfl
      rw [this]
      simp
    | false =>
      rw [turns]
      obtain ⟨p1, p2⟩ := place_data hfit h hs
      obtain ⟨k1, k2⟩ := dataTurn_keeps (Sic.build rs) cfg.includeTime cfg.useMillisecondResolution s
      obtain ⟨h1, h2⟩ := ih p1 (by unfold Stored; rw [k1, k2]; exact hs)
      refine ⟨h1, ?_⟩
      rw [h2, p2]
      simp only [List.count_cons_self]
      omega

end

theorem leftOver_start (millis : Bool) (w : Bool → BitVec 64) (writes : List (Bool × BitVec 64)) (sent : List SentPacket) :
    leftOver (Rot.start millis w writes sent) = (sent.map SentPacket.turns).sum := by
  unfold leftOver Rot.start
  simp only [List.map_map, Nat.add_zero]
  rfl

theorem delivered {cfg : Cfg} {rs : List Sic.Rec} {w : Bool → BitVec 64} {writes : List (Bool × BitVec 64)} {sent : List SentPacket}
    (hfit : ∀ p ∈ sent, ∀ e ∈ p.entries, e.Fits cfg (some (w false, w true))) (l : List Bool) :
    let s := turns (Sic.build rs) cfg.includeTime cfg.useMillisecondResolution l (Rot.start cfg.useMillisecondResolution w writes sent)
    s.failed = false ∧ (∃ d r, sent = d ++ r ∧
      List.Forall₂ (fun p ms => List.Forall₂ (Dated rs cfg.useMillisecondResolution w writes) p.entries ms) d s.out) ∧
      ((sent.map SentPacket.turns).sum ≤ l.count false → s.out.length = sent.length) := by
  intro s
  have h0 : Place cfg rs w writes sent (Rot.start cfg.useMillisecondResolution w writes sent) := ⟨rfl, [], sent, rfl, rfl, .nil⟩
  obtain ⟨⟨hf, hp⟩, hl⟩ := turns_place hfit l h0 ⟨fun _ => .inl rfl, fun _ hx => hx⟩
  rw [leftOver_start] at hl
  refine ⟨hf, ?_, ?_⟩
  · change match s.current with | none => _ | some c => _ at hp
    cases hc : s.current with
    | none =>
      rw [hc] at hp
      obtain ⟨d, r, h1, _, h3⟩ := hp
      exact ⟨d, r, h1, h3⟩
    | some c =>
      rw [hc] at hp
      obtain ⟨d, p, r, _, _, h1, _, _, _, _, _, _, h8⟩ := hp
      exact ⟨d, p :: r, h1, h8⟩
  · intro hn
    have hz : leftOver s = 0 := by
      have : leftOver s = (sent.map SentPacket.turns).sum - l.count false := hl
      omega
    change match s.current with | none => _ | some c => _ at hp
    unfold leftOver at hz
    cases hc : s.current with
    | some c => rw [hc] at hz; dsimp only at hz; omega
    | none =>
      rw [hc] at hp
      obtain ⟨d, r, h1, h2, h3⟩ := hp
      rw [h2] at hz
      cases r with
      | cons p r =>
        simp only [List.map_cons, List.sum_cons] at hz
        have : 2 ≤ (p.image cfg.useMillisecondResolution).1 + 2 := by omega
        omega
      | nil =>
        rw [h1, List.append_nil]
        exact h3.length_eq.symm

/-! ## Theorems -/

/-- **Whenever updates come, each measurement gets a base time that was announced for its own element**: in all schedules no packet is refused, what
is delivered are the packets sent, in order, each measurement as sent and dated from the base time there was at the beginning or that some update
announced. With enough turns of the data goroutine everything is delivered. -/
theorem C127_each (cfg : Cfg) (rs : List Sic.Rec) (w : Bool → BitVec 64) (writes : List (Bool × BitVec 64)) (sent : List SentPacket)
    (hfit : ∀ p ∈ sent, ∀ e ∈ p.entries, e.Fits cfg (some (w false, w true))) (l : List Bool) :
    let s := turns (Sic.build rs) cfg.includeTime cfg.useMillisecondResolution l (Rot.start cfg.useMillisecondResolution w writes sent)
    s.failed = false ∧ (∃ d r, sent = d ++ r ∧
      List.Forall₂ (fun p ms => List.Forall₂ (Dated rs cfg.useMillisecondResolution w writes) p.entries ms) d s.out) ∧
      ((sent.map SentPacket.turns).sum ≤ l.count false → s.out.length = sent.length) := delivered hfit l

/-- C127 (partial: updates that leave the base times in use as they are). Full statement: an update takes effect at one moment; every packet is dated either
with the base times before or with those after it. Missing: packets that refer to a base time that changes while they are decoded, see
`C127_moment_false`. Proved here: when the stores to the elements the packets refer to do not change them, all packets are delivered exactly as
sent, in all schedules, whatever is stored to the other element meanwhile. -/
theorem C127_rotation_partial (cfg : Cfg) (rs : List Sic.Rec) (w : Bool → BitVec 64) (writes : List (Bool × BitVec 64)) (sent : List SentPacket)
    (hfit : ∀ p ∈ sent, ∀ e ∈ p.entries, e.Fits cfg (some (w false, w true)))
    (hkeep : ∀ p ∈ sent, ∀ e ∈ p.entries, ∀ v, (slot e, v) ∈ writes → v = w (slot e)) (l : List Bool) :
    let s := turns (Sic.build rs) cfg.includeTime cfg.useMillisecondResolution l (Rot.start cfg.useMillisecondResolution w writes sent)
    let all := sent.map fun p => p.entries.map (Entry.meaning rs cfg.useMillisecondResolution (some (w false, w true)))
    s.failed = false ∧ s.out <+: all ∧ ((sent.map SentPacket.turns).sum ≤ l.count false → s.out = all) := by
  intro s all
  obtain ⟨h1, ⟨d, r, h2, h3⟩, h4⟩ := delivered (rs := rs) hfit l (writes := writes)
  have hout : s.out = d.map fun p => p.entries.map (Entry.meaning rs cfg.useMillisecondResolution (some (w false, w true))) := by
    have hd : ∀ p ∈ d, p ∈ sent := fun p hp => by rw [h2]; exact List.mem_append_left _ hp
    have h3' : List.Forall₂ (fun p ms => List.Forall₂ (Dated rs cfg.useMillisecondResolution w writes) p.entries ms) d s.out := h3
    clear h2 h3 h4
    revert h3'
    generalize s.out = out
    intro h3'
    induction h3' with
    | nil => rfl
    | @cons p ms d out hp _ ih =>
      rw [List.map_cons, ih (fun q hq => hd q (List.mem_cons_of_mem _ hq))]
      congr 1
      have he : ∀ e ∈ p.entries, e ∈ p.entries := fun e he => he
      have hk := hkeep p (hd p List.mem_cons_self)
      revert hk
      generalize p.entries = es at hp
      intro hk
      induction hp with
      | nil => rfl
      | @cons e m es ms hm _ ih =>
        rw [List.map_cons, ih (fun x hx => hk x (List.mem_cons_of_mem _ hx)), meaning_slot]
        obtain ⟨v, hv, rfl⟩ := hm
        congr 1
        rcases hv with rfl | hv
        · rfl
        · rw [hk e List.mem_cons_self v hv]
  refine ⟨h1, ?_, ?_⟩
  · rw [hout]
    exact ⟨r.map _, by rw [← List.map_append, ← h2]⟩
  · intro hn
    have := h4 hn
    have hr : r = [] := by
      have hl := h3.length_eq
      have : d.length = sent.length := hl.trans this
      rw [h2, List.length_append] at this
      exact List.length_eq_zero_iff.1 (by omega)
    rw [hout]
    show _ = sent.map _
    rw [h2, hr, List.append_nil]

theorem turns_words (cache : Sic.Cache) (t ms : Bool) (ws : List (Bool × BitVec 64)) (l : List Bool) (s : Rot) (hn : ws.length ≤ l.count true)
    (hs : s.writes = ws) : ∀ j, (turns cache t ms l s).word j = ((ws.reverse.find? fun x => x.1 == j).map (·.2)).getD (s.word j) := by
  induction l generalizing s ws with
  | nil =>
    intro j
    have : ws = [] := List.length_eq_zero_iff.1 (by simpa using hn)
    subst this
    rfl
  | cons b l ih =>
    cases b with
    | false =>
      obtain ⟨k1, k2⟩ := dataTurn_keeps cache t ms s
      rw [turns, ← k1]
      exact ih ws _ (by simpa using hn) (by rw [k2, hs])
    | true =>
      rw [turns]
      cases ws with
      | nil =>
        have : commandTurn s = s := by unfold commandTurn; rw [hs]
        rw [this]
        exact ih [] s (by simp) hs
      | cons x ws =>
        intro j
        have hc : commandTurn s = { s with word := fun j => if j = x.1 then x.2 else s.word j, writes := ws } := by
          unfold commandTurn; rw [hs]
        rw [hc, ih ws _ (by simpa using hn) rfl j]
        dsimp only
        rw [List.reverse_cons, List.find?_append]
        cases (ws.reverse.find? fun x => x.1 == j) with
        | some y => rfl
        | none =>
          simp only [Option.map_none, Option.getD_none, Option.none_or, List.find?_cons, List.find?_nil]
          by_cases hj : j = x.1
          · subst hj; simp
          · have : (x.1 == j) = false := by
              rw [beq_eq_false_iff_ne]
              exact fun h => hj h.symm
            rw [this, if_neg hj]
            rfl

/-- **The last update is the one that holds**: when all stores have been done, in whatever schedule, the base times are those of the last update. -/
theorem C127_last (cfg : Cfg) (cache : Sic.Cache) (w : Bool → BitVec 64) (writes : List (Bool × BitVec 64)) (first : Bool) (o0 o1 : BitVec 64)
    (sent : List SentPacket) (l : List Bool) (hl : writes.length + 2 ≤ l.count true) :
    let s := turns cache cfg.includeTime cfg.useMillisecondResolution l
      (Rot.start cfg.useMillisecondResolution w (writes ++ storesOf first o0 o1) sent)
    s.word false = o0 ∧ s.word true = o1 := by
  intro s
  have h := turns_words cache cfg.includeTime cfg.useMillisecondResolution (writes ++ storesOf first o0 o1) l
    (Rot.start cfg.useMillisecondResolution w (writes ++ storesOf first o0 o1) sent)
    (by rw [List.length_append]; exact hl) rfl
  have h0 := h false
  have h1 := h true
  rw [List.reverse_append, List.find?_append] at h0 h1
  cases first with
  | false => exact ⟨h0, h1⟩
  | true => exact ⟨h0, h1⟩

/-- Without a store meanwhile this is the loop of `parseCompactMeasurements` as modelled in `Session.Model`. -/
theorem loop_turns (cache : Sic.Cache) (includeTime millis : Bool) (n : Nat) (s : Rot) (c : Decoding) (old : List Measurement) (ms : List Measurement)
    (hf : s.failed = false) (hc : s.current = some c) (hn : c.todo = n) (ho : old.length = n)
    (h : compactLoop ⟨cache, s.word false, s.word true, includeTime, millis⟩ c.data c.index old = .ok (ms, false)) :
    turns cache includeTime millis (List.replicate (n + 1) false) s = { s with current := none, out := s.out ++ [c.ms ++ ms] } := by
  induction n generalizing s c old ms with
  | zero =>
    have : old = [] := List.length_eq_zero_iff.1 ho
    subst this
    rw [compactLoop] at h
    injection h with h
    injection h with h
    subst h
    show dataTurn cache includeTime millis s = _
    unfold dataTurn
    rw [hf, hc]
    simp [hn]
  | succ n ih =>
    cases old with
    | nil => cases ho
    | cons x old =>
      rw [compactLoop] at h
      split at h
      · cases h
      · rename_i hi
        cases hd : Compact.decode ⟨cache, s.word false, s.word true, includeTime, millis⟩ Compact.CM.new (c.data.drop c.index) with
        | panic => rw [hd] at h; cases h
        | err => rw [hd] at h; injection h with h; injection h with _ h; cases h
        | ok y =>
          obtain ⟨k, cm⟩ := y
          rw [hd] at h
          dsimp only at h
          rw [Res.bind_eq_ok] at h
          obtain ⟨⟨ms', f⟩, h1, h2⟩ := h
          injection h2 with h2
          injection h2 with h2 h3
          subst h3
          subst h2
          rw [List.replicate_succ, turns]
          have hstep : dataTurn cache includeTime millis s =
              { s with current := some { c with index := c.index + k, todo := n, ms := c.ms ++ [ofCompact cm] } } := by
            unfold dataTurn
            rw [if_neg (by rw [hf]; simp), hc]
            dsimp only
            rw [if_neg (by omega)]
            unfold decodeTurn
            rw [if_neg hi, hd]
            dsimp only
            rw [hn]
            rfl
          rw [hstep]
          rw [ih { s with current := some { c with index := c.index + k, todo := n, ms := c.ms ++ [ofCompact cm] } }
            { c with index := c.index + k, todo := n, ms := c.ms ++ [ofCompact cm] } old ms' hf rfl rfl (by simpa using ho) h1]
          simp

/-! ## Cases -/

/-- A packet of two measurements, one for each base time, ten ticks after it. -/
def bothTimes : SentPacket := ⟨[.short ⟨0x40, 7, 5, 10⟩, .short ⟨0xC0, 8, 6, 10⟩], []⟩

/-- Two base times. -/
def smallTimes (i : Bool) : BitVec 64 := if i then 2000 else 1000

/-- The time stamps delivered, for a subscription with times in ticks. -/
def stampsOf (l : List Bool) (writes : List (Bool × BitVec 64)) (sent : List SentPacket) : List (List (BitVec 64)) :=
  (turns (Sic.build Sic.exRecs) true false l (Rot.start false smallTimes writes sent)).out.map fun ms => ms.map fun m => m.timestamp

/-- `C127_rotation_partial`: the element not in use is stored to in the middle of a packet; `C127_last`: it holds from then on. -/
example : stampsOf [false, true, false, true, false] (storesOf false 1000 9000) [⟨[.short ⟨0x40, 7, 5, 10⟩], []⟩] = [[1010]] ∧
    stampsOf [true, true, false, false, false] (storesOf false 1000 9000) [⟨[.short ⟨0xC0, 7, 5, 10⟩], []⟩] = [[9010]] := by decide +kernel

example : ∀ e ∈ bothTimes.entries, ∀ cfg : Cfg, cfg.includeTime = true → cfg.useMillisecondResolution = false →
    e.Fits cfg (some (smallTimes false, smallTimes true)) := by
  intro e he cfg h1 h2
  simp only [bothTimes, List.mem_cons, List.not_mem_nil, or_false] at he
  rcases he with rfl | rfl
  · exact ⟨h1, by decide, by simp, by rw [h2]; decide⟩
  · exact ⟨h1, by decide, by simp, by rw [h2]; decide⟩

/-- **An update does not take effect at one moment**: a packet decoded meanwhile is dated partly with the base times before and partly with those after
the update. -/
theorem C127_moment_false : ¬ ∀ (l : List Bool) (p : SentPacket) (o0 o1 : BitVec 64) (first : Bool) (x : List (BitVec 64)),
    stampsOf l (storesOf first o0 o1) [p] = [x] →
    [x] = stampsOf (List.replicate p.turns false) [] [p] ∨
      [x] = stampsOf (true :: true :: List.replicate p.turns false) (storesOf first o0 o1) [p] := by
  intro h
  have := h [false, false, true, true, false, false] bothTimes 7000 9000 false [1010, 9010] (by decide +kernel)
  revert this
  decide +kernel

end Verif.Session.Rotation
