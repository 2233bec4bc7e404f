import Verif.Session.SendProps
import Verif.Session.TimeProps
import Mathlib.Data.List.Basic

/-!
# C138: signal index caches change while data packets are in flight

"This allows publisher to safely transition to next signal index cache" (Constants.go L264-266): the subscriber keeps two caches (DataSubscriber.go L154), an
update names the one it replaces (L1060-1067), data packets name the one they were encoded with (L1237-1241), and after an update is stored it is
confirmed (L1087-1094). A transition system of both sides: a publisher that numbers its updates, gives each the half that the one before has not, sends one only
when the one before is confirmed and encodes with the last one confirmed; the command channel, which keeps the order; datagrams, which are delivered in any
order, late, twice or never; and the two goroutines of the subscriber. A cache stands for itself by the number of its update, 0 being the empty cache of
`NewDataSubscriber` (L230-232). Both halves are used under `signalIndexCacheMutex`, so that storing and loading are single actions. What is decoded with a
cache is C28 and C106. One connection, protocol version 2 or later; the confirmation is written whole (C98) and arrives.
-/

namespace Verif.Session.Flight

/-- The half that update `n` names, and data encoded with it (DataSubscriber.go L1063-1065, L1239-1241). -/
def bit (n : Nat) : Bool := n % 2 = 1

/-- A packet on the command channel: an update, which can be parsed or not, or data encoded with an update (DataSubscriber.go L899-965). -/
inductive Msg where
  | update (n : Nat) (ok : Bool)
  | data (n : Nat)
  deriving DecidableEq

/-- What a data packet was decoded with. (DataSubscriber.go L1243-1251) -/
structure Read where
  /-- it came as a datagram -/
  datagram : Bool
  /-- the update it was encoded with -/
  encoded : Nat
  /-- the update it was decoded with -/
  decoded : Nat
  deriving DecidableEq

/-- Both sides. (DataSubscriber.go L154-156, L861-897) -/
structure St where
  /-- the last update that the publisher has sent -/
  sent : Nat := 0
  /-- the update that the publisher encodes with -/
  active : Nat := 0
  /-- the command channel to the subscriber, oldest first -/
  stream : List Msg := []
  /-- confirmations on their way to the publisher -/
  confirms : Nat := 0
  /-- datagrams on their way -/
  air : List Nat := []
  /-- `ds.signalIndexCache` -/
  half : Bool → Nat := fun _ => 0
  /-- the update is stored and not confirmed (L1090-1093) -/
  confirming : Bool := false
  /-- an update could not be parsed (L1081-1084) -/
  refused : Bool := false
  out : List Read := []

/-- What can happen. (DataSubscriber.go L1053-1102, L1192-1262) -/
inductive Act where
  /-- the publisher sends the next update; whether it can be parsed -/
  | sendUpdate (ok : Bool)
  /-- the publisher gets a confirmation -/
  | takeConfirm
  /-- the publisher sends data on the command channel -/
  | sendData
  /-- the publisher sends a datagram -/
  | sendDatagram
  /-- the subscriber handles a packet of the command channel, an update until it is stored -/
  | command
  /-- the subscriber confirms the update stored -/
  | confirm
  /-- the subscriber handles the datagram number `i` of those on their way -/
  | datagram (i : Nat)
  /-- it is lost -/
  | lose (i : Nat)
  /-- it will be delivered once more -/
  | again (i : Nat)

/-- `ds.signalIndexCache[cacheIndex] = signalIndexCache` (DataSubscriber.go L1088). -/
def store (half : Bool → Nat) (n : Nat) : Bool → Nat := fun b => if b = bit n then n else half b

/-- The subscriber handles a packet of the command channel (DataSubscriber.go L1053-1090, L1237-1251). -/
def handle (s : St) : Msg → List Msg → St
  | .update n true, l => { s with stream := l, half := store s.half n, confirming := true }
  | .update _ false, l => { s with stream := l, refused := true }
  | .data n, l => { s with stream := l, out := s.out ++ [⟨false, n, s.half (bit n)⟩] }

/-- One action, `none` where it is not possible. (Constants.go L264-266; DataSubscriber.go L1053-1102, L1192-1262) -/
def step (s : St) : Act → Option St
  | .sendUpdate ok => if s.active = s.sent then some { s with sent := s.sent + 1, stream := s.stream ++ [.update (s.sent + 1) ok] } else none
  | .takeConfirm => if s.confirms > 0 then some { s with confirms := s.confirms - 1, active := s.sent } else none
  | .sendData => if s.active > 0 then some { s with stream := s.stream ++ [.data s.active] } else none
  | .sendDatagram => if s.active > 0 then some { s with air := s.air ++ [s.active] } else none
  | .command =>
    if s.confirming then none
    else match s.stream with
      | [] => none
      | m :: l => some (handle s m l)
  | .confirm => if s.confirming then some { s with confirming := false, confirms := s.confirms + 1 } else none
  | .datagram i => match s.air[i]? with
    | none => none
    | some n => some { s with air := s.air.eraseIdx i, out := s.out ++ [⟨true, n, s.half (bit n)⟩] }
  | .lose i => if i < s.air.length then some { s with air := s.air.eraseIdx i } else none
  | .again i => match s.air[i]? with
    | none => none
    | some n => some { s with air := s.air ++ [n] }

/-- All actions of a list. -/
def exec : St → List Act → Option St
  | s, [] => some s
  | s, a :: as => match step s a with
    | none => none
    | some t => exec t as

/-! ## The command channel -/

/-- The halves after what is on the command channel has been handled. -/
def after (half : Bool → Nat) : List Msg → Bool → Nat
  | [] => half
  | .update n true :: l => after (store half n) l
  | .update _ false :: l => after half l
  | .data _ :: l => after half l

/-- Data on the command channel will be decoded with what they were encoded with. -/
def Fine (half : Bool → Nat) : List Msg → Prop
  | [] => True
  | .update n true :: l => Fine (store half n) l
  | .update _ false :: l => Fine half l
  | .data n :: l => half (bit n) = n ∧ Fine half l

theorem after_append (l : List Msg) (m : Msg) : ∀ half, after half (l ++ [m]) = after (after half l) [m] := by
  induction l with
  | nil => intro half; rfl
  | cons x l ih =>
    intro half
    match x with
    | .update n true => exact ih _
    | .update n false => exact ih _
    | .data n => exact ih _

theorem fine_append (l : List Msg) (m : Msg) : ∀ half, Fine half (l ++ [m]) ↔ Fine half l ∧ Fine (after half l) [m] := by
  induction l with
  | nil => intro half; simp [Fine, after]
  | cons x l ih =>
    intro half
    match x with
    | .update n true => exact ih _
    | .update n false => exact ih _
    | .data n =>
      show _ ∧ Fine half (l ++ [m]) ↔ (_ ∧ Fine half l) ∧ Fine (after half l) [m]
      rw [ih half, and_assoc]

/-- Packets that are no updates. -/
def quiet : List Msg → Prop
  | [] => True
  | .update _ _ :: _ => False
  | .data _ :: l => quiet l

/-- One update among data. -/
def oneUpdate (n : Nat) : List Msg → Prop
  | [] => False
  | .update m _ :: l => m = n ∧ quiet l
  | .data _ :: l => oneUpdate n l

theorem quiet_append {l : List Msg} (h : quiet l) : ∀ n, quiet (l ++ [.data n]) ∧ ∀ ok, oneUpdate n (l ++ [.update n ok]) := by
  induction l with
  | nil => intro n; exact ⟨trivial, fun ok => ⟨rfl, trivial⟩⟩
  | cons x l ih =>
    intro n
    match x, h with
    | .data k, h => exact ih h n

theorem oneUpdate_append {n : Nat} {l : List Msg} (h : oneUpdate n l) : ∀ k, oneUpdate n (l ++ [.data k]) := by
  induction l with
  | nil => exact absurd h id
  | cons x l ih =>
    intro k
    match x, h with
    | .data _, h => exact ih h k
    | .update _ _, h => exact ⟨h.1, (quiet_append h.2 k).1⟩

theorem quiet_after {l : List Msg} (h : quiet l) : ∀ half, after half l = half := by
  induction l with
  | nil => intro half; rfl
  | cons x l ih =>
    intro half
    match x, h with
    | .data k, h => exact ih h half

theorem bit_succ (n : Nat) : bit (n + 1) = !bit n := by
  unfold bit
  rcases Nat.mod_two_eq_zero_or_one n with h | h
  · rw [show (n + 1) % 2 = 1 by omega, h]; rfl
  · rw [show (n + 1) % 2 = 0 by omega, h]; rfl

theorem store_other (half : Bool → Nat) (n : Nat) : store half (n + 1) (bit n) = half (bit n) := by
  unfold store
  rw [if_neg (by rw [bit_succ]; cases bit n <;> decide)]

theorem store_own (half : Bool → Nat) (n : Nat) : store half n (bit n) = n := if_pos rfl

/-- What holds throughout. -/
structure Inv (s : St) : Prop where
  /-- where the update under way is -/
  phase : (s.sent = s.active ∧ quiet s.stream ∧ s.confirms = 0 ∧ s.confirming = false ∧ s.refused = false) ∨
    (s.sent = s.active + 1 ∧ oneUpdate s.sent s.stream ∧ s.confirms = 0 ∧ s.confirming = false ∧ s.refused = false) ∨
    (s.sent = s.active + 1 ∧ quiet s.stream ∧ s.confirms + (if s.confirming then 1 else 0) = 1 ∧ s.half (bit s.sent) = s.sent ∧ s.refused = false) ∨
    (s.sent = s.active + 1 ∧ quiet s.stream ∧ s.confirms = 0 ∧ s.confirming = false ∧ s.refused = true)
  fine : Fine s.half s.stream
  here : after s.half s.stream (bit s.active) = s.active
  /-- halves hold updates of their own -/
  parity : ∀ b, s.half b = 0 ∨ bit (s.half b) = b
  upTo : ∀ b, s.half b ≤ s.sent
  unstored : s.confirms = 0 → s.confirming = false → ∀ b, s.half b ≤ s.active
  now : s.half (bit s.active) = s.active
  /-- the other half holds the one before, or the one after -/
  before : ∀ n, n < s.active → n ≤ s.half (bit n)
  air : ∀ n ∈ s.air, 0 < n ∧ n ≤ s.active
  read : ∀ r ∈ s.out, if r.datagram then r.encoded ≤ r.decoded ∧ bit r.decoded = bit r.encoded else r.decoded = r.encoded

theorem inv_init : Inv {} :=
  ⟨Or.inl ⟨rfl, trivial, rfl, rfl, rfl⟩, trivial, rfl, fun _ => Or.inl rfl, fun _ => Nat.le_refl _, fun _ _ _ => Nat.le_refl _, rfl, fun n h => absurd h (Nat.not_lt_zero n), by simp, by simp⟩

theorem inv_step {s t : St} {a : Act} (h : Inv s) (ha : step s a = some t) : Inv t := by
  obtain ⟨ph, fi, he, pa, up, us, no, be, ai, re⟩ := h
  cases a with
  | sendUpdate ok =>
    unfold step at ha
    dsimp only at ha
    split at ha
    · rename_i hs
      cases ha
      have q : quiet s.stream := by
        rcases ph with p | p | p | p
        · exact p.2.1
        · omega
        · omega
        · omega
      have c : s.confirms = 0 ∧ s.confirming = false ∧ s.refused = false := by
        rcases ph with p | p | p | p
        · exact p.2.2
        · omega
        · omega
        · omega
      refine ⟨Or.inr (Or.inl ⟨by simp [hs], (quiet_append q _).2 ok, c⟩), ?_, ?_, pa, fun b => Nat.le_succ_of_le (up b), us, no, be, ai, re⟩
      · rw [fine_append]
        refine ⟨fi, ?_⟩
        cases ok <;> trivial
      · show after s.half (s.stream ++ [.update (s.sent + 1) ok]) (bit s.active) = s.active
        rw [after_append, quiet_after q]
        cases ok with
        | false => exact no
        | true =>
          show store s.half (s.sent + 1) (bit s.active) = s.active
          rw [hs] at no ⊢
          rw [store_other]
          exact no
    · cases ha
  | takeConfirm =>
    unfold step at ha
    dsimp only at ha
    split at ha
    · rename_i hc
      cases ha
      rcases ph with p | p | p | p
      · omega
      · omega
      · obtain ⟨p1, p2, p3, p4, p5⟩ := p
        have hcf : s.confirming = false := by
          cases hb : s.confirming
          · rfl
          · rw [hb] at p3; simp at p3; omega
        refine ⟨Or.inl ⟨rfl, p2, by rw [hcf] at p3; simp at p3; show s.confirms - 1 = 0; omega, hcf, p5⟩, fi, ?_, pa, up, fun _ _ b => up b, p4, ?_, ?_, re⟩
        · show after s.half s.stream (bit s.sent) = s.sent
          rw [quiet_after p2]
          exact p4
        · intro n hn
          rcases Nat.lt_or_ge n s.active with g | g
          · exact be n g
          · have : n = s.active := by have := hn; dsimp only at this; omega
            rw [this, no]
        · intro n hn
          have := ai n hn
          exact ⟨this.1, by show n ≤ s.sent; omega⟩
      · omega
    · cases ha
  | sendData =>
    unfold step at ha
    dsimp only at ha
    split at ha
    · cases ha
      refine ⟨?_, (fine_append _ _ _).2 ⟨fi, he, trivial⟩, ?_, pa, up, us, no, be, ai, re⟩
      · rcases ph with p | p | p | p
        · exact Or.inl ⟨p.1, (quiet_append p.2.1 _).1, p.2.2⟩
        · exact Or.inr (Or.inl ⟨p.1, oneUpdate_append p.2.1 _, p.2.2⟩)
        · exact Or.inr (Or.inr (Or.inl ⟨p.1, (quiet_append p.2.1 _).1, p.2.2⟩))
        · exact Or.inr (Or.inr (Or.inr ⟨p.1, (quiet_append p.2.1 _).1, p.2.2⟩))
      · show after s.half (s.stream ++ [.data s.active]) (bit s.active) = s.active
        rw [after_append]
        exact he
    · cases ha
  | sendDatagram =>
    unfold step at ha
    dsimp only at ha
    split at ha
    · rename_i hp
      cases ha
      refine ⟨ph, fi, he, pa, up, us, no, be, fun n hn => ?_, re⟩
      rcases List.mem_append.1 hn with hn | hn
      · exact ai n hn
      · simp only [List.mem_singleton] at hn
        subst hn
        exact ⟨hp, Nat.le_refl _⟩
    · cases ha
  | command =>
    unfold step at ha
    dsimp only at ha
    split at ha
    · cases ha
    · rename_i hcf
      have hcf : s.confirming = false := by simpa using hcf
      cases hst : s.stream with
      | nil => rw [hst] at ha; cases ha
      | cons m l =>
        rw [hst] at ha fi he ph
        cases ha
        match m with
        | .data n =>
          refine ⟨?_, fi.2, he, pa, up, us, no, be, ai, fun r hr => ?_⟩
          · rcases ph with p | p | p | p
            · exact Or.inl p
            · exact Or.inr (Or.inl p)
            · exact Or.inr (Or.inr (Or.inl p))
            · exact Or.inr (Or.inr (Or.inr p))
          · rcases List.mem_append.1 hr with hr | hr
            · exact re r hr
            · simp only [List.mem_singleton] at hr
              subst hr
              exact fi.1
        | .update n ok =>
          rcases ph with p | p | p | p
          · exact absurd p.2.1 id
          · obtain ⟨p1, ⟨p2, p6⟩, p3, p4, p5⟩ := p
            subst p2
            cases ok with
            | true =>
              refine ⟨Or.inr (Or.inr (Or.inl ⟨p1, p6, ?_, store_own _ _, p5⟩)), fi, he, ?_, ?_, fun _ hc => Bool.noConfusion (show true = false from hc), ?_, ?_, ai, re⟩
              · show s.confirms + (if true = true then 1 else 0) = 1
                rw [p3]; rfl
              · intro b
                show store s.half s.sent b = 0 ∨ bit (store s.half s.sent b) = b
                unfold store
                split
                · rename_i hb; exact Or.inr hb.symm
                · exact pa b
              · intro b
                show store s.half s.sent b ≤ s.sent
                unfold store
                split
                · exact Nat.le_refl _
                · exact up b
              · show store s.half s.sent (bit s.active) = s.active
                rw [p1, store_other]
                exact no
              · intro k hk
                show k ≤ store s.half s.sent (bit k)
                unfold store
                split
                · have : k < s.active := hk
                  omega
                · exact be k hk
            | false => exact ⟨Or.inr (Or.inr (Or.inr ⟨p1, p6, p3, p4, rfl⟩)), fi, he, pa, up, us, no, be, ai, re⟩
          · exact absurd p.2.1 id
          · exact absurd p.2.1 id
  | confirm =>
    unfold step at ha
    dsimp only at ha
    split at ha
    · rename_i hcf
      cases ha
      refine ⟨?_, fi, he, pa, up, fun hc => absurd hc (Nat.succ_ne_zero _), no, be, ai, re⟩
      rcases ph with p | p | p | p
      · rw [p.2.2.2.1] at hcf; cases hcf
      · rw [p.2.2.2.1] at hcf; cases hcf
      · obtain ⟨p1, p2, p3, p4, p5⟩ := p
        rw [hcf] at p3
        exact Or.inr (Or.inr (Or.inl ⟨p1, p2, by simpa using p3, p4, p5⟩))
      · rw [p.2.2.2.1] at hcf; cases hcf
    · cases ha
  | datagram i =>
    unfold step at ha
    dsimp only at ha
    cases hn : s.air[i]? with
    | none => rw [hn] at ha; cases ha
    | some n =>
      rw [hn] at ha
      cases ha
      have hm := ai n (List.mem_of_getElem? hn)
      refine ⟨ph, fi, he, pa, up, us, no, be, fun k hk => ai k (List.mem_of_mem_eraseIdx hk), fun r hr => ?_⟩
      rcases List.mem_append.1 hr with hr | hr
      · exact re r hr
      · simp only [List.mem_singleton] at hr
        subst hr
        have hle : n ≤ s.half (bit n) := by
          rcases Nat.lt_or_ge n s.active with g | g
          · exact be n g
          · have : n = s.active := by omega
            rw [this, no]
        refine (if_pos rfl).mpr ⟨hle, ?_⟩
        rcases pa (bit n) with g | g
        · omega
        · exact g
  | lose i =>
    unfold step at ha
    dsimp only at ha
    split at ha
    · cases ha
      exact ⟨ph, fi, he, pa, up, us, no, be, fun k hk => ai k (List.mem_of_mem_eraseIdx hk), re⟩
    · cases ha
  | again i =>
    unfold step at ha
    dsimp only at ha
    cases hn : s.air[i]? with
    | none => rw [hn] at ha; cases ha
    | some n =>
      rw [hn] at ha
      cases ha
      refine ⟨ph, fi, he, pa, up, us, no, be, fun k hk => ?_, re⟩
      rcases List.mem_append.1 hk with hk | hk
      · exact ai k hk
      · simp only [List.mem_singleton] at hk
        subst hk
        exact ai k (List.mem_of_getElem? hn)

theorem inv_exec {s t : St} : ∀ {as : List Act}, Inv s → exec s as = some t → Inv t
  | [], h, he => by cases he; exact h
  | a :: as, h, he => by
    unfold exec at he
    cases hs : step s a with
    | none => rw [hs] at he; cases he
    | some u => rw [hs] at he; exact inv_exec (inv_step h hs) he

/-! ## The property -/

/-- Data on the command channel are decoded with the cache they were encoded with, whenever updates are sent, stored and confirmed. -/
theorem C138_stream {as : List Act} {s : St} (h : exec {} as = some s) {r : Read} (hr : r ∈ s.out) (hd : r.datagram = false) : r.decoded = r.encoded := by
  have := (inv_exec inv_init h).read r hr
  rw [hd] at this
  exact this

/-- A datagram is decoded with the cache it was encoded with, or with one that took the place of that one: an update an even number of updates later. -/
theorem C138_datagram {as : List Act} {s : St} (h : exec {} as = some s) {r : Read} (hr : r ∈ s.out) (hd : r.datagram = true) :
    ∃ k, r.decoded = r.encoded + 2 * k := by
  have := (inv_exec inv_init h).read r hr
  rw [hd] at this
  obtain ⟨h1, h2⟩ := (if_pos rfl).mp this
  refine ⟨(r.decoded - r.encoded) / 2, ?_⟩
  have : (r.decoded % 2 = 1) ↔ (r.encoded % 2 = 1) := by simpa [bit] using h2
  omega

/-- A datagram handled before the publisher has sent the second update after the one it was encoded with is decoded with that one. Missing from the full
statement: datagrams that are later (`C138_late_false`). -/
theorem C138_intime_partial {as : List Act} {s t : St} (h : exec {} as = some s) {i n : Nat} (hi : s.air[i]? = some n) (hn : s.sent < n + 2)
    (ht : step s (.datagram i) = some t) : t.out = s.out ++ [⟨true, n, n⟩] := by
  have hv := inv_exec inv_init h
  have h2 := inv_step hv ht
  unfold step at ht
  dsimp only at ht
  rw [hi] at ht
  cases ht
  have hr := h2.read ⟨true, n, s.half (bit n)⟩ (by simp)
  obtain ⟨g1, g2⟩ := (if_pos rfl).mp hr
  dsimp only at g1 g2
  have hu := hv.upTo (bit n)
  have : (s.half (bit n) % 2 = 1) ↔ (n % 2 = 1) := by
    generalize s.half (bit n) = k at g2 ⊢
    simpa [bit] using g2
  show s.out ++ [⟨true, n, s.half (bit n)⟩] = _
  rw [show s.half (bit n) = n by omega]

/-- A cache that has been stored is confirmed, so that the publisher gets to use it: when the subscriber has nothing to do, the publisher uses its last update,
or the confirmation is on its way, or the update could not be parsed. -/
theorem C138_moves {as : List Act} {s : St} (h : exec {} as = some s) (h1 : step s .command = none) (h2 : step s .confirm = none) :
    s.active = s.sent ∨ (s.confirms = 1 ∧ ∃ t, step s .takeConfirm = some t ∧ t.active = s.sent) ∨ s.refused = true := by
  have hv := inv_exec inv_init h
  have hcf : s.confirming = false := by
    cases hc : s.confirming
    · rfl
    · simp [step, hc] at h2
  have hst : s.stream = [] := by
    cases hs : s.stream with
    | nil => rfl
    | cons m l => simp [step, hcf, hs] at h1
  rcases hv.phase with p | p | p | p
  · exact Or.inl p.1.symm
  · rw [hst] at p; exact absurd p.2.1 id
  · have : s.confirms = 1 := by have := p.2.2.1; rw [hcf] at this; simpa using this
    exact Or.inr (Or.inl ⟨this, _, by simp only [step]; rw [if_pos (by omega)], rfl⟩)
  · exact Or.inr (Or.inr p.2.2.2.2)

/-- The publisher never encodes with a cache that the subscriber has not stored. -/
theorem C138_known {as : List Act} {s : St} (h : exec {} as = some s) : s.half (bit s.active) = s.active := (inv_exec inv_init h).now

/-- An update that cannot be parsed changes nothing, and data go on with the caches there are; no further update follows, as none is confirmed. -/
theorem C138_refused {as : List Act} {s : St} (h : exec {} as = some s) (hr : s.refused = true) :
    s.sent = s.active + 1 ∧ s.confirms = 0 ∧ (∀ b, s.half b ≤ s.active) ∧ ∀ ok, step s (.sendUpdate ok) = none := by
  have hv := inv_exec inv_init h
  rcases hv.phase with p | p | p | p
  · rw [p.2.2.2.2] at hr; cases hr
  · rw [p.2.2.2.2] at hr; cases hr
  · rw [p.2.2.2.2] at hr; cases hr
  · refine ⟨p.1, p.2.2.1, hv.unstored p.2.2.1 p.2.2.2.1, fun ok => ?_⟩
    simp only [step]
    rw [if_neg (by omega)]

/-- A first cache: stored, confirmed, in use. -/
def first : List Act := [.sendUpdate true, .command, .confirm, .takeConfirm]

/-- The update under way is the second; data encoded with the first go on, as datagrams and on the command channel before and after it. -/
def second : List Act :=
  first ++ [.sendDatagram, .sendData, .sendUpdate true, .sendData, .sendDatagram, .command, .command, .datagram 0, .confirm, .command, .sendData, .takeConfirm, .sendData, .command, .command, .datagram 0]

/-- The second cache is stored while data encoded with the first are before and behind it. -/
example : (exec {} second).map (fun s => (s.out, s.active, s.half true, s.half false)) =
    some ([⟨false, 1, 1⟩, ⟨true, 1, 1⟩, ⟨false, 1, 1⟩, ⟨false, 1, 1⟩, ⟨false, 2, 2⟩, ⟨true, 1, 1⟩], 2, 1, 2) := by decide +kernel

/-- Handled in time, when one further update has been sent and stored. -/
example : (exec {} (first ++ [.sendDatagram, .sendUpdate true, .command])).map (fun s => (s.air, s.sent, s.half true, s.half false)) = some ([1], 2, 1, 2) := by
  decide +kernel

/-- The confirmation of a second update is on its way, and the subscriber has nothing to do. -/
example : (exec {} (first ++ [.sendUpdate true, .command, .confirm])).map (fun s => (s.confirms, s.active, s.sent, s.stream, s.confirming)) =
    some (1, 1, 2, [], false) := by decide +kernel

/-- A datagram that is delivered once more, and not handled before the second update after its own is stored, is decoded with that one. -/
def late : List Act := first ++ [.sendDatagram, .again 0, .datagram 0] ++ [.sendUpdate true, .command, .confirm, .takeConfirm, .sendUpdate true, .command, .datagram 0]

/-- Datagrams are not all decoded with the cache they were encoded with. -/
theorem C138_late_false : ∃ as s r, exec {} as = some s ∧ r ∈ s.out ∧ r.decoded ≠ r.encoded :=
  ⟨late, (exec {} late).get (by decide +kernel), ⟨true, 1, 3⟩, by simp, by decide +kernel, by decide⟩

/-- A second update that cannot be parsed. -/
example : (exec {} (first ++ [.sendUpdate false, .sendData, .command, .command])).map (fun s => (s.refused, s.out, s.sent, s.active)) =
    some (true, [⟨false, 1, 1⟩], 2, 1) := by decide +kernel

/-! ## Confirmations -/

/-- `ConfirmUpdateBaseTimes` (Constants.go L323) -/
def cmdConfirmUpdateBaseTimes : Byte := 0x09
/-- `ConfirmUpdateCipherKeys` (Constants.go L325) -/
def cmdConfirmUpdateCipherKeys : Byte := 0x0B

theorem receiveAll_adds {cfg : Cfg} : ∀ {ps : List (Env × List Byte)} {s t : Session.St}, receiveAll cfg ps s = .ok t → Adds Confirms s t
  | [], s, t, h => by cases h; exact Adds.refl _ _
  | (env, body) :: ps, s, t, h => by
    unfold receiveAll at h
    rw [Res.bind_eq_ok] at h
    obtain ⟨u, h1, h2⟩ := h
    exact (receive_adds h1).trans (receiveAll_adds h2)

/-- "This message is sent in response to ServerResponse.UpdateBaseTimes" (Constants.go L261-263), "This verifies delivery of the cipher keys indicating that it
is safe to transition to the new keys" (L267-269): neither is ever sent, whatever packets arrive, so that a publisher that waits for them never moves on. -/
theorem C138_confirm_false (cfg : Cfg) (ps : List (Env × List Byte)) (s t : Session.St) (h : receiveAll cfg ps s = .ok t) :
    ∃ es, t.log = s.log ++ es ∧ ∀ e ∈ es, e.command ≠ some cmdConfirmUpdateBaseTimes ∧ e.command ≠ some cmdConfirmUpdateCipherKeys := by
  obtain ⟨-, es, h1, h2⟩ := receiveAll_adds h
  refine ⟨es, h1, fun e he => ?_⟩
  rcases h2 e he with g | g | g | g <;> rw [g] <;> decide

/-- Base times and cipher keys that are taken over, and not confirmed. -/
example : (match receiveAll exCfg [(⟨true, none⟩, packet 0x84 0 20 (timesPayload 1 600000000000000000 600000000000000100)),
      (⟨true, none⟩, packet 0x85 0 21 (0 :: ([0, 0, 0, 1, 7] ++ [0, 0, 0, 1, 8] ++ [0, 0, 0, 1, 9] ++ [0, 0, 0, 1, 10])))] exSt with
    | .ok s => (decide (s.keyIVs = some ⟨[7], [8], [9], [10]⟩), s.baseTimeOffset1, s.log.length - exSt.log.length)
    | _ => (false, 0, 0)) = (true, 600000000000000100#64, 2) := by decide +kernel

end Verif.Session.Flight
