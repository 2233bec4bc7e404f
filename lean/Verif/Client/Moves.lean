import Verif.Client.Model
import Verif.Client.AddressProps
import Verif.Session.SendProps
import Verif.Modes.SubscribeProps

/-!
# What the operations of the application leave alone

Lemmas used by the property theorems.
-/

namespace Verif.Client

open Verif.Session (Env St Event Adds Confirms sendCommand cmdMetadataRefresh cmdSubscribe)

/-- Nothing but the state of the session and the numbers of pending goroutines differs. -/
def Only (c c' : App) : Prop := c' = { c with st := c'.st, pending := c'.pending, changes := c'.changes }

theorem Only.refl (c : App) : Only c c := rfl

theorem Only.mk (c : App) (st : St) (n m : Nat) : Only c { c with st := st, pending := n, changes := m } := rfl

theorem Only.trans {a b c : App} (h1 : Only a b) (h2 : Only b c) : Only a c := by
  unfold Only at *
  rw [h1] at h2
  exact h2

/-- As above, and events with property `P` are added. -/
structure Moves (P : Event → Prop) (c c' : App) : Prop where
  only : Only c c'
  adds : Adds P c.st c'.st

theorem Moves.refl (P : Event → Prop) (c : App) : Moves P c c := ⟨Only.refl c, Adds.refl P _⟩

theorem Moves.trans {P : Event → Prop} {a b c : App} (h1 : Moves P a b) (h2 : Moves P b c) : Moves P a c :=
  ⟨h1.only.trans h2.only, h1.adds.trans h2.adds⟩

theorem Moves.mono {P Q : Event → Prop} {a b : App} (h : Moves P a b) (hpq : ∀ e, P e → Q e) : Moves Q a b :=
  ⟨h.only, h.adds.mono hpq⟩

/-- An event that sends nothing, or one of these commands. -/
def Sends (cs : List Byte) (e : Event) : Prop := e.command = none ∨ ∃ k ∈ cs, e.command = some k

theorem Confirms.sends {e : Event} (h : Confirms e) : Sends [7, 8, 10] e := by
  rcases h with h | h | h | h
  · exact .inl h
  · exact .inr ⟨7, by simp, h⟩
  · exact .inr ⟨8, by simp, h⟩
  · exact .inr ⟨10, by simp, h⟩

theorem Sends.mono {cs ds : List Byte} {e : Event} (h : Sends cs e) (hs : ∀ k ∈ cs, k ∈ ds) : Sends ds e := by
  rcases h with h | ⟨k, h1, h2⟩
  · exact .inl h
  · exact .inr ⟨k, hs k h1, h2⟩

theorem send_moves {env : Env} {k : Byte} {p : List Byte} {s s' : St} (h : sendCommand env k p s = .ok s') :
    Adds (Sends [k]) s s' :=
  Session.sendCommand_adds h (.inr ⟨k, by simp, Session.command_frame _ _ _⟩) (.inl rfl) (.inl rfl)

/-- A command that is written is written whole. -/
theorem send_exact {env : Env} {k : Byte} {p : List Byte} {s s' : St} (h : sendCommand env k p s = .ok s')
    (hc : s.connected = true) (hw : env.writeOk = true) : s' = s.emit (.sent (beBytes 4 (p.length + 1) ++ [k] ++ p)) := by
  unfold sendCommand at h
  simp only [hc, hw, Bool.not_true, Bool.false_eq_true, if_false, if_true] at h
  split at h
  · cases h
  · injection h with h
    exact h.symm

theorem send_validated {env : Env} {k : Byte} {p : List Byte} {s s' : St} (h : sendCommand env k p s = .ok s') :
    s'.validated = s.validated := (Session.sendCommand_frame h).validated

theorem requestMetadata_moves {net : Net} {c c' : App} (h : requestMetadata net c = .ok c') : Moves (Sends [1]) c c' := by
  unfold requestMetadata at h
  rw [Res.bind_eq_ok] at h
  obtain ⟨st, h1, h⟩ := h
  injection h with h
  subst h
  exact ⟨rfl, send_moves h1⟩

theorem changed_moves {net : Net} {c c' : App} (h : changedGoroutine net c = .ok c') : Moves (Sends [1]) c c' := by
  unfold changedGoroutine at h
  split at h
  · injection h with h; subst h; exact Moves.refl _ _
  · unfold handleConfigurationChanged at h
    split at h
    · have := requestMetadata_moves h
      exact ⟨Only.trans (Only.mk c c.st c.pending _) this.only, this.adds⟩
    · injection h with h; subst h; exact ⟨rfl, Adds.refl _ _⟩

theorem unsubscribe_moves {env : Env} {s s' : St} (h : Session.unsubscribe env s = .ok s') : Adds (Sends [3]) s s' := by
  unfold Session.unsubscribe at h
  split at h
  · injection h with h; subst h; exact Adds.refl _ _
  · rw [Res.bind_eq_ok] at h
    obtain ⟨s1, h1, h⟩ := h
    injection h with h
    subst h
    have h1 := send_moves h1
    exact ⟨h1.connected, h1.log⟩

theorem dsSubscribe_moves {net : Net} {c c' : App} {b : Bool} (h : dsSubscribe net c = .ok (c', b)) : Moves (Sends [2, 3]) c c' := by
  unfold dsSubscribe at h
  split at h
  · injection h with h; injection h with h _; subst h; exact Moves.refl _ _
  split at h
  · injection h with h; injection h with h _; subst h; exact Moves.refl _ _
  rw [Res.bind_eq_ok] at h
  obtain ⟨st, h1, h⟩ := h
  have h1 : Adds (Sends [2, 3]) c.st st := by
    unfold endSubscription at h1
    split at h1
    · exact (unsubscribe_moves h1).mono fun e he => he.mono (by simp)
    · injection h1 with h1; subst h1; exact Adds.refl _ _
  dsimp only at h
  split at h
  · injection h with h; injection h with h _; subst h
    exact ⟨rfl, h1.connected, h1.log⟩
  · rw [Res.bind_eq_ok] at h
    obtain ⟨st2, h2, h⟩ := h
    injection h with h; injection h with h _; subst h
    have h2 := (send_moves h2).mono (Q := Sends [2, 3]) fun e he => he.mono (by simp [cmdSubscribe])
    have := h1.trans (c := { st with totalMeasurementsReceived := 0 }) (Adds.same rfl rfl)
    have := this.trans h2
    exact ⟨rfl, this.connected, this.log⟩

theorem handleConnect_moves {net : Net} {c c' : App} (h : handleConnect net c = .ok c') : Moves (Sends [1, 2, 3]) c c' := by
  unfold handleConnect at h
  split at h
  · exact (requestMetadata_moves h).mono fun e he => he.mono (by simp)
  split at h
  · rw [Res.bind_eq_ok] at h
    obtain ⟨⟨c1, b⟩, h1, h⟩ := h
    injection h with h
    subst h
    exact (dsSubscribe_moves h1).mono fun e he => he.mono (by simp)
  · injection h with h; subst h; exact Moves.refl _ _

/-- With metadata requested automatically, nothing is subscribed on connecting. -/
theorem handleConnect_requests {net : Net} {c c' : App} (h : handleConnect net c = .ok c') (ha : c.config.autoRequestMetadata = true) :
    Moves (Sends [1]) c c' := by
  unfold handleConnect at h
  rw [if_pos ha] at h
  exact requestMetadata_moves h

theorem packet_moves {lib : Lib} {env : Env} {body : List Byte} {c c' : App} (h : packet lib env body c = .ok c') :
    Moves (Sends [7, 8, 10]) c c' := by
  unfold packet at h
  rw [Res.bind_eq_ok] at h
  obtain ⟨st, h1, h⟩ := h
  injection h with h
  subst h
  exact ⟨rfl, (Session.receive_adds h1).mono fun e he => Confirms.sends he⟩

theorem packets_moves {lib : Lib} {ps : List (Env × List Byte)} {c c' : App} (h : packets lib ps c = .ok c') :
    Moves (Sends [7, 8, 10]) c c' := by
  induction ps generalizing c with
  | nil => injection h with h; subst h; exact Moves.refl _ _
  | cons p ps ih =>
    obtain ⟨env, body⟩ := p
    rw [packets, Res.bind_eq_ok] at h
    obtain ⟨c1, h1, h⟩ := h
    exact (packet_moves h1).trans (ih h)

/-- The connection is up; the modes and what `handleConnect` sends follow. -/
theorem establish_moves {net : Net} {c c' : App} (h : establishConnection net c = .ok c') :
    Only c c' ∧ c'.st.connected = true ∧ ∃ es, c'.st.log = c.st.log ++ es ∧ ∀ e ∈ es, Sends [1, 2, 3, 6] e := by
  unfold establishConnection at h
  dsimp only at h
  rw [Res.bind_eq_ok] at h
  obtain ⟨st, h1, h⟩ := h
  have h1 := send_moves h1
  have hc : st.connected = true := h1.connected
  obtain ⟨es, hl, he⟩ := h1.log
  split at h
  · have h2 := handleConnect_moves h
    obtain ⟨es2, hl2, he2⟩ := h2.adds.log
    refine ⟨Only.trans (b := { c with st := st }) rfl h2.only, h2.adds.connected.trans hc, es ++ es2, ?_, ?_⟩
    · rw [hl2]
      show st.log ++ es2 = _
      rw [hl, List.append_assoc]
      rfl
    · intro e hm
      rcases List.mem_append.mp hm with hm | hm
      · exact (he e hm).mono (by simp [Session.cmdDefineOperationalModes])
      · exact (he2 e hm).mono (by simp)
  · injection h with h
    subst h
    exact ⟨rfl, hc, es, hl, fun e hm => (he e hm).mono (by simp [Session.cmdDefineOperationalModes])⟩

end Verif.Client
