import Verif.Session.GateProps
import Verif.Compact.Props
import Verif.Tssc.StreamProps

/-!
# Packets as a publisher writes them

Specification vocabulary for the property theorems, and the evaluation of `receive` on such packets.
-/

namespace Verif.Session

open Verif.Guid (Guid)

/-- A response: code, command it answers, four length bytes (which the subscriber skips), payload. -/
def packet (rc cc : Byte) (n : Nat) (data : List Byte) : List Byte := [rc, cc] ++ beBytes 4 n ++ data

/-- The payload of a data packet that is not encrypted: flags, number of measurements, measurements. -/
def dataPayload (flags : Byte) (count : Nat) (payload : List Byte) : List Byte :=
  [flags] ++ beBytes 4 count ++ payload

/-- The slices handed to the `NewMeasurements` callback so far. -/
def delivered (log : List Event) : List (List Measurement) :=
  log.filterMap fun e => match e with | .newMeasurements ms => some ms | _ => none

theorem delivered_append (a b : List Event) : delivered (a ++ b) = delivered a ++ delivered b := by
  simp [delivered, List.filterMap_append]

theorem delivered_nodata {es : List Event} (h : ∀ e ∈ es, e.isData = false) : delivered es = [] := by
  unfold delivered
  rw [List.filterMap_eq_nil_iff]
  intro e he
  have := h e he
  cases e <;> first | rfl | (simp [Event.isData] at this)

theorem drop6 (rc cc : Byte) (n : Nat) (data : List Byte) : (packet rc cc n data).drop 6 = data := by
  unfold packet
  rw [List.drop_append_of_le_length (by simp), List.drop_of_length_le (by simp), List.nil_append]

theorem packet_length (rc cc : Byte) (n : Nat) (data : List Byte) : (packet rc cc n data).length = 6 + data.length := by
  unfold packet
  simp
  omega

/-- The state in which the payload of a packet is processed once the peer is validated. -/
def St.seen (s : St) (data : List Byte) : St := s.counted (4 + BitVec.ofNat 64 (6 + data.length))

theorem receive_packet (cfg : Cfg) (env : Env) (rc cc : Byte) (n : Nat) (data : List Byte) (s : St)
    (hv : s.validated = true) :
    receive cfg env (packet rc cc n data) s =
      if rc = rspSucceeded then handleSucceeded cfg cc data (s.seen data)
      else if rc = rspFailed then handleFailed cc data (s.seen data)
      else if rc = rspDataPacket then handleDataPacket cfg env data (s.seen data)
      else if rc = rspDataStartTime then handleDataStartTime data (s.seen data)
      else if rc = rspProcessingComplete then handleProcessingComplete data (s.seen data)
      else if rc = rspUpdateSignalIndexCache then handleUpdateSignalIndexCache cfg env data (s.seen data)
      else if rc = rspUpdateBaseTimes then handleUpdateBaseTimes data (s.seen data)
      else if rc = rspUpdateCipherKeys then handleUpdateCipherKeys data (s.seen data)
      else if rc = rspConfigurationChanged then handleConfigurationChanged (s.seen data)
      else if rc = rspBufferBlock then handleBufferBlock cfg env data (s.seen data)
      else if rc = rspNotify then handleNotification env data (s.seen data)
      else if rc = rspNoOP then .ok (s.seen data)
      else .ok ((s.seen data).emit .error) := by
  have hlen := packet_length rc cc n data
  have hdrop := drop6 rc cc n data
  have hcons : packet rc cc n data = rc :: cc :: (beBytes 4 n ++ data) := rfl
  generalize beBytes 4 n ++ data = tl at hcons
  unfold receive readPayloadHeader
  dsimp only
  rw [hv]
  simp only [Bool.not_true, Bool.false_eq_true, if_false]
  unfold readPacket
  rw [hlen]
  rw [hcons] at hlen hdrop ⊢
  rw [processServerResponse, if_neg (by unfold responseHeaderSize; omega)]
  dsimp only
  simp only [Bool.not_true, Bool.false_and, Bool.false_eq_true, if_false]
  have hd : List.drop responseHeaderSize (rc :: cc :: tl) = data := hdrop
  rw [hd]
  have hs : St.seen s data = { s with
      validated := true
      totalCommandChannelBytesReceived :=
        s.totalCommandChannelBytesReceived + 4 + BitVec.ofNat 64 (6 + data.length) } := by
    unfold St.seen St.counted
    rw [← hv, BitVec.add_assoc]
  rw [hs]

theorem receive_data (cfg : Cfg) (env : Env) (cc : Byte) (n : Nat) (data : List Byte) (s : St)
    (hv : s.validated = true) :
    receive cfg env (packet 0x82 cc n data) s = handleDataPacket cfg env data (s.seen data) := by
  rw [receive_packet _ _ _ _ _ _ _ hv]
  rfl

theorem receive_times (cfg : Cfg) (env : Env) (cc : Byte) (n : Nat) (data : List Byte) (s : St)
    (hv : s.validated = true) :
    receive cfg env (packet 0x84 cc n data) s = handleUpdateBaseTimes data (s.seen data) := by
  rw [receive_packet _ _ _ _ _ _ _ hv]
  rfl

theorem receive_cache (cfg : Cfg) (env : Env) (cc : Byte) (n : Nat) (data : List Byte) (s : St)
    (hv : s.validated = true) :
    receive cfg env (packet 0x83 cc n data) s = handleUpdateSignalIndexCache cfg env data (s.seen data) := by
  rw [receive_packet _ _ _ _ _ _ _ hv]
  rfl

theorem receive_block (cfg : Cfg) (env : Env) (cc : Byte) (n : Nat) (data : List Byte) (s : St)
    (hv : s.validated = true) :
    receive cfg env (packet 0x88 cc n data) s = handleBufferBlock cfg env data (s.seen data) := by
  rw [receive_packet _ _ _ _ _ _ _ hv]
  rfl

theorem receive_notify (cfg : Cfg) (env : Env) (cc : Byte) (n : Nat) (data : List Byte) (s : St)
    (hv : s.validated = true) :
    receive cfg env (packet 0x89 cc n data) s = handleNotification env data (s.seen data) := by
  rw [receive_packet _ _ _ _ _ _ _ hv]
  rfl

theorem bitCompressed : ∀ b : Byte, decide (b &&& flagCompressed > 0) = b.getLsbD 3 := by decide +kernel
theorem bitCompact : ∀ b : Byte, decide (b &&& flagCompact > 0) = b.getLsbD 1 := by decide +kernel
theorem bitCache : ∀ b : Byte, decide (b &&& flagCacheIndex > 0) = b.getLsbD 4 := by decide +kernel

theorem handleData_payload (cfg : Cfg) (env : Env) (flags : Byte) (count : Nat) (payload : List Byte) (s : St)
    (hk : s.keyIVs = none) (hc : count < 2 ^ 32) (hf : flags.getLsbD 3 = true ∨ flags.getLsbD 1 = true) :
    handleDataPacket cfg env (dataPayload flags count payload) s = (do
      let (ms, s) ← if flags.getLsbD 3 = true then parseTSSC (flags.getLsbD 4) payload (sliceFor env count) s
        else parseCompact cfg (flags.getLsbD 4) payload (sliceFor env count) s
      let s := s.emit (.newMeasurements ms)
      .ok { s with totalMeasurementsReceived := s.totalMeasurementsReceived + BitVec.ofNat 64 count }) := by
  have hcons : dataPayload flags count payload = flags :: (beBytes 4 count ++ payload) := rfl
  rw [hcons, handleDataPacket]
  dsimp only
  rw [bitCompressed, bitCompact, bitCache]
  have h0 : (!flags.getLsbD 3 && !flags.getLsbD 1) = false := by
    rcases hf with h | h <;> simp [h]
  have hd : decipher cfg flags (beBytes 4 count ++ payload) s = .ok (beBytes 4 count ++ payload) := by
    unfold decipher; rw [hk]
  rw [h0, hd]
  simp only [Bool.false_eq_true, if_false]
  rw [readBE_beBytes 4 _ _ hc, Res.bind_ok]
  have hdr : (beBytes 4 count ++ payload).drop 4 = payload := by
    rw [List.drop_append_of_le_length (by simp), List.drop_of_length_le (by simp), List.nil_append]
  rw [hdr]

end Verif.Session
