import Verif.Lex.NamesProps
import Verif.Session.Model

/-!
# The texts of the codes on the wire (property C116)
-/

namespace Verif.Lex.Names

open Verif.Session
open Verif.Expr (lit)

/-- C116: the bytes the session sends as commands have the names of the commands. -/
theorem C116_sent : ∀ p ∈ [(cmdConnect, "Connect"), (cmdMetadataRefresh, "MetadataRefresh"), (cmdSubscribe, "Subscribe"), (cmdUnsubscribe, "Unsubscribe"),
    (cmdRotateCipherKeys, "RotateCipherKeys"), (cmdUpdateProcessingInterval, "UpdateProcessingInterval"),
    (cmdDefineOperationalModes, "DefineOperationalModes"), (cmdConfirmNotification, "ConfirmNotification"), (cmdConfirmBufferBlock, "ConfirmBufferBlock"),
    (cmdConfirmUpdateSignalIndexCache, "ConfirmUpdateSignalIndexCache")], commands.text p.1.toNat = lit p.2 := by decide +kernel

/-- C116: the bytes the session takes as responses have the names of the responses. -/
theorem C116_received : ∀ p ∈ [(rspSucceeded, "Succeeded"), (rspFailed, "Failed"), (rspDataPacket, "DataPacket"),
    (rspUpdateSignalIndexCache, "UpdateSignalIndexCache"), (rspUpdateBaseTimes, "UpdateBaseTimes"), (rspUpdateCipherKeys, "UpdateCipherKeys"),
    (rspDataStartTime, "DataStartTime"), (rspProcessingComplete, "ProcessingComplete"), (rspBufferBlock, "BufferBlock"), (rspNotify, "Notify"),
    (rspConfigurationChanged, "ConfigurationChanged"), (rspNoOP, "NoOP")], responses.text p.1.toNat = lit p.2 := by decide +kernel

/-- C116: the sixteen commands and responses of users are numbered in order, from 0xD0 and 0xE0. -/
theorem C116_users : ∀ i : Fin 16, commands.text (0xD0 + (i.val : Int)) = lit "UserCommand" ++ [BitVec.ofNat 8 (48 + i.val / 10), BitVec.ofNat 8 (48 + i.val % 10)] ∧
    responses.text (0xE0 + (i.val : Int)) = lit "UserResponse" ++ [BitVec.ofNat 8 (48 + i.val / 10), BitVec.ofNat 8 (48 + i.val % 10)] := by decide +kernel

/-- C116: every command and every response is one byte, the commands and the responses are different bytes, and a byte is a defined response exactly if its
text does not begin with `0x`. -/
theorem C116_bytes : (∀ v ∈ commands.values ++ responses.values, 0 ≤ v.2 ∧ v.2 < 256) ∧
    (∀ v ∈ commands.values, ∀ w ∈ responses.values, v.2 ≠ w.2) ∧
    ∀ b : BitVec 8, (∃ v ∈ responses.values, v.2 = b.toNat) ↔ ¬ lit "0x" <+: responses.text b.toNat := by decide +kernel

end Verif.Lex.Names
