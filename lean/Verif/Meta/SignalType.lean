import Verif.Meta.SignalRef

/-!
# C58: signal types (transport/SignalKind.go L138-175)
-/

namespace Verif.Meta

open Verif.Expr (lit)

/-- `unicode.ToUpper(phasorType) == 'V'` (SignalKind.go L145, L150): by Unicode's case tables the runes for which it holds are `V` and `v`. -/
def isVoltage (phasorType : BitVec 32) : Bool := phasorType = 86#32 || phasorType = 118#32

/-- `SignalTypeAcronym` (SignalKind.go L140-175). -/
def signalType (k : BitVec 16) (phasorType : BitVec 32) : List Byte :=
  if k = 0 then if isVoltage phasorType then lit "VPHA" else lit "IPHA"
  else if k = 1 then if isVoltage phasorType then lit "VPHM" else lit "IPHM"
  else if k = 2 then lit "FREQ" else if k = 3 then lit "DFDT" else if k = 4 then lit "FLAG" else if k = 5 then lit "DIGI" else if k = 6 then lit "ALOG"
  else if k = 7 then lit "CALC" else if k = 8 then lit "STAT" else if k = 9 then lit "ALRM" else if k = 10 then lit "QUAL" else lit "NULL"

/-- The type for a kind and for a voltage or not. (SignalKind.go L140-175) -/
def typeOf (k : Nat) (v : Bool) : List Byte :=
  ((if v then ["VPHA", "VPHM"] else ["IPHA", "IPHM"]) ++ ["FREQ", "DFDT", "FLAG", "DIGI", "ALOG", "CALC", "STAT", "ALRM", "QUAL", "NULL"]).map lit |>.getD (min k 11) []

theorem signalType_typeOf (k : BitVec 16) (p : BitVec 32) : signalType k p = typeOf k.toNat (isVoltage p) := by
  have small : ∀ k : Fin 11, ∀ v : Bool, (if BitVec.ofNat 16 k.val = 0 then if v then lit "VPHA" else lit "IPHA"
      else if BitVec.ofNat 16 k.val = 1 then if v then lit "VPHM" else lit "IPHM"
      else if BitVec.ofNat 16 k.val = 2 then lit "FREQ" else if BitVec.ofNat 16 k.val = 3 then lit "DFDT" else if BitVec.ofNat 16 k.val = 4 then lit "FLAG"
      else if BitVec.ofNat 16 k.val = 5 then lit "DIGI" else if BitVec.ofNat 16 k.val = 6 then lit "ALOG"
      else if BitVec.ofNat 16 k.val = 7 then lit "CALC" else if BitVec.ofNat 16 k.val = 8 then lit "STAT" else if BitVec.ofNat 16 k.val = 9 then lit "ALRM"
      else if BitVec.ofNat 16 k.val = 10 then lit "QUAL" else lit "NULL") = typeOf k.val v := by decide +kernel
  by_cases hk : k.toNat < 11
  · have := small ⟨k.toNat, hk⟩ (isVoltage p)
    simp only [BitVec.ofNat_toNat, BitVec.setWidth_eq] at this
    exact this
  · have ne : ∀ n : Nat, n < 11 → k ≠ BitVec.ofNat 16 n := by
      intro n hn he
      rw [he, BitVec.toNat_ofNat] at hk
      omega
    unfold signalType
    rw [if_neg (show ¬ k = 0 from ne 0 (by omega)), if_neg (show ¬ k = 1 from ne 1 (by omega)), if_neg (show ¬ k = 2 from ne 2 (by omega)), if_neg (show ¬ k = 3 from ne 3 (by omega)), if_neg (show ¬ k = 4 from ne 4 (by omega)), if_neg (show ¬ k = 5 from ne 5 (by omega)),
      if_neg (show ¬ k = 6 from ne 6 (by omega)), if_neg (show ¬ k = 7 from ne 7 (by omega)), if_neg (show ¬ k = 8 from ne 8 (by omega)), if_neg (show ¬ k = 9 from ne 9 (by omega)), if_neg (show ¬ k = 10 from ne 10 (by omega))]
    unfold typeOf
    rw [Nat.min_eq_right (by omega)]
    cases isVoltage p <;> rfl

/-- **Every signal type has four characters.** -/
theorem C58_type_length (k : BitVec 16) (p : BitVec 32) : (signalType k p).length = 4 := by
  have all : ∀ k : Fin 12, ∀ v : Bool, (typeOf k.val v).length = 4 := by decide +kernel
  rw [signalType_typeOf]
  have := all ⟨min k.toNat 11, by omega⟩ (isVoltage p)
  unfold typeOf at this ⊢
  rwa [show min (min k.toNat 11) 11 = min k.toNat 11 by omega] at this

/-- **Signal types tell the kinds apart, and voltages from currents**: two kinds have one type only if they are the same kind and, for phasor angles and
magnitudes, both or neither belong to a voltage. -/
theorem C58_type {k k' : BitVec 16} (hk : k.toNat ≤ 11) (hk' : k'.toNat ≤ 11) (p p' : BitVec 32) :
    signalType k p = signalType k' p' ↔ k = k' ∧ (k = 0 ∨ k = 1 → ((p = 86#32 ∨ p = 118#32) ↔ (p' = 86#32 ∨ p' = 118#32))) := by
  have all : ∀ k k' : Fin 12, ∀ v v' : Bool, typeOf k.val v = typeOf k'.val v' ↔ k.val = k'.val ∧ (k.val = 0 ∨ k.val = 1 → v = v') := by decide +kernel
  rw [signalType_typeOf, signalType_typeOf, all ⟨k.toNat, by omega⟩ ⟨k'.toNat, by omega⟩]
  have hv : ∀ p : BitVec 32, (p = 86#32 ∨ p = 118#32) ↔ isVoltage p = true := by intro p; unfold isVoltage; simp
  rw [hv, hv, ← Bool.eq_iff_iff, ← BitVec.toNat_inj (x := k), ← BitVec.toNat_inj (x := k), ← BitVec.toNat_inj (x := k)]
  rfl

/-- A voltage angle, asked for with a small letter, and a current angle, have different types; the phasor type of a frequency does not matter. -/
example : signalType 0 118 = lit "VPHA" ∧ signalType 0 73 = lit "IPHA" ∧ signalType 2 118 = signalType 2 73 := by decide +kernel

end Verif.Meta
