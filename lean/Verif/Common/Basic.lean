import Mathlib.Tactic.Ring
import Mathlib.Tactic.NormNum

/-!
# Shared vocabulary of the model

Bytes, outcomes of Go calls and the big-endian integer encoding of `encoding/binary`.
-/

namespace Verif

/-- Go `byte`. (guid/Guid.go L35) -/
abbrev Byte := BitVec 8

/-- Outcome of a Go call: a value, a returned `error`, or a panic (out-of-range index or slice, nil
dereference, integer division by zero, explicit `panic`). Error texts are not kept.
(panics: e.g. transport/SignalIndexCache.go L178, errors: L168-192) -/
inductive Res (α : Type) where
  | ok (a : α)
  | err
  | panic
  deriving DecidableEq, Repr

namespace Res

/-- Sequencing: errors are returned early, panics unwind. (panics: e.g. transport/SignalIndexCache.go L178, errors: L168-192) -/
def bind {α β : Type} (x : Res α) (f : α → Res β) : Res β :=
  match x with
  | ok a => f a
  | err => err
  | panic => panic

instance : Monad Res where
  pure := ok
  bind := bind

@[simp] theorem pure_eq {α : Type} (a : α) : (pure a : Res α) = ok a := rfl
@[simp] theorem bind_ok {α β : Type} (a : α) (f : α → Res β) : (ok a >>= f) = f a := rfl
@[simp] theorem bind_err {α β : Type} (f : α → Res β) : ((err : Res α) >>= f) = err := rfl
@[simp] theorem bind_panic {α β : Type} (f : α → Res β) : ((panic : Res α) >>= f) = panic := rfl

theorem bind_eq_ok {α β : Type} {x : Res α} {f : α → Res β} {b : β} :
    (x >>= f) = .ok b ↔ ∃ a, x = .ok a ∧ f a = .ok b := by
  cases x <;> simp

end Res

/-- Big-endian value of a byte list (`encoding/binary`'s `BigEndian.UintN` on exactly N/8 bytes).
(guid/Guid.go L101-103, transport/SignalIndexCache.go L178-224) -/
def beNat (l : List Byte) : Nat := l.foldl (fun acc b => acc * 256 + b.toNat) 0

/-- The `n` low bytes of `v`, most significant first (`BigEndian.PutUintN`). (transport/DataSubscriber.go L558, L1512, L1563) -/
def beBytes : Nat → Nat → List Byte
  | 0, _ => []
  | n + 1, v => BitVec.ofNat 8 (v / 256 ^ n) :: beBytes n v

theorem beNat_foldl (l : List Byte) (a : Nat) :
    l.foldl (fun acc b => acc * 256 + b.toNat) a = a * 256 ^ l.length + beNat l := by
  induction l generalizing a with
  | nil => simp [beNat]
  | cons b l ih =>
    simp only [List.foldl_cons, List.length_cons, beNat]
    rw [ih, ih (0 * 256 + b.toNat), pow_succ]
    ring

@[simp] theorem beNat_nil : beNat [] = 0 := rfl

theorem beNat_cons (b : Byte) (l : List Byte) :
    beNat (b :: l) = b.toNat * 256 ^ l.length + beNat l := by
  unfold beNat
  rw [List.foldl_cons, beNat_foldl]
  simp [beNat]

theorem beNat_append (l m : List Byte) :
    beNat (l ++ m) = beNat l * 256 ^ m.length + beNat m := by
  unfold beNat
  rw [List.foldl_append, beNat_foldl]
  rfl

theorem beNat_lt (l : List Byte) : beNat l < 256 ^ l.length := by
  induction l with
  | nil => simp
  | cons b l ih =>
    rw [beNat_cons, List.length_cons, pow_succ]
    have hb := b.isLt
    have : b.toNat * 256 ^ l.length ≤ 255 * 256 ^ l.length := Nat.mul_le_mul_right _ (by omega)
    omega

theorem beNat_inj {l m : List Byte} (hlen : l.length = m.length) (h : beNat l = beNat m) :
    l = m := by
  induction l generalizing m with
  | nil => cases m with
    | nil => rfl
    | cons _ _ => simp at hlen
  | cons b l ih => cases m with
    | nil => simp at hlen
    | cons c m =>
      simp only [List.length_cons, Nat.add_right_cancel_iff] at hlen
      rw [beNat_cons, beNat_cons, hlen] at h
      have hl := beNat_lt l
      have hm := beNat_lt m
      rw [hlen] at hl
      have hbc : b.toNat = c.toNat := by
        have h1 : (b.toNat * 256 ^ m.length + beNat l) / 256 ^ m.length
            = (c.toNat * 256 ^ m.length + beNat m) / 256 ^ m.length := by rw [h]
        have hp : 0 < 256 ^ m.length := Nat.pow_pos (by decide)
        rw [Nat.add_comm, Nat.add_mul_div_right _ _ hp, Nat.div_eq_of_lt hl, Nat.add_comm _ (beNat m),
          Nat.add_mul_div_right _ _ hp, Nat.div_eq_of_lt hm] at h1
        omega
      have : b = c := BitVec.eq_of_toNat_eq hbc
      subst this
      rw [ih hlen (by omega)]

@[simp] theorem beBytes_length (n v : Nat) : (beBytes n v).length = n := by
  induction n with
  | zero => rfl
  | succ n ih => simp [beBytes, ih]

theorem beNat_beBytes (n v : Nat) : beNat (beBytes n v) = v % 256 ^ n := by
  induction n with
  | zero => simp [beBytes, Nat.mod_one]
  | succ n ih =>
    have hm := Nat.mod_mul (x := v) (a := 256 ^ n) (b := 256)
    have h2 : (2 : Nat) ^ 8 = 256 := by norm_num
    rw [beBytes, beNat_cons, ih, beBytes_length, BitVec.toNat_ofNat, h2, pow_succ 256 n, hm]
    ring

theorem beNat_beBytes_of_lt {n v : Nat} (h : v < 256 ^ n) : beNat (beBytes n v) = v := by
  rw [beNat_beBytes, Nat.mod_eq_of_lt h]

theorem beBytes_beNat (l : List Byte) : beBytes l.length (beNat l) = l := by
  apply beNat_inj
  · simp
  · rw [beNat_beBytes, Nat.mod_eq_of_lt (beNat_lt l)]

/-- Reading `n` bytes big-endian at the front of a slice: `BigEndian.UintN(data[i:])` with `data[i:]`
given as a list. Panics when fewer than `n` bytes are left, as the library function and the slice
expression do. (guid/Guid.go L101-103, transport/SignalIndexCache.go L178-224) -/
def readBE (n : Nat) (l : List Byte) : Res Nat :=
  if n ≤ l.length then .ok (beNat (l.take n)) else .panic

@[simp] theorem readBE_beBytes (n v : Nat) (rest : List Byte) (h : v < 256 ^ n) :
    readBE n (beBytes n v ++ rest) = .ok v := by
  unfold readBE
  have : n ≤ (beBytes n v ++ rest).length := by simp
  rw [if_pos this]
  have h2 : List.take n (beBytes n v ++ rest) = beBytes n v := by
    rw [List.take_append_of_le_length (by simp), List.take_of_length_le (by simp)]
  rw [h2, beNat_beBytes_of_lt h]

end Verif
