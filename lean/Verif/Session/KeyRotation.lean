import Verif.Session.Sealed

/-!
# C136: cipher keys change while datagrams arrive

With a UDP data channel two goroutines share `ds.keyIVs`, and no lock guards it: `handleUpdateCipherKeys` on the command channel builds the new keys and then
assigns the slice (DataSubscriber.go L1175), which is a store of the pointer and one of the length in the order the compiler chose (the capacity is not
read), while `handleDataPacket` on the data channel compares the pointer with nil (L1206), loads pointer and length into a local copy ("these can change at any
time", L1208) and uses element 0 or 1 of it (L1216). A transition system: a turn of the command goroutine is one store, a turn of the data goroutine one
load. Words are stored and loaded whole and in order (a 64-bit platform; the reader sees the last store); what the pointer points to does not change any more. After
a panic nothing more happens. What becomes of the deciphered packet is C106, C107 and C129.
-/

namespace Verif.Session.KeyRotation

open Verif.Session

/-- A store of `ds.keyIVs = keyIVs` (DataSubscriber.go L1175). -/
inductive Store where
  | ptr (k : KeyIVs)
  | len (n : Nat)
  deriving DecidableEq

/-- A datagram: the flags and what follows them (DataSubscriber.go L1193-1204). -/
abbrev Datagram := Byte × List Byte

/-- The goroutine of the data channel (DataSubscriber.go L1206-1216). -/
inductive RPc where
  /-- before L1206 -/
  | idle
  /-- the pointer was not nil (L1206) -/
  | tested (d : Datagram)
  /-- the pointer is loaded (L1208) -/
  | gotPtr (d : Datagram) (p : Option KeyIVs)
  /-- the length is loaded (L1208) -/
  | gotLen (d : Datagram) (n : Nat)

/-- What is shared, and what the goroutines still have to do (DataSubscriber.go L159, L879-897, L1175). `out` is what became of the datagrams: the data
after deciphering, an error or a panic. -/
structure St where
  ptr : Option KeyIVs
  len : Nat
  writes : List Store
  packets : List Datagram
  r : RPc := .idle
  out : List (Res (List Byte)) := []
  dead : Bool := false

/-- The element that the flags name (DataSubscriber.go L1209-1214). -/
def cipherIndex (flags : Byte) : Nat := if flags &&& flagCipherIndex > 0 then 1 else 0

/-- Deciphering with the local copy (DataSubscriber.go L1216): an element beyond the length is a panic, so is one of a nil slice. -/
def use (aes : List Byte → List Byte → List Byte → Res (List Byte)) (d : Datagram) (p : Option KeyIVs) (n : Nat) : Res (List Byte) :=
  if cipherIndex d.1 ≥ n then .panic
  else match p with
    | none => .panic
    | some k => if cipherIndex d.1 = 1 then aes k.oddKey k.oddIV d.2 else aes k.evenKey k.evenIV d.2

/-- The datagram is done with (DataSubscriber.go L1216-1222): a panic ends the program. -/
def St.finish (s : St) (o : Res (List Byte)) : St :=
  { s with r := .idle, out := s.out ++ [o], dead := match o with | .panic => true | _ => false }

/-- A turn of the goroutine of the command channel: one store (DataSubscriber.go L1175). -/
def commandTurn (s : St) : St :=
  match s.writes with
  | [] => s
  | .ptr k :: w => { s with ptr := some k, writes := w }
  | .len n :: w => { s with len := n, writes := w }

/-- A turn of the goroutine of the data channel (DataSubscriber.go L1206-1216); `first`: the local copy is loaded pointer first. -/
def dataTurn (aes : List Byte → List Byte → List Byte → Res (List Byte)) (first : Bool) (s : St) : St :=
  match s.r with
  | .idle =>
    match s.packets with
    | [] => s
    | d :: ds => match s.ptr with
      | none => { s with packets := ds }.finish (.ok d.2)
      | some _ => { s with packets := ds, r := .tested d }
  | .tested d => { s with r := if first then .gotPtr d s.ptr else .gotLen d s.len }
  | .gotPtr d p => s.finish (use aes d p s.len)
  | .gotLen d n => s.finish (use aes d s.ptr n)

/-- The turns of a schedule; true is a turn of the command channel. (DataSubscriber.go L861-897) -/
def turns (aes : List Byte → List Byte → List Byte → Res (List Byte)) (first : Bool) : List Bool → St → St
  | [], s => s
  | b :: l, s => turns aes first l (if s.dead then s else if b then commandTurn s else dataTurn aes first s)

/-- The stores for an update (DataSubscriber.go L1131-1133, L1175); `lenFirst`: the length is stored first. -/
def storesOf (lenFirst : Bool) (k : KeyIVs) : List Store := if lenFirst then [.len 2, .ptr k] else [.ptr k, .len 2]

/-- The beginning: the keys announced so far, updates and datagrams to come (DataSubscriber.go L379, L1175). -/
def start (lenFirst : Bool) (p : Option KeyIVs) (ks : List KeyIVs) (ds : List Datagram) : St :=
  { ptr := p, len := if p.isSome then 2 else 0, writes := ks.flatMap (storesOf lenFirst), packets := ds }

/-! ## Which keys are used -/

/-- The pointers among the stores. -/
def ptrs : List Store → List KeyIVs
  | [] => []
  | .ptr k :: w => k :: ptrs w
  | .len _ :: w => ptrs w

/-- Whenever the pointer is not nil, the length is two, now and after any of the stores to come. -/
def Safe : Option KeyIVs → Nat → List Store → Prop
  | p, n, [] => p.isSome = true → n = 2
  | p, n, .len m :: w => (p.isSome = true → n = 2) ∧ Safe p m w
  | p, n, .ptr k :: w => (p.isSome = true → n = 2) ∧ Safe (some k) n w

theorem Safe.now {p : Option KeyIVs} {n : Nat} {w : List Store} (h : Safe p n w) (hp : p.isSome = true) : n = 2 := by
  cases w with
  | nil => exact h hp
  | cons a w => cases a <;> exact h.1 hp

theorem cipherIndex_lt (flags : Byte) : cipherIndex flags < 2 := by
  unfold cipherIndex
  split <;> omega

theorem use_two (aes : List Byte → List Byte → List Byte → Res (List Byte)) (d : Datagram) {p : Option KeyIVs} (hp : p.isSome = true) :
    use aes d p 2 = plaintext aes p d.1 d.2 := by
  obtain ⟨k, rfl⟩ := Option.isSome_iff_exists.1 hp
  have := cipherIndex_lt d.1
  unfold use
  rw [if_neg (by omega)]
  unfold plaintext cipherIndex
  dsimp only
  by_cases h : d.1.getLsbD 2 = true
  · rw [if_pos ((bitCipher d.1).2 h), if_pos rfl, if_pos h]
  · rw [if_neg (fun g => h ((bitCipher d.1).1 g)), if_neg (by decide), if_neg h]

/-- What a reader that saw the keys number `is`, one for each datagram, made of the datagrams. -/
def readings (aes : List Byte → List Byte → List Byte → Res (List Byte)) (all : List (Option KeyIVs)) (ds : List Datagram) (is : List Nat) :
    List (Res (List Byte)) :=
  List.zipWith (fun d i => plaintext aes (all[i]?.join) d.1 d.2) ds is

/-- The state agrees with a history: `done` datagrams read with the keys numbered `is`, the pointer now being the one after those in `past`. -/
structure Agrees (aes : List Byte → List Byte → List Byte → Res (List Byte)) (all : List (Option KeyIVs)) (ds : List Datagram) (s : St)
    (past : List (Option KeyIVs)) (is : List Nat) : Prop where
  all_eq : all = past ++ s.ptr :: (ptrs s.writes).map some
  safe : Safe s.ptr s.len s.writes
  mono : is.Pairwise (· ≤ ·)
  seen : ∀ i ∈ is, i ≤ past.length
  read : s.out = readings aes all ds is
  left : ds = ds.take is.length ++ (match s.r with | .idle => [] | .tested d => [d] | .gotPtr d _ => [d] | .gotLen d _ => [d]) ++ s.packets
  count : is.length ≤ ds.length
  here : match s.r with
    | .idle => True
    | .tested _ => s.ptr.isSome = true
    | .gotPtr _ p => s.ptr.isSome = true ∧ p.isSome = true ∧ ∃ i, i ≤ past.length ∧ all[i]? = some p ∧ ∀ j ∈ is, j ≤ i
    | .gotLen _ n => n = 2 ∧ s.ptr.isSome = true

theorem agrees_command {aes : List Byte → List Byte → List Byte → Res (List Byte)} {all : List (Option KeyIVs)} {ds : List Datagram} {s : St}
    {past : List (Option KeyIVs)} {is : List Nat} (h : Agrees aes all ds s past is) : ∃ past', Agrees aes all ds (commandTurn s) past' is := by
  unfold commandTurn
  obtain ⟨h1, h2, h3, h4, h5, h6, h7, h8⟩ := h
  split
  · exact ⟨past, ⟨h1, h2, h3, h4, h5, h6, h7, h8⟩⟩
  · rename_i k w hw
    rw [hw] at h1 h2
    refine ⟨past ++ [s.ptr], ⟨by simpa [ptrs] using h1, h2.2, h3, fun i hi => ?_, h5, h6, h7, ?_⟩⟩
    · have := h4 i hi
      simp only [List.length_append, List.length_cons, List.length_nil]; omega
    · dsimp only
      cases hr : s.r with
      | idle => trivial
      | tested d => rfl
      | gotPtr d p =>
        rw [hr] at h8
        obtain ⟨-, g1, i, g2, g3, g4⟩ := h8
        exact ⟨rfl, g1, i, by simp only [List.length_append, List.length_cons, List.length_nil]; omega, g3, g4⟩
      | gotLen d n =>
        rw [hr] at h8
        exact ⟨h8.1, rfl⟩
  · rename_i n w hw
    rw [hw] at h1 h2
    exact ⟨past, ⟨h1, h2.2, h3, h4, h5, h6, h7, h8⟩⟩

/-- A datagram read with the keys number `i`. -/
theorem agrees_finish {aes : List Byte → List Byte → List Byte → Res (List Byte)} {all : List (Option KeyIVs)} {ds : List Datagram} {s : St}
    {past : List (Option KeyIVs)} {is : List Nat} (h1 : all = past ++ s.ptr :: (ptrs s.writes).map some) (h2 : Safe s.ptr s.len s.writes)
    (h3 : is.Pairwise (· ≤ ·)) (h4 : ∀ i ∈ is, i ≤ past.length) (h5 : s.out = readings aes all ds is) (d : Datagram)
    (h6 : ds = ds.take is.length ++ [d] ++ s.packets) (i : Nat) (hi : i ≤ past.length) (hj : ∀ j ∈ is, j ≤ i) (h7 : is.length ≤ ds.length)
    {o : Res (List Byte)} (ho : o = plaintext aes (all[i]?.join) d.1 d.2) : Agrees aes all ds (s.finish o) past (is ++ [i]) := by
  have hl : is.length < ds.length := by
    have := congrArg List.length h6
    simp only [List.length_append, List.length_take, List.length_cons, List.length_nil] at this
    omega
  have hd : ds[is.length]? = some d := by
    rw [h6, List.append_assoc, List.getElem?_append_right (by simp)]
    simp [Nat.min_eq_left h7]
  have ht : ds.take (is.length + 1) = ds.take is.length ++ [d] := by
    rw [List.take_add_one, hd]; rfl
  refine ⟨h1, h2, ?_, ?_, ?_, ?_, ?_, trivial⟩
  · rw [List.pairwise_append]
    exact ⟨h3, List.pairwise_singleton _ _, fun a ha b hb => by simp only [List.mem_singleton] at hb; subst hb; exact hj a ha⟩
  · intro j hj'
    simp only [List.mem_append, List.mem_singleton] at hj'
    rcases hj' with hj' | rfl
    · exact h4 j hj'
    · exact hi
  · show s.out ++ [o] = _
    rw [h5, ho]
    unfold readings
    have hA : (ds.take is.length).length = is.length := by simp [h7]
    have e : ds = ds.take is.length ++ (d :: s.packets) := by rw [← List.singleton_append, ← List.append_assoc]; exact h6
    generalize ds.take is.length = A at e hA
    rw [e, List.zipWith_append hA]
    have e2 : List.zipWith (fun (d : Datagram) i => plaintext aes (all[i]?.join) d.1 d.2) (A ++ d :: s.packets) is =
        List.zipWith (fun d i => plaintext aes (all[i]?.join) d.1 d.2) A is := by
      conv_lhs => rw [← List.append_nil is]
      rw [List.zipWith_append hA]
      simp
    rw [e2]
    simp
  · show ds = ds.take (is ++ [i]).length ++ [] ++ s.packets
    rw [List.length_append, List.length_singleton, ht, List.append_nil]
    exact h6
  · simp only [List.length_append, List.length_cons, List.length_nil]; omega

theorem agrees_data {aes : List Byte → List Byte → List Byte → Res (List Byte)} {first : Bool} {all : List (Option KeyIVs)} {ds : List Datagram} {s : St}
    {past : List (Option KeyIVs)} {is : List Nat} (h : Agrees aes all ds s past is) : ∃ is', Agrees aes all ds (dataTurn aes first s) past is' := by
  have hcur : all[past.length]?.join = s.ptr := by rw [h.all_eq]; simp
  obtain ⟨h1, h2, h3, h4, h5, h6, h7, h8⟩ := h
  unfold dataTurn
  cases hr : s.r with
  | idle =>
    dsimp only
    rw [hr] at h6 h8
    dsimp only at h6
    cases hp : s.packets with
    | nil =>
      dsimp only
      exact ⟨is, ⟨h1, h2, h3, h4, h5, by rw [hr]; exact h6, h7, by rw [hr]; trivial⟩⟩
    | cons d l =>
      dsimp only
      have e : ds = ds.take is.length ++ [d] ++ l := by rw [List.append_nil, hp] at h6; rw [List.append_assoc]; exact h6
      cases hptr : s.ptr with
      | none =>
        dsimp only
        rw [hptr] at h1 h2 hcur
        exact ⟨_, agrees_finish (s := { s with ptr := none, packets := l, r := .idle }) h1 h2 h3 h4 h5 d e past.length (le_refl _) h4 h7 (by rw [hcur]; rfl)⟩
      | some k =>
        dsimp only
        exact ⟨is, ⟨by rw [← hptr]; exact h1, by rw [← hptr]; exact h2, h3, h4, h5, e, h7, rfl⟩⟩
  | tested d =>
    rw [hr] at h6 h8
    dsimp only at h6 h8 ⊢
    cases first with
    | true => exact ⟨is, ⟨h1, h2, h3, h4, h5, h6, h7, ⟨h8, h8, past.length, le_refl _, by rw [h1]; simp, h4⟩⟩⟩
    | false => exact ⟨is, ⟨h1, h2, h3, h4, h5, h6, h7, ⟨h2.now h8, h8⟩⟩⟩
  | gotPtr d p =>
    rw [hr] at h6 h8
    dsimp only at h6 h8 ⊢
    obtain ⟨hs, g1, i, g2, g3, g4⟩ := h8
    exact ⟨_, agrees_finish h1 h2 h3 h4 h5 d h6 i g2 g4 h7 (by rw [h2.now hs, use_two aes d g1, g3]; rfl)⟩
  | gotLen d n =>
    rw [hr] at h6 h8
    dsimp only at h6 h8 ⊢
    exact ⟨_, agrees_finish h1 h2 h3 h4 h5 d h6 past.length (le_refl _) h4 h7 (by rw [h8.1, use_two aes d h8.2, hcur])⟩

theorem agrees_turns {aes : List Byte → List Byte → List Byte → Res (List Byte)} {first : Bool} {all : List (Option KeyIVs)} {ds : List Datagram} :
    ∀ (l : List Bool) {s : St} {past : List (Option KeyIVs)} {is : List Nat}, Agrees aes all ds s past is →
      ∃ past' is', Agrees aes all ds (turns aes first l s) past' is'
  | [], _, _, _, h => ⟨_, _, h⟩
  | b :: l, s, past, is, h => by
    unfold turns
    by_cases hd : s.dead = true
    · rw [if_pos hd]; exact agrees_turns l h
    · rw [if_neg hd]
      cases b with
      | true => obtain ⟨p', h'⟩ := agrees_command h; exact agrees_turns l h'
      | false => obtain ⟨i', h'⟩ := agrees_data (first := first) h; exact agrees_turns l h'

theorem ptrs_stores (lenFirst : Bool) (ks : List KeyIVs) : ptrs (ks.flatMap (storesOf lenFirst)) = ks := by
  induction ks with
  | nil => rfl
  | cons k ks ih => cases lenFirst <;> simpa [storesOf, ptrs] using ih

theorem safe_stores (lenFirst : Bool) : ∀ (ks : List KeyIVs) (p : Option KeyIVs) (n : Nat), (lenFirst = true ∨ p.isSome = true) → (p.isSome = true → n = 2) →
    Safe p n (ks.flatMap (storesOf lenFirst))
  | [], _, _, _, hn => hn
  | k :: ks, p, n, h, hn => by
    rw [List.flatMap_cons]
    cases lenFirst with
    | true => exact ⟨hn, fun _ => rfl, safe_stores true ks _ _ (Or.inl rfl) (fun _ => rfl)⟩
    | false =>
      have hp : p.isSome = true := by simpa using h
      exact ⟨hn, fun _ => hn hp, safe_stores false ks _ _ (Or.inr rfl) (fun _ => rfl)⟩

/-! ## Every datagram has its turn -/

/-- Turns of the data goroutine still needed. -/
def RPc.left : RPc → Nat
  | .idle => 0
  | .tested _ => 2
  | .gotPtr _ _ => 1
  | .gotLen _ _ => 1

/-- Turns of the data goroutine still needed for everything. -/
def St.left (s : St) : Nat := 3 * s.packets.length + s.r.left

theorem left_command (s : St) : (commandTurn s).left = s.left ∧ (commandTurn s).out = s.out ∧ (commandTurn s).dead = s.dead := by
  unfold commandTurn
  split <;> exact ⟨rfl, rfl, rfl⟩

theorem left_data (aes : List Byte → List Byte → List Byte → Res (List Byte)) (first : Bool) (s : St) :
    (dataTurn aes first s).left ≤ s.left - 1 ∧ ((s.dead = true → .panic ∈ s.out) → (dataTurn aes first s).dead = true → .panic ∈ (dataTurn aes first s).out) := by
  have fin : ∀ (s : St) (o : Res (List Byte)), (s.finish o).left = 3 * s.packets.length ∧ ((s.finish o).dead = true → .panic ∈ (s.finish o).out) := by
    intro s o
    refine ⟨rfl, fun h => ?_⟩
    cases o <;> simp [St.finish] at h ⊢
  unfold dataTurn
  cases hr : s.r with
  | idle =>
    dsimp only
    cases hp : s.packets with
    | nil => exact ⟨by simp [St.left, hp, hr, RPc.left], id⟩
    | cons d l =>
      dsimp only
      cases hptr : s.ptr with
      | none => exact ⟨by rw [(fin _ _).1]; simp only [St.left, hp, List.length_cons]; omega, fun _ => (fin _ _).2⟩
      | some k => exact ⟨by simp only [St.left, hp, List.length_cons, RPc.left]; omega, id⟩
  | tested d => exact ⟨by cases first <;> simp [St.left, hr, RPc.left], id⟩
  | gotPtr d p => exact ⟨by rw [(fin _ _).1]; simp [St.left, hr, RPc.left], fun _ => (fin _ _).2⟩
  | gotLen d n => exact ⟨by rw [(fin _ _).1]; simp [St.left, hr, RPc.left], fun _ => (fin _ _).2⟩

theorem turns_left (aes : List Byte → List Byte → List Byte → Res (List Byte)) (first : Bool) : ∀ (l : List Bool) (s : St), (s.dead = true → .panic ∈ s.out) →
    ((turns aes first l s).left ≤ s.left - l.count false ∨ .panic ∈ (turns aes first l s).out)
  | [], s, _ => Or.inl (by simp [turns])
  | b :: l, s, h => by
    unfold turns
    by_cases hd : s.dead = true
    · rw [if_pos hd]
      right
      have stay : ∀ l : List Bool, turns aes first l s = s := by
        intro l
        induction l with
        | nil => rfl
        | cons a l ih => unfold turns; rw [if_pos hd]; exact ih
      rw [stay l]
      exact h hd
    · rw [if_neg hd]
      cases b with
      | true =>
        obtain ⟨h1, h2, h3⟩ := left_command s
        rcases turns_left aes first l (commandTurn s) (by rw [h3]; exact fun g => absurd g hd) with g | g
        · exact Or.inl (by rw [h1] at g; simpa using g)
        · exact Or.inr g
      | false =>
        obtain ⟨h1, h2⟩ := left_data aes first s
        rcases turns_left aes first l (dataTurn aes first s) (h2 h) with g | g
        · left
          simp only [Bool.false_eq_true, if_false, List.count_cons_self]
          omega
        · exact Or.inr g

/-- Datagrams done with, being read and to come. -/
theorem agrees_count {aes : List Byte → List Byte → List Byte → Res (List Byte)} {all : List (Option KeyIVs)} {ds : List Datagram} {s : St}
    {past : List (Option KeyIVs)} {is : List Nat} (h : Agrees aes all ds s past is) (h0 : s.left = 0) : is.length = ds.length := by
  have hp : s.packets = [] := by
    cases hp : s.packets with
    | nil => rfl
    | cons d l => simp [St.left, hp] at h0
  have hr : s.r = .idle := by
    cases hr : s.r with
    | idle => rfl
    | tested d => simp [St.left, hr, RPc.left] at h0
    | gotPtr d p => simp [St.left, hr, RPc.left] at h0
    | gotLen d n => simp [St.left, hr, RPc.left] at h0
  have := congrArg List.length h.left
  rw [hr, hp] at this
  have hc := h.count
  simp only [List.append_nil, List.length_take] at this
  omega

/-! ## The property -/

/-- Each datagram is deciphered with one of the pairs of keys announced, whole, or taken as it is where none was announced yet, and no later datagram with
keys announced earlier, in every schedule and whatever the order of loads; there is no panic but those of AES itself, and without one three turns of the data
goroutine for each datagram are enough. Missing: the first announcement where the pointer is stored before the length (`C136_crash_false`). -/
theorem C136_whole_partial (aes : List Byte → List Byte → List Byte → Res (List Byte)) (lenFirst first : Bool) (p : Option KeyIVs) (ks : List KeyIVs)
    (ds : List Datagram) (h : lenFirst = true ∨ p.isSome = true) (l : List Bool) :
    ∃ is : List Nat, is.Pairwise (· ≤ ·) ∧ (∀ i ∈ is, i ≤ ks.length) ∧ is.length ≤ ds.length ∧
      (3 * ds.length ≤ l.count false → is.length = ds.length ∨ .panic ∈ (turns aes first l (start lenFirst p ks ds)).out) ∧
      (turns aes first l (start lenFirst p ks ds)).out = List.zipWith (fun d i => plaintext aes ((p :: ks.map some)[i]?.join) d.1 d.2) ds is := by
  have h0 : Agrees aes (p :: ks.map some) ds (start lenFirst p ks ds) [] [] :=
    ⟨by simp [start, ptrs_stores], safe_stores lenFirst ks p _ h (fun hp => if_pos hp), List.Pairwise.nil, by simp,
      by simp [start, readings], by simp [start], by simp, trivial⟩
  obtain ⟨past, is, g⟩ := agrees_turns (first := first) l h0
  refine ⟨is, g.mono, fun i hi => ?_, g.count, fun hc => ?_, g.read⟩
  rotate_left
  · rcases turns_left aes first l (start lenFirst p ks ds) (fun h => by cases h) with g1 | g1
    · refine Or.inl (agrees_count g ?_)
      have : (start lenFirst p ks ds).left = 3 * ds.length := rfl
      omega
    · exact Or.inr g1
  have h1 := g.seen i hi
  have h2 := congrArg List.length g.all_eq
  simp only [List.length_cons, List.length_map, List.length_append] at h2
  omega

/-! ## Neither keys to come nor keys of the past -/

theorem data_writes (aes : List Byte → List Byte → List Byte → Res (List Byte)) (first : Bool) (s : St) (w : List Store) :
    dataTurn aes first { s with writes := w } = { dataTurn aes first s with writes := w } := by
  obtain ⟨ptr, len, writes, packets, r, out, dead⟩ := s
  cases r with
  | idle =>
    cases packets with
    | nil => rfl
    | cons d ds => cases ptr <;> rfl
  | tested d => rfl
  | gotPtr d p => rfl
  | gotLen d n => rfl

theorem data_same_writes (aes : List Byte → List Byte → List Byte → Res (List Byte)) (first : Bool) (s : St) : (dataTurn aes first s).writes = s.writes := by
  rw [show dataTurn aes first s = { dataTurn aes first s with writes := s.writes } from data_writes aes first s s.writes]

theorem turns_writes (aes : List Byte → List Byte → List Byte → Res (List Byte)) (first : Bool) : ∀ (l : List Bool) (s : St) (w w' : List Store),
    l.count true ≤ w.length → (turns aes first l { s with writes := w ++ w' }).out = (turns aes first l { s with writes := w }).out
  | [], _, _, _, _ => rfl
  | b :: l, s, w, w', h => by
    unfold turns
    dsimp only
    by_cases hd : s.dead = true
    · rw [if_pos hd, if_pos hd]
      exact turns_writes aes first l s w w' (by cases b <;> simp at h ⊢ <;> omega)
    · rw [if_neg hd, if_neg hd]
      cases b with
      | false =>
        simp only [Bool.false_eq_true, if_false]
        have := turns_writes aes first l (dataTurn aes first s) w w' (by simpa using h)
        rw [← data_writes aes first s (w ++ w'), ← data_writes aes first s w] at this
        exact this
      | true =>
        simp only [if_true]
        simp only [List.count_cons_self] at h
        cases w with
        | nil => simp at h
        | cons a w =>
          simp only [List.length_cons] at h
          cases a with
          | ptr k => exact turns_writes aes first l { s with ptr := some k } w w' (by omega)
          | len n => exact turns_writes aes first l { s with len := n } w w' (by omega)

/-- What becomes of datagrams does not depend on updates that have not begun to be stored. -/
theorem C136_past (aes : List Byte → List Byte → List Byte → Res (List Byte)) (lenFirst first : Bool) (p : Option KeyIVs) (ks ks' : List KeyIVs)
    (ds : List Datagram) (l : List Bool) (h : l.count true ≤ 2 * ks.length) :
    (turns aes first l (start lenFirst p (ks ++ ks') ds)).out = (turns aes first l (start lenFirst p ks ds)).out := by
  have hl : (ks.flatMap (storesOf lenFirst)).length = 2 * ks.length := by
    clear h
    induction ks with
    | nil => rfl
    | cons k ks ih => rw [List.flatMap_cons, List.length_append, ih]; cases lenFirst <;> simp [storesOf] <;> omega
  have := turns_writes aes first l (start lenFirst p ks ds) (ks.flatMap (storesOf lenFirst)) (ks'.flatMap (storesOf lenFirst)) (by omega)
  rw [← List.flatMap_append] at this
  exact this

/-- Three turns before anything is stored, and one store: the datagram is read with the keys before. -/
example : (turns (fun k _ d => .ok (k ++ d)) true [true, false, false, false] (start true (some ⟨[1], [], [2], []⟩) ([] ++ [⟨[3], [], [4], []⟩]) [(4, [8])])).out =
    [.ok [2, 8]] := by decide +kernel

theorem left_writes (aes : List Byte → List Byte → List Byte → Res (List Byte)) (first : Bool) : ∀ (l : List Bool) (s : St),
    (turns aes first l s).dead = true ∨ (turns aes first l s).writes = s.writes.drop (l.count true)
  | [], s => Or.inr (by simp [turns])
  | b :: l, s => by
    unfold turns
    by_cases hd : s.dead = true
    · rw [if_pos hd]
      left
      have stay : ∀ l : List Bool, turns aes first l s = s := by
        intro l
        induction l with
        | nil => rfl
        | cons a l ih => unfold turns; rw [if_pos hd]; exact ih
      rw [stay l]
      exact hd
    · rw [if_neg hd]
      cases b with
      | false =>
        simp only [Bool.false_eq_true, if_false]
        rcases left_writes aes first l (dataTurn aes first s) with h | h
        · exact Or.inl h
        · exact Or.inr (by rw [h, data_same_writes]; simp)
      | true =>
        simp only [if_true]
        have hw : (commandTurn s).writes = s.writes.tail := by
          unfold commandTurn
          split <;> rename_i hw <;> simp [hw]
        rcases left_writes aes first l (commandTurn s) with h | h
        · exact Or.inl h
        · exact Or.inr (by rw [h, hw, List.count_cons_self, ← List.drop_one, List.drop_drop, Nat.add_comm])

theorem finish_out (s : St) (o : List (Res (List Byte))) (x : Res (List Byte)) :
    ({ s with out := o ++ s.out } : St).finish x = { s.finish x with out := o ++ (s.finish x).out } := by
  simp [St.finish]

theorem turns_out (aes : List Byte → List Byte → List Byte → Res (List Byte)) (first : Bool) (o : List (Res (List Byte))) : ∀ (l : List Bool) (s : St),
    turns aes first l { s with out := o ++ s.out } = { turns aes first l s with out := o ++ (turns aes first l s).out }
  | [], _ => rfl
  | b :: l, s => by
    unfold turns
    dsimp only
    by_cases hd : s.dead = true
    · rw [if_pos hd, if_pos hd]
      exact turns_out aes first o l s
    · rw [if_neg hd, if_neg hd]
      cases b with
      | false =>
        simp only [Bool.false_eq_true, if_false]
        have : dataTurn aes first { s with out := o ++ s.out } = { dataTurn aes first s with out := o ++ (dataTurn aes first s).out } := by
          clear hd
          obtain ⟨ptr, len, writes, packets, r, out, dead⟩ := s
          cases r with
          | idle =>
            cases packets with
            | nil => rfl
            | cons d ds =>
              cases ptr with
              | none => exact finish_out ⟨none, len, writes, ds, .idle, out, dead⟩ o _
              | some k => rfl
          | tested d => rfl
          | gotPtr d p => exact finish_out ⟨ptr, len, writes, packets, .gotPtr d p, out, dead⟩ o _
          | gotLen d n => exact finish_out ⟨ptr, len, writes, packets, .gotLen d n, out, dead⟩ o _
        rw [this]
        exact turns_out aes first o l _
      | true =>
        simp only [if_true]
        have : commandTurn { s with out := o ++ s.out } = { commandTurn s with out := o ++ (commandTurn s).out } := by
          clear hd
          obtain ⟨ptr, len, writes, packets, r, out, dead⟩ := s
          cases writes with
          | nil => rfl
          | cons a w => cases a <;> rfl
        rw [this]
        exact turns_out aes first o l _

/-- Once the last update is stored, and no datagram is half read, every datagram is deciphered with the last keys. -/
theorem C136_fresh (aes : List Byte → List Byte → List Byte → Res (List Byte)) (lenFirst first : Bool) (p : Option KeyIVs) (ks : List KeyIVs) (k : KeyIVs)
    (ds : List Datagram) (h : lenFirst = true ∨ p.isSome = true) (before after : List Bool) (hc : 2 * (ks.length + 1) ≤ before.count true)
    (hi : (turns aes first before (start lenFirst p (ks ++ [k]) ds)).r = .idle) :
    ∃ n, (turns aes first (before ++ after) (start lenFirst p (ks ++ [k]) ds)).out = (turns aes first before (start lenFirst p (ks ++ [k]) ds)).out ++
        ((turns aes first before (start lenFirst p (ks ++ [k]) ds)).packets.take n).map fun d => plaintext aes (some k) d.1 d.2 := by
  have hsplit : ∀ (a b : List Bool) (s : St), turns aes first (a ++ b) s = turns aes first b (turns aes first a s) := by
    intro a b
    induction a with
    | nil => intro s; rfl
    | cons x a ih => intro s; exact ih _
  rw [hsplit]
  have hw := left_writes aes first before (start lenFirst p (ks ++ [k]) ds)
  have h0 : Agrees aes (p :: (ks ++ [k]).map some) ds (start lenFirst p (ks ++ [k]) ds) [] [] :=
    ⟨by show _ = [] ++ p :: (ptrs ((ks ++ [k]).flatMap (storesOf lenFirst))).map some; rw [ptrs_stores]; rfl, safe_stores lenFirst _ p _ h (fun hp => if_pos hp), List.Pairwise.nil, by simp,
      by simp [start, readings], by simp [start], by simp, trivial⟩
  obtain ⟨past, is, g⟩ := agrees_turns (first := first) before h0
  generalize turns aes first before (start lenFirst p (ks ++ [k]) ds) = s at hw hi g ⊢
  by_cases hd : s.dead = true
  · have stay : ∀ l : List Bool, turns aes first l s = s := by
      intro l
      induction l with
      | nil => rfl
      | cons a l ih => unfold turns; rw [if_pos hd]; exact ih
    exact ⟨0, by rw [stay after]; simp⟩
  · have hl : ∀ ks : List KeyIVs, (ks.flatMap (storesOf lenFirst)).length = 2 * ks.length := by
      intro ks
      induction ks with
      | nil => rfl
      | cons k ks ih => rw [List.flatMap_cons, List.length_append, ih]; cases lenFirst <;> simp [storesOf] <;> omega
    have hw2 : s.writes = [] := by
      rw [hw.resolve_left hd]
      apply List.drop_eq_nil_of_le
      show ((ks ++ [k]).flatMap (storesOf lenFirst)).length ≤ _
      rw [hl, List.length_append]
      exact hc
    have hp : s.ptr = some k := by
      have e := g.all_eq
      rw [hw2] at e
      have e2 := congrArg List.getLast? e
      rw [show p :: (ks ++ [k]).map some = (p :: ks.map some) ++ [some k] by simp, List.getLast?_append] at e2
      simpa [ptrs, List.getLast?_append] using e2.symm
    have hn : s.len = 2 := g.safe.now (by rw [hp]; rfl)
    have hs : s = { start lenFirst (some k) [] s.packets with out := s.out ++ (start lenFirst (some k) [] s.packets).out } := by
      obtain ⟨a1, a2, a3, a4, a5, a6, a7⟩ := s
      dsimp only at hp hn hw2 hi hd
      subst hp hn hw2 hi
      simp [start, hd]
    obtain ⟨is', -, b2, b3, -, b5⟩ := C136_whole_partial aes lenFirst first (some k) [] s.packets (Or.inr rfl) after
    refine ⟨is'.length, ?_⟩
    conv_lhs => rw [hs, turns_out]
    dsimp only
    rw [b5]
    congr 1
    clear b5 hs hsplit hw h0 g hi hn hp hw2
    generalize s.packets = q at b3 ⊢
    induction q generalizing is' with
    | nil => simp
    | cons d q ih =>
      cases is' with
      | nil => simp
      | cons i is' =>
        have : i = 0 := by simpa using b2 i (by simp)
        subst this
        simp only [List.zipWith_cons_cons, List.length_cons, List.take_succ_cons, List.map_cons]
        rw [ih is' (fun j hj => b2 j (by simp [hj])) (by simpa using b3)]
        rfl

/-- Two updates stored, a datagram read between them and one after them. -/
example : 2 * ([(⟨[1], [], [2], []⟩ : KeyIVs)].length + 1) ≤ [true, true, false, false, false, true, true].count true ∧
    (turns (fun k _ d => .ok (k ++ d)) true [true, true, false, false, false, true, true]
      (start true none ([⟨[1], [], [2], []⟩] ++ [⟨[3], [], [4], []⟩]) [(4, [8]), (4, [9])])).r.left = 0 ∧
    (turns (fun k _ d => .ok (k ++ d)) true ([true, true, false, false, false, true, true] ++ [false, false, false])
      (start true none ([⟨[1], [], [2], []⟩] ++ [⟨[3], [], [4], []⟩]) [(4, [8]), (4, [9])])).out = [.ok [2, 8], .ok [4, 9]] := by decide +kernel

/-- The key and initialisation vector that a datagram with these flags is deciphered with. -/
def half (k : KeyIVs) (flags : Byte) : List Byte × List Byte := if flags.getLsbD 2 then (k.oddKey, k.oddIV) else (k.evenKey, k.evenIV)

theorem plaintext_half {aes : List Byte → List Byte → List Byte → Res (List Byte)} {k k' : KeyIVs} {flags : Byte} (h : half k flags = half k' flags)
    (data : List Byte) : plaintext aes (some k) flags data = plaintext aes (some k') flags data := by
  unfold half at h
  unfold plaintext
  dsimp only
  by_cases hf : flags.getLsbD 2 = true
  · rw [if_pos hf, if_pos hf] at h ⊢
    rw [(Prod.mk.inj h).1, (Prod.mk.inj h).2]
  · rw [if_neg hf, if_neg hf] at h ⊢
    rw [(Prod.mk.inj h).1, (Prod.mk.inj h).2]

theorem kept_aux (k : KeyIVs) (ks : List KeyIVs) (hk : k.Ok) (sent : List (Byte × List Byte)) (hks : ∀ k' ∈ ks, ∀ d ∈ sent, half k' d.1 = half k d.1)
    (hs : ∀ d ∈ sent, d.2.length % 16 = 0) (is : List Nat) (h2 : ∀ i ∈ is, i ≤ ks.length) (h3 : is.length ≤ sent.length) :
    List.zipWith (fun (d : Datagram) i => plaintext Lib.Aes.decipherAES ((some k :: ks.map some)[i]?.join) d.1 d.2)
      (sent.map fun d => (d.1, sealed k d.1 d.2)) is = (sent.take is.length).map fun d => .ok d.2 := by
  induction sent generalizing is with
  | nil => simp
  | cons d sent ih =>
    cases is with
    | nil => simp
    | cons i is =>
      have hi : i ≤ ks.length := h2 i (by simp)
      have hd : plaintext Lib.Aes.decipherAES ((some k :: ks.map some)[i]?.join) d.1 (sealed k d.1 d.2) = .ok d.2 := by
        cases i with
        | zero => exact plaintext_sealed k hk d.1 d.2 (hs d (by simp))
        | succ i =>
          have e : (some k :: ks.map some)[i + 1]?.join = some ks[i] := by simp [List.getElem?_eq_getElem (show i < ks.length by omega)]
          rw [e, plaintext_half (hks _ (List.getElem_mem (by omega)) d (by simp))]
          exact plaintext_sealed k hk d.1 d.2 (hs d (by simp))
      have := ih (fun k' hk' d' hd' => hks k' hk' d' (by simp [hd'])) (fun d' hd' => hs d' (by simp [hd'])) is (fun j hj => h2 j (by simp [hj]))
        (by simpa using h3)
      simp only [List.map_cons, List.zipWith_cons_cons, List.length_cons, List.take_succ_cons, hd, this]

/-- Keys change one half at a time: datagrams enciphered with a half that no update replaces are received as sent, however updates and datagrams meet. -/
theorem C136_kept (lenFirst first : Bool) (k : KeyIVs) (ks : List KeyIVs) (sent : List (Byte × List Byte)) (hk : k.Ok)
    (hks : ∀ k' ∈ ks, ∀ d ∈ sent, half k' d.1 = half k d.1) (hs : ∀ d ∈ sent, d.2.length % 16 = 0) (l : List Bool) :
    ∃ n, (3 * sent.length ≤ l.count false → n = sent.length) ∧
      (turns Lib.Aes.decipherAES first l (start lenFirst (some k) ks (sent.map fun d => (d.1, sealed k d.1 d.2)))).out = (sent.take n).map fun d => .ok d.2 := by
  obtain ⟨is, -, h2, h3, h5, h4⟩ := C136_whole_partial Lib.Aes.decipherAES lenFirst first (some k) ks (sent.map fun d => (d.1, sealed k d.1 d.2)) (Or.inr rfl) l
  have key : (turns Lib.Aes.decipherAES first l (start lenFirst (some k) ks (sent.map fun d => (d.1, sealed k d.1 d.2)))).out =
      (sent.take is.length).map fun d => .ok d.2 := by
    rw [h4]
    clear h4 h5
    rw [List.length_map] at h3
    exact kept_aux k ks hk sent hks hs is h2 h3
  refine ⟨is.length, fun hc => ?_, key⟩
  rw [List.length_map] at h5
  rcases h5 hc with h | h
  · exact h
  · rw [key] at h
    obtain ⟨d, -, hd⟩ := List.mem_map.mp h
    cases hd

/-- False of the code: a datagram that overtakes the announcement of its keys is deciphered with the keys before. -/
theorem C136_overtakes_false : ∃ (k k' : KeyIVs) (flags : Byte) (plain : List Byte) (l : List Bool), k.Ok ∧ k'.Ok ∧ plain.length % 16 = 0 ∧
    ∃ other, other ≠ plain ∧ (turns Lib.Aes.decipherAES true l (start true (some k) [k'] [(flags, sealed k' flags plain)])).out = [.ok other] := by
  let k : KeyIVs := ⟨Lib.Aes.counting 16, Lib.Aes.counting 16, Lib.Aes.counting 16, Lib.Aes.counting 16⟩
  let k' : KeyIVs := ⟨Lib.Aes.counting 16, Lib.Aes.counting 16, Lib.Aes.exPlain, Lib.Aes.counting 16⟩
  have hk : k.Ok := ⟨Or.inl rfl, rfl, Or.inl rfl, rfl⟩
  have hk' : k'.Ok := ⟨Or.inl rfl, rfl, Or.inl rfl, rfl⟩
  have h : (match plaintext Lib.Aes.decipherAES (some k) 4 (sealed k' 4 Lib.Aes.exPlain) with
      | .ok d => decide (d ≠ Lib.Aes.exPlain) | _ => false) = true := by decide +kernel
  refine ⟨k, k', 4, Lib.Aes.exPlain, [false, false, false], hk, hk', rfl, ?_⟩
  cases hp : plaintext Lib.Aes.decipherAES (some k) 4 (sealed k' 4 Lib.Aes.exPlain) with
  | ok d =>
    rw [hp] at h
    refine ⟨d, of_decide_eq_true h, ?_⟩
    rw [← hp]
    exact congrArg (fun o => [o]) (use_two Lib.Aes.decipherAES (4, sealed k' 4 Lib.Aes.exPlain) (p := some k) rfl)
  | err => rw [hp] at h; cases h
  | panic => rw [hp] at h; cases h

/-- False of the code: an enciphered datagram that comes before the first announcement is taken for one that is not enciphered, whatever its contents. -/
theorem C136_plain_false (aes : List Byte → List Byte → List Byte → Res (List Byte)) (lenFirst first : Bool) (k : KeyIVs) (flags : Byte) (data : List Byte) :
    (turns aes first [false] (start lenFirst none [k] [(flags, data)])).out = [.ok data] := rfl

/-- False of the code: where the pointer is stored before the length, a datagram that meets the first announcement ends the program. -/
theorem C136_crash_false (aes : List Byte → List Byte → List Byte → Res (List Byte)) (first : Bool) (k : KeyIVs) (flags : Byte) (data : List Byte) :
    (turns aes first [true, false, false, false] (start false none [k] [(flags, data)])).out = [.panic] := by
  have h : cipherIndex flags ≥ 0 := Nat.zero_le _
  cases first <;> simp [turns, start, storesOf, commandTurn, dataTurn, St.finish, use]

/-- Two updates that replace the odd keys, and a datagram enciphered with the even ones that meets both. -/
example : ∃ ks : List KeyIVs, ks.length = 2 ∧ (∀ k' ∈ ks, ∀ d ∈ [((0 : Byte), Lib.Aes.exPlain)], half k' d.1 = half exKeys d.1) ∧
    ∀ k' ∈ ks, k'.oddKey ≠ exKeys.oddKey :=
  ⟨[{ exKeys with oddKey := [1] }, { exKeys with oddKey := [2] }], rfl, by decide +kernel, by decide +kernel⟩

/-- A datagram between the two stores of the first announcement, the length being stored first, is taken as it is; one after them is deciphered. -/
example : (turns (fun k _ d => .ok (k ++ d)) true [true, false, true, false, false, false] (start true none [⟨[1], [], [2], []⟩] [(0, [7]), (4, [8])])).out =
    [.ok [7], .ok [2, 8]] := by decide +kernel

end Verif.Session.KeyRotation
