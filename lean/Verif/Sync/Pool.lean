import Mathlib.Logic.Function.Basic

/-!
# The pool of measurement slices

Goroutines that receive data packets (the command channel and the data channel, DataSubscriber.go L801-877, L879-914) take slices from
`MeasurementPool`, fill them and hand pointers to them to the application (L1224-1263); the application gives them back by `PutMeasurementSlice`
(Subscriber.go L103-106). Arrays, pointers (`*[]Measurement`) and goroutines are numbered. One step is one operation on the pool, on a slice header or on
an element of an array. What the parsers write is given with the packet (see `Verif.Session`): element by element from the first on, and no more than
the slice holds.
-/

namespace Verif.Sync.Pool

open Function (update)

variable {α : Type}

/-- A slice that begins with its array. (DataSubscriber.go L1227, L1232, L1234; Subscriber.go L104) -/
structure Slice where
  arr : Nat
  len : Nat
  deriving DecidableEq

/-- A goroutine that processes data packets. (DataSubscriber.go L1224-1263) -/
inductive W (α : Type) where
  | idle
  /-- at `MeasurementPool.Get` for a packet of `count` measurements (L1226) -/
  | ask (ms : List α) (count : Nat)
  /-- has got pointer `c` from the pool (L1230) -/
  | got (c : Nat) (ms : List α) (count : Nat)
  /-- writes to the slice of `count` elements of array `a`, has written `k` (L1244-1248) -/
  | fill (c a : Nat) (ms : List α) (count k : Nat)
  deriving DecidableEq

/-- What the application has done with a pointer. (Subscriber.go L103-106) -/
inductive A where
  /-- nothing to do with it: not handed, or given back -/
  | away
  | held
  /-- within `PutMeasurementSlice`, between L104 and L105 -/
  | trimmed
  deriving DecidableEq

/-- Memory, pool, goroutines and the pointers the application has. (DataSubscriber.go L165) -/
structure St (α : Type) where
  heap : Nat → List α
  arrays : Nat
  cell : Nat → Slice
  cells : Nat
  pool : List Nat
  w : Nat → W α
  app : Nat → A

/-- Before the first packet. (DataSubscriber.go L172-203) -/
def init : St α := ⟨fun _ => [], 0, fun _ => ⟨0, 0⟩, 0, [], fun _ => .idle, fun _ => .away⟩

/-- What is seen through a pointer. (DataSubscriber.go L1258) -/
def St.view (s : St α) (c : Nat) : List α := (s.heap (s.cell c).arr).take (s.cell c).len

/-- The actions. (DataSubscriber.go L1224-1263, Subscriber.go L103-106) -/
inductive Act (α : Type) where
  /-- goroutine `i` receives a packet of `count` measurements, of which `ms` is going to be written -/
  | packet (i : Nat) (ms : List α) (count : Nat)
  /-- `Get` gives the pointer at a position of the pool, or nil, which it may do at any time -/
  | get (i : Nat) (p : Option Nat)
  /-- the test of the capacity and the assignment after it -/
  | size (i : Nat)
  /-- one measurement is written -/
  | write (i : Nat)
  /-- the callback is called with the pointer -/
  | hand (i : Nat)
  /-- there is no callback -/
  | discard (i : Nat)
  /-- `*m = (*m)[:0]` in `PutMeasurementSlice` -/
  | trim (c : Nat)
  /-- `Put` in `PutMeasurementSlice` -/
  | put (c : Nat)
  /-- the pool drops what is at a position, which it may do at any time -/
  | lose (p : Nat)
  /-- the application writes into a slice -/
  | use (c k : Nat) (v : α)

/-- A new array and a new pointer to it. (DataSubscriber.go L1227-1228) -/
def fresh (z : α) (s : St α) (i : Nat) (ms : List α) (count : Nat) : St α :=
  { s with heap := update s.heap s.arrays (List.replicate count z), arrays := s.arrays + 1, cell := update s.cell s.cells ⟨s.arrays, count⟩,
           cells := s.cells + 1, w := update s.w i (.fill s.cells s.arrays ms count 0) }

/-- `Get`. (DataSubscriber.go L1226-1230) -/
def stepGet (z : α) (s : St α) (i : Nat) (p : Option Nat) (ms : List α) (count : Nat) : Option (St α) :=
  match p with
  | none => some (fresh z s i ms count)
  | some p =>
    match s.pool[p]? with
    | none => none
    | some c => some { s with pool := s.pool.eraseIdx p, w := update s.w i (.got c ms count) }

/-- The test of the capacity. (DataSubscriber.go L1231-1235) -/
def stepSize (z : α) (s : St α) (i c : Nat) (ms : List α) (count : Nat) : St α :=
  if (s.heap (s.cell c).arr).length < count then
    { s with heap := update s.heap s.arrays (List.replicate count z), arrays := s.arrays + 1, cell := update s.cell c ⟨s.arrays, count⟩,
             w := update s.w i (.fill c s.arrays ms count 0) }
  else { s with cell := update s.cell c ⟨(s.cell c).arr, count⟩, w := update s.w i (.fill c (s.cell c).arr ms count 0) }

/-- One action, `none` when it is not possible; `z` is the zero measurement. (DataSubscriber.go L1224-1263, Subscriber.go L103-106) -/
def step (z : α) (s : St α) : Act α → Option (St α)
  | .packet i ms count =>
    match s.w i with
    | .idle => if ms.length ≤ count then some { s with w := update s.w i (.ask ms count) } else none
    | _ => none
  | .get i p =>
    match s.w i with
    | .ask ms count => stepGet z s i p ms count
    | _ => none
  | .size i =>
    match s.w i with
    | .got c ms count => some (stepSize z s i c ms count)
    | _ => none
  | .write i =>
    match s.w i with
    | .fill c a ms count k =>
      match ms[k]? with
      | none => none
      | some v => some { s with heap := update s.heap a ((s.heap a).set k v), w := update s.w i (.fill c a ms count (k + 1)) }
    | _ => none
  | .hand i =>
    match s.w i with
    | .fill c _ ms _ k => if k = ms.length then some { s with app := update s.app c .held, w := update s.w i .idle } else none
    | _ => none
  | .discard i =>
    match s.w i with
    | .fill _ _ ms _ k => if k = ms.length then some { s with w := update s.w i .idle } else none
    | _ => none
  | .trim c => some { s with cell := update s.cell c ⟨(s.cell c).arr, 0⟩, app := update s.app c .trimmed }
  | .put c => some { s with pool := c :: s.pool, app := update s.app c .away }
  | .lose p => some { s with pool := s.pool.eraseIdx p }
  | .use c k v => some { s with heap := update s.heap (s.cell c).arr ((s.heap (s.cell c).arr).set k v) }

/-- A schedule. (DataSubscriber.go L1224-1263, Subscriber.go L103-106) -/
def exec (z : α) (s : St α) : List (Act α) → Option (St α)
  | [] => some s
  | a :: as => (step z s a).bind (fun t => exec z t as)

end Verif.Sync.Pool
