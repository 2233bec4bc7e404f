/-!
# Model of `sttp/hashset/HashSet.go`

A `HashSet[T]` is a Go map with empty values (HashSet.go L34). It is modelled by the list of its
keys; the order of the list stands for the (arbitrary) iteration order of the map, and the theorems
hold for every such list without repetitions, hence for every iteration order.
Deleting keys while ranging over a Go map visits every remaining key once, so a `range` loop with
deletions is a fold over the keys present at its start.
A nil map and allocation sizes are not modelled, nor are element types whose `==` is no equality: for floating-point numbers see
`Verif.HashSet.Comparable`; an interface holding a slice panics.
-/

namespace Verif.HashSet

variable {T : Type} [DecidableEq T]

/-- HashSet.go L95-98 -/
def contains (hs : List T) (item : T) : Bool := hs.elem item

/-- Go's `delete(hs, item)`. (hashset/HashSet.go L57-65) -/
def delete (hs : List T) (item : T) : List T := hs.filter (fun k => decide (k ≠ item))

/-- HashSet.go L46-53 -/
def add (hs : List T) (item : T) : List T × Bool :=
  if contains hs item then (hs, false) else (item :: hs, true)

/-- HashSet.go L57-64 -/
def remove (hs : List T) (item : T) : List T × Bool :=
  if contains hs item then (delete hs item, true) else (hs, false)

/-- Loop body of HashSet.go L71-75: the set and the number removed so far. -/
def removeWhereBody (predicate : T → Bool) (s : List T × Nat) (k : T) : List T × Nat :=
  if predicate k then
    let r := remove s.1 k
    if r.2 then (r.1, s.2 + 1) else (r.1, s.2)
  else s

/-- HashSet.go L68-78 -/
def removeWhere (hs : List T) (predicate : T → Bool) : List T × Nat :=
  hs.foldl (removeWhereBody predicate) (hs, 0)

/-- HashSet.go L82-84 -/
def isEmpty (hs : List T) : Bool := hs.length == 0

/-- HashSet.go L87-91 -/
def clear (hs : List T) : List T := hs.foldl delete hs

/-- HashSet.go L115-119 -/
def exceptWith (hs other : List T) : List T := other.foldl delete hs

/-- HashSet.go L171-175 -/
def unionWith (hs other : List T) : List T := other.foldl (fun s v => (add s v).1) hs

/-- HashSet.go L38-42 -/
def newHashSet (items : List T) : List T := unionWith [] items

/-- HashSet.go L127-139 -/
def symmetricExceptWith (hs other : List T) : List T :=
  if isEmpty hs then unionWith hs other
  else other.foldl (fun s v =>
    let r := remove s v
    if !r.2 then (add r.1 v).1 else r.1) hs

/-- HashSet.go L152-168 -/
def intersectWithSet (hs other : List T) : List T :=
  if hs.length == 0 then hs
  else if other.length == 0 then clear hs
  else hs.foldl (fun s k => if !contains other k then (remove s k).1 else s) hs

/-- HashSet.go L147-149 -/
def intersectWith (hs other : List T) : List T := intersectWithSet hs (newHashSet other)

/-- HashSet.go L184-196. `SetEqualsSet` (L200-202) passes the other set's keys. -/
def setEquals (hs other : List T) : Bool :=
  if hs.length ≠ other.length then false else other.all (contains hs)

/-- HashSet.go L206-218. `OverlapsSet` (L222-224) passes the other set's keys. -/
def overlaps (hs other : List T) : Bool :=
  if isEmpty hs then false else other.any (contains hs)

/-- HashSet.go L234-252 -/
def isSubsetOfSet (hs other : List T) : Bool :=
  if isEmpty hs then true
  else if hs.length > other.length then false
  else hs.all (contains other)

/-- HashSet.go L228-230 -/
def isSubsetOf (hs other : List T) : Bool := isSubsetOfSet hs (newHashSet other)

/-- HashSet.go L262-280 -/
def isProperSubsetOfSet (hs other : List T) : Bool :=
  if isEmpty hs then decide (other.length > 0)
  else if hs.length ≥ other.length then false
  else hs.all (contains other)

/-- HashSet.go L256-258 -/
def isProperSubsetOf (hs other : List T) : Bool := isProperSubsetOfSet hs (newHashSet other)

/-- HashSet.go L284-302. `IsSupersetOfSet` (L306-308) passes the other set's keys. -/
def isSupersetOf (hs other : List T) : Bool :=
  if other.length == 0 then true
  else if other.length > hs.length then false
  else other.all (contains hs)

/-- HashSet.go L312-335. `IsProperSupersetOfSet` (L339-341) passes the other set's keys. -/
def isProperSupersetOf (hs other : List T) : Bool :=
  if isEmpty hs then true
  else if other.length == 0 then true
  else if other.length ≥ hs.length then false
  else other.all (contains hs)

/-- The mutating operations (HashSet.go L46-175). The `...Set` variants L122, L142, L178 call these with the
keys of the other set, i.e. with a list without repetitions. -/
inductive Op (T : Type) where
  | add (x : T)
  | remove (x : T)
  | removeWhere (p : T → Bool)
  | clear
  | unionWith (l : List T)
  | intersectWith (l : List T)
  | exceptWith (l : List T)
  | symmetricExceptWith (l : List T)

/-- Value returned by an operation: `bool` for Add/Remove, a count for RemoveWhere, nothing otherwise. (hashset/HashSet.go L38-340) -/
inductive Ret where
  | none
  | bool (b : Bool)
  | count (n : Nat)
  deriving DecidableEq

/-- One operation on the set (dispatch to the functions above). (hashset/HashSet.go L38-340) -/
def step (hs : List T) : Op T → List T × Ret
  | .add x => let r := add hs x; (r.1, .bool r.2)
  | .remove x => let r := remove hs x; (r.1, .bool r.2)
  | .removeWhere p => let r := removeWhere hs p; (r.1, .count r.2)
  | .clear => (clear hs, .none)
  | .unionWith l => (unionWith hs l, .none)
  | .intersectWith l => (intersectWith hs l, .none)
  | .exceptWith l => (exceptWith hs l, .none)
  | .symmetricExceptWith l => (symmetricExceptWith hs l, .none)

/-- A history of operations, collecting the returned values. (hashset/HashSet.go L38-340) -/
def run (hs : List T) : List (Op T) → List T × List Ret
  | [] => (hs, [])
  | op :: ops =>
    let r := step hs op
    let rest := run r.1 ops
    (rest.1, r.2 :: rest.2)

end Verif.HashSet
