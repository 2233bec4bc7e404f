import Verif.Common.Text
import Verif.Format.Props
import Verif.Meta.SignalRef
import Verif.Table.SelectProps

/-!
# C60, C66: metadata records and adjusted values (transport/DataSubscriber.go L282-318, L380; sttp/Subscriber.go L543-609)

One goroutine at a time; concurrent look-ups are the subject of `Verif.Sync.Registry`. A record is changed through the pointer the
registry holds.
-/

set_option linter.dupNamespace false

namespace Verif.Meta

open Verif.Expr Verif.Table Text

variable {P : Prim}

/-- `MeasurementMetadata` (MeasurementMetadata.go L36-66); the signal ID is the key it is registered with. -/
structure Record (P : Prim) where
  adder : P.Flt
  multiplier : P.Flt
  id : Nat := 0
  source : Str := []
  signalType : Str := []
  signalReference : Str := []
  description : Str := []
  updatedOn : P.Time
  tag : Str := []

/-- `measurementRegistry` (DataSubscriber.go L153). -/
abbrev Registry (P : Prim) := Guid.Guid → Option (Record P)

/-- The new record of `LookupMetadata` (L291-294): multiplier 1, all else the zero value. -/
def fresh (P : Prim) : Record P := { adder := P.fltOfInt 0, multiplier := P.fltOfInt 1, updatedOn := P.timeZero }

/-- `LookupMetadata` (L284-298): the registry afterwards and the record. -/
def lookup (reg : Registry P) (g : Guid.Guid) : Registry P × Record P :=
  match reg g with
  | some m => (reg, m)
  | none => (Function.update reg g (some (fresh P)), fresh P)

/-- Changing the record of a signal through its pointer. (DataSubscriber.go L284-301) -/
def store (reg : Registry P) (g : Guid.Guid) (m : Record P) : Registry P := Function.update reg g (some m)

/-- `AdjustedValue` (L308-318). Go may compute a fused multiply-add where the processor has one. -/
def adjustedValue (reg : Registry P) (g : Guid.Guid) (value : P.Flt) : P.Flt :=
  match reg g with
  | some m => P.fltAdd (P.fltMul value m.multiplier) m.adder
  | none => value

/-! ### Loading received metadata -/

/-- `ColumnIndex` (DataTable.go L101-109). -/
def columnIndex (t : Table P) (name : String) : Int :=
  match t.columnByName (lit name) with
  | some c => c.index
  | none => -1

/-- `s, _, _ := row.StringValue(i)` (Subscriber.go L543-609) -/
def textOf (t : Table P) (depth : Nat) (r : Row P) (i : Int) : Res Str := do
  match ← hasValue (r.get (r.column t depth) t .string i) with
  | some (.string s) => return s
  | _ => return []

/-- `d, _, _ := row.DateTimeValue(i)` (Subscriber.go L543-609) -/
def timeOf (t : Table P) (depth : Nat) (r : Row P) (i : Int) : Res P.Time := do
  match ← hasValue (r.get (r.column t depth) t .dateTime i) with
  | some (.dateTime d) => return d
  | _ => return P.timeZero

/-- Parsing a measurement key (Subscriber.go L574-580). -/
def setKey (m : Record P) (key : Str) : Record P :=
  match split 58#8 key with
  | [source, id] => { m with source := source, id := uintOrZero id }
  | _ => m

/-- Changing the record by a text when its column exists (L573-597). -/
def withText (t : Table P) (depth : Nat) (r : Row P) (i : Int) (m : Record P) (f : Record P → Str → Record P) : Res (Record P) :=
  if i > -1 then do return f m (← textOf t depth r i) else .ok m

/-- Changing the time of the last update when its column exists (L599-601). -/
def withTime (t : Table P) (depth : Nat) (r : Row P) (i : Int) (m : Record P) : Res (Record P) :=
  if i > -1 then do return { m with updatedOn := ← timeOf t depth r i } else .ok m

/-- The changes of a record by a row (L573-601). -/
def fill (t : Table P) (depth : Nat) (r : Row P) (m : Record P) : Res (Record P) := do
  let m ← withText t depth r (columnIndex t "ID") m setKey
  let m ← withText t depth r (columnIndex t "PointTag") m fun m s => { m with tag := s }
  let m ← withText t depth r (columnIndex t "SignalReference") m fun m s => { m with signalReference := s }
  let m ← withText t depth r (columnIndex t "SignalAcronym") m fun m s => { m with signalType := s }
  let m ← withText t depth r (columnIndex t "Description") m fun m s => { m with description := s }
  withTime t depth r (columnIndex t "UpdatedOn") m

/-- One pass of the loop (L558-602): the signal ID must be there. -/
def loadRow (t : Table P) (depth : Nat) (reg : Registry P) (r : Row P) : Res (Registry P) := do
  match ← hasValue (r.get (r.column t depth) t .guid (columnIndex t "SignalID")) with
  | some (.guid g) =>
    return store (lookup reg g).1 g (← fill t depth r (lookup reg g).2)
  | _ => return reg

/-- The loop (L558-602). -/
def loadRows (t : Table P) (depth : Nat) : List (Option (Row P)) → Registry P → Res (Registry P)
  | [], reg => .ok reg
  | none :: rows, reg => loadRows t depth rows reg
  | some r :: rows, reg => do
    let reg ← loadRow t depth reg r
    loadRows t depth rows reg

/-- `loadMeasurementMetadata` (L543-609), given the table "MeasurementDetail". -/
def load (depth : Nat) (t : Option (Table P)) (reg : Registry P) : Res (Registry P) :=
  match t with
  | none => .ok reg
  | some t => if columnIndex t "SignalID" > -1 then loadRows t depth t.rows reg else .ok reg

/-! ### C60 -/

/-- What happens to the registry. (DataSubscriber.go L284-301, Subscriber.go L543-609) -/
inductive Op (P : Prim) where
  /-- `LookupMetadata`, `Metadata` -/
  | lookup (g : Guid.Guid)
  /-- the user assigns `Adder` and `Multiplier` of `LookupMetadata(g)` -/
  | assign (g : Guid.Guid) (adder multiplier : P.Flt)
  /-- metadata is received -/
  | receive (t : Option (Table P))
  /-- `setupConnection` (DataSubscriber.go L370-381) -/
  | connect

/-- The effect of an operation. (DataSubscriber.go L284-301, Subscriber.go L543-609) -/
def Op.run (depth : Nat) (reg : Registry P) : Op P → Res (Registry P)
  | .lookup g => .ok (Meta.lookup reg g).1
  | .assign g a m => .ok (store (Meta.lookup reg g).1 g { (Meta.lookup reg g).2 with adder := a, multiplier := m })
  | .receive t => load depth t reg
  | .connect => .ok fun _ => none

/-- A history, from an empty registry. (DataSubscriber.go L284-301, Subscriber.go L543-609) -/
def runAll (depth : Nat) : List (Op P) → Registry P → Res (Registry P)
  | [], reg => .ok reg
  | o :: os, reg => o.run depth reg >>= runAll depth os

/-- The signal ID of a row is read as `g`. -/
def RowHas (t : Table P) (depth : Nat) (r : Row P) (g : Guid.Guid) : Prop :=
  r.get (r.column t depth) t .guid (columnIndex t "SignalID") = .ok (some (.guid g))

/-- The operation concerns the signal. -/
def Mentions (depth : Nat) (g : Guid.Guid) : Op P → Prop
  | .lookup h => h = g
  | .assign h _ _ => h = g
  | .receive (some t) => columnIndex t "SignalID" > -1 ∧ ∃ r ∈ present? t.rows, RowHas t depth r g
  | .receive none => False
  | .connect => False

theorem withText_keeps {t : Table P} {depth : Nat} {r : Row P} {i : Int} {m m' : Record P} {f : Record P → Str → Record P}
    (hf : ∀ m s, (f m s).adder = m.adder ∧ (f m s).multiplier = m.multiplier) (h : withText t depth r i m f = .ok m') :
    m'.adder = m.adder ∧ m'.multiplier = m.multiplier := by
  unfold withText at h
  split at h
  · obtain ⟨s, -, h⟩ := Res.bind_eq_ok.mp h
    injection h with h; subst h
    exact hf m s
  · injection h with h; subst h; exact ⟨rfl, rfl⟩

theorem withTime_keeps {t : Table P} {depth : Nat} {r : Row P} {i : Int} {m m' : Record P} (h : withTime t depth r i m = .ok m') :
    m'.adder = m.adder ∧ m'.multiplier = m.multiplier := by
  unfold withTime at h
  split at h
  · obtain ⟨s, -, h⟩ := Res.bind_eq_ok.mp h
    injection h with h; subst h
    exact ⟨rfl, rfl⟩
  · injection h with h; subst h; exact ⟨rfl, rfl⟩

theorem setKey_keeps (m : Record P) (s : Str) : (setKey m s).adder = m.adder ∧ (setKey m s).multiplier = m.multiplier := by
  unfold setKey
  split <;> exact ⟨rfl, rfl⟩

theorem fill_keeps {t : Table P} {depth : Nat} {r : Row P} {m m' : Record P} (h : fill t depth r m = .ok m') :
    m'.adder = m.adder ∧ m'.multiplier = m.multiplier := by
  unfold fill at h
  obtain ⟨m1, h1, h⟩ := Res.bind_eq_ok.mp h
  obtain ⟨m2, h2, h⟩ := Res.bind_eq_ok.mp h
  obtain ⟨m3, h3, h⟩ := Res.bind_eq_ok.mp h
  obtain ⟨m4, h4, h⟩ := Res.bind_eq_ok.mp h
  obtain ⟨m5, h5, h⟩ := Res.bind_eq_ok.mp h
  have e1 := withText_keeps setKey_keeps h1
  have e2 := withText_keeps (f := fun m s => { m with tag := s }) (fun _ _ => ⟨rfl, rfl⟩) h2
  have e3 := withText_keeps (f := fun m s => { m with signalReference := s }) (fun _ _ => ⟨rfl, rfl⟩) h3
  have e4 := withText_keeps (f := fun m s => { m with signalType := s }) (fun _ _ => ⟨rfl, rfl⟩) h4
  have e5 := withText_keeps (f := fun m s => { m with description := s }) (fun _ _ => ⟨rfl, rfl⟩) h5
  have e6 := withTime_keeps h
  exact ⟨by rw [e6.1, e5.1, e4.1, e3.1, e2.1, e1.1], by rw [e6.2, e5.2, e4.2, e3.2, e2.2, e1.2]⟩

/-- Adder and multiplier of a signal, when it is registered. -/
def factors (reg : Registry P) (g : Guid.Guid) : Option (P.Flt × P.Flt) := (reg g).map fun m => (m.multiplier, m.adder)

theorem adjusted_of_factors (reg : Registry P) (g : Guid.Guid) (v : P.Flt) :
    adjustedValue reg g v = match factors reg g with
      | some (m, a) => P.fltAdd (P.fltMul v m) a
      | none => v := by
  unfold adjustedValue factors
  cases reg g <;> rfl

/-- A registered signal keeps its factors, one that is not gets multiplier 1 and adder 0. -/
def seen (x : Option (P.Flt × P.Flt)) : Option (P.Flt × P.Flt) := some (x.getD (P.fltOfInt 1, P.fltOfInt 0))

theorem lookup_factors (reg : Registry P) (g h : Guid.Guid) :
    factors (lookup reg g).1 h = if h = g then seen (factors reg h) else factors reg h := by
  unfold lookup factors seen
  cases hg : reg g with
  | some m =>
    by_cases e : h = g
    · subst e; simp [hg]
    · simp [e]
  | none =>
    by_cases e : h = g
    · subst e; simp [hg, fresh]
    · simp [e]

theorem loadRow_factors {t : Table P} {depth : Nat} {reg reg' : Registry P} {r : Row P} (h : loadRow t depth reg r = .ok reg')
    (g : Guid.Guid) : (RowHas t depth r g → factors reg' g = seen (factors reg g)) ∧ (¬ RowHas t depth r g → factors reg' g = factors reg g) := by
  unfold loadRow at h
  obtain ⟨o, ho, h⟩ := Res.bind_eq_ok.mp h
  have key : ∀ k, RowHas t depth r k ↔ o = some (.guid k) := by
    intro k
    unfold RowHas
    unfold hasValue at ho
    cases hx : r.get (r.column t depth) t .guid (columnIndex t "SignalID") with
    | ok v => rw [hx] at ho; injection ho with ho; subst ho; simp
    | err => rw [hx] at ho; injection ho with ho; subst ho; simp
    | panic => rw [hx] at ho; cases ho
  have skip : (∀ k, o ≠ some (.guid k)) → reg' = reg → (RowHas t depth r g → factors reg' g = seen (factors reg g)) ∧
      (¬ RowHas t depth r g → factors reg' g = factors reg g) := by
    intro hk e
    subst e
    exact ⟨fun hr => absurd ((key g).mp hr) (hk g), fun _ => rfl⟩
  cases o with
  | none => injection h with h; exact skip (by simp) h.symm
  | some c =>
    cases c with
    | guid k =>
      obtain ⟨m', hm, h⟩ := Res.bind_eq_ok.mp h
      injection h with h; subst h
      have hkeep := fill_keeps hm
      have hl : factors (store (lookup reg k).1 k m') g = if g = k then some ((lookup reg k).2.multiplier, (lookup reg k).2.adder)
          else factors (lookup reg k).1 g := by
        unfold factors store
        by_cases e : g = k
        · subst e; simp [hkeep]
        · simp [e]
      have h2 : some ((lookup reg k).2.multiplier, (lookup reg k).2.adder) = seen (factors reg k) := by
        unfold lookup seen factors
        cases hk : reg k <;> simp [fresh]
      rw [hl, lookup_factors]
      constructor
      · intro hr
        have := (key g).mp hr
        injection this with this
        injection this with this
        subst this
        simp [h2]
      · intro hr
        have : g ≠ k := fun e => hr ((key g).mpr (by rw [e]))
        simp [this]
    | _ => injection h with h; exact skip (by simp) h.symm

theorem seen_seen (x : Option (P.Flt × P.Flt)) : seen (seen x) = seen x := rfl

theorem loadRows_factors {t : Table P} {depth : Nat} {rows : List (Option (Row P))} {reg reg' : Registry P}
    (h : loadRows t depth rows reg = .ok reg') (g : Guid.Guid) :
    ((∃ r ∈ present? rows, RowHas t depth r g) → factors reg' g = seen (factors reg g)) ∧
    ((¬ ∃ r ∈ present? rows, RowHas t depth r g) → factors reg' g = factors reg g) := by
  induction rows generalizing reg with
  | nil => injection h with h; subst h; simp [present?]
  | cons row rows ih =>
    cases row with
    | none => exact ih h
    | some r =>
      obtain ⟨reg1, h1, h⟩ := Res.bind_eq_ok.mp h
      have e1 := loadRow_factors h1 g
      have e2 := ih h
      have hp : ∀ x, x ∈ present? (some r :: rows) ↔ x = r ∨ x ∈ present? rows := by intro x; simp [present?]
      by_cases hr : RowHas t depth r g
      · refine ⟨fun _ => ?_, fun hn => absurd ⟨r, (hp r).mpr (.inl rfl), hr⟩ hn⟩
        by_cases hrs : ∃ r ∈ present? rows, RowHas t depth r g
        · rw [e2.1 hrs, e1.1 hr, seen_seen]
        · rw [e2.2 hrs, e1.1 hr]
      · constructor
        · rintro ⟨x, hx, hg⟩
          rcases (hp x).mp hx with rfl | hx
          · exact absurd hg hr
          · rw [e2.1 ⟨x, hx, hg⟩, e1.2 hr]
        · intro hn
          rw [e2.2 (fun ⟨x, hx, hg⟩ => hn ⟨x, (hp x).mpr (.inr hx), hg⟩), e1.2 hr]

/-- An operation that neither assigns to the signal nor starts a connection. -/
def Quiet (g : Guid.Guid) : Op P → Prop
  | .assign h _ _ => h ≠ g
  | .connect => False
  | _ => True

theorem run_quiet {depth : Nat} {reg reg' : Registry P} {o : Op P} {g : Guid.Guid} (hq : Quiet g o) (h : o.run depth reg = .ok reg') :
    (Mentions depth g o → factors reg' g = seen (factors reg g)) ∧ (¬ Mentions depth g o → factors reg' g = factors reg g) := by
  cases o with
  | lookup k =>
    injection h with h; subst h
    rw [lookup_factors]
    constructor
    · intro e; rw [if_pos (Eq.symm e)]
    · intro e; rw [if_neg (fun e' => e e'.symm)]
  | assign k a m =>
    injection h with h; subst h
    have hk : g ≠ k := fun e => hq e.symm
    have : factors (store (lookup reg k).1 k { (lookup reg k).2 with adder := a, multiplier := m }) g = factors (lookup reg k).1 g := by
      unfold factors store
      rw [Function.update_of_ne hk]
    rw [this, lookup_factors, if_neg hk]
    exact ⟨fun e => absurd e hq, fun _ => rfl⟩
  | receive t =>
    cases t with
    | none => injection h with h; subst h; exact ⟨fun e => absurd e id, fun _ => rfl⟩
    | some t =>
      simp only [Op.run, load] at h
      split at h
      · rename_i hc
        have := loadRows_factors h g
        exact ⟨fun e => this.1 e.2, fun e => this.2 fun hr => e ⟨hc, hr⟩⟩
      · rename_i hc
        injection h with h; subst h
        exact ⟨fun e => absurd e.1 hc, fun _ => rfl⟩
  | connect => exact absurd hq id

theorem runAll_quiet {depth : Nat} {os : List (Op P)} {reg reg' : Registry P} {g : Guid.Guid} (hq : ∀ o ∈ os, Quiet g o)
    (h : runAll depth os reg = .ok reg') :
    ((∃ o ∈ os, Mentions depth g o) → factors reg' g = seen (factors reg g)) ∧
    ((¬ ∃ o ∈ os, Mentions depth g o) → factors reg' g = factors reg g) := by
  induction os generalizing reg with
  | nil => injection h with h; subst h; simp
  | cons o os ih =>
    obtain ⟨reg1, h1, h⟩ := Res.bind_eq_ok.mp h
    have e1 := run_quiet (hq o (by simp)) h1
    have e2 := ih (fun o ho => hq o (by simp [ho])) h
    by_cases hm : Mentions depth g o
    · refine ⟨fun _ => ?_, fun hn => absurd ⟨o, by simp, hm⟩ hn⟩
      by_cases hr : ∃ o ∈ os, Mentions depth g o
      · rw [e2.1 hr, e1.1 hm, seen_seen]
      · rw [e2.2 hr, e1.1 hm]
    · constructor
      · rintro ⟨x, hx, hg⟩
        rcases List.mem_cons.mp hx with rfl | hx
        · exact absurd hg hm
        · rw [e2.1 ⟨x, hx, hg⟩, e1.2 hm]
      · intro hn
        rw [e2.2 (fun ⟨x, hx, hg⟩ => hn ⟨x, by simp [hx], hg⟩), e1.2 hm]

theorem runAll_append {depth : Nat} (a b : List (Op P)) (reg : Registry P) :
    runAll depth (a ++ b) reg = runAll depth a reg >>= runAll depth b := by
  induction a generalizing reg with
  | nil => rfl
  | cons o a ih =>
    show (o.run depth reg >>= fun reg => runAll depth (a ++ b) reg) = (o.run depth reg >>= runAll depth a) >>= runAll depth b
    cases o.run depth reg with
    | ok reg => exact ih reg
    | err => rfl
    | panic => rfl

/-- C60: after any history, the adjusted value of a signal whose factors were last assigned as given, on the present connection, is
value times multiplier plus adder; metadata received later does not change them. -/
theorem C60_assigned (depth : Nat) (before after : List (Op P)) (g : Guid.Guid) (a m : P.Flt) (reg : Registry P)
    (h : runAll depth (before ++ .assign g a m :: after) (fun _ => none) = .ok reg) (hq : ∀ o ∈ after, Quiet g o) (v : P.Flt) :
    adjustedValue reg g v = P.fltAdd (P.fltMul v m) a := by
  rw [runAll_append] at h
  obtain ⟨reg1, -, h⟩ := Res.bind_eq_ok.mp h
  obtain ⟨reg2, h2, h⟩ := Res.bind_eq_ok.mp h
  injection h2 with h2; subst h2
  have e := runAll_quiet hq h
  have hs : factors (store (lookup reg1 g).1 g { (lookup reg1 g).2 with adder := a, multiplier := m }) g = some (m, a) := by
    simp [factors, store]
  have : factors reg g = some (m, a) := by
    by_cases hr : ∃ o ∈ after, Mentions depth g o
    · rw [e.1 hr, hs]; rfl
    · rw [e.2 hr, hs]
  rw [adjusted_of_factors, this]

/-- C60: a signal whose factors were not assigned since the connection began has the value itself when it was never looked up nor
received in metadata, and value times 1 plus 0 otherwise. -/
theorem C60_unassigned (depth : Nat) (before after : List (Op P)) (g : Guid.Guid) (reg : Registry P)
    (h : runAll depth (before ++ .connect :: after) (fun _ => none) = .ok reg) (hq : ∀ o ∈ after, Quiet g o) (v : P.Flt) :
    ((¬ ∃ o ∈ after, Mentions depth g o) → adjustedValue reg g v = v) ∧
    ((∃ o ∈ after, Mentions depth g o) → adjustedValue reg g v = P.fltAdd (P.fltMul v (P.fltOfInt 1)) (P.fltOfInt 0)) := by
  rw [runAll_append] at h
  obtain ⟨reg1, -, h⟩ := Res.bind_eq_ok.mp h
  obtain ⟨reg2, h2, h⟩ := Res.bind_eq_ok.mp h
  injection h2 with h2; subst h2
  have e := runAll_quiet hq h
  constructor
  · intro hn
    rw [adjusted_of_factors, e.2 hn]
    rfl
  · intro hm
    rw [adjusted_of_factors, e.1 hm]
    rfl

/-- C60: so the raw value is returned, for every value that times 1 plus 0 is itself (all floats but the negative zero). -/
theorem C60_raw (depth : Nat) (before after : List (Op P)) (g : Guid.Guid) (reg : Registry P)
    (h : runAll depth (before ++ .connect :: after) (fun _ => none) = .ok reg) (hq : ∀ o ∈ after, Quiet g o) (v : P.Flt)
    (hv : P.fltAdd (P.fltMul v (P.fltOfInt 1)) (P.fltOfInt 0) = v) : adjustedValue reg g v = v := by
  have := C60_unassigned depth before after g reg h hq v
  by_cases hm : ∃ o ∈ after, Mentions depth g o
  · rw [this.2 hm, hv]
  · exact this.1 hm

/-! ### C66: what received metadata leaves in the registry -/

/-- The text of a column of a row, empty when the value is null or of another type. -/
def Reads (t : Table P) (depth : Nat) (r : Row P) (name : String) (s : Str) : Prop := textOf t depth r (columnIndex t name) = .ok s

theorem withText_field {t : Table P} {depth : Nat} {r : Row P} {i : Int} {m m' : Record P} {f : Record P → Str → Record P}
    (h : withText t depth r i m f = .ok m') : (i > -1 → ∃ s, textOf t depth r i = .ok s ∧ m' = f m s) ∧ (¬ i > -1 → m' = m) := by
  unfold withText at h
  split at h
  · rename_i hi
    obtain ⟨s, hs, h⟩ := Res.bind_eq_ok.mp h
    injection h with h
    exact ⟨fun _ => ⟨s, hs, h.symm⟩, fun hn => absurd hi hn⟩
  · rename_i hi
    injection h with h
    exact ⟨fun hn => absurd hn hi, fun _ => h.symm⟩

theorem withTime_field {t : Table P} {depth : Nat} {r : Row P} {i : Int} {m m' : Record P} (h : withTime t depth r i m = .ok m') :
    (i > -1 → ∃ d, timeOf t depth r i = .ok d ∧ m' = { m with updatedOn := d }) ∧ (¬ i > -1 → m' = m) := by
  unfold withTime at h
  split at h
  · rename_i hi
    obtain ⟨s, hs, h⟩ := Res.bind_eq_ok.mp h
    injection h with h
    exact ⟨fun _ => ⟨s, hs, h.symm⟩, fun hn => absurd hi hn⟩
  · rename_i hi
    injection h with h
    exact ⟨fun hn => absurd hn hi, fun _ => h.symm⟩

/-- What a row gives the record of its signal. -/
structure Given (t : Table P) (depth : Nat) (r : Row P) (m : Record P) : Prop where
  tag : columnIndex t "PointTag" > -1 → Reads t depth r "PointTag" m.tag
  reference : columnIndex t "SignalReference" > -1 → Reads t depth r "SignalReference" m.signalReference
  type : columnIndex t "SignalAcronym" > -1 → Reads t depth r "SignalAcronym" m.signalType
  description : columnIndex t "Description" > -1 → Reads t depth r "Description" m.description
  updated : columnIndex t "UpdatedOn" > -1 → timeOf t depth r (columnIndex t "UpdatedOn") = .ok m.updatedOn
  key : columnIndex t "ID" > -1 → ∀ source n, 58#8 ∉ source → n < 2 ^ 64 → Reads t depth r "ID" (source ++ 58#8 :: Format.decimal n) →
    m.source = source ∧ m.id = n

theorem uint_decimal (n : Nat) (h : n < 2 ^ 64) : uintOrZero (Format.decimal n) = n := by
  unfold uintOrZero
  rw [parse_decimal n h]

theorem setKey_eq (m : Record P) (source : Str) (n : Nat) (hs : 58#8 ∉ source) (hn : n < 2 ^ 64) :
    setKey m (source ++ 58#8 :: Format.decimal n) = { m with source := source, id := n } := by
  have hc : 58#8 ∉ Format.decimal n := by
    intro h
    have := Format.decimal_digits n _ h
    revert this; decide
  unfold setKey
  rw [split_append, split_clean_eq hs, split_clean_eq hc]
  show { m with source := source, id := uintOrZero (Format.decimal n) } = _
  rw [uint_decimal n hn]

theorem split_length (sep : Byte) (s : Str) : (split sep s).length = s.count sep + 1 := by
  induction s with
  | nil => rfl
  | cons b s ih =>
    unfold split
    by_cases hb : b = sep
    · rw [if_pos hb, List.length_cons, ih, hb, List.count_cons_self]
    · rw [if_neg hb, List.count_cons_of_ne hb]
      cases hs : split sep s with
      | nil => rw [hs] at ih; simp at ih
      | cons p ps => rw [hs] at ih; simpa using ih

/-- **A key without exactly one colon is ignored**: the record keeps its source and number. -/
theorem C66_key_ignored (m : Record P) (key : Str) (h : key.count 58#8 ≠ 1) : setKey m key = m := by
  have hl := split_length 58#8 key
  unfold setKey
  split
  · rename_i heq
    rw [heq] at hl
    simp at hl
    omega
  · rfl

example (m : Record P) : setKey m (lit "A:B:1") = m := C66_key_ignored m _ (by decide)

theorem fill_given {t : Table P} {depth : Nat} {r : Row P} {m m' : Record P} (h : fill t depth r m = .ok m') : Given t depth r m' := by
  unfold fill at h
  obtain ⟨m1, h1, h⟩ := Res.bind_eq_ok.mp h
  obtain ⟨m2, h2, h⟩ := Res.bind_eq_ok.mp h
  obtain ⟨m3, h3, h⟩ := Res.bind_eq_ok.mp h
  obtain ⟨m4, h4, h⟩ := Res.bind_eq_ok.mp h
  obtain ⟨m5, h5, h⟩ := Res.bind_eq_ok.mp h
  have f1 := withText_field h1
  have f2 := withText_field h2
  have f3 := withText_field h3
  have f4 := withText_field h4
  have f5 := withText_field h5
  have f6 := withTime_field h
  -- each later step keeps the fields set before it
  have k6 : m'.tag = m5.tag ∧ m'.signalReference = m5.signalReference ∧ m'.signalType = m5.signalType ∧ m'.description = m5.description ∧
      m'.source = m5.source ∧ m'.id = m5.id := by
    by_cases hi : columnIndex t "UpdatedOn" > -1
    · obtain ⟨d, -, rfl⟩ := f6.1 hi; exact ⟨rfl, rfl, rfl, rfl, rfl, rfl⟩
    · rw [f6.2 hi]; exact ⟨rfl, rfl, rfl, rfl, rfl, rfl⟩
  have k5 : m5.tag = m4.tag ∧ m5.signalReference = m4.signalReference ∧ m5.signalType = m4.signalType ∧ m5.source = m4.source ∧ m5.id = m4.id := by
    by_cases hi : columnIndex t "Description" > -1
    · obtain ⟨d, -, rfl⟩ := f5.1 hi; exact ⟨rfl, rfl, rfl, rfl, rfl⟩
    · rw [f5.2 hi]; exact ⟨rfl, rfl, rfl, rfl, rfl⟩
  have k4 : m4.tag = m3.tag ∧ m4.signalReference = m3.signalReference ∧ m4.source = m3.source ∧ m4.id = m3.id := by
    by_cases hi : columnIndex t "SignalAcronym" > -1
    · obtain ⟨d, -, rfl⟩ := f4.1 hi; exact ⟨rfl, rfl, rfl, rfl⟩
    · rw [f4.2 hi]; exact ⟨rfl, rfl, rfl, rfl⟩
  have k3 : m3.tag = m2.tag ∧ m3.source = m2.source ∧ m3.id = m2.id := by
    by_cases hi : columnIndex t "SignalReference" > -1
    · obtain ⟨d, -, rfl⟩ := f3.1 hi; exact ⟨rfl, rfl, rfl⟩
    · rw [f3.2 hi]; exact ⟨rfl, rfl, rfl⟩
  have k2 : m2.source = m1.source ∧ m2.id = m1.id := by
    by_cases hi : columnIndex t "PointTag" > -1
    · obtain ⟨d, -, rfl⟩ := f2.1 hi; exact ⟨rfl, rfl⟩
    · rw [f2.2 hi]; exact ⟨rfl, rfl⟩
  constructor
  · intro hi
    obtain ⟨s, hs, e⟩ := f2.1 hi
    rw [k6.1, k5.1, k4.1, k3.1, e]
    exact hs
  · intro hi
    obtain ⟨s, hs, e⟩ := f3.1 hi
    rw [k6.2.1, k5.2.1, k4.2.1, e]
    exact hs
  · intro hi
    obtain ⟨s, hs, e⟩ := f4.1 hi
    rw [k6.2.2.1, k5.2.2.1, e]
    exact hs
  · intro hi
    obtain ⟨s, hs, e⟩ := f5.1 hi
    rw [k6.2.2.2.1, e]
    exact hs
  · intro hi
    obtain ⟨s, hs, e⟩ := f6.1 hi
    rw [e]
    exact hs
  · intro hi source n hs hn hread
    obtain ⟨s, hs', e⟩ := f1.1 hi
    have hread : textOf t depth r (columnIndex t "ID") = .ok (source ++ 58#8 :: Format.decimal n) := hread
    rw [hread] at hs'
    injection hs' with hs'
    subst hs'
    rw [setKey_eq m source n hs hn] at e
    rw [k6.2.2.2.2.1, k6.2.2.2.2.2, k5.2.2.2.1, k5.2.2.2.2, k4.2.2.1, k4.2.2.2, k3.2.1, k3.2.2, k2.1, k2.2, e]
    exact ⟨rfl, rfl⟩

theorem loadRow_record {t : Table P} {depth : Nat} {reg reg' : Registry P} {r : Row P} (h : loadRow t depth reg r = .ok reg')
    (g : Guid.Guid) : (RowHas t depth r g → ∃ m, reg' g = some m ∧ Given t depth r m) ∧ (¬ RowHas t depth r g → reg' g = reg g) := by
  unfold loadRow at h
  obtain ⟨o, ho, h⟩ := Res.bind_eq_ok.mp h
  have key : ∀ k, RowHas t depth r k ↔ o = some (.guid k) := by
    intro k
    unfold RowHas
    unfold hasValue at ho
    cases hx : r.get (r.column t depth) t .guid (columnIndex t "SignalID") with
    | ok v => rw [hx] at ho; injection ho with ho; subst ho; simp
    | err => rw [hx] at ho; injection ho with ho; subst ho; simp
    | panic => rw [hx] at ho; cases ho
  have skip : (∀ k, o ≠ some (.guid k)) → reg' = reg → (RowHas t depth r g → ∃ m, reg' g = some m ∧ Given t depth r m) ∧
      (¬ RowHas t depth r g → reg' g = reg g) := by
    intro hk e
    subst e
    exact ⟨fun hr => absurd ((key g).mp hr) (hk g), fun _ => rfl⟩
  cases o with
  | none => injection h with h; exact skip (by simp) h.symm
  | some c =>
    cases c with
    | guid k =>
      obtain ⟨m', hm, h⟩ := Res.bind_eq_ok.mp h
      injection h with h; subst h
      constructor
      · intro hr
        have := (key g).mp hr
        injection this with this
        injection this with this
        subst this
        exact ⟨m', by simp [store], fill_given hm⟩
      · intro hr
        have hne : g ≠ k := fun e => hr ((key g).mpr (by rw [e]))
        unfold store lookup
        rw [Function.update_of_ne hne]
        cases reg k with
        | some m => rfl
        | none => exact Function.update_of_ne hne _ _
    | _ => injection h with h; exact skip (by simp) h.symm

theorem loadRows_record {t : Table P} {depth : Nat} {rows : List (Option (Row P))} {reg reg' : Registry P}
    (h : loadRows t depth rows reg = .ok reg') (g : Guid.Guid) :
    ((¬ ∃ r ∈ present? rows, RowHas t depth r g) → reg' g = reg g) ∧
    (∀ pre r post, present? rows = pre ++ r :: post → RowHas t depth r g → (∀ r' ∈ post, ¬ RowHas t depth r' g) →
      ∃ m, reg' g = some m ∧ Given t depth r m) := by
  induction rows generalizing reg with
  | nil =>
    injection h with h; subst h
    refine ⟨fun _ => rfl, ?_⟩
    intro pre r post e
    simp [present?] at e
  | cons row rows ih =>
    cases row with
    | none => exact ih h
    | some x =>
      obtain ⟨reg1, h1, h⟩ := Res.bind_eq_ok.mp h
      have e1 := loadRow_record h1 g
      have e2 := ih h
      have hp : present? (some x :: rows) = x :: present? rows := by simp [present?]
      rw [hp]
      constructor
      · intro hn
        rw [e2.1 (fun ⟨y, hy, hg⟩ => hn ⟨y, by simp [hy], hg⟩), e1.2 (fun hx => hn ⟨x, by simp, hx⟩)]
      · intro pre r post e hr hpost
        cases pre with
        | nil =>
          rw [List.nil_append] at e
          injection e with ex ep
          subst ex
          obtain ⟨m, hm, hg⟩ := e1.1 hr
          exact ⟨m, by rw [e2.1 (fun ⟨y, hy, hyg⟩ => hpost y (by rw [← ep]; exact hy) hyg), hm], hg⟩
        | cons y pre =>
          injection e with ex ep
          exact e2.2 pre r post ep hr hpost

/-- C66: after metadata was loaded, every signal with a row has a record that carries the tag, reference, type, description, time of
update and key of the last of its rows, for the columns that exist. -/
theorem C66_received (depth : Nat) (t : Table P) (reg reg' : Registry P) (g : Guid.Guid) (pre post : List (Row P)) (r : Row P)
    (h : load depth (some t) reg = .ok reg') (hc : columnIndex t "SignalID" > -1) (hrows : present? t.rows = pre ++ r :: post)
    (hr : RowHas t depth r g) (hlast : ∀ r' ∈ post, ¬ RowHas t depth r' g) : ∃ m, reg' g = some m ∧ Given t depth r m := by
  simp only [load, if_pos hc] at h
  exact (loadRows_record h g).2 pre r post hrows hr hlast

/-- C66: the records of all other signals are left as they are, and nothing changes without the table or its column of signal IDs. -/
theorem C66_others (depth : Nat) (t : Option (Table P)) (reg reg' : Registry P) (g : Guid.Guid) (h : load depth t reg = .ok reg')
    (hn : ¬ Mentions depth g (.receive t)) : reg' g = reg g := by
  cases t with
  | none => injection h with h; rw [h]
  | some t =>
    simp only [load] at h
    split at h
    · rename_i hc
      exact (loadRows_record h g).1 fun hr => hn ⟨hc, hr⟩
    · injection h with h; rw [h]

/-! ### A concrete case -/

/-- A signal ID made of a byte. -/
def guidNo (b : Byte) : Guid.Guid := ⟨b :: List.replicate 15 0#8, by simp⟩

/-- Two rows for signal 1, one without a signal ID, one of signal 2. -/
def details : Table Toy.prim where
  columnIndexes := fun n => if n = lit "SIGNALID" then some 0 else if n = lit "ID" then some 1 else if n = lit "POINTTAG" then some 2
    else none
  columns := [{ name := lit "SignalID", type := .guid, expression := [], index := 0 },
    { name := lit "ID", type := .string, expression := [], index := 1 },
    { name := lit "PointTag", type := .string, expression := [], index := 2 }]
  rows := [some { id := 0, values := [some (.guid (guidNo 1)), some (.string (lit "PPA:7")), some (.string (lit "old"))] },
    some { id := 1, values := [none, some (.string (lit "PPA:8")), none] },
    some { id := 2, values := [some (.guid (guidNo 2)), some (.string (lit "a:b:c")), none] },
    some { id := 3, values := [some (.guid (guidNo 1)), some (.string (lit "PPA:12")), some (.string (lit "new"))] }]
  parse := fun _ => none

/-- `C66_received` for signal 1: its last row counts. -/
example : ∃ reg, load 1 (some details) (fun _ => none) = .ok reg ∧
    ∃ m, reg (guidNo 1) = some m ∧ m.tag = lit "new" ∧ m.source = lit "PPA" ∧ m.id = 12 := by
  refine ⟨_, rfl, ?_⟩
  obtain ⟨m, hm, hg⟩ := C66_received 1 details (fun _ => none) _ (guidNo 1) (present? (details.rows.take 3)) []
    { id := 3, values := [some (.guid (guidNo 1)), some (.string (lit "PPA:12")), some (.string (lit "new"))] } rfl (by decide) rfl rfl
    (by simp)
  have htag := hg.tag (by decide)
  have hkey := hg.key (by decide) (lit "PPA") 12 (by decide) (by decide)
    (by show _ = Res.ok (lit "PPA" ++ 58#8 :: Format.decimal 12)
        rw [show lit "PPA" ++ 58#8 :: Format.decimal 12 = lit "PPA:12" by decide +kernel]; rfl)
  refine ⟨m, hm, ?_, hkey⟩
  have : Res.ok (lit "new") = Res.ok m.tag := htag
  injection this with this
  exact this.symm

/-- `C66_others` for signal 3. -/
example : ∃ reg, load 1 (some details) (fun _ => some (fresh Toy.prim)) = .ok reg ∧ reg (guidNo 3) = some (fresh Toy.prim) := by
  refine ⟨_, rfl, C66_others 1 (some details) _ _ (guidNo 3) rfl ?_⟩
  rintro ⟨-, r, hr, hg⟩
  simp only [present?, details, List.filterMap_cons, List.filterMap_nil, id_eq, List.mem_cons, List.not_mem_nil, or_false] at hr
  rcases hr with rfl | rfl | rfl | rfl <;> (revert hg; unfold RowHas; intro hg; injection hg with hg; revert hg) <;> simp <;> decide

/-- `C60_assigned`: metadata received after the assignment does not disturb it. -/
example : ∃ reg : Registry Toy.prim, runAll 1 [.assign (guidNo 1) (some 5) (some 3), .receive (some details)] (fun _ => none) = .ok reg ∧
    adjustedValue reg (guidNo 1) (some 10) = some 35 :=
  ⟨_, rfl, C60_assigned 1 [] [.receive (some details)] (guidNo 1) (some 5) (some 3) _ rfl (by simp [Quiet]) (some 10)⟩

/-- `C60_unassigned`: signal 3 was never heard of, signal 2 only in metadata. -/
example : ∃ reg : Registry Toy.prim, runAll 1 [.connect, .receive (some details)] (fun _ => none) = .ok reg ∧
    adjustedValue reg (guidNo 2) (some 10) = Toy.prim.fltAdd (Toy.prim.fltMul (some 10) (some 1)) (some 0) :=
  ⟨_, rfl, (C60_unassigned 1 [] [.receive (some details)] (guidNo 2) _ rfl (by simp [Quiet]) (some 10)).2
    ⟨_, List.mem_singleton.mpr rfl, by decide, { id := 2, values := [some (.guid (guidNo 2)), some (.string (lit "a:b:c")), none] },
      by simp [present?, details], rfl⟩⟩

/-- `C60_raw`: after a new connection the assignment is gone. -/
example : ∃ reg : Registry Toy.prim, runAll 1 [.assign (guidNo 1) (some 5) (some 3), .connect, .receive (some details)] (fun _ => none) =
    .ok reg ∧ adjustedValue reg (guidNo 1) (some 10) = some 10 :=
  ⟨_, rfl, C60_raw 1 [.assign (guidNo 1) (some 5) (some 3)] [.receive (some details)] (guidNo 1) _ rfl (by simp [Quiet]) (some 10) rfl⟩

end Verif.Meta
