import Verif.Meta.Registry
import Verif.Sic.Props

/-!
# C118: the key of a signal

Source and number of a signal are written into its metadata record from two sides: metadata (`loadMeasurementMetadata`, Subscriber.go L574-580) and the
records of signal index caches (`addRecord`, SignalIndexCache.go L65-71).
-/

namespace Verif.Meta

open Verif.Expr Verif.Table

variable {P : Prim}

/-- The effect of `addRecord` on the metadata registry (SignalIndexCache.go L65-71): an empty source is filled in. -/
def note (reg : Registry P) (r : Sic.Rec) : Registry P :=
  let m := (lookup reg r.signalID).2
  store (lookup reg r.signalID).1 r.signalID (if m.source.length = 0 then { m with source := r.source, id := r.id.toNat } else m)

/-- The loop of `decode` with `n` iterations left (SignalIndexCache.go L205-231): its effect on the registry. What was decoded before an error has had its
effect. -/
def noteLoop (swap : Bool) : Nat → List Byte → Registry P → Registry P
  | 0, _, reg => reg
  | n + 1, b, reg =>
    match Sic.decodeRecord swap b with
    | .ok (r, b) => noteLoop swap n b (note reg r)
    | _ => reg

/-- The effect of `decode` on the registry (SignalIndexCache.go L168-231). -/
def noteCache (swap : Bool) (buffer : List Byte) (reg : Registry P) : Registry P :=
  match readBE 4 buffer, Guid.fromBytes (buffer.drop 4) swap, readBE 4 ((buffer.drop 4).drop 16) with
  | .ok size, .ok _, .ok n => if buffer.length % 2 ^ 32 < size then reg else noteLoop swap n (((buffer.drop 4).drop 16).drop 4) reg
  | _, _, _ => reg

/-- What happens to keys: the operations on the registry and a signal index cache received (DataSubscriber.go L1068-1105). -/
inductive Event (P : Prim) where
  | cache (swap : Bool) (buffer : List Byte)
  | op (o : Op P)

/-- The effect of an event. (SignalIndexCache.go L168-231, DataSubscriber.go L284-301, Subscriber.go L543-609) -/
def Event.run (depth : Nat) (reg : Registry P) : Event P → Res (Registry P)
  | .cache swap b => .ok (noteCache swap b reg)
  | .op o => o.run depth reg

/-- A history. (SignalIndexCache.go L168-231, DataSubscriber.go L284-301, Subscriber.go L543-609) -/
def runEvents (depth : Nat) : List (Event P) → Registry P → Res (Registry P)
  | [], reg => .ok reg
  | e :: es, reg => e.run depth reg >>= runEvents depth es

/-- Source and number in the record of a signal. -/
def keyOf (reg : Registry P) (g : Guid.Guid) : Option (Str × Nat) := (reg g).map fun m => (m.source, m.id)

/-- Everything but metadata and a new connection. -/
def Event.Apart : Event P → Prop
  | .cache _ _ => True
  | .op (.lookup _) => True
  | .op (.assign _ _ _) => True
  | .op (.receive _) => False
  | .op .connect => False

/-- The key has a source. -/
def HasKey (reg : Registry P) (g : Guid.Guid) (source : Str) (n : Nat) : Prop := keyOf reg g = some (source, n)

/-- What a cache record makes of a key. -/
theorem keyOf_note (reg : Registry P) (r : Sic.Rec) (g : Guid.Guid) :
    keyOf (note reg r) g = if g = r.signalID then
      (match keyOf reg g with
        | some (s, n) => if s = [] then some (r.source, r.id.toNat) else some (s, n)
        | none => some (r.source, r.id.toNat))
    else keyOf reg g := by
  unfold note keyOf lookup store
  by_cases e : g = r.signalID
  · subst e
    cases h : reg r.signalID with
    | none => simp [fresh]
    | some m => by_cases hs : m.source = [] <;> simp [hs]
  · cases h : reg r.signalID <;> simp [e]

theorem keyOf_lookup (reg : Registry P) (k g : Guid.Guid) :
    keyOf (lookup reg k).1 g = if g = k then some ((keyOf reg g).getD ([], 0)) else keyOf reg g := by
  unfold keyOf lookup
  by_cases e : g = k
  · subst e
    cases h : reg g <;> simp [fresh, h]
  · cases h : reg k <;> simp [e]

theorem keyOf_assign (reg : Registry P) (k g : Guid.Guid) (a m : P.Flt) :
    keyOf (store (lookup reg k).1 k { (lookup reg k).2 with adder := a, multiplier := m }) g =
      if g = k then some ((keyOf reg g).getD ([], 0)) else keyOf reg g := by
  unfold keyOf lookup store
  by_cases e : g = k
  · subst e
    cases h : reg g <;> simp [fresh]
  · cases h : reg k <;> simp [e]

/-- What is decoded of a cache is what is noted. -/
theorem loop_notes {swap : Bool} {n : Nat} {c c' : Sic.Cache} {b : List Byte} (h : Sic.decodeLoop swap n c b = .ok c') (reg : Registry P) :
    ∃ rs : List Sic.Rec, c' = rs.foldl (fun c r => Sic.addRecord c r.index r.signalID r.source r.id 1) c ∧ noteLoop swap n b reg = rs.foldl note reg := by
  induction n generalizing c b reg with
  | zero => injection h with h; exact ⟨[], h.symm, rfl⟩
  | succ n ih =>
    simp only [Sic.decodeLoop] at h
    obtain ⟨⟨r, b'⟩, hr, h⟩ := Res.bind_eq_ok.mp h
    obtain ⟨rs, h1, h2⟩ := ih h (note reg r)
    refine ⟨r :: rs, h1, ?_⟩
    simp only [noteLoop, hr]
    exact h2

theorem decode_notes {swap : Bool} {b : List Byte} {sub : Guid.Guid} {c : Sic.Cache} (h : Sic.decode swap b = .ok (sub, c)) (reg : Registry P) :
    ∃ rs, c = Sic.build rs ∧ noteCache swap b reg = rs.foldl note reg := by
  unfold Sic.decode at h
  dsimp only at h
  split at h
  · cases h
  · obtain ⟨size, h1, h⟩ := Res.bind_eq_ok.mp h
    split at h
    · cases h
    · rename_i hs
      obtain ⟨sub', h2, h⟩ := Res.bind_eq_ok.mp h
      obtain ⟨n, h3, h⟩ := Res.bind_eq_ok.mp h
      obtain ⟨c', h4, h⟩ := Res.bind_eq_ok.mp h
      injection h with h
      injection h with _ h
      subst h
      obtain ⟨rs, e1, e2⟩ := loop_notes h4 reg
      refine ⟨rs, e1, ?_⟩
      unfold noteCache
      rw [h1, h2, h3]
      dsimp only
      rw [if_neg hs]
      exact e2

/-- Whatever is noted leaves a key with a source alone. -/
theorem note_keeps {reg : Registry P} {g : Guid.Guid} {source : Str} {n : Nat} (hs : source ≠ []) (h : HasKey reg g source n) (r : Sic.Rec) :
    HasKey (note reg r) g source n := by
  unfold HasKey at *
  rw [keyOf_note, h]
  simp [hs]

theorem noteLoop_keeps {g : Guid.Guid} {source : Str} {n : Nat} (hs : source ≠ []) (swap : Bool) (k : Nat) (b : List Byte) (reg : Registry P)
    (h : HasKey reg g source n) : HasKey (noteLoop swap k b reg) g source n := by
  induction k generalizing b reg with
  | zero => exact h
  | succ k ih =>
    simp only [noteLoop]
    split
    · exact ih _ _ (note_keeps hs h _)
    · exact h

theorem event_keeps {depth : Nat} {e : Event P} {reg reg' : Registry P} {g : Guid.Guid} {source : Str} {n : Nat} (hs : source ≠ []) (ha : e.Apart)
    (h : HasKey reg g source n) (hr : e.run depth reg = .ok reg') : HasKey reg' g source n := by
  cases e with
  | cache swap b =>
    injection hr with hr
    subst hr
    unfold noteCache
    split
    · split
      · exact h
      · exact noteLoop_keeps hs _ _ _ _ h
    · exact h
  | op o =>
    unfold HasKey at *
    cases o with
    | lookup k => injection hr with hr; subst hr; rw [keyOf_lookup, h]; simp
    | assign k a m => injection hr with hr; subst hr; rw [keyOf_assign, h]; simp
    | receive t => exact absurd ha id
    | connect => exact absurd ha id

theorem events_keep {depth : Nat} {es : List (Event P)} {reg reg' : Registry P} {g : Guid.Guid} {source : Str} {n : Nat} (hs : source ≠ [])
    (ha : ∀ e ∈ es, e.Apart) (h : HasKey reg g source n) (hr : runEvents depth es reg = .ok reg') : HasKey reg' g source n := by
  induction es generalizing reg with
  | nil => injection hr with hr; subst hr; exact h
  | cons e es ih =>
    obtain ⟨reg1, h1, h2⟩ := Res.bind_eq_ok.mp hr
    exact ih (fun x hx => ha x (by simp [hx])) (event_keeps hs (ha e (by simp)) h h1) h2

/-- **C118.** The key metadata give to a signal is its key from then on, whatever signal index caches came before and come afterwards, until other
metadata or a new connection. -/
theorem C118_metadata (depth : Nat) (t : Table P) (reg reg' : Registry P) (g : Guid.Guid) (pre post : List (Row P)) (r : Row P) (es : List (Event P))
    (source : Str) (n : Nat) (hc : columnIndex t "SignalID" > -1) (hrows : present? t.rows = pre ++ r :: post) (hr : RowHas t depth r g)
    (hlast : ∀ r' ∈ post, ¬ RowHas t depth r' g) (hk : columnIndex t "ID" > -1) (h58 : 58#8 ∉ source) (hne : source ≠ []) (hn : n < 2 ^ 64)
    (hread : Reads t depth r "ID" (source ++ 58#8 :: Format.decimal n)) (ha : ∀ e ∈ es, e.Apart)
    (hrun : runEvents depth (.op (.receive (some t)) :: es) reg = .ok reg') : ∃ m, reg' g = some m ∧ m.source = source ∧ m.id = n := by
  obtain ⟨reg1, h1, h2⟩ := Res.bind_eq_ok.mp hrun
  obtain ⟨m, hm, hg⟩ := C66_received depth t reg reg1 g pre post r h1 hc hrows hr hlast
  obtain ⟨e1, e2⟩ := hg.key hk source n h58 hn hread
  have : HasKey reg1 g source n := by unfold HasKey keyOf; rw [hm, ← e1, ← e2]; rfl
  have := events_keep hne ha this h2
  unfold HasKey keyOf at this
  obtain ⟨m', hm', e⟩ := Option.map_eq_some_iff.mp this
  injection e with e1 e2
  exact ⟨m', hm', e1, e2⟩

/-- The signal has no key yet. -/
def NoKey (reg : Registry P) (g : Guid.Guid) : Prop := ∀ m, reg g = some m → m.source = []

theorem noKey_iff (reg : Registry P) (g : Guid.Guid) : NoKey reg g ↔ ∀ s n, keyOf reg g = some (s, n) → s = [] := by
  unfold NoKey keyOf
  constructor
  · intro h s n e
    obtain ⟨m, hm, e⟩ := Option.map_eq_some_iff.mp e
    injection e with e1 e2
    rw [← e1]; exact h m hm
  · intro h m hm
    exact h m.source m.id (by rw [hm]; rfl)

theorem notes_first {rs : List Sic.Rec} {reg : Registry P} {g : Guid.Guid} (hno : NoKey reg g) (pre post : List Sic.Rec) (r : Sic.Rec)
    (e : rs = pre ++ r :: post) (hr : r.signalID = g) (hs : r.source ≠ []) (hpre : ∀ x ∈ pre, x.signalID = g → x.source = []) :
    HasKey (rs.foldl note reg) g r.source r.id.toNat := by
  subst e
  induction pre generalizing reg with
  | nil =>
    rw [List.nil_append, List.foldl_cons]
    have h1 : HasKey (note reg r) g r.source r.id.toNat := by
      unfold HasKey
      rw [keyOf_note, if_pos hr.symm]
      cases hk : keyOf reg g with
      | none => rfl
      | some p =>
        obtain ⟨s, n⟩ := p
        have : s = [] := (noKey_iff reg g).mp hno s n hk
        simp only [this, if_true]
    revert h1
    generalize note reg r = reg1
    intro h1
    induction post generalizing reg1 with
    | nil => exact h1
    | cons x post ih => exact ih _ (note_keeps hs h1 x)
  | cons x pre ih =>
    rw [List.cons_append, List.foldl_cons]
    refine ih ?_ (fun y hy => hpre y (by simp [hy]))
    rw [noKey_iff]
    intro s n hk
    rw [keyOf_note] at hk
    split at hk
    · rename_i hg
      have hx := hpre x (by simp) hg.symm
      cases hk' : keyOf reg g with
      | none => rw [hk'] at hk; injection hk with hk; injection hk with hk; rw [← hk, hx]
      | some p =>
        rw [hk'] at hk
        have := (noKey_iff reg g).mp hno p.1 p.2 hk'
        simp only [this, if_true] at hk
        injection hk with hk; injection hk with hk; rw [← hk, hx]
    · exact (noKey_iff reg g).mp hno s n hk

/-- **C118.** A signal that has no key yet gets the one in the signal index cache the publisher sends and keeps it, until metadata or a new connection, if
the cache says one thing of it. -/
theorem C118_cache_partial (depth : Nat) (swap : Bool) (sub : Guid.Guid) (rs : List Sic.Rec) (rest : List Byte) (size : Nat)
    (hsize : size = (Sic.wireCache swap size sub rs).length) (hlen : (Sic.wireCache swap size sub rs ++ rest).length < 2 ^ 32) (reg reg' : Registry P) (r : Sic.Rec) (hr : r ∈ rs) (hs : r.source ≠ [])
    (hone : ∀ x ∈ rs, x.signalID = r.signalID → x.source = r.source ∧ x.id = r.id) (hno : NoKey reg r.signalID)
    (es : List (Event P)) (ha : ∀ e ∈ es, e.Apart) (hrun : runEvents depth (.cache swap (Sic.wireCache swap size sub rs ++ rest) :: es) reg = .ok reg') :
    ∃ m, reg' r.signalID = some m ∧ m.source = r.source ∧ m.id = r.id.toNat := by
  have hd := Sic.decode_wire swap size sub rs rest hlen (by rw [List.length_append]; omega)
  obtain ⟨reg1, h1, h2⟩ := Res.bind_eq_ok.mp hrun
  injection h1 with h1
  obtain ⟨qs, e1, e2⟩ := decode_notes hd reg
  rw [h1] at e2
  obtain ⟨l1, l2, l3⟩ := Sic.build_lists rs
  obtain ⟨k1, k2, k3⟩ := Sic.build_lists qs
  rw [e1, k1] at l1
  rw [e1, k2] at l2
  rw [e1, k3] at l3
  have hlen : qs.length = rs.length := by have := congrArg List.length l1; simpa using this
  have hone' : ∀ x ∈ qs, x.signalID = r.signalID → x.source = r.source ∧ x.id = r.id := by
    intro x hx hg
    obtain ⟨k, hk, e⟩ := List.getElem_of_mem hx
    have hk' : k < rs.length := by omega
    have a1 : qs[k].signalID = rs[k].signalID := by have := congrArg (·[k]?) l1; simpa [hk, hk'] using this
    have a2 : qs[k].source = rs[k].source := by have := congrArg (·[k]?) l2; simpa [hk, hk'] using this
    have a3 : qs[k].id = rs[k].id := by have := congrArg (·[k]?) l3; simpa [hk, hk'] using this
    rw [← e] at hg ⊢
    rw [a2, a3]
    exact hone _ (List.getElem_mem hk') (by rw [← a1]; exact hg)
  have hex : ∃ x ∈ qs, x.signalID = r.signalID := by
    have : r.signalID ∈ qs.map Sic.Rec.signalID := by rw [l1]; exact List.mem_map.mpr ⟨r, hr, rfl⟩
    exact List.mem_map.mp this
  have hfind : (qs.find? (fun x => x.signalID = r.signalID)).isSome = true := by
    rw [List.find?_isSome]
    obtain ⟨x, hx, hg⟩ := hex
    exact ⟨x, hx, by simp [hg]⟩
  obtain ⟨q, hq⟩ := Option.isSome_iff_exists.mp hfind
  obtain ⟨hq1, pre, post, e3, hpre⟩ := List.find?_eq_some_iff_append.mp hq
  have hq1 : q.signalID = r.signalID := by simpa using hq1
  obtain ⟨a1, a2⟩ := hone' q (by rw [e3]; simp) hq1
  have hk := notes_first hno pre post q e3 hq1 (by rw [a1]; exact hs) (by
    intro x hx hg
    have := hpre x hx
    simp [hg] at this)
  rw [← e2, a1, a2] at hk
  have := events_keep hs ha hk h2
  unfold HasKey keyOf at this
  obtain ⟨m', hm', e⟩ := Option.map_eq_some_iff.mp this
  injection e with e1 e2
  exact ⟨m', hm', e1, e2⟩

/-- **C118 is false when a publisher changes a key without metadata**: the record of the signal keeps the key of the first cache, while the second, now
in use, has another. -/
theorem C118_changed_false (P : Prim) :
    let old : List Sic.Rec := [⟨7, Sic.gA, lit "OLD", 1⟩]
    let new : List Sic.Rec := [⟨7, Sic.gA, lit "NEW", 2⟩]
    let sent (rs : List Sic.Rec) := Sic.wireCache false 59 Sic.gB rs
    ∃ reg' m c, runEvents 0 [.cache false (sent old), .cache false (sent new)] (fun _ => none : Registry P) = .ok reg' ∧
      Sic.decode false (sent new) = .ok (Sic.gB, c) ∧ Sic.record c 7 = .ok (Sic.gA, lit "NEW", 2, true) ∧
      reg' Sic.gA = some m ∧ m.source = lit "OLD" ∧ m.id = 1 := by
  intro old new sent
  have hsz : ∀ rs : List Sic.Rec, rs = old ∨ rs = new → 59 = (sent rs).length := by
    intro rs hrs
    rcases hrs with rfl | rfl <;> decide +kernel
  obtain ⟨c, h1, h2⟩ := Sic.C15_cache_decode false Sic.gB new [] 59 (hsz new (.inr rfl)) (by rw [List.append_nil]; rw [← hsz new (.inr rfl)]; omega)
  rw [List.append_nil] at h1
  obtain ⟨m, hm⟩ := C118_cache_partial (P := P) 0 false Sic.gB old [] 59 (hsz old (.inl rfl))
    (by rw [List.append_nil]; rw [← hsz old (.inl rfl)]; omega) (fun _ => none) _ ⟨7, Sic.gA, lit "OLD", 1⟩ (by simp [old]) (show lit "OLD" ≠ [] by decide)
    (by intro x hx _; rw [List.mem_singleton.mp hx]; exact ⟨rfl, rfl⟩) (by intro m hm; cases hm)
    [.cache false (sent new)] (by simp [Event.Apart]) rfl
  rw [List.append_nil] at hm
  refine ⟨_, m, c, rfl, h1, ?_, hm⟩
  have := h2 7
  rw [show Sic.lastByIndex new 7 = some ⟨7, Sic.gA, lit "NEW", 2⟩ from by decide +kernel] at this
  exact this.2.2.2.2

/-- `C118_metadata`: the row says PPA:12, a cache before and one afterwards say something else. -/
example : ∃ reg : Registry Toy.prim, ∃ m,
    runEvents 1 [.op (.receive (some details)), .cache false (Sic.wireCache false 59 Sic.gB [⟨7, guidNo 1, lit "OLD", 1⟩]), .op (.lookup (guidNo 2))]
      (note (fun _ => none) ⟨7, guidNo 1, lit "NEW", 2⟩) = .ok reg ∧ reg (guidNo 1) = some m ∧ m.source = lit "PPA" ∧ m.id = 12 := by
  obtain ⟨reg, hreg⟩ : ∃ reg : Registry Toy.prim, runEvents 1 [.op (.receive (some details)),
      .cache false (Sic.wireCache false 59 Sic.gB [⟨7, guidNo 1, lit "OLD", 1⟩]), .op (.lookup (guidNo 2))]
      (note (fun _ => none) ⟨7, guidNo 1, lit "NEW", 2⟩) = .ok reg := ⟨_, rfl⟩
  obtain ⟨m, hm⟩ := C118_metadata 1 details (note (fun _ => none) ⟨7, guidNo 1, lit "NEW", 2⟩) reg (guidNo 1) (present? (details.rows.take 3)) []
    { id := 3, values := [some (.guid (guidNo 1)), some (.string (lit "PPA:12")), some (.string (lit "new"))] }
    [.cache false (Sic.wireCache false 59 Sic.gB [⟨7, guidNo 1, lit "OLD", 1⟩]), .op (.lookup (guidNo 2))] (lit "PPA") 12 (by decide) rfl rfl
    (by simp) (by decide) (by decide) (by decide) (by decide)
    (by show _ = Res.ok (lit "PPA" ++ 58#8 :: Format.decimal 12)
        rw [show lit "PPA" ++ 58#8 :: Format.decimal 12 = lit "PPA:12" by decide +kernel]; rfl)
    (by simp [Event.Apart]) hreg
  exact ⟨reg, m, hreg, hm⟩

end Verif.Meta
