import Verif.Session.StreamProps
import Mathlib.Logic.Function.Basic

/-!
# Concurrent sends

`SendServerCommandWithPayload` (DataSubscriber.go L1499-1533) as a transition system. All goroutines of a subscriber share `writeBuffer`
(L65), and no lock is held: the application's goroutines (`Subscribe`, `Unsubscribe`, `RequestMetadata`), the goroutine for received metadata
(L1027), which subscribes, and the goroutine that reads the command channel, which confirms (L1093, L1404, L1485). One step is the storing of one byte or one
`Write`, which the library does not interleave with others. The connection stays open and writes succeed.
-/

namespace Verif.Sync.Send

open Function (update)

/-- A call: command code and payload. (DataSubscriber.go L1499-1533) -/
structure Job where
  code : Byte
  data : List Byte
  deriving DecidableEq

/-- What a call stores at the indices 0, 1, … of the buffer: the size in four bytes (L1512), the code (L1515), the payload (L1517-1521). -/
def Job.bytes (j : Job) : List Byte := beBytes 4 (j.data.length + 1) ++ [j.code] ++ j.data

/-- The shared buffer, the successive writes to the socket, and the goroutines: the calls each has still to make and the call it is in with
the number of bytes stored. `done` records which call each write belongs to. (DataSubscriber.go L1499-1533) -/
structure St where
  buffer : List Byte
  wire : List (List Byte)
  todo : Nat → List Job
  pc : Nat → Option (Job × Nat)
  done : List (Nat × Job)

/-- The buffer as made (L183); nobody is sending. -/
def init (jobs : Nat → List Job) : St := ⟨List.replicate Session.maxPacketSize 0, [], jobs, fun _ => none, []⟩

/-- The next byte is stored, or after the last one the packet is written (L1528). -/
def advance (s : St) (p : Nat) (j : Job) (n : Nat) : St :=
  match j.bytes[n]? with
  | some b => { s with buffer := s.buffer.set n b, pc := update s.pc p (some (j, n + 1)) }
  | none => { s with wire := s.wire ++ [s.buffer.take n], pc := update s.pc p none, done := s.done ++ [(p, j)] }

/-- One step of goroutine `p` (L1499-1533). -/
def step (s : St) (p : Nat) : Option St :=
  match s.pc p with
  | some (j, n) => some (advance s p j n)
  | none =>
    match s.todo p with
    | [] => none
    | j :: js => some { s with todo := update s.todo p js, pc := update s.pc p (some (j, 0)) }

/-- A schedule: which goroutine does the next step. (DataSubscriber.go L1499-1533) -/
def exec (s : St) : List Nat → Option St
  | [] => some s
  | p :: ps => (step s p).bind fun t => exec t ps

theorem exec_append (s : St) (as bs : List Nat) : exec s (as ++ bs) = (exec s as).bind (fun t => exec t bs) := by
  induction as generalizing s with
  | nil => rfl
  | cons a as ih =>
    rw [List.cons_append, exec, exec, Option.bind_assoc]
    exact Option.bind_congr (fun t _ => ih t)

@[simp] theorem Job.bytes_length (j : Job) : j.bytes.length = j.data.length + 5 := by
  simp [Job.bytes]; omega

/-- An invariant of steps is one of schedules. -/
theorem exec_inv {P : St → Prop} (hstep : ∀ s t p, P s → step s p = some t → P t) {s t : St} {ps : List Nat} (hs : P s)
    (h : exec s ps = some t) : P t := by
  induction ps generalizing s with
  | nil => rw [exec] at h; injection h with h; exact h ▸ hs
  | cons p ps ih =>
    rw [exec, Option.bind_eq_some_iff] at h
    obtain ⟨u, h1, h2⟩ := h
    exact ih (hstep s u p hs h1) h2

/-! ## What holds for every schedule -/

/-- The calls goroutine `p` has made, is in, and has still to make. (DataSubscriber.go L1499-1533) -/
def St.calls (s : St) (p : Nat) : List Job :=
  ((s.done.filter fun x => x.1 = p).map Prod.snd) ++ ((s.pc p).map Prod.fst).toList ++ s.todo p

theorem step_calls {s t : St} {p : Nat} (h : step s p = some t) (q : Nat) : t.calls q = s.calls q := by
  unfold step at h
  split at h
  · rename_i j n hp
    injection h with h
    subst h
    unfold advance
    split
    · by_cases hq : q = p
      · subst hq; simp [St.calls, hp]
      · simp [St.calls, update, hq]
    · by_cases hq : q = p
      · subst hq; simp [St.calls, hp]
      · have : ¬ p = q := fun e => hq e.symm
        simp [St.calls, update, hq, this]
  · rename_i hp
    split at h
    · cases h
    · rename_i j js hj
      injection h with h
      subst h
      by_cases hq : q = p
      · subst hq; simp [St.calls, hp, hj]
      · simp [St.calls, update, hq]

/-- C98, every schedule, calls: no call is left out or made twice, and each goroutine's writes are in the order of its calls. -/
theorem C98_calls (jobs : Nat → List Job) (ps : List Nat) (s : St) (h : exec (init jobs) ps = some s) (p : Nat) :
    ((s.done.filter fun x => x.1 = p).map Prod.snd) ++ ((s.pc p).map Prod.fst).toList ++ s.todo p = jobs p := by
  have := exec_inv (P := fun s => s.calls p = jobs p) (fun s t q hs ht => (step_calls ht p).trans hs) (s := init jobs)
    (by simp [St.calls, init]) h
  exact this

/-- Payloads that fit into the buffer. -/
def Fits (jobs : Nat → List Job) : Prop := ∀ p, ∀ j ∈ jobs p, j.data.length ≤ 32763

structure Lengths (s : St) : Prop where
  buffer : s.buffer.length = 32768
  pc : ∀ p j n, s.pc p = some (j, n) → n ≤ j.bytes.length ∧ j.data.length ≤ 32763
  todo : ∀ p, ∀ j ∈ s.todo p, j.data.length ≤ 32763
  wire : s.wire.map List.length = s.done.map fun x => x.2.data.length + 5

theorem step_lengths {s t : St} {p : Nat} (hs : Lengths s) (h : step s p = some t) : Lengths t := by
  obtain ⟨h1, h2, h3, h4⟩ := hs
  unfold step at h
  split at h
  · rename_i j n hp
    have ⟨hn, hj⟩ := h2 p j n hp
    injection h with h
    subst h
    unfold advance
    split
    · rename_i b hb
      have hlt : n < j.bytes.length := (List.getElem?_eq_some_iff.mp hb).1
      refine ⟨by simpa using h1, ?_, h3, h4⟩
      intro q j' n' hq
      by_cases he : q = p
      · subst he
        simp at hq
        obtain ⟨rfl, rfl⟩ := hq
        exact ⟨hlt, hj⟩
      · simp only [update, he] at hq
        exact h2 q j' n' hq
    · rename_i hb
      have hge : j.bytes.length ≤ n := List.getElem?_eq_none_iff.mp hb
      refine ⟨h1, ?_, h3, ?_⟩
      · intro q j' n' hq
        by_cases he : q = p
        · subst he; simp at hq
        · simp only [update, he] at hq
          exact h2 q j' n' hq
      · have : n = j.data.length + 5 := by rw [Job.bytes_length] at hn hge; omega
        have hm : min n s.buffer.length = j.data.length + 5 := by omega
        simp only [List.map_append, h4, List.map_cons, List.map_nil, List.length_take, hm]
  · rename_i hp
    split at h
    · cases h
    · rename_i j js hj
      injection h with h
      subst h
      refine ⟨h1, ?_, ?_, h4⟩
      · intro q j' n' hq
        by_cases he : q = p
        · subst he
          simp at hq
          obtain ⟨rfl, rfl⟩ := hq
          exact ⟨Nat.zero_le _, h3 q j (by simp [hj])⟩
        · simp only [update, he] at hq
          exact h2 q j' n' hq
      · intro q j' hq
        by_cases he : q = p
        · subst he
          simp at hq
          exact h3 q j' (by simp [hj, hq])
        · simp only [update, he] at hq
          exact h3 q j' hq

theorem init_lengths {jobs : Nat → List Job} (hf : Fits jobs) : Lengths (init jobs) where
  buffer := List.length_replicate
  pc := by simp [init]
  todo := hf
  wire := rfl

/-- C98, every schedule, sizes: the k-th write has the size of the packet of the call it belongs to. -/
theorem C98_sizes (jobs : Nat → List Job) (hf : Fits jobs) (ps : List Nat) (s : St) (h : exec (init jobs) ps = some s) :
    s.wire.map List.length = s.done.map fun x => x.2.data.length + 5 :=
  (exec_inv (fun _ _ _ hs ht => step_lengths hs ht) (init_lengths hf) h).wire

/-! ## One goroutine at a time -/

/-- At most one goroutine is inside the call. -/
def Exclusive (s : St) : Prop := ∀ p q, s.pc p ≠ none → s.pc q ≠ none → p = q

/-- Written so far as intended. -/
structure Intact (s : St) : Prop where
  lengths : Lengths s
  prefixes : ∀ p j n, s.pc p = some (j, n) → s.buffer.take n = j.bytes.take n
  wire : s.wire = s.done.map fun x => x.2.bytes

theorem step_intact {s t : St} {p : Nat} (hs : Intact s) (he : Exclusive s) (h : step s p = some t) : Intact t := by
  have hl := step_lengths hs.lengths h
  obtain ⟨⟨h1, h2, _, _⟩, h5, h6⟩ := hs
  unfold step at h
  split at h
  · rename_i j n hp
    have ⟨hn, hj⟩ := h2 p j n hp
    have hother : ∀ q, q ≠ p → s.pc q = none := by
      intro q hq
      by_contra hc
      exact hq (he q p hc (by rw [hp]; simp))
    injection h with h
    subst h
    revert hl
    unfold advance
    split
    · rename_i b hb
      intro hl
      refine ⟨hl, ?_, h6⟩
      intro q j' n' hq
      by_cases hqp : q = p
      · subst hqp
        simp at hq
        obtain ⟨rfl, rfl⟩ := hq
        have hlt : n < j.bytes.length := (List.getElem?_eq_some_iff.mp hb).1
        have hnb : n < s.buffer.length := by rw [Job.bytes_length] at hlt; omega
        have e2 : j.bytes.take (n + 1) = j.bytes.take n ++ [b] := by
          rw [List.take_add_one, hb]; rfl
        have e1 : (s.buffer.set n b).take (n + 1) = s.buffer.take n ++ [b] := by
          rw [List.take_add_one, List.take_set_of_le (Nat.le_refl n)]
          simp [hnb]
        show (s.buffer.set n b).take (n + 1) = _
        rw [e1, e2, h5 q j n hp]
      · simp only [update, hqp] at hq
        have hq' : s.pc q = some (j', n') := hq
        rw [hother q hqp] at hq'
        cases hq'
    · rename_i hb
      intro hl
      have hge : j.bytes.length ≤ n := List.getElem?_eq_none_iff.mp hb
      refine ⟨hl, ?_, ?_⟩
      · intro q j' n' hq
        by_cases hqp : q = p
        · subst hqp; simp at hq
        · simp only [update, hqp] at hq
          have hq' : s.pc q = some (j', n') := hq
          rw [hother q hqp] at hq'
          cases hq'
      · simp only [List.map_append, List.map_cons, List.map_nil, h6, h5 p j n hp, List.take_of_length_le hge]
  · rename_i hp
    split at h
    · cases h
    · rename_i j js hj
      injection h with h
      subst h
      refine ⟨hl, ?_, h6⟩
      intro q j' n' hq
      by_cases hqp : q = p
      · subst hqp
        simp at hq
        obtain ⟨rfl, rfl⟩ := hq
        simp
      · simp only [update, hqp] at hq
        exact h5 q j' n' hq

/-- What the peer makes of undamaged packets. -/
theorem parse_bytes (l : List Job) (h : ∀ j ∈ l, j.data.length ≤ 32763) :
    Session.parseCommands (l.map Job.bytes).flatten = some (l.map fun j => (j.code, j.data)) := by
  induction l with
  | nil => rw [List.map_nil, List.flatten_nil, Session.parseCommands]; simp
  | cons j l ih =>
    have hj := h j (by simp)
    rw [List.map_cons, List.flatten_cons, Job.bytes,
      Session.parse_frame j.code j.data _ (by omega) _ (ih fun x hx => h x (by simp [hx]))]
    rfl

/-- C98 when calls do not overlap: the peer reads exactly the calls made, in the order in which they were written. Missing from the full
statement: schedules in which calls overlap, for which it fails (`C98_lost_false`, `C98_garbled_false`). -/
theorem C98_intact_partial (jobs : Nat → List Job) (hf : Fits jobs) (ps : List Nat) (s : St) (h : exec (init jobs) ps = some s)
    (he : ∀ as t, as <+: ps → exec (init jobs) as = some t → Exclusive t) :
    Session.parseCommands s.wire.flatten = some (s.done.map fun x => (x.2.code, x.2.data)) := by
  have hi : Intact s := by
    have key : ∀ bs as : List Nat, as ++ bs = ps → ∀ t, exec (init jobs) as = some t → Intact t → Intact s := by
      intro bs
      induction bs with
      | nil =>
        intro as e t ht hit
        rw [List.append_nil] at e
        rw [e, h] at ht
        injection ht with ht
        exact ht ▸ hit
      | cons b bs ih =>
        intro as e t ht hit
        have h2 : exec (init jobs) (as ++ (b :: bs)) = some s := by rw [e]; exact h
        rw [exec_append, ht, Option.bind_some, exec, Option.bind_eq_some_iff] at h2
        obtain ⟨u, hu, hrest⟩ := h2
        have hex : Exclusive t := he as t ⟨b :: bs, e⟩ ht
        refine ih (as ++ [b]) (by simpa using e) u ?_ (step_intact hit hex hu)
        rw [exec_append, ht, Option.bind_some, exec, hu]
        rfl
    refine key ps [] rfl (init jobs) rfl ⟨init_lengths hf, by simp [init], rfl⟩
  have hd : ∀ x ∈ s.done, x.2.data.length ≤ 32763 := by
    intro x hx
    have h1 := C98_calls jobs ps s h x.1
    refine hf x.1 x.2 ?_
    rw [← h1]
    simp only [List.mem_append, List.mem_map, List.mem_filter]
    exact Or.inl (Or.inl ⟨x, ⟨hx, by simp⟩, rfl⟩)
  rw [hi.wire]
  have := parse_bytes (s.done.map Prod.snd) (by
    intro j hj
    obtain ⟨x, hx, rfl⟩ := List.mem_map.mp hj
    exact hd x hx)
  simpa [List.map_map, Function.comp_def] using this

/-- C98 with one sending goroutine: the peer reads exactly its calls, in order, as far as they were made. -/
theorem C98_one_sender (jobs : Nat → List Job) (hf : Fits jobs) (p : Nat) (ho : ∀ q, q ≠ p → jobs q = []) (ps : List Nat) (s : St)
    (h : exec (init jobs) ps = some s) :
    ∃ rest, Session.parseCommands s.wire.flatten = some ((s.done.map Prod.snd).map fun j => (j.code, j.data)) ∧
      s.done.map Prod.snd ++ rest = jobs p := by
  have hnone : ∀ as t, exec (init jobs) as = some t → ∀ q, q ≠ p → t.pc q = none ∧ ∀ x ∈ t.done, x.1 ≠ q := by
    intro as t ht q hq
    have h1 := C98_calls jobs as t ht q
    rw [ho q hq] at h1
    simp only [List.append_eq_nil_iff] at h1
    obtain ⟨⟨h1, h2⟩, _⟩ := h1
    refine ⟨?_, ?_⟩
    · cases hpc : t.pc q with
      | none => rfl
      | some v => rw [hpc] at h2; simp at h2
    · intro x hx hxq
      rw [List.map_eq_nil_iff, List.filter_eq_nil_iff] at h1
      exact h1 x hx (by simp [hxq])
  have h1 := C98_intact_partial jobs hf ps s h (by
    intro as t _ ht a b ha hb
    have ha' : a = p := by
      by_contra hc
      exact ha (hnone as t ht a hc).1
    have hb' : b = p := by
      by_contra hc
      exact hb (hnone as t ht b hc).1
    rw [ha', hb'])
  have h2 := C98_calls jobs ps s h p
  have hall : s.done.filter (fun x => decide (x.1 = p)) = s.done := by
    rw [List.filter_eq_self]
    intro x hx
    by_contra hc
    have : x.1 ≠ p := by simpa using hc
    exact (hnone ps s h x.1 this).2 x hx rfl
  rw [hall, List.append_assoc] at h2
  exact ⟨_, by simpa [List.map_map, Function.comp_def] using h1, h2⟩

/-! ## Overlapping calls -/

/-- The buffer with something stored at its beginning. -/
def over (a buf : List Byte) : List Byte := a ++ buf.drop a.length

theorem over_set (a buf : List Byte) (b : Byte) (h : a.length < buf.length) : (over a buf).set a.length b = over (a ++ [b]) buf := by
  unfold over
  rw [List.set_append_right _ _ (Nat.le_refl _), Nat.sub_self]
  rw [show buf.drop a.length = buf[a.length] :: buf.drop (a.length + 1) from List.drop_eq_getElem_cons h, List.set_cons_zero]
  simp

/-- A goroutine stores all its bytes without interruption. -/
theorem exec_store (s : St) (p : Nat) (j : Job) (buf : List Byte) (hb : j.bytes.length ≤ buf.length) :
    ∀ k n, n + k = j.bytes.length → s.pc p = some (j, n) → s.buffer = over (j.bytes.take n) buf →
      exec s (List.replicate k p) = some { s with buffer := over j.bytes buf, pc := update s.pc p (some (j, j.bytes.length)) } := by
  intro k
  induction k generalizing s with
  | zero =>
    intro n hn hp he
    have : n = j.bytes.length := by omega
    subst this
    rw [List.take_length] at he
    have e1 : update s.pc p (some (j, j.bytes.length)) = s.pc := by rw [← hp]; exact Function.update_eq_self p s.pc
    rw [e1, ← he]
    rfl
  | succ k ih =>
    intro n hn hp he
    have hlt : n < j.bytes.length := by omega
    have hget : j.bytes[n]? = some j.bytes[n] := List.getElem?_eq_getElem hlt
    rw [List.replicate_succ, exec]
    have hstep : step s p = some { s with buffer := s.buffer.set n j.bytes[n], pc := update s.pc p (some (j, n + 1)) } := by
      unfold step
      rw [hp]
      simp only [advance, hget]
    rw [hstep, Option.bind_some]
    rw [ih _ (n + 1) (by omega) (by simp) ?_]
    · simp
    · show s.buffer.set n j.bytes[n] = _
      have hl : (j.bytes.take n).length = n := by rw [List.length_take]; omega
      have := over_set (j.bytes.take n) buf j.bytes[n] (by rw [hl]; omega)
      rw [hl] at this
      rw [he, this, List.take_add_one, hget]
      rfl

/-- The schedule: `p` stores all its bytes, `q` stores all its bytes, `p` writes, `q` writes. -/
def overlap (p q : Nat) (a b : Job) : List Nat :=
  [p] ++ List.replicate a.bytes.length p ++ ([q] ++ List.replicate b.bytes.length q) ++ [p, q]

theorem exec_overlap (p q : Nat) (hpq : p ≠ q) (a b : Job) (ha : a.data.length ≤ 32763) (hb : b.data.length ≤ 32763)
    (jobs : Nat → List Job) (hp : jobs p = [a]) (hq : jobs q = [b]) :
    ∃ s, exec (init jobs) (overlap p q a b) = some s ∧ s.done = [(p, a), (q, b)] ∧
      s.wire = [(b.bytes ++ a.bytes.drop b.bytes.length).take a.bytes.length, b.bytes] := by
  obtain ⟨buf, hbuf⟩ : ∃ buf, buf = List.replicate Session.maxPacketSize (0 : Byte) := ⟨_, rfl⟩
  have hbl : buf.length = 32768 := by rw [hbuf]; exact List.length_replicate
  have hal : a.bytes.length ≤ buf.length := by rw [Job.bytes_length]; omega
  have hbl' : b.bytes.length ≤ (over a.bytes buf).length := by
    simp only [over, List.length_append, List.length_drop, Job.bytes_length]
    omega
  have s1 : exec (init jobs) [p] = some ⟨buf, [], update jobs p [], update (fun _ => none) p (some (a, 0)), []⟩ := by
    simp [exec, step, init, hp, hbuf]
  have s2 : exec (init jobs) ([p] ++ List.replicate a.bytes.length p) =
      some ⟨over a.bytes buf, [], update jobs p [], update (fun _ => none) p (some (a, a.bytes.length)), []⟩ := by
    rw [exec_append, s1, Option.bind_some,
      exec_store ⟨buf, [], update jobs p [], update (fun _ => none) p (some (a, 0)), []⟩ p a buf hal a.bytes.length 0 (by omega)
        (by simp) (by simp [over])]
    simp
  have s3 : exec ⟨over a.bytes buf, [], update jobs p [], update (fun _ => none) p (some (a, a.bytes.length)), []⟩ [q] =
      some ⟨over a.bytes buf, [], update (update jobs p []) q [],
        update (update (fun _ => none) p (some (a, a.bytes.length))) q (some (b, 0)), []⟩ := by
    simp [exec, step, hpq.symm, hq, update]
  have s4 : exec ⟨over a.bytes buf, [], update (update jobs p []) q [],
      update (update (fun _ => none) p (some (a, a.bytes.length))) q (some (b, 0)), []⟩ (List.replicate b.bytes.length q) =
      some ⟨over b.bytes (over a.bytes buf), [], update (update jobs p []) q [],
        update (update (fun _ => none) p (some (a, a.bytes.length))) q (some (b, b.bytes.length)), []⟩ := by
    rw [exec_store _ q b (over a.bytes buf) hbl' b.bytes.length 0 (by omega) (by simp) (by simp [over])]
    simp
  have hpa : update (update (fun _ => none) p (some (a, a.bytes.length))) q (some (b, b.bytes.length)) p =
      some (a, a.bytes.length) := by
    rw [Function.update_of_ne hpq, Function.update_self]
  have ga : a.bytes[a.bytes.length]? = none := List.getElem?_eq_none (Nat.le_refl _)
  have gb : b.bytes[b.bytes.length]? = none := List.getElem?_eq_none (Nat.le_refl _)
  have s5 : exec ⟨over b.bytes (over a.bytes buf), [], update (update jobs p []) q [],
      update (update (fun _ => none) p (some (a, a.bytes.length))) q (some (b, b.bytes.length)), []⟩ [p, q] =
      some ⟨over b.bytes (over a.bytes buf),
        [(over b.bytes (over a.bytes buf)).take a.bytes.length, (over b.bytes (over a.bytes buf)).take b.bytes.length],
        update (update jobs p []) q [],
        update (update (update (update (fun _ => none) p (some (a, a.bytes.length))) q (some (b, b.bytes.length))) p none) q none,
        [(p, a), (q, b)]⟩ := by
    rw [exec, step]
    simp only [hpa, advance, ga, Option.bind_some]
    rw [exec, step]
    dsimp only
    rw [show update (update (update (fun _ => none) p (some (a, a.bytes.length))) q (some (b, b.bytes.length))) p none q =
      some (b, b.bytes.length) by rw [Function.update_of_ne hpq.symm, Function.update_self]]
    simp only [advance, gb, Option.bind_some, exec]
    rfl
  refine ⟨⟨over b.bytes (over a.bytes buf),
        [(over b.bytes (over a.bytes buf)).take a.bytes.length, (over b.bytes (over a.bytes buf)).take b.bytes.length],
        update (update jobs p []) q [],
        update (update (update (update (fun _ => none) p (some (a, a.bytes.length))) q (some (b, b.bytes.length))) p none) q none,
        [(p, a), (q, b)]⟩, ?_, rfl, ?_⟩
  · unfold overlap
    rw [exec_append, exec_append, s2, Option.bind_some, exec_append, s3, Option.bind_some, s4, Option.bind_some, s5]
  · have e1 : (over b.bytes (over a.bytes buf)).take b.bytes.length = b.bytes := by
      simp [over]
    have e2 : (over b.bytes (over a.bytes buf)).take a.bytes.length =
        (b.bytes ++ a.bytes.drop b.bytes.length).take a.bytes.length := by
      unfold over
      rw [List.take_append, List.take_append, List.drop_append, List.take_append, List.length_drop]
      congr 1
      rw [Nat.sub_self, List.take_zero, List.append_nil]
    rw [e1, e2]

/-- C98 fails: two calls with payloads of the same size can overlap so that the peer reads the second one twice and the first one never. -/
theorem C98_lost_false (p q : Nat) (hpq : p ≠ q) (a b : Job) (hab : a.data.length = b.data.length) (hb : b.data.length ≤ 32763)
    (jobs : Nat → List Job) (hp : jobs p = [a]) (hq : jobs q = [b]) :
    ∃ ps s, exec (init jobs) ps = some s ∧ s.done = [(p, a), (q, b)] ∧
      Session.parseCommands s.wire.flatten = some [(b.code, b.data), (b.code, b.data)] := by
  obtain ⟨s, h1, h2, h3⟩ := exec_overlap p q hpq a b (by omega) hb jobs hp hq
  refine ⟨_, s, h1, h2, ?_⟩
  have : (b.bytes ++ a.bytes.drop b.bytes.length).take a.bytes.length = b.bytes := by
    rw [List.drop_of_length_le (by simp [hab]), List.append_nil, List.take_of_length_le (by simp [hab])]
  rw [h3, this]
  exact parse_bytes [b, b] (by simpa using hb)

/-- The size a packet begins with. -/
theorem bytes_size (j : Job) (h : j.data.length ≤ 32763) : beNat (j.bytes.take 4) = j.data.length + 1 := by
  rw [Job.bytes, List.append_assoc, List.take_append_of_le_length (by simp), List.take_of_length_le (by simp)]
  exact beNat_beBytes_of_lt (by omega)

/-- C98 fails for any two different calls: they can overlap so that what the peer gets for the first is not its packet. -/
theorem C98_garbled_false (p q : Nat) (hpq : p ≠ q) (a b : Job) (hab : a ≠ b) (ha : a.data.length ≤ 32763)
    (hb : b.data.length ≤ 32763) (jobs : Nat → List Job) (hp : jobs p = [a]) (hq : jobs q = [b]) :
    ∃ ps s, exec (init jobs) ps = some s ∧ s.done = [(p, a), (q, b)] ∧ s.wire.head? ≠ some a.bytes := by
  obtain ⟨s, h1, h2, h3⟩ := exec_overlap p q hpq a b ha hb jobs hp hq
  refine ⟨_, s, h1, h2, ?_⟩
  rw [h3]
  intro hc
  simp only [List.head?_cons, Option.some.injEq] at hc
  have h4 : a.bytes.take 4 = b.bytes.take 4 := by
    rw [← hc, List.take_take, Nat.min_eq_left (by rw [Job.bytes_length]; omega),
      List.take_append_of_le_length (by rw [Job.bytes_length]; omega)]
  have h5 : a.data.length = b.data.length := by
    have e1 := bytes_size a ha
    have e2 := bytes_size b hb
    rw [h4] at e1
    omega
  have h6 : (b.bytes ++ a.bytes.drop b.bytes.length).take a.bytes.length = b.bytes := by
    rw [List.drop_of_length_le (by simp [h5]), List.append_nil, List.take_of_length_le (by simp [h5])]
  rw [h6] at hc
  unfold Job.bytes at hc
  rw [h5, List.append_assoc, List.append_assoc, List.append_cancel_left_eq] at hc
  apply hab
  cases a; cases b
  simp at hc
  simp [hc]

/-! ## Cases -/

/-- The application requests metadata and unsubscribes while the reading goroutine confirms a notification and a buffer block. -/
def exJobs : Nat → List Job
  | 0 => [⟨1, []⟩, ⟨3, []⟩]
  | 1 => [⟨7, [1, 2, 3, 4]⟩, ⟨8, [0, 0, 0, 7]⟩]
  | _ => []

example : Fits exJobs := by
  intro p j hj
  match p with
  | 0 => simp [exJobs] at hj; rcases hj with rfl | rfl <;> decide
  | 1 => simp [exJobs] at hj; rcases hj with rfl | rfl <;> decide
  | _ + 2 => simp [exJobs] at hj

/-- A schedule without overlap: request, confirmation, end of the subscription, confirmation. -/
def exSchedule : List Nat := List.replicate 7 0 ++ List.replicate 11 1 ++ List.replicate 7 0 ++ List.replicate 11 1

example : (exec (init exJobs) exSchedule).map (fun s => s.done.map fun x => x.2.code) = some [1, 7, 3, 8] := by decide +kernel

/-- Two confirmations of the same size that overlap: see `C98_lost_false`. -/
example : ∃ a b : Job, a.data.length = b.data.length ∧ b.data.length ≤ 32763 ∧ a ≠ b :=
  ⟨⟨7, [1, 2, 3, 4]⟩, ⟨8, [0, 0, 0, 7]⟩, by decide⟩

end Verif.Sync.Send
