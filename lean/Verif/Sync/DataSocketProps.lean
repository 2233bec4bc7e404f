import Verif.Sync.DataSocket

/-!
# C123: the socket of the data channel is closed when it is no longer wanted
-/

namespace Verif.Sync.DataSocket

open Function (update)

/-- States reached by actions that are allowed in the states they are taken in. -/
inductive Reach (v2 nilPanics : Bool) (P : St → Act → Prop) : St → Prop
  | init : Reach v2 nilPanics P init
  | step {s t : St} {a : Act} (h : Reach v2 nilPanics P s) (ha : P s a) (hs : step v2 nilPanics s a = some t) : Reach v2 nilPanics P t

/-- `Subscribe` asks for a data channel only when the one before is closed or its subscription has been confirmed. -/
def Patient (s : St) : Act → Prop
  | .subscribe (some _) _ => ∀ i, s.current = .sock i → s.isOpen i = true → s.subscribed = true
  | _ => True

/-- What holds when `Subscribe` is called with patience. -/
structure Tidy (s : St) : Prop where
  current : ∀ i, s.isOpen i = true → s.current = .sock i
  closing : s.call ≠ .idle → ∀ i, s.isOpen i = false
  flags : s.subscribed = true → s.validated = true

theorem close_isOpen {np : Bool} {s : St} (h : ∀ i, s.isOpen i = true → s.current = .sock i) (i : Nat) : (close np s).isOpen i = false := by
  unfold close
  cases hc : s.current with
  | none => by_contra hi; have := h i (by simpa using hi); rw [hc] at this; cases this
  | failed =>
    have : s.isOpen i = false := by
      by_contra hi; have := h i (by simpa using hi); rw [hc] at this; cases this
    dsimp only
    split <;> exact this
  | sock j =>
    dsimp only
    by_cases hj : s.isOpen j = true
    · rw [if_pos hj]
      by_cases hij : i = j
      · subst hij; simp
      · show update s.isOpen j false i = false
        rw [Function.update_of_ne hij]
        by_contra hi
        have := h i (by simpa using hi)
        rw [hc] at this
        injection this with this
        exact hij this.symm
    · rw [if_neg hj]
      by_contra hi
      have hi' : s.isOpen i = true := by simpa using hi
      have := h i hi'
      rw [hc] at this
      injection this with this
      subst this
      exact hj hi'

theorem close_flags (np : Bool) (s : St) : (close np s).subscribed = s.subscribed ∧ (close np s).validated = s.validated := by
  unfold close
  cases s.current with
  | none => exact ⟨rfl, rfl⟩
  | failed => dsimp only; split <;> exact ⟨rfl, rfl⟩
  | sock i => dsimp only; split <;> exact ⟨rfl, rfl⟩

theorem openChannel_tidy {s : St} {port : Option (BitVec 16)} {free : Bool} (hi : s.call = .idle) (hf : s.subscribed = true → s.validated = true)
    (hc : ∀ i, s.isOpen i = true → s.current = .sock i) (h : port ≠ none → ∀ i, s.isOpen i = false) : Tidy (openChannel s port free) := by
  unfold openChannel
  cases port with
  | none => exact ⟨hc, fun h => absurd hi h, hf⟩
  | some p =>
    have h := h (by simp)
    dsimp only
    split
    · refine ⟨fun i ho => ?_, fun h => absurd hi h, hf⟩
      by_cases hn : i = s.sockets
      · rw [hn]
      · dsimp only at ho
        rw [Function.update_of_ne hn, h i] at ho; cases ho
    · refine ⟨fun i ho => ?_, fun h => absurd hi h, hf⟩
      dsimp only at ho
      rw [h i] at ho; cases ho

theorem tidy_step {v2 np : Bool} {s t : St} {a : Act} (hs : Tidy s) (ha : Patient s a) (h : step v2 np s a = some t) : Tidy t := by
  obtain ⟨h1, h2, h3⟩ := hs
  unfold step at h
  by_cases hcr : s.crashed = true
  · rw [if_pos hcr] at h; cases h
  rw [if_neg hcr] at h
  cases a with
  | establish =>
    dsimp only at h
    split at h
    · cases h; exact ⟨h1, h2, fun h => by cases h⟩
    · cases h
  | validate =>
    dsimp only at h
    split at h
    · cases h; exact ⟨h1, h2, fun _ => rfl⟩
    · cases h
  | answer sub =>
    dsimp only at h
    split at h
    · rename_i hc; cases h; exact ⟨h1, h2, fun _ => hc.2⟩
    · cases h
  | subscribe port free =>
    dsimp only at h
    split at h
    · rename_i hc
      cases h
      unfold subscribe
      split
      · exact ⟨h1, h2, h3⟩
      split
      · exact ⟨h1, h2, h3⟩
      split
      · have hf := close_flags np s
        refine ⟨fun i hi => ?_, fun _ i => close_isOpen h1 i, fun h => ?_⟩
        · rw [show (close np s).isOpen i = false from close_isOpen h1 i] at hi; cases hi
        · show (close np s).validated = true
          rw [hf.2]; exact h3 (hf.1 ▸ h)
      · rename_i hn
        refine openChannel_tidy hc h3 h1 (fun hp i => ?_)
        cases port with
        | none => exact absurd rfl hp
        | some p =>
          by_contra hi
          have hi' : s.isOpen i = true := by simpa using hi
          have hsub := ha i (h1 i hi') hi'
          exact hn (by simp [hsub, h3 hsub])
    · cases h
  | unsubscribe =>
    dsimp only at h
    split at h
    · cases h
      split
      · exact ⟨h1, h2, h3⟩
      · have hf := close_flags np s
        refine ⟨fun i hi => ?_, fun _ i => close_isOpen h1 i, fun h => ?_⟩
        · rw [show (close np s).isOpen i = false from close_isOpen h1 i] at hi; cases hi
        · show (close np s).validated = true
          rw [hf.2]; exact h3 (hf.1 ▸ h)
    · cases h
  | disconnect =>
    dsimp only at h
    split at h
    · cases h
      have hc := fun i => close_isOpen (np := np) (s := { s with connected := false, validated := false, subscribed := false }) h1 i
      have hf := close_flags np { s with connected := false, validated := false, subscribed := false }
      refine ⟨fun i hi => ?_, fun _ i => hc i, fun h => ?_⟩
      · rw [show (close np { s with connected := false, validated := false, subscribed := false }).isOpen i = false from hc i] at hi; cases hi
      · rw [show (close np { s with connected := false, validated := false, subscribed := false }).subscribed = false from hf.1] at h; cases h
    · cases h
  | proceed =>
    dsimp only at h
    split at h
    · cases h
    cases hc : s.call with
    | idle => rw [hc] at h; cases h
    | unsubscribe => rw [hc] at h; cases h; exact ⟨h1, fun h => absurd rfl h, h3⟩
    | disconnect => rw [hc] at h; cases h; exact ⟨h1, fun h => absurd rfl h, h3⟩
    | subscribe port free =>
      rw [hc] at h; cases h
      exact openChannel_tidy rfl h3 h1 (fun _ => h2 (by rw [hc]; simp))
  | begins t =>
    dsimp only at h
    split at h
    · cases h
      split
      · split
        · exact ⟨h1, h2, h3⟩
        · split <;> exact ⟨h1, h2, h3⟩
        · exact ⟨h1, h2, h3⟩
      · exact ⟨h1, h2, h3⟩
    · cases h
  | datagram t =>
    dsimp only at h
    split at h
    · split at h
      · cases h; exact ⟨h1, h2, h3⟩
      · cases h
    · cases h
  | fails t =>
    dsimp only at h
    split at h
    · split at h
      · cases h
      · cases h; exact ⟨h1, h2, h3⟩
    · cases h

theorem tidy_reach {v2 np : Bool} {s : St} (h : Reach v2 np Patient s) : Tidy s := by
  induction h with
  | init => exact ⟨fun i h => (by cases h), fun _ _ => rfl, fun _ => rfl⟩
  | step _ ha hs ih => exact tidy_step ih ha hs

/-- **C123**, the part that holds: as long as `Subscribe` asks for a data channel only when the one before is closed or its subscription confirmed, at most
one socket is open, the one the subscriber holds; when `Unsubscribe`, `Disconnect` or the `Unsubscribe` in `Subscribe` comes to its `Join`, none is. -/
theorem C123_one_partial {v2 np : Bool} {s : St} (h : Reach v2 np Patient s) :
    (∀ i, s.isOpen i = true → s.current = .sock i) ∧ (∀ i j, s.isOpen i = true → s.isOpen j = true → i = j) ∧
    (s.call ≠ .idle → ∀ i, s.isOpen i = false) := by
  have ht := tidy_reach h
  refine ⟨ht.current, fun i j hi hj => ?_, ht.closing⟩
  have := (ht.current i hi).symm.trans (ht.current j hj)
  injection this

/-- **C123**, the part that holds: with the same condition none of the calls waits for ever. A call that is at its `Join` can go on, or the goroutine it
waits for gets an error from `Read`, without any datagram, and then it can; and `Unsubscribe` and `Disconnect` return with all sockets closed. -/
theorem C123_returns_partial {v2 np : Bool} {s : St} (h : Reach v2 np Patient s) (hc : s.crashed = false) (hb : s.call ≠ .idle) :
    ∃ as s', as.length ≤ 2 ∧ (∀ t, Act.datagram t ∉ as) ∧ exec v2 np s as = some s' ∧ s'.call = .idle ∧
      (s.call = .unsubscribe ∨ s.call = .disconnect → ∀ i, s'.isOpen i = false) := by
  have ht := (tidy_reach h).closing hb
  have key : ∀ u : St, u.crashed = false → u.call = s.call → u.isOpen = s.isOpen → u.waits = false →
      ∃ u', step v2 np u .proceed = some u' ∧ u'.call = .idle ∧ (s.call = .unsubscribe ∨ s.call = .disconnect → ∀ i, u'.isOpen i = false) := by
    intro u hu huc huo huw
    unfold step
    rw [if_neg (by simp [hu])]
    dsimp only
    rw [if_neg (by simp [huw]), huc]
    cases hcall : s.call with
    | idle => exact absurd hcall hb
    | unsubscribe => exact ⟨_, rfl, rfl, fun _ i => by show u.isOpen i = false; rw [huo]; exact ht i⟩
    | disconnect => exact ⟨_, rfl, rfl, fun _ i => by show u.isOpen i = false; rw [huo]; exact ht i⟩
    | subscribe port free =>
      refine ⟨_, rfl, ?_, fun h => by rcases h with h | h <;> cases h⟩
      unfold openChannel
      cases port with
      | none => rfl
      | some p => dsimp only; split <;> rfl
  by_cases hw : s.waits = true
  · have hw' := hw
    unfold St.waits at hw'
    cases hth : s.thread with
    | none => rw [hth] at hw'; cases hw'
    | some t =>
      rw [hth] at hw'
      dsimp only at hw'
      cases hr : s.r t with
      | reading i =>
        have hf : step v2 np s (.fails t) = some { s with r := update s.r t .ended } := by
          unfold step
          rw [if_neg (by simp [hc])]
          dsimp only
          rw [hr]
          dsimp only
          rw [if_neg (by simp [ht i])]
        obtain ⟨u', h1, h2, h3⟩ := key { s with r := update s.r t .ended } hc rfl rfl (by
          unfold St.waits; dsimp only; rw [hth]; simp)
        refine ⟨[.fails t, .proceed], u', by simp, by simp, ?_, h2, h3⟩
        show (step v2 np s (.fails t)).bind _ = _
        rw [hf]
        show (step v2 np _ .proceed).bind _ = _
        rw [h1]; rfl
      | _ => rw [hr] at hw'; cases hw'
  · obtain ⟨u', h1, h2, h3⟩ := key s hc rfl rfl (by simpa using hw)
    refine ⟨[.proceed], u', by simp, by simp, ?_, h2, h3⟩
    show (step v2 np s .proceed).bind _ = _
    rw [h1]; rfl

/-! ## Without patience -/

/-- Sockets are numbered in the order they are opened. -/
structure Numbered (s : St) : Prop where
  isOpen : ∀ i, s.isOpen i = true → i < s.sockets
  current : ∀ i, s.current = .sock i → i < s.sockets

theorem close_rest (np : Bool) (s : St) : (close np s).current = s.current ∧ (close np s).sockets = s.sockets ∧
    (∀ i, (close np s).isOpen i = true → s.isOpen i = true) ∧ (∀ i, s.current ≠ .sock i → (close np s).isOpen i = s.isOpen i) := by
  unfold close
  cases hc : s.current with
  | none => exact ⟨hc, rfl, fun i h => h, fun _ _ => rfl⟩
  | failed => dsimp only; split <;> exact ⟨rfl, rfl, fun i h => h, fun _ _ => rfl⟩
  | sock j =>
    dsimp only
    split
    · refine ⟨rfl, rfl, fun i h => ?_, fun i hi => ?_⟩
      · by_cases hij : i = j
        · subst hij; simp at h
        · dsimp only at h
          rwa [Function.update_of_ne hij] at h
      · exact Function.update_of_ne (fun e => hi (by rw [e])) _ _
    · exact ⟨rfl, rfl, fun i h => h, fun _ _ => rfl⟩

theorem openChannel_numbered {s : St} (h : Numbered s) (port : Option (BitVec 16)) (free : Bool) : Numbered (openChannel s port free) := by
  unfold openChannel
  cases port with
  | none => exact h
  | some p =>
    dsimp only
    split
    · refine ⟨fun i hi => ?_, fun i hi => ?_⟩
      · dsimp only at hi ⊢
        by_cases hn : i = s.sockets
        · omega
        · rw [Function.update_of_ne hn] at hi
          have := h.isOpen i hi; omega
      · dsimp only at hi ⊢
        injection hi with hi; omega
    · exact ⟨h.isOpen, fun i hi => by cases hi⟩

theorem close_numbered {s : St} (np : Bool) (h : Numbered s) : Numbered (close np s) := by
  obtain ⟨h1, h2, h3, -⟩ := close_rest np s
  exact ⟨fun i hi => by rw [h2]; exact h.isOpen i (h3 i hi), fun i hi => by rw [h2]; exact h.current i (h1 ▸ hi)⟩

theorem openChannel_keeps {s : St} (hn : Numbered s) {i : Nat} (ho : s.isOpen i = true) (hc : s.current ≠ .sock i) (port : Option (BitVec 16))
    (free : Bool) : (openChannel s port free).isOpen i = true ∧ (openChannel s port free).current ≠ .sock i := by
  have hi := hn.isOpen i ho
  unfold openChannel
  cases port with
  | none => exact ⟨ho, hc⟩
  | some p =>
    dsimp only
    split
    · refine ⟨?_, fun h => ?_⟩
      · dsimp only; rw [Function.update_of_ne (by omega)]; exact ho
      · injection h with h; omega
    · exact ⟨ho, by simp⟩

/-- A step keeps the numbering, and leaves sockets open that are open and not the one the subscriber holds. -/
theorem step_keeps {v2 np : Bool} {s t : St} {a : Act} (hn : Numbered s) (h : step v2 np s a = some t) :
    Numbered t ∧ ∀ i, s.isOpen i = true → s.current ≠ .sock i → t.isOpen i = true ∧ t.current ≠ .sock i := by
  have hclose : ∀ u : St, u.isOpen = s.isOpen → u.current = s.current → ∀ i, s.isOpen i = true → s.current ≠ .sock i →
      (close np u).isOpen i = true ∧ (close np u).current ≠ .sock i := by
    intro u h1 h2 i hi hc
    obtain ⟨e1, -, -, e4⟩ := close_rest np u
    exact ⟨by rw [e4 i (by rw [h2]; exact hc), h1]; exact hi, by rw [e1, h2]; exact hc⟩
  unfold step at h
  by_cases hcr : s.crashed = true
  · rw [if_pos hcr] at h; cases h
  rw [if_neg hcr] at h
  have hsame : ∀ u : St, u.isOpen = s.isOpen → u.current = s.current → u.sockets = s.sockets →
      Numbered u ∧ ∀ i, s.isOpen i = true → s.current ≠ .sock i → u.isOpen i = true ∧ u.current ≠ .sock i := by
    intro u h1 h2 h3
    exact ⟨⟨fun i hi => by rw [h3]; exact hn.isOpen i (h1 ▸ hi), fun i hi => by rw [h3]; exact hn.current i (h2 ▸ hi)⟩,
      fun i hi hc => ⟨by rw [h1]; exact hi, by rw [h2]; exact hc⟩⟩
  cases a with
  | establish =>
    dsimp only at h
    split at h
    · cases h; exact hsame _ rfl rfl rfl
    · cases h
  | validate =>
    dsimp only at h
    split at h
    · cases h; exact hsame _ rfl rfl rfl
    · cases h
  | answer sub =>
    dsimp only at h
    split at h
    · cases h; exact hsame _ rfl rfl rfl
    · cases h
  | subscribe port free =>
    dsimp only at h
    split at h
    · cases h
      unfold subscribe
      split
      · exact hsame _ rfl rfl rfl
      split
      · exact hsame _ rfl rfl rfl
      split
      · have := close_numbered np hn
        exact ⟨⟨this.isOpen, this.current⟩, fun i hi hc => hclose s rfl rfl i hi hc⟩
      · exact ⟨openChannel_numbered hn port free, fun i hi hc => openChannel_keeps hn hi hc port free⟩
    · cases h
  | unsubscribe =>
    dsimp only at h
    split at h
    · cases h
      split
      · exact hsame _ rfl rfl rfl
      · have := close_numbered np hn
        exact ⟨⟨this.isOpen, this.current⟩, fun i hi hc => hclose s rfl rfl i hi hc⟩
    · cases h
  | disconnect =>
    dsimp only at h
    split at h
    · cases h
      have := close_numbered np (s := { s with connected := false, validated := false, subscribed := false }) ⟨hn.isOpen, hn.current⟩
      exact ⟨⟨this.isOpen, this.current⟩,
        fun i hi hc => hclose { s with connected := false, validated := false, subscribed := false } rfl rfl i hi hc⟩
    · cases h
  | proceed =>
    dsimp only at h
    split at h
    · cases h
    cases hc : s.call with
    | idle => rw [hc] at h; cases h
    | unsubscribe => rw [hc] at h; cases h; exact hsame _ rfl rfl rfl
    | disconnect => rw [hc] at h; cases h; exact hsame _ rfl rfl rfl
    | subscribe port free =>
      rw [hc] at h; cases h
      have hn' : Numbered { s with call := .idle } := ⟨hn.isOpen, hn.current⟩
      exact ⟨openChannel_numbered hn' port free, fun i hi hc => openChannel_keeps hn' hi hc port free⟩
  | begins t =>
    dsimp only at h
    split at h
    · cases h
      split
      · split
        · exact hsame _ rfl rfl rfl
        · split <;> exact hsame _ rfl rfl rfl
        · exact hsame _ rfl rfl rfl
      · exact hsame _ rfl rfl rfl
    · cases h
  | datagram t =>
    dsimp only at h
    split at h
    · split at h
      · cases h; exact hsame _ rfl rfl rfl
      · cases h
    · cases h
  | fails t =>
    dsimp only at h
    split at h
    · split at h
      · cases h
      · cases h; exact hsame _ rfl rfl rfl
    · cases h

theorem numbered_reach {v2 np : Bool} {P : St → Act → Prop} {s : St} (h : Reach v2 np P s) : Numbered s := by
  induction h with
  | init => exact ⟨fun i h => (by cases h), fun i h => (by cases h)⟩
  | step _ _ hs ih => exact (step_keeps ih hs).1

/-- **C123** fails without that condition: a `Subscribe` that asks for a data channel while the one before is open and its subscription not confirmed,
whether it gets a socket or not, leaves the one before open; and no call ever closes it, in any schedule that follows. -/
theorem C123_leaks {v2 np : Bool} {s t : St} (h : Reach v2 np (fun _ _ => True) s) {i : Nat}
    (hopen : s.isOpen i = true) (hsub : s.subscribed = false) (hcon : s.connected = true) (hval : s.validated = true) {p : BitVec 16} {free : Bool}
    (hs : step v2 np s (.subscribe (some p) free) = some t) (as : List Act) (u : St) (hu : exec v2 np t as = some u) :
    u.isOpen i = true ∧ u.current ≠ .sock i := by
  have hn := numbered_reach h
  have hnt := (step_keeps hn hs).1
  have hi := hn.isOpen i hopen
  have ht : t.isOpen i = true ∧ t.current ≠ .sock i := by
    unfold step at hs
    by_cases hcr : s.crashed = true
    · rw [if_pos hcr] at hs; cases hs
    rw [if_neg hcr] at hs
    dsimp only at hs
    split at hs
    · cases hs
      unfold subscribe
      rw [if_neg (by simp [hcon]), if_neg (by simp [hval]), if_neg (by simp [hsub])]
      unfold openChannel
      dsimp only
      split
      · refine ⟨?_, fun h => ?_⟩
        · dsimp only; rw [Function.update_of_ne (by omega)]; exact hopen
        · injection h with h; omega
      · exact ⟨hopen, by simp⟩
    · cases hs
  clear hs
  induction as generalizing t with
  | nil => cases hu; exact ht
  | cons a as ih =>
    unfold exec at hu
    cases ha : step v2 np t a with
    | none => rw [ha] at hu; cases hu
    | some t' =>
      rw [ha] at hu
      have hk := step_keeps hnt ha
      exact ih hu hk.1 (hk.2 i ht.1 ht.2)

/-- **C123** fails without that condition: a call at its `Join` of a goroutine that reads an open socket does not return, whatever happens, until
a datagram arrives there. -/
theorem C123_waits {v2 np : Bool} {s : St} (hb : s.call ≠ .idle) {t i : Nat} (ht : s.thread = some t) (hr : s.r t = .reading i)
    (ho : s.isOpen i = true) (as : List Act) (hd : Act.datagram t ∉ as) (u : St) (hu : exec v2 np s as = some u) : u.call = s.call := by
  induction as generalizing s with
  | nil => cases hu; rfl
  | cons a as ih =>
    unfold exec at hu
    cases ha : step v2 np s a with
    | none => rw [ha] at hu; cases hu
    | some s' =>
      rw [ha] at hu
      have key : s'.call = s.call ∧ s'.thread = some t ∧ s'.r t = .reading i ∧ s'.isOpen i = true := by
        clear ih hu
        unfold step at ha
        by_cases hcr : s.crashed = true
        · rw [if_pos hcr] at ha; cases ha
        rw [if_neg hcr] at ha
        cases a with
        | establish => dsimp only at ha; rw [if_neg (fun h => hb h.1)] at ha; cases ha
        | validate => dsimp only at ha; split at ha <;> cases ha; exact ⟨rfl, ht, hr, ho⟩
        | answer sub => dsimp only at ha; split at ha <;> cases ha; exact ⟨rfl, ht, hr, ho⟩
        | subscribe port free => dsimp only at ha; rw [if_neg hb] at ha; cases ha
        | unsubscribe => dsimp only at ha; rw [if_neg hb] at ha; cases ha
        | disconnect => dsimp only at ha; rw [if_neg hb] at ha; cases ha
        | proceed =>
          dsimp only at ha
          have : s.waits = true := by unfold St.waits; rw [ht]; dsimp only; rw [hr]
          rw [if_pos this] at ha; cases ha
        | begins t' =>
          have hne : s.r t' = .launched → t ≠ t' := by rintro h rfl; rw [hr] at h; cases h
          dsimp only at ha
          split at ha
          · rename_i hl
            have hne := hne hl
            cases ha
            split
            · split
              · exact ⟨rfl, ht, by dsimp only; rw [Function.update_of_ne hne]; exact hr, ho⟩
              · split
                · exact ⟨rfl, ht, hr, ho⟩
                · exact ⟨rfl, ht, by dsimp only; rw [Function.update_of_ne hne]; exact hr, ho⟩
              · exact ⟨rfl, ht, by dsimp only; rw [Function.update_of_ne hne]; exact hr, ho⟩
            · exact ⟨rfl, ht, by dsimp only; rw [Function.update_of_ne hne]; exact hr, ho⟩
          · cases ha
        | datagram t' =>
          have hne : t ≠ t' := by rintro rfl; exact hd (by simp)
          dsimp only at ha
          split at ha
          · split at ha
            · cases ha; exact ⟨rfl, ht, by dsimp only; rw [Function.update_of_ne hne]; exact hr, ho⟩
            · cases ha
          · cases ha
        | fails t' =>
          dsimp only at ha
          split at ha
          · rename_i j hj
            split at ha
            · cases ha
            · rename_i hjo
              have hne : t ≠ t' := by
                rintro rfl
                rw [hr] at hj; injection hj with hj; subst hj; exact hjo ho
              cases ha; exact ⟨rfl, ht, by dsimp only; rw [Function.update_of_ne hne]; exact hr, ho⟩
          · cases ha
      obtain ⟨k1, k2, k3, k4⟩ := key
      exact (ih (k1 ▸ hb) k2 k3 k4 (fun h => hd (List.mem_cons_of_mem _ h)) hu).trans k1

theorem reach_exec {v2 np : Bool} {s t : St} (h : Reach v2 np (fun _ _ => True) s) (as : List Act) (he : exec v2 np s as = some t) :
    Reach v2 np (fun _ _ => True) t := by
  induction as generalizing s with
  | nil => cases he; exact h
  | cons a as ih =>
    unfold exec at he
    cases ha : step v2 np s a with
    | none => rw [ha] at he; cases he
    | some s' => rw [ha] at he; exact ih (.step h trivial ha) he

/-- Connected, subscribed twice for the data channel at port 9600 before the publisher has answered. -/
def twice : List Act := [.establish, .subscribe (some 9600) true, .begins 0, .subscribe (some 9600) true]

/-- **C123** fails: `Subscribe` twice, for the same port, before the answer to the first; the second cannot open the port, as the first still has it, and
from then on nobody closes it: `Disconnect` does not return until another datagram arrives, whatever else happens. (Unless closing the nil pointer
left by the second ends the program before.) -/
theorem C123_disconnect_false : ∃ s, exec true false init (twice ++ [.disconnect]) = some s ∧ s.call = .disconnect ∧
    ∀ as u, Act.datagram 0 ∉ as → exec true false s as = some u → u.call = .disconnect := by
  refine ⟨_, rfl, rfl, fun as u hd hu => ?_⟩
  exact C123_waits (t := 0) (i := 0) (by decide) rfl rfl rfl as hd u hu

/-- … and where `Close` of a nil pointer panics, `Disconnect` ends the program. -/
theorem C123_disconnect_panics : ∃ s, exec true true init (twice ++ [.disconnect]) = some s ∧ s.crashed = true := ⟨_, rfl, rfl⟩

/-- **C123** fails: `Subscribe` for one port and, before the answer, for another; `Disconnect` then leaves the first socket open, and what arrives there
is still processed, after the connection has ended and in the next one. -/
theorem C123_socket_false : ∃ s, exec true false init [.establish, .subscribe (some 9600) true, .begins 0, .subscribe (some 9601) true, .begins 1,
      .answer true, .disconnect, .fails 1, .proceed, .establish, .validate, .datagram 0, .datagram 0] = some s ∧
    s.isOpen 0 = true ∧ s.got = [0, 0] ∧ s.subscribed = false := ⟨_, rfl, rfl, rfl, rfl⟩

/-- **C123** fails: `Unsubscribe` closes the socket but keeps it, so that `Disconnect` closes it again and reports an error where nothing is wrong. -/
theorem C123_reports_false : ∃ s, exec true false init [.establish, .subscribe (some 9600) true, .begins 0, .answer true, .unsubscribe, .fails 0, .proceed,
      .answer false, .disconnect, .proceed] = some s ∧ s.reports = 1 ∧ s.isOpen 0 = false := ⟨_, rfl, rfl, rfl⟩

/-- Subscribed for a data channel, confirmed, subscribed for another port: with patience. -/
example : ∃ s, Reach true false Patient s ∧ s.call = .subscribe (some 9601) true ∧ s.waits = true ∧ s.crashed = false := by
  have h0 : Reach true false Patient init := .init
  have h1 := Reach.step (a := .establish) h0 trivial rfl
  have h2 := Reach.step (a := .subscribe (some 9600) true) h1 (by intro i hi; cases hi) rfl
  have h3 := Reach.step (a := .begins 0) h2 trivial rfl
  have h4 := Reach.step (a := .answer true) h3 trivial rfl
  have h5 := Reach.step (a := .subscribe (some 9601) true) h4 (by intro i _ _; rfl) rfl
  exact ⟨_, h5, rfl, rfl, rfl⟩

/-- The hypotheses of `C123_leaks` and `C123_waits` are met. -/
example : ∃ s t, Reach true false (fun _ _ => True) s ∧ s.current = .sock 0 ∧ s.isOpen 0 = true ∧ s.subscribed = false ∧ s.connected = true ∧
    s.validated = true ∧ step true false s (.subscribe (some 9601) true) = some t := by
  refine ⟨_, _, reach_exec .init [.establish, .subscribe (some 9600) true] rfl, rfl, rfl, rfl, rfl, rfl, rfl⟩

end Verif.Sync.DataSocket
