import Verif.Sync.Pool
import Mathlib.Data.List.Nodup

/-!
# C114: what the application has been handed is its own
-/

namespace Verif.Sync.Pool

open Function (update)

variable {α : Type}

/-- The application uses and gives back only what it has been handed and has not given back. -/
def Proper (s : St α) : Act α → Prop
  | .trim c => s.app c = .held
  | .put c => s.app c = .trimmed
  | .use c _ _ => s.app c = .held
  | _ => True

/-- The states reached when the application does. -/
inductive Reach (z : α) : St α → Prop where
  | init : Reach z init
  | step {s t : St α} {a : Act α} : Reach z s → Proper s a → step z s a = some t → Reach z t

/-- The pointer a goroutine works on. -/
def W.cell : W α → Option Nat
  | .idle | .ask _ _ => none
  | .got c _ _ | .fill c _ _ _ _ => some c

/-- Every pointer has one owner, and every array has one pointer. -/
structure Inv (s : St α) : Prop where
  nodup : s.pool.Nodup
  pool : ∀ c ∈ s.pool, c < s.cells ∧ s.app c = .away ∧ ∀ i, (s.w i).cell ≠ some c
  work : ∀ i c, (s.w i).cell = some c → c < s.cells ∧ s.app c = .away ∧ ∀ j, (s.w j).cell = some c → j = i
  app : ∀ c, s.app c ≠ .away → c < s.cells
  arr : ∀ c, c < s.cells → (s.cell c).arr < s.arrays ∧ (s.cell c).len ≤ (s.heap (s.cell c).arr).length
  inj : ∀ c d, c < s.cells → d < s.cells → (s.cell c).arr = (s.cell d).arr → c = d
  ask : ∀ i ms n, s.w i = .ask ms n → ms.length ≤ n
  got : ∀ i c ms n, s.w i = .got c ms n → ms.length ≤ n
  fill : ∀ i c a ms n k, s.w i = .fill c a ms n k →
    s.cell c = ⟨a, n⟩ ∧ ms.length ≤ n ∧ k ≤ ms.length ∧ (s.heap a).take k = ms.take k

theorem inv_init : Inv (init : St α) :=
  ⟨List.nodup_nil, by simp [init], by simp [init, W.cell], by simp [init], by simp [init], by simp [init], by simp [init], by simp [init],
    by simp [init]⟩

theorem upd {β : Type} {f : Nat → β} {i j : Nat} {v x : β} (h : update f i v j = x) : (j = i ∧ v = x) ∨ (j ≠ i ∧ f j = x) := by
  by_cases e : j = i
  · subst e; rw [Function.update_self] at h; exact .inl ⟨rfl, h⟩
  · rw [Function.update_of_ne e] at h; exact .inr ⟨e, h⟩

theorem not_mem_eraseIdx {l : List Nat} (hl : l.Nodup) {p c : Nat} (h : l[p]? = some c) : c ∉ l.eraseIdx p := by
  intro hc
  rw [List.mem_eraseIdx_iff_getElem?] at hc
  obtain ⟨j, hj, hc⟩ := hc
  obtain ⟨h1, h1'⟩ := List.getElem?_eq_some_iff.mp h
  obtain ⟨h2, h2'⟩ := List.getElem?_eq_some_iff.mp hc
  exact hj ((List.Nodup.getElem_inj_iff hl).mp (h2'.trans h1'.symm))

theorem take_set_succ {l : List α} {ms : List α} {k : Nat} {v : α} (hk : k < l.length) (h : l.take k = ms.take k) (hv : ms[k]? = some v) :
    (l.set k v).take (k + 1) = ms.take (k + 1) := by
  rw [List.take_add_one, List.take_add_one, List.take_set_of_le (Nat.le_refl k), h, hv, List.getElem?_set_self hk]

/-- A goroutine goes on with the pointer it has, or with none. -/
theorem inv_w {s : St α} (hs : Inv s) {i : Nat} {x : W α} (hx : x.cell = none ∨ x.cell = (s.w i).cell)
    (h1 : ∀ ms n, x = .ask ms n → ms.length ≤ n) (h2 : ∀ c ms n, x = .got c ms n → ms.length ≤ n)
    (h3 : ∀ c a ms n k, x = .fill c a ms n k → s.cell c = ⟨a, n⟩ ∧ ms.length ≤ n ∧ k ≤ ms.length ∧ (s.heap a).take k = ms.take k) :
    Inv { s with w := update s.w i x } := by
  have key : ∀ j c, (update s.w i x j).cell = some c → (s.w j).cell = some c := by
    intro j c h
    by_cases e : j = i
    · subst e
      rw [Function.update_self] at h
      rcases hx with hx | hx
      · rw [hx] at h; cases h
      · rw [← hx]; exact h
    · rw [Function.update_of_ne e] at h; exact h
  refine ⟨hs.nodup, fun c hc => ?_, fun j c hj => ?_, hs.app, hs.arr, hs.inj, fun j ms n hj => ?_, fun j c ms n hj => ?_, fun j c a ms n k hj => ?_⟩
  · obtain ⟨g1, g2, g3⟩ := hs.pool c hc
    exact ⟨g1, g2, fun j hj => g3 j (key j c hj)⟩
  · obtain ⟨g1, g2, g3⟩ := hs.work j c (key j c hj)
    exact ⟨g1, g2, fun j' hj' => g3 j' (key j' c hj')⟩
  · rcases upd hj with ⟨_, e⟩ | ⟨_, e⟩
    · exact h1 _ _ e
    · exact hs.ask j _ _ e
  · rcases upd hj with ⟨_, e⟩ | ⟨_, e⟩
    · exact h2 _ _ _ e
    · exact hs.got j _ _ _ e
  · rcases upd hj with ⟨_, e⟩ | ⟨_, e⟩
    · exact h3 _ _ _ _ _ e
    · exact hs.fill j _ _ _ _ _ e

/-- A pointer leaves the pool. -/
theorem inv_pool {s : St α} (hs : Inv s) (p : Nat) : Inv { s with pool := s.pool.eraseIdx p } :=
  ⟨hs.nodup.sublist (List.eraseIdx_sublist _ _), fun c hc => hs.pool c (List.mem_of_mem_eraseIdx hc), hs.work, hs.app, hs.arr, hs.inj, hs.ask, hs.got,
    hs.fill⟩

/-- An array is written to by the only one to have its pointer. -/
theorem inv_heap {s : St α} (hs : Inv s) (a : Nat) (l : List α) (hl : l.length = (s.heap a).length)
    (hn : ∀ i c ms n k, s.w i ≠ .fill c a ms n k) : Inv { s with heap := update s.heap a l } := by
  refine ⟨hs.nodup, hs.pool, hs.work, hs.app, fun c hc => ?_, hs.inj, hs.ask, hs.got, fun i c b ms n k hi => ?_⟩
  · obtain ⟨g1, g2⟩ := hs.arr c hc
    refine ⟨g1, ?_⟩
    dsimp only
    by_cases e : (s.cell c).arr = a
    · rw [e, Function.update_self, hl, ← e]; exact g2
    · rw [Function.update_of_ne e]; exact g2
  · have e : b ≠ a := fun e => hn i c ms n k (e ▸ hi)
    dsimp only
    rw [Function.update_of_ne e]
    exact hs.fill i c b ms n k hi

theorem inv_step {z : α} {s t : St α} {a : Act α} (hs : Inv s) (hp : Proper s a) (h : step z s a = some t) : Inv t := by
  cases a with
  | packet i ms n =>
    simp only [step] at h
    cases hw : s.w i with
    | idle =>
      rw [hw] at h; dsimp only at h
      split at h <;> cases h
      next hn => exact inv_w hs (.inl rfl) (fun _ _ e => by cases e; exact hn) (fun _ _ _ e => by cases e) (fun _ _ _ _ _ e => by cases e)
    | _ => rw [hw] at h; cases h
  | get i p =>
    simp only [step] at h
    cases hw : s.w i with
    | ask ms n =>
      have hn := hs.ask i _ _ hw
      rw [hw] at h; dsimp only [stepGet] at h
      cases p with
      | none =>
        cases h
        have hne : ∀ c, c < s.cells → update s.cell s.cells ⟨s.arrays, n⟩ c = s.cell c := fun c hc => Function.update_of_ne (by omega) _ _
        have hha : ∀ b, b < s.arrays → update s.heap s.arrays (List.replicate n z) b = s.heap b := fun b hb => Function.update_of_ne (by omega) _ _
        have key : ∀ j c, (update s.w i (.fill s.cells s.arrays ms n 0) j).cell = some c → (j = i ∧ c = s.cells) ∨ (j ≠ i ∧ (s.w j).cell = some c) := by
          intro j c h
          by_cases e : j = i
          · subst e; rw [Function.update_self] at h; cases h; exact .inl ⟨rfl, rfl⟩
          · rw [Function.update_of_ne e] at h; exact .inr ⟨e, h⟩
        refine ⟨hs.nodup, fun c hc => ?_, fun j c hj => ?_, fun c hc => Nat.lt_succ_of_lt (hs.app c hc), fun c hc => ?_, fun c d hc hd e => ?_,
          fun j ms' n' hj => ?_, fun j c ms' n' hj => ?_, fun j c b ms' n' k hj => ?_⟩
        · obtain ⟨g1, g2, g3⟩ := hs.pool c hc
          refine ⟨Nat.lt_succ_of_lt g1, g2, fun j hj => ?_⟩
          rcases key j c hj with ⟨_, e⟩ | ⟨_, e⟩
          · omega
          · exact g3 j e
        · rcases key j c hj with ⟨e1, e⟩ | ⟨e1, e⟩
          · subst e1; subst e
            refine ⟨Nat.lt_succ_self _, ?_, fun j' hj' => ?_⟩
            · cases ha : s.app s.cells with
              | away => exact ha
              | held => exact absurd (hs.app s.cells (by rw [ha]; simp)) (Nat.lt_irrefl _)
              | trimmed => exact absurd (hs.app s.cells (by rw [ha]; simp)) (Nat.lt_irrefl _)
            · rcases key j' _ hj' with ⟨e1, _⟩ | ⟨_, e⟩
              · exact e1
              · exact absurd (hs.work j' _ e).1 (Nat.lt_irrefl _)
          · obtain ⟨g1, g2, g3⟩ := hs.work j c e
            refine ⟨Nat.lt_succ_of_lt g1, g2, fun j' hj' => ?_⟩
            rcases key j' _ hj' with ⟨_, e⟩ | ⟨_, e⟩
            · omega
            · exact g3 j' e
        · by_cases e : c = s.cells
          · subst e
            simp only [fresh, Function.update_self]
            exact ⟨Nat.lt_succ_self _, by simp⟩
          · have hc' : c < s.cells := by simp only [fresh] at hc; omega
            obtain ⟨g1, g2⟩ := hs.arr c hc'
            simp only [fresh]
            rw [hne c hc', hha _ g1]
            exact ⟨Nat.lt_succ_of_lt g1, g2⟩
        · simp only [fresh] at hc hd e
          by_cases ec : c = s.cells
          · by_cases ed : d = s.cells
            · rw [ec, ed]
            · have hd' : d < s.cells := by omega
              rw [ec, Function.update_self, hne d hd'] at e
              have := (hs.arr d hd').1
              dsimp only at e; omega
          · have hc' : c < s.cells := by omega
            by_cases ed : d = s.cells
            · rw [ed, Function.update_self, hne c hc'] at e
              have := (hs.arr c hc').1
              dsimp only at e; omega
            · have hd' : d < s.cells := by omega
              rw [hne c hc', hne d hd'] at e
              exact hs.inj c d hc' hd' e
        · rcases upd hj with ⟨_, e⟩ | ⟨_, e⟩
          · cases e
          · exact hs.ask j _ _ e
        · rcases upd hj with ⟨_, e⟩ | ⟨_, e⟩
          · cases e
          · exact hs.got j _ _ _ e
        · rcases upd hj with ⟨_, e⟩ | ⟨_, e⟩
          · cases e
            exact ⟨Function.update_self _ _ _, hn, Nat.zero_le _, rfl⟩
          · have hc := (hs.work j c (by rw [e]; rfl)).1
            obtain ⟨g1, g2, g3, g4⟩ := hs.fill j _ _ _ _ _ e
            have hb : b < s.arrays := by have := (hs.arr c hc).1; rw [g1] at this; exact this
            simp only [fresh]
            rw [hne c hc, hha b hb]
            exact ⟨g1, g2, g3, g4⟩
      | some p =>
        dsimp only at h
        cases hc : s.pool[p]? with
        | none => rw [hc] at h; cases h
        | some c =>
          rw [hc] at h; cases h
          have hmem : c ∈ s.pool := List.mem_of_getElem? hc
          obtain ⟨q1, q2, q3⟩ := hs.pool c hmem
          have key : ∀ j d, (update s.w i (.got c ms n) j).cell = some d → (j = i ∧ d = c) ∨ (j ≠ i ∧ (s.w j).cell = some d) := by
            intro j d h
            by_cases e : j = i
            · subst e; rw [Function.update_self] at h; cases h; exact .inl ⟨rfl, rfl⟩
            · rw [Function.update_of_ne e] at h; exact .inr ⟨e, h⟩
          refine ⟨hs.nodup.sublist (List.eraseIdx_sublist _ _), fun d hd => ?_, fun j d hj => ?_, hs.app, hs.arr, hs.inj, fun j ms' n' hj => ?_,
            fun j d ms' n' hj => ?_, fun j d b ms' n' k hj => ?_⟩
          · obtain ⟨g1, g2, g3⟩ := hs.pool d (List.mem_of_mem_eraseIdx hd)
            refine ⟨g1, g2, fun j hj => ?_⟩
            rcases key j d hj with ⟨_, e⟩ | ⟨_, e⟩
            · subst e; exact not_mem_eraseIdx hs.nodup hc hd
            · exact g3 j e
          · rcases key j d hj with ⟨e1, e⟩ | ⟨_, e⟩
            · subst e1; subst e
              refine ⟨q1, q2, fun j' hj' => ?_⟩
              rcases key j' _ hj' with ⟨e1, _⟩ | ⟨_, e⟩
              · exact e1
              · exact absurd e (q3 j')
            · obtain ⟨g1, g2, g3⟩ := hs.work j d e
              refine ⟨g1, g2, fun j' hj' => ?_⟩
              rcases key j' _ hj' with ⟨_, e2⟩ | ⟨_, e2⟩
              · subst e2; exact absurd e (q3 j)
              · exact g3 j' e2
          · rcases upd hj with ⟨_, e⟩ | ⟨_, e⟩
            · cases e
            · exact hs.ask j _ _ e
          · rcases upd hj with ⟨_, e⟩ | ⟨_, e⟩
            · cases e; exact hn
            · exact hs.got j _ _ _ e
          · rcases upd hj with ⟨_, e⟩ | ⟨_, e⟩
            · cases e
            · exact hs.fill j _ _ _ _ _ e
    | _ => rw [hw] at h; cases h
  | size i =>
    simp only [step] at h
    cases hw : s.w i with
    | got c ms n =>
      have hn := hs.got i _ _ _ hw
      obtain ⟨q1, q2, q3⟩ := hs.work i c (by rw [hw]; rfl)
      rw [hw] at h; dsimp only [stepSize] at h
      have other : ∀ j d b ms' n' k, s.w j = .fill d b ms' n' k → d ≠ c := by
        intro j d b ms' n' k hj e
        have := q3 j (by rw [hj, e]; rfl)
        subst this; rw [hw] at hj; cases hj
      split at h
      · cases h
        have hne : ∀ d, d ≠ c → update s.cell c ⟨s.arrays, n⟩ d = s.cell d := fun d hd => Function.update_of_ne hd _ _
        have hha : ∀ b, b < s.arrays → update s.heap s.arrays (List.replicate n z) b = s.heap b := fun b hb => Function.update_of_ne (by omega) _ _
        have hs' : Inv { s with heap := update s.heap s.arrays (List.replicate n z), arrays := s.arrays + 1, cell := update s.cell c ⟨s.arrays, n⟩ } := by
          refine ⟨hs.nodup, hs.pool, hs.work, hs.app, fun d hd => ?_, fun d d' hd hd' e => ?_, hs.ask, hs.got, fun j d b ms' n' k hj => ?_⟩
          · dsimp only
            by_cases e : d = c
            · subst e; rw [Function.update_self]; dsimp only; rw [Function.update_self]; exact ⟨Nat.lt_succ_self _, by simp⟩
            · obtain ⟨g1, g2⟩ := hs.arr d hd
              rw [hne d e, hha _ g1]; exact ⟨Nat.lt_succ_of_lt g1, g2⟩
          · dsimp only at hd hd' e
            by_cases ec : d = c
            · by_cases ed : d' = c
              · rw [ec, ed]
              · rw [ec, Function.update_self, hne d' ed] at e
                have := (hs.arr d' hd').1
                dsimp only at e; omega
            · by_cases ed : d' = c
              · rw [ed, Function.update_self, hne d ec] at e
                have := (hs.arr d hd).1
                dsimp only at e; omega
              · rw [hne d ec, hne d' ed] at e
                exact hs.inj d d' hd hd' e
          · have e := other _ _ _ _ _ _ hj
            obtain ⟨g1, g2, g3, g4⟩ := hs.fill _ _ _ _ _ _ hj
            have hd := (hs.work j d (by rw [hj]; rfl)).1
            have hb : b < s.arrays := by have := (hs.arr d hd).1; rw [g1] at this; exact this
            dsimp only
            rw [hne d e, hha b hb]
            exact ⟨g1, g2, g3, g4⟩
        refine inv_w hs' (.inr (by rw [hw]; rfl)) (fun _ _ e => by cases e) (fun _ _ _ e => by cases e) (fun _ _ _ _ _ e => ?_)
        cases e
        dsimp only
        rw [Function.update_self]
        exact ⟨rfl, hn, Nat.zero_le _, rfl⟩
      · next hlen =>
        cases h
        have hne : ∀ d, (update s.cell c ⟨(s.cell c).arr, n⟩ d).arr = (s.cell d).arr := by
          intro d
          by_cases e : d = c
          · subst e; rw [Function.update_self]
          · rw [Function.update_of_ne e]
        have hs' : Inv { s with cell := update s.cell c ⟨(s.cell c).arr, n⟩ } := by
          refine ⟨hs.nodup, hs.pool, hs.work, hs.app, fun d hd => ?_, fun d d' hd hd' e => ?_, hs.ask, hs.got, fun j d b ms' n' k hj => ?_⟩
          · obtain ⟨g1, g2⟩ := hs.arr d hd
            dsimp only
            rw [hne]
            refine ⟨g1, ?_⟩
            by_cases e : d = c
            · subst e; rw [Function.update_self]; dsimp only; omega
            · rw [Function.update_of_ne e]; exact g2
          · dsimp only at e
            rw [hne, hne] at e
            exact hs.inj d d' hd hd' e
          · dsimp only
            rw [Function.update_of_ne (other _ _ _ _ _ _ hj)]
            exact hs.fill _ _ _ _ _ _ hj
        refine inv_w hs' (.inr (by rw [hw]; rfl)) (fun _ _ e => by cases e) (fun _ _ _ e => by cases e) (fun _ _ _ _ _ e => ?_)
        cases e
        dsimp only
        rw [Function.update_self]
        exact ⟨rfl, hn, Nat.zero_le _, rfl⟩
    | _ => rw [hw] at h; cases h
  | write i =>
    simp only [step] at h
    cases hw : s.w i with
    | fill c a ms n k =>
      rw [hw] at h; dsimp only at h
      cases hv : ms[k]? with
      | none => rw [hv] at h; cases h
      | some v =>
        rw [hv] at h; cases h
        obtain ⟨g1, g2, g3, g4⟩ := hs.fill i _ _ _ _ _ hw
        obtain ⟨q1, q2, q3⟩ := hs.work i c (by rw [hw]; rfl)
        have hk : k < ms.length := (List.getElem?_eq_some_iff.mp hv).1
        have hlen := (hs.arr c q1).2
        rw [g1] at hlen; dsimp only at hlen
        have h0 : Inv { s with w := update s.w i .idle } :=
          inv_w hs (.inl rfl) (fun _ _ e => by cases e) (fun _ _ _ e => by cases e) (fun _ _ _ _ _ e => by cases e)
        have h1 := inv_heap h0 a ((s.heap a).set k v) (by simp) (fun j d ms' n' k' hj => by
          rcases upd hj with ⟨_, e⟩ | ⟨e', e⟩
          · cases e
          · have g1' := (hs.fill j _ _ _ _ _ e).1
            have hd := hs.work j d (by rw [e]; rfl)
            have := hs.inj d c hd.1 q1 (by rw [g1, g1'])
            subst this
            exact e' (q3 j (by rw [e]; rfl)))
        have arr' := h1.arr
        refine ⟨hs.nodup, fun d hd => ?_, fun j d hj => ?_, hs.app, arr', hs.inj, fun j ms' n' hj => ?_, fun j d ms' n' hj => ?_, fun j d b ms' n' k' hj => ?_⟩
        · obtain ⟨p1, p2, p3⟩ := hs.pool d hd
          refine ⟨p1, p2, fun j hj => ?_⟩
          by_cases e : j = i
          · subst e; dsimp only at hj; rw [Function.update_self] at hj; exact p3 j (by rw [hw]; exact hj)
          · dsimp only at hj; rw [Function.update_of_ne e] at hj; exact p3 j hj
        · have key : ∀ j d, (update s.w i (.fill c a ms n (k + 1)) j).cell = some d → (s.w j).cell = some d := by
            intro j d hj
            by_cases e : j = i
            · subst e; rw [Function.update_self] at hj; rw [hw]; exact hj
            · rw [Function.update_of_ne e] at hj; exact hj
          obtain ⟨p1, p2, p3⟩ := hs.work j d (key j d hj)
          exact ⟨p1, p2, fun j' hj' => p3 j' (key j' d hj')⟩
        · rcases upd hj with ⟨_, e⟩ | ⟨_, e⟩
          · cases e
          · exact hs.ask j _ _ e
        · rcases upd hj with ⟨_, e⟩ | ⟨_, e⟩
          · cases e
          · exact hs.got j _ _ _ e
        · rcases upd hj with ⟨_, e⟩ | ⟨e', e⟩
          · cases e
            dsimp only
            rw [Function.update_self]
            exact ⟨g1, g2, hk, take_set_succ (by omega) g4 hv⟩
          · exact h1.fill j d b ms' n' k' (by dsimp only; rw [Function.update_of_ne e']; exact e)
    | _ => rw [hw] at h; cases h
  | hand i =>
    simp only [step] at h
    cases hw : s.w i with
    | fill c a ms n k =>
      rw [hw] at h; dsimp only at h
      split at h <;> cases h
      obtain ⟨q1, q2, q3⟩ := hs.work i c (by rw [hw]; rfl)
      have h0 : Inv { s with w := update s.w i .idle } :=
        inv_w hs (.inl rfl) (fun _ _ e => by cases e) (fun _ _ _ e => by cases e) (fun _ _ _ _ _ e => by cases e)
      have free : ∀ j, (update s.w i .idle j).cell ≠ some c := by
        intro j hj
        by_cases e : j = i
        · subst e; rw [Function.update_self] at hj; cases hj
        · rw [Function.update_of_ne e] at hj; exact e (q3 j hj)
      refine ⟨hs.nodup, fun d hd => ?_, fun j d hj => ?_, fun d hd => ?_, hs.arr, hs.inj, h0.ask, h0.got, h0.fill⟩
      · obtain ⟨p1, p2, p3⟩ := h0.pool d hd
        refine ⟨p1, ?_, p3⟩
        have : d ≠ c := fun e => (hs.pool d hd).2.2 i (by rw [hw, e]; rfl)
        dsimp only; rw [Function.update_of_ne this]; exact p2
      · obtain ⟨p1, p2, p3⟩ := h0.work j d hj
        refine ⟨p1, ?_, p3⟩
        have : d ≠ c := fun e => free j (e ▸ hj)
        dsimp only; rw [Function.update_of_ne this]; exact p2
      · by_cases e : d = c
        · subst e; exact q1
        · dsimp only at hd; rw [Function.update_of_ne e] at hd; exact hs.app d hd
    | _ => rw [hw] at h; cases h
  | discard i =>
    simp only [step] at h
    cases hw : s.w i with
    | fill c a ms n k =>
      rw [hw] at h; dsimp only at h
      split at h <;> cases h
      exact inv_w hs (.inl rfl) (fun _ _ e => by cases e) (fun _ _ _ e => by cases e) (fun _ _ _ _ _ e => by cases e)
    | _ => rw [hw] at h; cases h
  | trim c =>
    have hc : s.app c = .held := hp
    cases h
    have hna : ∀ d, s.app d = .away → update s.app c .trimmed d = .away := by
      intro d hd
      rw [Function.update_of_ne (fun e => by rw [e, hc] at hd; cases hd)]; exact hd
    have hne : ∀ d, (update s.cell c ⟨(s.cell c).arr, 0⟩ d).arr = (s.cell d).arr := by
      intro d
      by_cases e : d = c
      · subst e; rw [Function.update_self]
      · rw [Function.update_of_ne e]
    refine ⟨hs.nodup, fun d hd => ?_, fun j d hj => ?_, fun d hd => ?_, fun d hd => ?_, fun d d' hd hd' e => ?_, hs.ask, hs.got, fun j d b ms n k hj => ?_⟩
    · obtain ⟨p1, p2, p3⟩ := hs.pool d hd
      exact ⟨p1, hna d p2, p3⟩
    · obtain ⟨p1, p2, p3⟩ := hs.work j d hj
      exact ⟨p1, hna d p2, p3⟩
    · by_cases e : d = c
      · subst e; exact hs.app d (by rw [hc]; simp)
      · dsimp only at hd; rw [Function.update_of_ne e] at hd; exact hs.app d hd
    · obtain ⟨g1, g2⟩ := hs.arr d hd
      dsimp only
      rw [hne]
      refine ⟨g1, ?_⟩
      by_cases e : d = c
      · subst e; rw [Function.update_self]; exact Nat.zero_le _
      · rw [Function.update_of_ne e]; exact g2
    · dsimp only at e
      rw [hne, hne] at e
      exact hs.inj d d' hd hd' e
    · have e : d ≠ c := fun e => by have := (hs.work j d (by rw [hj]; rfl)).2.1; rw [e, hc] at this; cases this
      dsimp only
      rw [Function.update_of_ne e]
      exact hs.fill _ _ _ _ _ _ hj
  | put c =>
    have hc : s.app c = .trimmed := hp
    cases h
    have hna : ∀ d, s.app d = .away → update s.app c .away d = .away := by
      intro d hd
      rw [Function.update_of_ne (fun e => by rw [e, hc] at hd; cases hd)]; exact hd
    refine ⟨List.nodup_cons.mpr ⟨fun hm => ?_, hs.nodup⟩, fun d hd => ?_, fun j d hj => ?_, fun d hd => ?_, hs.arr, hs.inj, hs.ask, hs.got, hs.fill⟩
    · have := (hs.pool c hm).2.1; rw [hc] at this; cases this
    · rcases List.mem_cons.mp hd with e | hd
      · subst e
        refine ⟨hs.app d (by rw [hc]; simp), Function.update_self _ _ _, fun j hj => ?_⟩
        have := (hs.work j d hj).2.1; rw [hc] at this; cases this
      · obtain ⟨p1, p2, p3⟩ := hs.pool d hd
        exact ⟨p1, hna d p2, p3⟩
    · obtain ⟨p1, p2, p3⟩ := hs.work j d hj
      exact ⟨p1, hna d p2, p3⟩
    · by_cases e : d = c
      · subst e; exact hs.app d (by rw [hc]; simp)
      · dsimp only at hd; rw [Function.update_of_ne e] at hd; exact hs.app d hd
  | lose p => cases h; exact inv_pool hs p
  | use c k v =>
    have hc : s.app c = .held := hp
    cases h
    refine inv_heap hs _ _ (by simp) (fun j d ms n k hj => ?_)
    have hd := hs.work j d (by rw [hj]; rfl)
    have hcc := hs.app c (by rw [hc]; simp)
    have := hs.inj d c hd.1 hcc (by rw [(hs.fill _ _ _ _ _ _ hj).1])
    subst this
    have := hd.2.1; rw [hc] at this; cases this

theorem inv {z : α} {s : St α} (h : Reach z s) : Inv s := by
  induction h with
  | init => exact inv_init
  | step _ hp hs ih => exact inv_step ih hp hs

/-- **C114**: slices the application holds at the same time share no memory. -/
theorem C114_apart {z : α} {s : St α} (h : Reach z s) {c d : Nat} (hc : s.app c = .held) (hd : s.app d = .held) (hn : c ≠ d) :
    (s.cell c).arr ≠ (s.cell d).arr :=
  fun e => hn ((inv h).inj c d ((inv h).app c (by rw [hc]; simp)) ((inv h).app d (by rw [hd]; simp)) e)

/-- **C114**: a pointer the application is handed shows the measurements of the packet, one after the other, in a slice of the length announced, and it
does not have that pointer already. -/
theorem C114_handed {z : α} {s t : St α} {i : Nat} (h : Reach z s) (ht : step z s (.hand i) = some t) :
    ∃ c a ms n k, s.w i = .fill c a ms n k ∧ s.app c = .away ∧ t.app c = .held ∧ (t.view c).take ms.length = ms ∧ (t.view c).length = n := by
  have hs := inv h
  simp only [step] at ht
  cases hw : s.w i with
  | fill c a ms n k =>
    rw [hw] at ht; dsimp only at ht
    split at ht <;> cases ht
    next hk =>
    obtain ⟨g1, g2, g3, g4⟩ := hs.fill i _ _ _ _ _ hw
    obtain ⟨q1, q2, _⟩ := hs.work i c (by rw [hw]; rfl)
    have hl := (hs.arr c q1).2
    refine ⟨c, a, ms, n, k, rfl, q2, Function.update_self _ _ _, ?_, ?_⟩
    · simp only [St.view, g1, List.take_take, Nat.min_eq_left g2]
      rw [← hk, g4, hk, List.take_length]
    · rw [g1] at hl
      simp only [St.view, g1, List.length_take]
      dsimp only at hl
      omega
  | _ => rw [hw] at ht; cases ht

/-- What is done with pointer `c` by the application. -/
def Act.onto (c : Nat) : Act α → Prop
  | .trim d | .put d | .use d _ _ => d = c
  | _ => False

/-- **C114**: what the application holds stays as it is and stays its own, whatever is received or given back meanwhile, until it does something with it
itself. -/
theorem C114_kept {z : α} {s t : St α} {a : Act α} {c : Nat} (h : Reach z s) (hc : s.app c = .held) (hp : Proper s a) (ha : ¬ a.onto c)
    (ht : step z s a = some t) : t.app c = .held ∧ t.view c = s.view c := by
  have hs := inv h
  have hcc := hs.app c (by rw [hc]; simp)
  have free : ∀ i, (s.w i).cell ≠ some c := fun i hi => by have := (hs.work i c hi).2.1; rw [hc] at this; cases this
  have harr := (hs.arr c hcc).1
  cases a with
  | packet i ms n =>
    simp only [step] at ht
    cases hw : s.w i with
    | idle => rw [hw] at ht; dsimp only at ht; split at ht <;> cases ht; exact ⟨hc, rfl⟩
    | _ => rw [hw] at ht; cases ht
  | get i p =>
    simp only [step] at ht
    cases hw : s.w i with
    | ask ms n =>
      rw [hw] at ht; dsimp only [stepGet] at ht
      cases p with
      | none =>
        cases ht
        refine ⟨hc, ?_⟩
        simp only [St.view, fresh]
        rw [Function.update_of_ne (Nat.ne_of_lt hcc), Function.update_of_ne (Nat.ne_of_lt harr)]
      | some p =>
        dsimp only at ht
        cases hq : s.pool[p]? with
        | none => rw [hq] at ht; cases ht
        | some d => rw [hq] at ht; cases ht; exact ⟨hc, rfl⟩
    | _ => rw [hw] at ht; cases ht
  | size i =>
    simp only [step] at ht
    cases hw : s.w i with
    | got d ms n =>
      rw [hw] at ht; dsimp only [stepSize] at ht
      have hd : c ≠ d := fun e => free i (by rw [hw, e]; rfl)
      split at ht <;> cases ht <;> refine ⟨hc, ?_⟩ <;> simp only [St.view]
      · rw [Function.update_of_ne hd, Function.update_of_ne (Nat.ne_of_lt harr)]
      · rw [Function.update_of_ne hd]
    | _ => rw [hw] at ht; cases ht
  | write i =>
    simp only [step] at ht
    cases hw : s.w i with
    | fill d b ms n k =>
      rw [hw] at ht; dsimp only at ht
      cases hv : ms[k]? with
      | none => rw [hv] at ht; cases ht
      | some v =>
        rw [hv] at ht; cases ht
        refine ⟨hc, ?_⟩
        have hd : d ≠ c := fun e => free i (by rw [hw, e]; rfl)
        have hb : (s.cell c).arr ≠ b := fun e =>
          hd (hs.inj d c (hs.work i d (by rw [hw]; rfl)).1 hcc (by rw [(hs.fill i _ _ _ _ _ hw).1, e]))
        simp only [St.view]
        rw [Function.update_of_ne hb]
    | _ => rw [hw] at ht; cases ht
  | hand i =>
    simp only [step] at ht
    cases hw : s.w i with
    | fill d b ms n k =>
      rw [hw] at ht; dsimp only at ht
      split at ht <;> cases ht
      have hd : c ≠ d := fun e => free i (by rw [hw, e]; rfl)
      exact ⟨by dsimp only; rw [Function.update_of_ne hd]; exact hc, rfl⟩
    | _ => rw [hw] at ht; cases ht
  | discard i =>
    simp only [step] at ht
    cases hw : s.w i with
    | fill d b ms n k => rw [hw] at ht; dsimp only at ht; split at ht <;> cases ht; exact ⟨hc, rfl⟩
    | _ => rw [hw] at ht; cases ht
  | trim d =>
    cases ht
    have hd : c ≠ d := fun e => ha e.symm
    exact ⟨by dsimp only; rw [Function.update_of_ne hd]; exact hc, by simp only [St.view]; rw [Function.update_of_ne hd]⟩
  | put d =>
    cases ht
    have hd : c ≠ d := fun e => ha e.symm
    exact ⟨by dsimp only; rw [Function.update_of_ne hd]; exact hc, rfl⟩
  | lose p => cases ht; exact ⟨hc, rfl⟩
  | use d k v =>
    cases ht
    have hd : c ≠ d := fun e => ha e.symm
    have hdh : s.app d = .held := hp
    refine ⟨hc, ?_⟩
    simp only [St.view]
    rw [Function.update_of_ne (C114_apart h hc hdh hd)]

/-- The schedules of others. -/
inductive Others (z : α) (c : Nat) : St α → St α → Prop where
  | refl {s : St α} : Others z c s s
  | step {s t u : St α} {a : Act α} : Others z c s t → Proper t a → ¬ a.onto c → step z t a = some u → Others z c s u

/-- **C114**, from the handing on: however many packets are received meanwhile, by however many goroutines, the application finds the measurements it was
handed. -/
theorem C114_until {z : α} {s t u : St α} {i c a n k : Nat} {ms : List α} (h : Reach z s) (hw : s.w i = .fill c a ms n k)
    (ht : step z s (.hand i) = some t) (hu : Others z c t u) : u.app c = .held ∧ (u.view c).take ms.length = ms ∧ (u.view c).length = n := by
  have hr : Reach z t := .step (a := .hand i) h trivial ht
  obtain ⟨c', a', ms', n', k', e, _, g1, g2, g3⟩ := C114_handed h ht
  rw [hw] at e
  cases e
  suffices Reach z u ∧ u.app c = .held ∧ u.view c = t.view c by rw [this.2.2]; exact ⟨this.2.1, g2, g3⟩
  induction hu with
  | refl => exact ⟨hr, g1, rfl⟩
  | step _ hp ha hs ih =>
    obtain ⟨i1, i2, i3⟩ := ih
    obtain ⟨k1, k2⟩ := C114_kept i1 i2 hp ha hs
    exact ⟨.step i1 hp hs, k1, k2.trans i3⟩

/-- Two goroutines, three packets; the application gives the first slice back and keeps the second while the third packet is received into the first. -/
example : (exec 0 (init : St Nat) [.packet 0 [1, 2] 2, .get 0 none, .packet 1 [3] 1, .get 1 none, .write 0, .write 1, .write 0, .hand 0, .hand 1, .trim 0,
    .put 0, .packet 0 [4, 5] 2, .get 0 (some 0), .size 0, .write 0, .write 0, .hand 0]).map
    (fun s => (s.view 0, s.view 1, (s.cell 0).arr, (s.cell 1).arr, decide (s.app 0 = .held ∧ s.app 1 = .held))) =
    some ([4, 5], [3], 0, 1, true) := rfl

/-- **C114 does not hold for applications that give a slice back twice**: the next two packets are handed in one and the same slice, and the second changes
the measurements of the first while the application has them. -/
theorem C114_twice_false : ∃ s t, exec 0 (init : St Nat) [.packet 0 [1] 1, .get 0 none, .write 0, .hand 0, .trim 0, .put 0, .trim 0, .put 0,
      .packet 0 [2] 1, .get 0 (some 0), .size 0, .write 0, .hand 0] = some s ∧ s.app 0 = .held ∧ s.view 0 = [2] ∧
    exec 0 s [.packet 0 [3] 1, .get 0 (some 0), .size 0, .write 0] = some t ∧ t.app 0 = .held ∧ t.view 0 = [3] :=
  ⟨_, _, rfl, rfl, rfl, rfl, rfl, rfl⟩

end Verif.Sync.Pool
