import Verif.Parse.Stopped
import Verif.Parse.ListenerProps

/-!
# C126: the expression a refused one leaves

The listener panics at the first literal or name that is bad. The root is then what was completed last before it, or nil.
-/

namespace Verif.Parse

open Verif.Expr

variable {P : Prim}

mutual

/-- What an expression that is refused leaves, `b` being completed before it: the last complete operand before the first bad literal or name. -/
def E.left (col : Str → Res Nat) (b : Tree P) : E → Tree P
  | .not _ e => e.left col b
  | .log _ l r => match l.den col with
    | .ok t => r.left col t
    | _ => l.left col b
  | .pred q => q.left col b

/-- What a predicate that is refused leaves. -/
def Q.left (col : Str → Res Nat) (b : Tree P) : Q → Tree P
  | .isIn q _ _ list => match q.den col with
    | .ok t => list.left col t
    | _ => q.left col b
  | .isNull q _ => q.left col b
  | .cmp _ l r | .like _ _ l r => match l.den col with
    | .ok t => r.left col t
    | _ => l.left col b
  | .value v => v.left col b

/-- What a value that is refused leaves. -/
def V.left (col : Str → Res Nat) (b : Tree P) : V → Tree P
  | .lit _ | .column _ | .call0 _ => b
  | .call _ args => args.left col b
  | .unary _ v => v.left col b
  | .paren e => e.left col b
  | .math _ l r | .bit _ l r => match l.den col with
    | .ok t => r.left col t
    | _ => l.left col b

/-- What a list that is refused leaves. -/
def L.left (col : Str → Res Nat) (b : Tree P) : L → Tree P
  | .one e => e.left col b
  | .cons e l => match e.den col with
    | .ok t => l.left col t
    | _ => e.left col b

end

/-- It is refused. -/
abbrev Refused {α : Type} (d : Res α) : Prop := ∀ t, d ≠ .ok t

/-- A walk ended by a panic with this root. -/
abbrev EndsWith (s : Except (Walk P) (Walk P)) (t : Tree P) : Prop := ∃ st, s = .error st ∧ st.root = t

theorem stop_ok {w : Res (Walk P)} {s : Except (Walk P) (Walk P)} (h : s.toOption = okOf w) {st : Walk P} (hw : w = .ok st) : s = .ok st := by
  subst hw
  cases s with
  | ok a => injection h with h; subst h; rfl
  | error a => cases h

theorem stopE_ok {col : Str → Res Nat} {e : E} {t : Tree P} (h : e.den col = .ok t) (path : Path) (st : Walk P) :
    ∃ st', stopE col path e st = .ok st' ∧ st'.root = t := by
  have ha := walkE_agrees col e path st
  rw [h] at ha
  obtain ⟨st', hw, hd⟩ := ha
  exact ⟨st', stop_ok (stopE_same col path e st) hw, hd.root⟩

theorem stopQ_ok {col : Str → Res Nat} {e : Q} {t : Tree P} (h : e.den col = .ok t) (path : Path) (st : Walk P) :
    ∃ st', stopQ col path e st = .ok st' ∧ st'.root = t := by
  have ha := walkQ_agrees col e path st
  rw [h] at ha
  obtain ⟨st', hw, hd⟩ := ha
  exact ⟨st', stop_ok (stopQ_same col path e st) hw, hd.root⟩

theorem stopV_ok {col : Str → Res Nat} {e : V} {t : Tree P} (h : e.den col = .ok t) (path : Path) (st : Walk P) :
    ∃ st', stopV col path e st = .ok st' ∧ st'.root = t := by
  have ha := walkV_agrees col e path st
  rw [h] at ha
  obtain ⟨st', hw, hd⟩ := ha
  exact ⟨st', stop_ok (stopV_same col path e st) hw, hd.root⟩

theorem ends_one {s : Except (Walk P) (Walk P)} {t : Tree P} (h : EndsWith s t) (f : Walk P → Except (Walk P) (Walk P)) : EndsWith (s >>= f) t := by
  obtain ⟨st, rfl, hr⟩ := h
  exact ⟨st, rfl, hr⟩

/-- Of two children, one is bad. -/
theorem ends_two {α : Type} {d1 : Res (Tree P)} {d2 : Res α} {s1 : Except (Walk P) (Walk P)} {s2 : Walk P → Except (Walk P) (Walk P)}
    {l1 : Tree P} {l2 : Tree P → Tree P} (f : Walk P → Except (Walk P) (Walk P))
    (ho : ∀ t, d1 = .ok t → ∃ st, s1 = .ok st ∧ st.root = t) (hb1 : Refused d1 → EndsWith s1 l1)
    (hb2 : ∀ st, Refused d2 → EndsWith (s2 st) (l2 st.root)) (hb : ∀ t u, d1 = .ok t → d2 ≠ .ok u) :
    EndsWith (s1 >>= fun st => s2 st >>= f) (match (generalizing := false) d1 with | .ok t => l2 t | _ => l1) := by
  cases d1 with
  | ok t =>
    obtain ⟨st, rfl, hr⟩ := ho t rfl
    have h2 := hb2 st (fun u => hb t u rfl)
    rw [hr] at h2
    exact ends_one h2 f
  | err => exact ends_one (hb1 (fun t h => by cases h)) _
  | panic => exact ends_one (hb1 (fun t h => by cases h)) _

mutual

theorem stopE_left (col : Str → Res Nat) : ∀ (e : E) (path : Path) (st : Walk P), Refused (e.den (P := P) col) → EndsWith (stopE col path e st) (e.left col st.root)
  | .not b e, path, st, h => by
    simp only [stopE, E.left]
    exact ends_one (stopE_left col e _ st (fun t ht => h _ (by simp only [E.den, ht, Res.bind_ok]; rfl))) _
  | .log o l r, path, st, h => by
    simp only [stopE, E.left]
    exact ends_two (s2 := fun st => stopE col (1 :: path) r st) (l2 := fun t => r.left col t) _ (fun t ht => stopE_ok ht _ st) (fun hb => stopE_left col l _ st hb) (fun st' hb => stopE_left col r _ st' hb)
      (fun t u ht hu => h _ (by simp only [E.den, ht, hu, Res.bind_ok]; rfl))
  | .pred q, path, st, h => by
    simp only [stopE, E.left]
    exact ends_one (stopQ_left col q _ st (fun t ht => h _ (by simp only [E.den, ht]; rfl))) _

theorem stopQ_left (col : Str → Res Nat) : ∀ (e : Q) (path : Path) (st : Walk P), Refused (e.den (P := P) col) → EndsWith (stopQ col path e st) (e.left col st.root)
  | .isIn q neg exact list, path, st, h => by
    simp only [stopQ, Q.left]
    exact ends_two (s2 := fun st => stopL col (1 :: path) 0 list st) (l2 := fun t => list.left col t) _ (fun t ht => stopQ_ok ht _ st) (fun hb => stopQ_left col q _ st hb) (fun st' hb => stopL_left col list _ 0 st' hb)
      (fun t u ht hu => h _ (by simp only [Q.den, ht, hu, Res.bind_ok]; rfl))
  | .isNull q neg, path, st, h => by
    simp only [stopQ, Q.left]
    exact ends_one (stopQ_left col q _ st (fun t ht => h _ (by simp only [Q.den, ht, Res.bind_ok]; rfl))) _
  | .cmp o l r, path, st, h => by
    simp only [stopQ, Q.left]
    exact ends_two (s2 := fun st => stopQ col (1 :: path) r st) (l2 := fun t => r.left col t) _ (fun t ht => stopQ_ok ht _ st) (fun hb => stopQ_left col l _ st hb) (fun st' hb => stopQ_left col r _ st' hb)
      (fun t u ht hu => h _ (by simp only [Q.den, ht, hu, Res.bind_ok]; rfl))
  | .like neg exact l r, path, st, h => by
    simp only [stopQ, Q.left]
    exact ends_two (s2 := fun st => stopQ col (1 :: path) r st) (l2 := fun t => r.left col t) _ (fun t ht => stopQ_ok ht _ st) (fun hb => stopQ_left col l _ st hb) (fun st' hb => stopQ_left col r _ st' hb)
      (fun t u ht hu => h _ (by simp only [Q.den, ht, hu, Res.bind_ok]; rfl))
  | .value v, path, st, h => by
    simp only [stopQ, Q.left]
    exact ends_one (stopV_left col v _ st (fun t ht => h _ (by simp only [Q.den, ht]; rfl))) _

theorem stopV_left (col : Str → Res Nat) : ∀ (e : V) (path : Path) (st : Walk P), Refused (e.den (P := P) col) → EndsWith (stopV col path e st) (e.left col st.root)
  | .lit l, path, st, h => by
    simp only [stopV, V.left]
    cases hl : literal (P := P) l with
    | ok v => exact absurd (by simp only [V.den, hl, Res.bind_ok]) (h (.value v))
    | err => exact ⟨st, rfl, rfl⟩
    | panic => exact ⟨st, rfl, rfl⟩
  | .column name, path, st, h => by
    simp only [stopV, V.left]
    cases hl : col name with
    | ok c => exact absurd (by simp only [V.den, hl, Res.bind_ok]) (h (.column c))
    | err => exact ⟨st, rfl, rfl⟩
    | panic => exact ⟨st, rfl, rfl⟩
  | .call0 f, path, st, h => absurd rfl (h _)
  | .call f args, path, st, h => by
    simp only [stopV, V.left]
    exact ends_one (stopL_left col args _ 0 st (fun t ht => h _ (by simp only [V.den, ht, Res.bind_ok]; rfl))) _
  | .unary u v, path, st, h => by
    simp only [stopV, V.left]
    exact ends_one (stopV_left col v _ st (fun t ht => h _ (by simp only [V.den, ht, Res.bind_ok]; rfl))) _
  | .paren e, path, st, h => by
    simp only [stopV, V.left]
    exact ends_one (stopE_left col e _ st (fun t ht => h _ (by simp only [V.den, ht]; rfl))) _
  | .math o l r, path, st, h => by
    simp only [stopV, V.left]
    exact ends_two (s2 := fun st => stopV col (1 :: path) r st) (l2 := fun t => r.left col t) _ (fun t ht => stopV_ok ht _ st) (fun hb => stopV_left col l _ st hb) (fun st' hb => stopV_left col r _ st' hb)
      (fun t u ht hu => h _ (by simp only [V.den, ht, hu, Res.bind_ok]; rfl))
  | .bit o l r, path, st, h => by
    simp only [stopV, V.left]
    exact ends_two (s2 := fun st => stopV col (1 :: path) r st) (l2 := fun t => r.left col t) _ (fun t ht => stopV_ok ht _ st) (fun hb => stopV_left col l _ st hb) (fun st' hb => stopV_left col r _ st' hb)
      (fun t u ht hu => h _ (by simp only [V.den, ht, hu, Res.bind_ok]; rfl))

theorem stopL_left (col : Str → Res Nat) : ∀ (e : L) (path : Path) (i : Nat) (st : Walk P), Refused (e.den (P := P) col) →
    EndsWith (stopL col path i e st) (e.left col st.root)
  | .one e, path, i, st, h => by
    simp only [stopL, L.left]
    exact stopE_left col e _ st (fun t ht => h _ (by simp only [L.den, ht, Res.bind_ok]; rfl))
  | .cons e l, path, i, st, h => by
    simp only [stopL, L.left]
    have := ends_two (s2 := fun st => stopL col path (i + 1) l st) (l2 := fun t => l.left col t) (f := fun st => .ok st) (fun t ht => stopE_ok ht (i :: path) st) (fun hb => stopE_left col e (i :: path) st hb)
      (fun st' hb => stopL_left col l path (i + 1) st' hb) (fun t u ht hu => h _ (by simp only [L.den, ht, hu, Res.bind_ok]; rfl))
    obtain ⟨st', hs, hr⟩ := this
    refine ⟨st', ?_, hr⟩
    rw [← hs]
    congr 1
    funext st
    cases stopL col path (i + 1) l st <;> rfl

end

/-- **What is left of an expression**: its meaning; of one that is refused, the last complete operand before the first bad literal or name, or nil. -/
theorem C126_left (col : Str → Res Nat) (e : E) :
    buildOr (P := P) col e = match e.den col with
      | .ok t => .ok t
      | _ => .error (e.left col .nil) := by
  unfold buildOr
  have hb := stopE_left (P := P) col e [] { exprs := fun _ => none, root := .nil }
  cases hd : e.den (P := P) col with
  | ok t =>
    obtain ⟨st, hs, hr⟩ := stopE_ok hd [] { exprs := fun _ => none, root := .nil }
    simp only [hs, hr]
  | err =>
    obtain ⟨st, hs, hr⟩ := hb (fun t ht => by rw [hd] at ht; cases ht)
    simp only [hs, hr]
  | panic =>
    obtain ⟨st, hs, hr⟩ := hb (fun t ht => by rw [hd] at ht; cases ht)
    simp only [hs, hr]

/-- `a < 1 AND b` leaves `a < 1`, `b AND a < 1` leaves nothing and `Len(a, b)` leaves `a`, of column 0 and one that does not exist. -/
example :
    let c (name : Str) : E := .pred (.value (.column name))
    let lt : E := .pred (.cmp .lt (.value (.column [97#8])) (.value (.lit (.integer [49#8]))))
    let col (s : Str) : Res Nat := if s = [97#8] then .ok 0 else .panic
    buildOr (P := P) col (.log .kAnd lt (c [98#8])) = .error (.op .lessThan (.column 0) (.value (.int32 1#32))) ∧
    buildOr (P := P) col (.log .kAnd (c [98#8]) lt) = .error .nil ∧
    buildOr (P := P) col (.pred (.value (.call .len (.cons (c [97#8]) (.one (c [98#8])))))) = .error (.column 0) := ⟨rfl, rfl, rfl⟩

end Verif.Parse
