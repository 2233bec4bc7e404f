import Verif.Parse.Listener
import Verif.Parse.Fuel

/-!
# The expression tree follows the syntax tree
-/

namespace Verif.Parse

open Verif.Expr

variable {P : Prim}

mutual

/-- What an expression means: each operator applied to what its operands mean, whatever the brackets. -/
def E.den (col : Str → Res Nat) : E → Res (Tree P)
  | .not _ e => do .ok (.unary .not (← e.den col))
  | .log o l r => do
    let l ← l.den col
    let r ← r.den col
    .ok (.op o.op l r)
  | .pred q => q.den col

/-- What a predicate means. -/
def Q.den (col : Str → Res Nat) : Q → Res (Tree P)
  | .isIn q neg exact list => do
    let v ← q.den col
    let args ← list.den col
    .ok (.inList v args neg.isSome exact.isSome)
  | .isNull q neg => do .ok (.op (nullOp neg) (← q.den col) .nil)
  | .cmp o l r => do
    let l ← l.den col
    let r ← r.den col
    .ok (.op o.op l r)
  | .like neg exact l r => do
    let l ← l.den col
    let r ← r.den col
    .ok (.op (likeOp neg exact) l r)
  | .value v => v.den col

/-- What a value means. -/
def V.den (col : Str → Res Nat) : V → Res (Tree P)
  | .lit l => do .ok (.value (← literal l))
  | .column name => do .ok (.column (← col name))
  | .call0 f => .ok (.func f [])
  | .call f args => do .ok (.func f (← args.den col))
  | .unary u v => do .ok (.unary u.unary (← v.den col))
  | .paren e => e.den col
  | .math o l r => do
    let l ← l.den col
    let r ← r.den col
    .ok (.op o.op l r)
  | .bit o l r => do
    let l ← l.den col
    let r ← r.den col
    .ok (.op o.op l r)

/-- What the expressions of a list mean. -/
def L.den (col : Str → Res Nat) : L → Res (List (Tree P))
  | .one e => do .ok [← e.den col]
  | .cons e l => do
    let t ← e.den col
    let ts ← l.den col
    .ok (t :: ts)

end

/-- After the walk through a node: its expression is at its path and is the root, and nothing is changed but at and below the path. -/
structure Done (st : Walk P) (path : Path) (t : Tree P) (st' : Walk P) : Prop where
  at' : st'.exprs path = some t
  root : st'.root = t
  frame : ∀ q, ¬ path <:+ q → st'.exprs q = st.exprs q

/-- The walk through a node ends like the meaning of the node, and then as `Done` says. -/
def Agrees (d : Res (Tree P)) (w : Res (Walk P)) (st : Walk P) (path : Path) : Prop :=
  match d with
  | .ok t => ∃ st', w = .ok st' ∧ Done st path t st'
  | .err => w = .err
  | .panic => w = .panic

/-- The same for a list from position `i` on. -/
structure DoneL (st : Walk P) (path : Path) (i : Nat) (l : L) (ts : List (Tree P)) (st' : Walk P) : Prop where
  at' : st'.args path i l = .ok ts
  frame : ∀ q, (∀ j, i ≤ j → ¬ j :: path <:+ q) → st'.exprs q = st.exprs q

/-- The same for a list from position `i` on. -/
def AgreesL (d : Res (List (Tree P))) (w : Res (Walk P)) (st : Walk P) (path : Path) (i : Nat) (l : L) : Prop :=
  match d with
  | .ok ts => ∃ st', w = .ok st' ∧ DoneL st path i l ts st'
  | .err => w = .err
  | .panic => w = .panic

theorem not_suffix_cons {i j : Nat} {p : Path} (h : i ≠ j) : ¬ i :: p <:+ j :: p := by
  intro hs
  have := hs.eq_of_length (by simp)
  simp only [List.cons.injEq] at this
  exact h this.1

theorem not_suffix_of_length {p q : Path} (h : q.length < p.length) : ¬ p <:+ q := fun hs => by
  have := hs.length_le
  omega

theorem suffix_of_cons {i : Nat} {p q : Path} (h : i :: p <:+ q) : p <:+ q := (List.suffix_cons i p).trans h

theorem Walk.get_of {st : Walk P} {path : Path} {t : Tree P} (h : st.exprs path = some t) : st.get path = .ok t := by
  simp only [Walk.get, h]

theorem Done.get {st st' : Walk P} {path : Path} {t : Tree P} (h : Done st path t st') : st'.get path = .ok t := Walk.get_of h.at'

theorem Done.get_other {st st' : Walk P} {path q : Path} {t : Tree P} (h : Done st path t st') (hq : ¬ path <:+ q) :
    st'.get q = st.get q := by
  simp only [Walk.get, h.frame q hq]

theorem Walk.args_congr {st st' : Walk P} {path : Path} : ∀ (l : L) (i : Nat),
    (∀ j, i ≤ j → st'.get (j :: path) = st.get (j :: path)) → st'.args path i l = st.args path i l
  | .one e, i, h => by simp only [Walk.args, h i (Nat.le_refl i)]
  | .cons e l, i, h => by
    simp only [Walk.args, h i (Nat.le_refl i), Walk.args_congr l (i + 1) (fun j hj => h j (by omega))]

/-- One child: the exit of a node with one child adds a node made of the expression of the child. -/
theorem Agrees.one {d : Res (Tree P)} {w : Res (Walk P)} {st : Walk P} {path : Path} (f : Tree P → Tree P)
    (exit : Walk P → Res (Walk P)) (hx : ∀ st' t, st'.get (0 :: path) = .ok t → exit st' = .ok (st'.add path (f t)))
    (h : Agrees d w st (0 :: path)) : Agrees (d >>= fun t => .ok (f t)) (w >>= exit) st path := by
  cases d with
  | ok t =>
    obtain ⟨st', rfl, hd⟩ := h
    refine ⟨_, hx st' t hd.get, by simp [Walk.add], rfl, fun q hq => ?_⟩
    have hne : q ≠ path := by rintro rfl; exact hq List.suffix_rfl
    simp only [Walk.add, if_neg hne]
    exact hd.frame q (fun hs => hq (suffix_of_cons hs))
  | err => simp only [Agrees] at h; subst h; rfl
  | panic => simp only [Agrees] at h; subst h; rfl

/-- Two children. -/
theorem Agrees.two {d1 d2 : Res (Tree P)} {w1 : Res (Walk P)} {w2 : Walk P → Res (Walk P)} {st : Walk P} {path : Path}
    (f : Tree P → Tree P → Tree P) (exit : Walk P → Res (Walk P))
    (hx : ∀ st' l r, st'.get (0 :: path) = .ok l → st'.get (1 :: path) = .ok r → exit st' = .ok (st'.add path (f l r)))
    (h1 : Agrees d1 w1 st (0 :: path)) (h2 : ∀ st', Agrees d2 (w2 st') st' (1 :: path)) :
    Agrees (d1 >>= fun l => d2 >>= fun r => .ok (f l r)) (w1 >>= fun st => w2 st >>= exit) st path := by
  cases d1 with
  | ok l =>
    obtain ⟨st1, rfl, hd1⟩ := h1
    have h2 := h2 st1
    cases d2 with
    | ok r =>
      obtain ⟨st2, hw2, hd2⟩ := h2
      refine ⟨st2.add path (f l r), ?_, by simp [Walk.add], rfl, fun q hq => ?_⟩
      · show (w2 st1 >>= exit) = _
        rw [hw2]
        exact hx st2 l r (by rw [hd2.get_other (not_suffix_cons (by decide)), hd1.get]) hd2.get
      · have hne : q ≠ path := by rintro rfl; exact hq List.suffix_rfl
        simp only [Walk.add, if_neg hne]
        rw [hd2.frame q (fun hs => hq (suffix_of_cons hs)), hd1.frame q (fun hs => hq (suffix_of_cons hs))]
    | err => simp only [Agrees] at h2; show (w2 st1 >>= exit) = .err; rw [h2]; rfl
    | panic => simp only [Agrees] at h2; show (w2 st1 >>= exit) = .panic; rw [h2]; rfl
  | err => simp only [Agrees] at h1; subst h1; rfl
  | panic => simp only [Agrees] at h1; subst h1; rfl

/-- A node with a leaf below it. -/
theorem Agrees.leaf {st : Walk P} {path : Path} (t : Tree P) (exit : Walk P → Res (Walk P))
    (hx : ∀ st' t, st'.get (0 :: path) = .ok t → exit st' = .ok (st'.add path t)) :
    Agrees (.ok t) (exit (st.add (0 :: path) t)) st path := by
  refine ⟨_, hx _ t (Walk.get_of (by simp [Walk.add])), by simp [Walk.add], rfl, fun q hq => ?_⟩
  have hne : q ≠ path := by rintro rfl; exact hq List.suffix_rfl
  have hne' : q ≠ 0 :: path := by rintro rfl; exact hq (List.suffix_cons 0 path)
  simp only [Walk.add, if_neg hne, if_neg hne']

mutual

theorem walkE_agrees (col : Str → Res Nat) : ∀ (e : E) (path : Path) (st : Walk P), Agrees (e.den col) (walkE col path e st) st path
  | .not b e, path, st => by
    simp only [E.den, walkE]
    exact Agrees.one (.unary .not) _ (fun st' t h => by simp only [exitExpression, h, Res.bind_ok]) (walkE_agrees col e _ st)
  | .log o l r, path, st => by
    simp only [E.den, walkE]
    exact Agrees.two (.op o.op) _ (fun st' l r h1 h2 => by simp only [exitExpression, h1, h2, Res.bind_ok])
      (walkE_agrees col l _ st) (fun st' => walkE_agrees col r _ st')
  | .pred q, path, st => by
    simp only [E.den, walkE]
    have := Agrees.one (path := path) id (fun st' => exitExpression st' path (.pred q)) (fun st' t h => by simp only [exitExpression, h, Res.bind_ok, id])
      (walkQ_agrees col q _ st)
    cases hd : q.den (P := P) col <;> rw [hd] at this <;> exact this

theorem walkQ_agrees (col : Str → Res Nat) : ∀ (q : Q) (path : Path) (st : Walk P), Agrees (q.den col) (walkQ col path q st) st path
  | .isIn q neg exact list, path, st => by
    simp only [Q.den, walkQ]
    have h1 := walkQ_agrees col q (0 :: path) st
    cases hd : q.den (P := P) col with
    | ok t =>
      rw [hd] at h1
      obtain ⟨st1, hw1, hd1⟩ := h1
      rw [hw1]
      have h2 := walkL_agrees col list (1 :: path) 0 st1
      cases hl : list.den (P := P) col with
      | ok ts =>
        rw [hl] at h2
        obtain ⟨st2, hw2, hd2⟩ := h2
        simp only [Res.bind_ok, hw2]
        have hg : st2.get (0 :: path) = .ok t := by
          rw [← hd1.get]
          simp only [Walk.get]
          rw [hd2.frame (0 :: path) (fun j _ => not_suffix_of_length (by simp))]
        refine ⟨st2.add path (.inList t ts neg.isSome exact.isSome), ?_, by simp [Walk.add], rfl, fun p hp => ?_⟩
        · simp only [exitPredicate, hg, hd2.at', Res.bind_ok]
        · have hne : p ≠ path := by rintro rfl; exact hp List.suffix_rfl
          simp only [Walk.add, if_neg hne]
          rw [hd2.frame p (fun j _ hs => hp (suffix_of_cons (suffix_of_cons hs))), hd1.frame p (fun hs => hp (suffix_of_cons hs))]
      | err => rw [hl] at h2; simp only [AgreesL] at h2; simp only [Res.bind_ok, h2]; rfl
      | panic => rw [hl] at h2; simp only [AgreesL] at h2; simp only [Res.bind_ok, h2]; rfl
    | err => rw [hd] at h1; simp only [Agrees] at h1; rw [h1]; rfl
    | panic => rw [hd] at h1; simp only [Agrees] at h1; rw [h1]; rfl
  | .isNull q neg, path, st => by
    simp only [Q.den, walkQ]
    exact Agrees.one (fun t => .op (nullOp neg) t .nil) _ (fun st' t h => by simp only [exitPredicate, h, Res.bind_ok])
      (walkQ_agrees col q _ st)
  | .cmp o l r, path, st => by
    simp only [Q.den, walkQ]
    exact Agrees.two (.op o.op) _ (fun st' l r h1 h2 => by simp only [exitPredicate, h1, h2, Res.bind_ok])
      (walkQ_agrees col l _ st) (fun st' => walkQ_agrees col r _ st')
  | .like neg exact l r, path, st => by
    simp only [Q.den, walkQ]
    exact Agrees.two (.op (likeOp neg exact)) _ (fun st' l r h1 h2 => by simp only [exitPredicate, h1, h2, Res.bind_ok])
      (walkQ_agrees col l _ st) (fun st' => walkQ_agrees col r _ st')
  | .value v, path, st => by
    simp only [Q.den, walkQ]
    have := Agrees.one (path := path) id (fun st' => exitPredicate st' path (.value v)) (fun st' t h => by simp only [exitPredicate, h, Res.bind_ok, id])
      (walkV_agrees col v _ st)
    cases hd : v.den (P := P) col <;> rw [hd] at this <;> exact this

theorem walkV_agrees (col : Str → Res Nat) : ∀ (v : V) (path : Path) (st : Walk P), Agrees (v.den col) (walkV col path v st) st path
  | .lit l, path, st => by
    simp only [V.den, walkV]
    cases literal (P := P) l with
    | ok v => exact Agrees.leaf (.value v) (fun st' => exitValue st' path (.lit l)) (fun st' t h => by simp only [exitValue, h, Res.bind_ok])
    | err => rfl
    | panic => rfl
  | .column name, path, st => by
    simp only [V.den, walkV]
    cases col name with
    | ok c =>
      exact Agrees.leaf (.column c) (fun st' => exitValue st' path (.column name)) (fun st' t h => by simp only [exitValue, h, Res.bind_ok])
    | err => rfl
    | panic => rfl
  | .call0 f, path, st => by
    simp only [V.den, walkV]
    exact Agrees.leaf (.func f []) (fun st' => exitValue st' path (.call0 f)) (fun st' t h => by simp only [exitValue, h, Res.bind_ok])
  | .call f args, path, st => by
    simp only [V.den, walkV]
    have h := walkL_agrees col args (0 :: 0 :: path) 0 st
    cases hl : args.den (P := P) col with
    | ok ts =>
      rw [hl] at h
      obtain ⟨st1, hw, hd⟩ := h
      simp only [hw, Res.bind_ok, hd.at']
      have h2 := Agrees.leaf (st := st1) (path := path) (.func f ts) (fun st' => exitValue st' path (.call f args))
        (fun st' t h => by simp only [exitValue, h, Res.bind_ok])
      obtain ⟨st2, hw2, hd2⟩ := h2
      refine ⟨st2, hw2, hd2.at', hd2.root, fun q hq => ?_⟩
      rw [hd2.frame q hq, hd.frame q (fun j _ hs => hq (suffix_of_cons (suffix_of_cons (suffix_of_cons hs))))]
    | err => rw [hl] at h; simp only [AgreesL] at h; simp only [h]; rfl
    | panic => rw [hl] at h; simp only [AgreesL] at h; simp only [h]; rfl
  | .unary u v, path, st => by
    simp only [V.den, walkV]
    exact Agrees.one (.unary u.unary) _ (fun st' t h => by simp only [exitValue, h, Res.bind_ok]) (walkV_agrees col v _ st)
  | .paren e, path, st => by
    simp only [V.den, walkV]
    have := Agrees.one (path := path) id (fun st' => exitValue st' path (.paren e)) (fun st' t h => by simp only [exitValue, h, Res.bind_ok, id])
      (walkE_agrees col e _ st)
    cases hd : e.den (P := P) col <;> rw [hd] at this <;> exact this
  | .math o l r, path, st => by
    simp only [V.den, walkV]
    exact Agrees.two (.op o.op) _ (fun st' l r h1 h2 => by simp only [exitValue, h1, h2, Res.bind_ok])
      (walkV_agrees col l _ st) (fun st' => walkV_agrees col r _ st')
  | .bit o l r, path, st => by
    simp only [V.den, walkV]
    exact Agrees.two (.op o.op) _ (fun st' l r h1 h2 => by simp only [exitValue, h1, h2, Res.bind_ok])
      (walkV_agrees col l _ st) (fun st' => walkV_agrees col r _ st')

theorem walkL_agrees (col : Str → Res Nat) : ∀ (l : L) (path : Path) (i : Nat) (st : Walk P),
    AgreesL (l.den col) (walkL col path i l st) st path i l
  | .one e, path, i, st => by
    simp only [L.den, walkL]
    have h := walkE_agrees col e (i :: path) st
    cases hd : e.den (P := P) col with
    | ok t =>
      rw [hd] at h
      obtain ⟨st', hw, hd⟩ := h
      exact ⟨st', hw, by simp only [Walk.args, hd.get, Res.bind_ok], fun q hq => hd.frame q (hq i (Nat.le_refl i))⟩
    | err => rw [hd] at h; exact h
    | panic => rw [hd] at h; exact h
  | .cons e l, path, i, st => by
    simp only [L.den, walkL]
    have h := walkE_agrees col e (i :: path) st
    cases hd : e.den (P := P) col with
    | ok t =>
      rw [hd] at h
      obtain ⟨st1, hw1, hd1⟩ := h
      have h2 := walkL_agrees col l path (i + 1) st1
      simp only [hw1, Res.bind_ok]
      cases hl : l.den (P := P) col with
      | ok ts =>
        rw [hl] at h2
        obtain ⟨st2, hw2, hd2⟩ := h2
        refine ⟨st2, hw2, ?_, fun q hq => ?_⟩
        · have hg : st2.get (i :: path) = .ok t := by
            rw [← hd1.get]
            simp only [Walk.get]
            rw [hd2.frame (i :: path) (fun j hj => not_suffix_cons (by omega))]
          simp only [Walk.args, hg, hd2.at', Res.bind_ok]
        · rw [hd2.frame q (fun j hj => hq j (by omega)), hd1.frame q (hq i (Nat.le_refl i))]
      | err => rw [hl] at h2; exact h2
      | panic => rw [hl] at h2; exact h2
    | err => rw [hd] at h; simp only [Agrees] at h; rw [h]; rfl
    | panic => rw [hd] at h; simp only [Agrees] at h; rw [h]; rfl

end

/-- **The expression tree is the meaning of the syntax tree.** Walking the syntax tree, the listener finds the expression of every child
(none of the "failed to find" panics is reached), adds the expression of each node, and ends with the meaning of the whole as the root;
an error is returned just if a literal or a column in it is bad. -/
theorem C70_build (col : Str → Res Nat) (e : E) :
    build (P := P) col e = match e.den col with
      | .ok t => .ok t
      | _ => .err := by
  have h := walkE_agrees (P := P) col e [] { exprs := fun _ => none, root := .nil }
  simp only [build]
  cases hd : e.den (P := P) col with
  | ok t =>
    rw [hd] at h
    obtain ⟨st, hw, hd⟩ := h
    simp only [hw, hd.root]
  | err => rw [hd] at h; simp only [Agrees] at h; simp only [h]
  | panic => rw [hd] at h; simp only [Agrees] at h; simp only [h]

/-- `Len(a) IN (1, 2)` for column 0 and one that does not exist. -/
example :
    let e (name : Str) : E := .pred (.isIn (.value (.call .len (.one (.pred (.value (.column name)))))) none none
      (.cons (.pred (.value (.lit (.integer [49#8])))) (.one (.pred (.value (.lit (.integer [50#8])))))))
    let col (s : Str) : Res Nat := if s = [97#8] then .ok 0 else .panic
    build (P := P) col (e [97#8]) = .ok (.inList (.func .len [.column 0]) [.value (.int32 1#32), .value (.int32 2#32)] false false) ∧
    build (P := P) col (e [98#8]) = .err := ⟨rfl, rfl⟩

end Verif.Parse
