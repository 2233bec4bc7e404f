import Verif.Common.Text
import Verif.Expr.Prim

/-!
# C59: loading an XML document (xml/XmlDocument.go L33-128, xml/XmlNode.go L31-135)

The decoder of Go's encoding/xml gives a tree of elements; it is in `Verif.Xml.Decode`. The nodes live in memory and are referred to by
pointers; here a node is referred to by its path, the child numbers from the root, and the memory maps paths to the fields the code sets.
The document is loaded once.
-/

namespace Verif.Xml

/-- Texts. (xml/XmlDocument.go L42-113, xml/XmlNode.go L32-62) -/
abbrev Str := List Byte

/-- A decoded element: local name, namespace, attributes with local name, namespace and value in document order, text between its tags,
child elements. (xml/XmlDocument.go L42-113, xml/XmlNode.go L32-62) -/
inductive Tree where
  | node (name space : Str) (attrs : List (Str × Str × Str)) (inner : Str) (children : List Tree)

namespace Tree

/-- xml/XmlDocument.go L42-113, xml/XmlNode.go L32-62 -/
def name : Tree → Str | node n _ _ _ _ => n
/-- xml/XmlDocument.go L42-113, xml/XmlNode.go L32-62 -/
def space : Tree → Str | node _ s _ _ _ => s
/-- xml/XmlDocument.go L42-113, xml/XmlNode.go L32-62 -/
def attrs : Tree → List (Str × Str × Str) | node _ _ a _ _ => a
/-- xml/XmlDocument.go L42-113, xml/XmlNode.go L32-62 -/
def inner : Tree → Str | node _ _ _ i _ => i
/-- xml/XmlDocument.go L42-113, xml/XmlNode.go L32-62 -/
def children : Tree → List Tree | node _ _ _ _ c => c

/-- The element at a path. (xml/XmlDocument.go L42-113, xml/XmlNode.go L32-62) -/
def at? (t : Tree) : List Nat → Option Tree
  | [] => some t
  | i :: p => t.children[i]? >>= fun c => c.at? p

end Tree

/-- A reference to a node. (xml/XmlDocument.go L42-113, xml/XmlNode.go L32-62) -/
abbrev Path := List Nat

/-- The fields of a node that loading sets (XmlNode.go L35-60). -/
structure Info where
  name : Str := []
  space : Str := []
  parent : Option Path := none
  next : Option Path := none
  previous : Option Path := none
  level : Nat := 0
  owned : Bool := false
  item : Str → Option Path := fun _ => none
  items : Str → List Path := fun _ => []

/-- The memory and `maxLevel` (XmlDocument.go L39). -/
structure State where
  mem : Path → Info := fun _ => {}
  maxLevel : Nat := 0

/-- Changing a node. (xml/XmlDocument.go L42-113, xml/XmlNode.go L32-62) -/
def State.update (s : State) (p : Path) (f : Info → Info) : State := { s with mem := Function.update s.mem p (f (s.mem p)) }

/-- L44-45: the maps of the parent begin empty. -/
def State.reset (s : State) (p : Path) : State := s.update p fun x => { x with item := fun _ => none, items := fun _ => [] }

/-- L48-52 -/
def State.raise (s : State) (p : Path) : State := { s with maxLevel := if (s.mem p).level + 1 > s.maxLevel then (s.mem p).level + 1 else s.maxLevel }

/-- L56-60 -/
def State.fields (s : State) (p : Path) (i : Nat) (t : Tree) : State :=
  s.update (p ++ [i]) fun x => { x with name := t.name, space := t.space, parent := some p, level := (s.mem p).level + 1, owned := true }

/-- L62-67 -/
def State.index (s : State) (p : Path) (i : Nat) (n : Str) : State :=
  match (s.mem p).item n with
  | none => s.update p fun x => { x with item := Function.update x.item n (some (p ++ [i])), items := Function.update x.items n [p ++ [i]] }
  | some _ => s.update p fun x => { x with items := Function.update x.items n (x.items n ++ [p ++ [i]]) }

/-- L69-72 -/
def State.link (s : State) (p : Path) (i : Nat) : State :=
  if i > 0 then
    (s.update (p ++ [i]) fun x => { x with previous := some (p ++ [i - 1]) }).update (p ++ [i - 1]) fun x => { x with next := some (p ++ [i]) }
  else s

/-- One pass of the loop before the recursion (L48-72). -/
def State.visit (s : State) (p : Path) (i : Nat) (t : Tree) : State :=
  (((s.raise p).fields p i t).index p i ((((s.raise p).fields p i t).mem (p ++ [i])).name)).link p i

mutual
/-- `traverse` (L42-76) for the children of a node. -/
def traverse (p : Path) : Tree → State → State
  | .node _ _ _ _ cs, s => loop p 0 cs (s.reset p)
/-- Its loop (L47-75), from child `i` on. -/
def loop (p : Path) (i : Nat) : List Tree → State → State
  | [], s => s
  | t :: ts, s => loop p (i + 1) ts (traverse (p ++ [i]) t (s.visit p i t))
end

/-- `LoadXml` (L95-112) after decoding. -/
def load (root : Tree) : State :=
  traverse [] root (({} : State).update [] fun x => { x with name := root.name, space := root.space, owned := true })

/-- `MaxDepth` (L126-128) -/
def State.maxDepth (s : State) : Nat := s.maxLevel + 1

/-! ### What is expected -/

/-- References to the children with a name, counting from `i`. (xml/XmlDocument.go L42-113, xml/XmlNode.go L32-62) -/
def named (p : Path) (n : Str) (i : Nat) : List Tree → List Path
  | [] => []
  | t :: ts => if t.name = n then (p ++ [i]) :: named p n (i + 1) ts else named p n (i + 1) ts

theorem named_append (p : Path) (n : Str) (i : Nat) (a b : List Tree) : named p n i (a ++ b) = named p n i a ++ named p n (i + a.length) b := by
  induction a generalizing i with
  | nil => rfl
  | cons t a ih =>
    simp only [List.cons_append, named, ih, List.length_cons]
    rw [show i + 1 + a.length = i + (a.length + 1) by omega]
    split <;> rfl

/-- The fields of child `i` of a node at `p` at depth `lvl`, among `n` siblings. -/
def expect (p : Path) (lvl i n : Nat) (c : Tree) : Info where
  name := c.name
  space := c.space
  parent := some p
  next := if i + 1 < n then some (p ++ [i + 1]) else none
  previous := if i > 0 then some (p ++ [i - 1]) else none
  level := lvl + 1
  owned := true
  item := fun a => (named (p ++ [i]) a 0 c.children).head?
  items := fun a => named (p ++ [i]) a 0 c.children

theorem append_ne (p : Path) (i : Nat) : p ++ [i] ≠ p := by
  intro h
  have := congrArg List.length h
  simp at this

theorem append_inj {p : Path} {i j : Nat} (h : p ++ [i] = p ++ [j]) : i = j := by simpa using h

/-! ### A pass of the loop -/

theorem visit_other {s : State} {p q : Path} {i : Nat} {t : Tree} (h1 : q ≠ p) (h2 : q ≠ p ++ [i]) (h3 : i > 0 → q ≠ p ++ [i - 1]) :
    (s.visit p i t).mem q = s.mem q := by
  have hi : ∀ (s : State) n, (s.index p i n).mem q = s.mem q := by
    intro s n
    unfold State.index
    cases (s.mem p).item n <;> exact Function.update_of_ne h1 _ _
  unfold State.visit State.link
  split
  · rename_i hp
    simp only [State.update, Function.update_of_ne (h3 hp), Function.update_of_ne h2]
    rw [hi]
    simp only [State.fields, State.update, Function.update_of_ne h2]
    rfl
  · rw [hi]
    simp only [State.fields, State.update, Function.update_of_ne h2]
    rfl

/-- The maps of a node record the children before `i`. -/
def Indexed (s : State) (p : Path) (l : Str → List Path) : Prop := ∀ n, (s.mem p).items n = l n ∧ (s.mem p).item n = (l n).head?

theorem visit_parent {s : State} {p : Path} {i : Nat} {t : Tree} {l : Str → List Path} (h : Indexed s p l) :
    Indexed (s.visit p i t) p (fun n => if t.name = n then l n ++ [p ++ [i]] else l n) ∧
    ∀ item items, { (s.visit p i t).mem p with item := item, items := items } = { s.mem p with item := item, items := items } := by
  have hne : p ≠ p ++ [i] := (append_ne p i).symm
  have hl : ∀ s : State, (s.link p i).mem p = s.mem p := by
    intro s
    unfold State.link
    split
    · simp only [State.update, Function.update_of_ne hne, Function.update_of_ne (append_ne p (i - 1)).symm]
    · rfl
  have hf : ((s.raise p).fields p i t).mem p = s.mem p := by
    simp only [State.fields, State.update, Function.update_of_ne hne]
    rfl
  have hn : (((s.raise p).fields p i t).mem (p ++ [i])).name = t.name := by simp [State.fields, State.update]
  unfold State.visit
  rw [hn]
  generalize (s.raise p).fields p i t = s1 at hf
  unfold Indexed
  simp only [hl]
  unfold State.index
  rw [hf]
  have h0 := h t.name
  cases hi : (s.mem p).item t.name with
  | none =>
    have hnil : l t.name = [] := by
      rw [hi] at h0
      exact List.head?_eq_none_iff.mp h0.2.symm
    refine ⟨fun n => ?_, ?_⟩
    · simp only [State.update, Function.update_self, hf]
      by_cases e : t.name = n
      · subst e; simp [hnil]
      · rw [if_neg e, Function.update_of_ne (Ne.symm e), Function.update_of_ne (Ne.symm e)]
        exact h n
    · intro item items
      simp only [State.update, Function.update_self, hf]
  | some q =>
    have hcons : l t.name ≠ [] := by
      intro e
      rw [hi, e] at h0
      cases h0.2
    refine ⟨fun n => ?_, ?_⟩
    · simp only [State.update, Function.update_self, hf]
      by_cases e : t.name = n
      · subst e
        rw [if_pos rfl, Function.update_self, h0.1]
        refine ⟨rfl, ?_⟩
        rw [h0.2, List.head?_append]
        cases hl : l t.name with
        | nil => exact absurd hl hcons
        | cons a b => rfl
      · rw [if_neg e, Function.update_of_ne (Ne.symm e)]
        exact h n
    · intro item items
      simp only [State.update, Function.update_self, hf]

theorem index_other {s : State} {p q : Path} {i : Nat} {n : Str} (h : q ≠ p) : (s.index p i n).mem q = s.mem q := by
  unfold State.index
  cases (s.mem p).item n <;> exact Function.update_of_ne h _ _

/-- The node visited. -/
theorem visit_self {s : State} {p : Path} {i : Nat} {t : Tree} : (s.visit p i t).mem (p ++ [i]) =
    { s.mem (p ++ [i]) with name := t.name, space := t.space, parent := some p, level := (s.mem p).level + 1, owned := true,
                            previous := if i > 0 then some (p ++ [i - 1]) else (s.mem (p ++ [i])).previous } := by
  have e : ∀ n, ((((s.raise p).fields p i t).index p i n)).mem (p ++ [i]) =
      { s.mem (p ++ [i]) with name := t.name, space := t.space, parent := some p, level := (s.mem p).level + 1, owned := true } := by
    intro n
    rw [index_other (append_ne p i)]
    simp only [State.fields, State.update, Function.update_self]
    rfl
  unfold State.visit State.link
  split
  · rename_i hi
    have hne : p ++ [i] ≠ p ++ [i - 1] := fun h => by have := append_inj h; omega
    simp only [State.update, Function.update_of_ne hne, Function.update_self, e]
  · rw [e]

/-- The node visited before. -/
theorem visit_previous {s : State} {p : Path} {i : Nat} {t : Tree} : (s.visit p (i + 1) t).mem (p ++ [i]) =
    { s.mem (p ++ [i]) with next := some (p ++ [i + 1]) } := by
  have hne : p ++ [i] ≠ p ++ [i + 1] := fun h => by have := append_inj h; omega
  unfold State.visit State.link
  rw [if_pos (by omega)]
  simp only [State.update, Nat.add_sub_cancel, Function.update_self, Function.update_of_ne hne]
  rw [index_other (append_ne p i)]
  simp only [State.fields, State.update, Function.update_of_ne hne]
  rfl

theorem index_level (s : State) (p : Path) (i : Nat) (n : Str) : (s.index p i n).maxLevel = s.maxLevel := by
  unfold State.index
  cases (s.mem p).item n <;> rfl

theorem visit_level (s : State) (p : Path) (i : Nat) (t : Tree) : (s.visit p i t).maxLevel = max s.maxLevel ((s.mem p).level + 1) := by
  have hl : ∀ s : State, (s.link p i).maxLevel = s.maxLevel := by intro s; unfold State.link; split <;> rfl
  unfold State.visit
  rw [hl, index_level]
  show (if (s.mem p).level + 1 > s.maxLevel then (s.mem p).level + 1 else s.maxLevel) = _
  split <;> omega

/-! ### The whole traversal -/

mutual
/-- Levels below a node. -/
def height : Tree → Nat
  | .node _ _ _ _ cs => heights cs
/-- Levels of a list of siblings and what is below them. -/
def heights : List Tree → Nat
  | [] => 0
  | t :: ts => max (height t + 1) (heights ts)
end

/-- Nothing below the node was touched. -/
def Untouched (s : State) (p : Path) : Prop := ∀ r, r ≠ [] → s.mem (p ++ r) = {}

/-- All descendants of the node carry the expected fields. -/
def Done (s : State) (p : Path) (lvl : Nat) (t : Tree) : Prop :=
  ∀ r i u c, t.at? r = some u → u.children[i]? = some c → s.mem (p ++ r ++ [i]) = expect (p ++ r) (lvl + r.length) i u.children.length c

/-- What `traverse` does. -/
structure Traversed (p : Path) (t : Tree) (s s' : State) : Prop where
  outside : ∀ q, ¬ p <+: q → s'.mem q = s.mem q
  self : s'.mem p = { s.mem p with item := fun n => (named p n 0 t.children).head?, items := fun n => named p n 0 t.children }
  below : Done s' p (s.mem p).level t
  level : s'.maxLevel = max s.maxLevel ((s.mem p).level + height t)

/-- What the loop does from child `i` on. -/
structure Looped (p : Path) (i : Nat) (ts : List Tree) (l : Str → List Path) (s s' : State) : Prop where
  outside : ∀ q, q ≠ p → (∀ j, i ≤ j + 1 → q ≠ p ++ [j]) → (∀ j, i ≤ j → ¬ (p ++ [j]) <+: q) → s'.mem q = s.mem q
  self : s'.mem p = { s.mem p with item := fun n => (l n ++ named p n i ts).head?, items := fun n => l n ++ named p n i ts }
  previous : ∀ j, j + 1 = i → s'.mem (p ++ [j]) = { s.mem (p ++ [j]) with next := if ts = [] then (s.mem (p ++ [j])).next else some (p ++ [i]) }
  child : ∀ k c, ts[k]? = some c → s'.mem (p ++ [i + k]) = expect p (s.mem p).level (i + k) (i + ts.length) c
  below : ∀ k c, ts[k]? = some c → Done s' (p ++ [i + k]) ((s.mem p).level + 1) c
  level : s'.maxLevel = max s.maxLevel ((s.mem p).level + heights ts)

theorem prefix_snoc {p q : Path} {j : Nat} (h : p ++ [j] <+: q) : p <+: q := (List.prefix_append p [j]).trans h

theorem not_prefix_short (p : Path) (j : Nat) : ¬ (p ++ [j]) <+: p := by
  intro h
  have := h.length_le
  simp at this

theorem snoc_prefix_snoc {p r : Path} {j k : Nat} (h : p ++ [j] <+: p ++ k :: r) : j = k := by
  obtain ⟨x, hx⟩ := h
  rw [List.append_assoc] at hx
  have := List.append_cancel_left hx
  simp at this
  exact this.1

mutual
theorem traversed (p : Path) (t : Tree) (s : State) (h : Untouched s p) (hm : (s.mem p).level ≤ s.maxLevel) : Traversed p t s (traverse p t s) := by
  match t with
  | .node n sp a inn cs =>
    have hr : ∀ q, q ≠ p → (s.reset p).mem q = s.mem q := fun q hq => Function.update_of_ne hq _ _
    have hs : (s.reset p).mem p = { s.mem p with item := fun _ => none, items := fun _ => [] } := Function.update_self _ _ _
    have hl := looped p 0 cs (fun _ => []) (s.reset p) (fun n => by rw [hs]; exact ⟨rfl, rfl⟩)
      (fun j r _ => by
        rw [hr _ (fun e => by have := congrArg List.length e; simp at this)]
        exact h (j :: r) (by simp))
      (by rw [hs]; exact hm)
    have hlev : ((s.reset p).mem p).level = (s.mem p).level := by rw [hs]
    have hmax : (s.reset p).maxLevel = s.maxLevel := rfl
    simp only [traverse]
    refine ⟨?_, ?_, ?_, ?_⟩
    · intro q hq
      rw [hl.outside q (fun e => hq (e ▸ List.prefix_refl _)) (fun j _ e => hq (e ▸ List.prefix_append _ _)) (fun j _ e => hq (prefix_snoc e))]
      exact hr q (fun e => hq (e ▸ List.prefix_refl _))
    · rw [hl.self, hs]
      simp [Tree.children]
    · intro r i u c hu hc
      cases r with
      | nil =>
        injection hu with hu
        subst hu
        have := hl.child i c hc
        rw [hlev] at this
        simpa [Tree.children] using this
      | cons k r =>
        simp only [Tree.at?] at hu
        cases hk : cs[k]? with
        | none => rw [show (Tree.node n sp a inn cs).children = cs from rfl, hk] at hu; cases hu
        | some d =>
          rw [show (Tree.node n sp a inn cs).children = cs from rfl, hk] at hu
          have := hl.below k d hk r i u c hu hc
          rw [hlev] at this
          rw [show p ++ [0 + k] ++ r = p ++ k :: r by simp] at this
          rw [this, List.length_cons]
          congr 1; omega
    · rw [hl.level, hlev, hmax]
      simp [height]

theorem looped (p : Path) (i : Nat) (ts : List Tree) (l : Str → List Path) (s : State) (hi : Indexed s p l)
    (h : ∀ j r, i ≤ j → s.mem (p ++ j :: r) = {}) (hm : (s.mem p).level ≤ s.maxLevel) : Looped p i ts l s (loop p i ts s) := by
  match ts with
  | [] =>
    simp only [loop]
    refine ⟨fun _ _ _ _ => rfl, ?_, ?_, by simp, by simp, by simp [heights, hm]⟩
    · have e1 : (s.mem p).items = l := funext fun n => (hi n).1
      have e2 : (s.mem p).item = fun n => (l n).head? := funext fun n => (hi n).2
      simp only [named, List.append_nil]
      rw [← e2, ← e1]
    · intro j _
      simp
  | t :: ts =>
    simp only [loop]
    -- the pass before the recursion
    have hv := visit_parent (t := t) (i := i) hi
    have hvl := visit_level s p i t
    have hvs : (s.visit p i t).mem (p ++ [i]) = _ := visit_self
    rw [h i [] (Nat.le_refl i)] at hvs
    have hvo : ∀ j r, i ≤ j → r ≠ [] ∨ j ≠ i → (s.visit p i t).mem (p ++ j :: r) = {} := by
      intro j r hj hr
      rw [visit_other, h j r hj]
      · intro e; have := congrArg List.length e; simp at this
      · intro e
        have := List.append_cancel_left e
        simp at this
        rcases hr with hr | hr
        · exact hr this.2
        · exact hr this.1
      · intro h0 e
        have := List.append_cancel_left e
        simp at this
        omega
    have hlevel : ((s.visit p i t).mem p).level = (s.mem p).level := by
      have := hv.2 (fun _ => none) (fun _ => [])
      injection this
    have hvout : ∀ q, q ≠ p → (∀ j, i ≤ j + 1 → q ≠ p ++ [j]) → (s.visit p i t).mem q = s.mem q := fun q h1 h2 =>
      visit_other h1 (h2 i (by omega)) (fun h0 => h2 (i - 1) (by omega))
    have hvprev : ∀ j, j + 1 = i → (s.visit p i t).mem (p ++ [j]) = { s.mem (p ++ [j]) with next := some (p ++ [i]) } := by
      rintro j rfl
      exact visit_previous
    -- the recursion
    have ht := traversed (p ++ [i]) t (s.visit p i t) (by
      intro r hr
      rw [List.append_assoc]
      exact hvo i r (Nat.le_refl i) (.inl hr)) (by rw [hvs, hvl]; exact Nat.le_max_right _ _)
    generalize s.visit p i t = s1 at *
    generalize traverse (p ++ [i]) t s1 = s2 at *
    have h2p : s2.mem p = s1.mem p := ht.outside p (not_prefix_short p i)
    -- the rest of the loop
    have hl := looped p (i + 1) ts (fun n => if t.name = n then l n ++ [p ++ [i]] else l n) s2
      (fun n => by rw [h2p]; exact hv.1 n)
      (fun j r hj => by
        rw [ht.outside _ (fun e => by have := snoc_prefix_snoc e; omega)]
        exact hvo j r (by omega) (.inr (by omega)))
      (by rw [h2p, hlevel, ht.level, hvl]; omega)
    have h2lev : (s2.mem p).level = (s.mem p).level := by rw [h2p, hlevel]
    have h1lev : (s1.mem (p ++ [i])).level = (s.mem p).level + 1 := by rw [hvs]
    have hlast := hl.previous i rfl
    generalize loop p (i + 1) ts s2 = s3 at *
    refine ⟨?_, ?_, ?_, ?_, ?_, ?_⟩
    · intro q h1 h2 h3
      rw [hl.outside q h1 (fun j hj => h2 j (by omega)) (fun j hj => h3 j (by omega)), ht.outside q (h3 i (Nat.le_refl i)), hvout q h1 h2]
    · rw [hl.self, h2p, hv.2]
      have e : ∀ n, (if t.name = n then l n ++ [p ++ [i]] else l n) ++ named p n (i + 1) ts = l n ++ named p n i (t :: ts) := by
        intro n
        simp only [named]
        split <;> simp
      simp only [e]
    · intro j hj
      have hji : ∀ k, i ≤ k → ¬ p ++ [k] <+: p ++ [j] := fun k hk e => by have := snoc_prefix_snoc e; omega
      rw [hl.outside (p ++ [j]) (append_ne p j) (fun k hk e => by have := append_inj e; omega) (fun k hk => hji k (by omega)),
        ht.outside _ (hji i (Nat.le_refl i)), hvprev j hj]
      simp
    · intro k c hk
      cases k with
      | zero =>
        injection hk with hk
        subst hk
        rw [Nat.add_zero, hlast, ht.self, hvs]
        unfold expect
        cases ts <;> simp
      | succ k =>
        have := hl.child k c hk
        rw [h2lev] at this
        rw [show i + (k + 1) = i + 1 + k by omega, this, List.length_cons]
        congr 1; omega
    · intro k c hk
      cases k with
      | zero =>
        injection hk with hk
        subst hk
        intro r j u d hu hd
        have := ht.below r j u d hu hd
        rw [h1lev] at this
        rw [Nat.add_zero, ← this]
        refine hl.outside _ ?_ ?_ ?_
        · intro e; have := congrArg List.length e; simp at this
        · intro m hm e; have := congrArg List.length e; simp at this
        · intro m hm e
          have e' : p ++ [m] <+: p ++ i :: (r ++ [j]) := by simpa using e
          have := snoc_prefix_snoc e'
          omega
      | succ k =>
        have := hl.below k c hk
        rw [h2lev] at this
        rw [show i + (k + 1) = i + 1 + k by omega]
        exact this
    · rw [hl.level, h2lev, ht.level, h1lev, hvl]
      simp only [heights]
      omega
end

/-! ### C59: the loaded document -/

/-- The fields of all nodes of a loaded document. -/
theorem load_done (root : Tree) : Traversed [] root (({} : State).update [] fun x => { x with name := root.name, space := root.space, owned := true })
    (load root) :=
  traversed [] root _ (fun _ hr => Function.update_of_ne hr _ _) (Nat.zero_le _)

theorem at_append (t : Tree) (p q : Path) : t.at? (p ++ q) = t.at? p >>= fun u => u.at? q := by
  induction p generalizing t with
  | nil => rfl
  | cons i p ih =>
    simp only [List.cons_append, Tree.at?]
    cases t.children[i]? with
    | none => rfl
    | some c => exact ih c

theorem at_snoc (t : Tree) (p : Path) (i : Nat) : t.at? (p ++ [i]) = t.at? p >>= fun u => u.children[i]? := by
  rw [at_append]
  cases t.at? p with
  | none => rfl
  | some u =>
    show (u.children[i]? >>= fun c => some c) = u.children[i]?
    cases u.children[i]? <;> rfl

theorem load_child {root u c : Tree} {p : Path} {i : Nat} (hu : root.at? p = some u) (hc : u.children[i]? = some c) :
    (load root).mem (p ++ [i]) = expect p p.length i u.children.length c := by
  have := (load_done root).below p i u c hu hc
  simpa [State.update] using this

theorem load_root (root : Tree) : (load root).mem [] =
    { name := root.name, space := root.space, owned := true, item := fun n => (named [] n 0 root.children).head?,
      items := fun n => named [] n 0 root.children } := by
  rw [(load_done root).self]
  simp [State.update]

/-- Every path but the root's is a path with a last step. -/
theorem at_cases {root t : Tree} {p : Path} (h : root.at? p = some t) :
    p = [] ∨ ∃ q i u, p = q ++ [i] ∧ root.at? q = some u ∧ u.children[i]? = some t := by
  rcases List.eq_nil_or_concat p with rfl | ⟨q, i, e⟩
  · exact .inl rfl
  · rw [List.concat_eq_append] at e
    subst e
    rw [at_snoc] at h
    cases hu : root.at? q with
    | none => rw [hu] at h; cases h
    | some u => rw [hu] at h; exact .inr ⟨q, i, u, rfl, hu, h⟩

/-- C59: the parent of a node is the node its path ends at without the last step, the root has none; the level is the number of steps;
name and namespace are those of the element. -/
theorem C59_parent_level (root t : Tree) (p : Path) (h : root.at? p = some t) :
    ((load root).mem p).name = t.name ∧ ((load root).mem p).space = t.space ∧ ((load root).mem p).level = p.length ∧
    ((load root).mem p).owned = true ∧ ((load root).mem p).parent = (if p = [] then none else some p.dropLast) := by
  rcases at_cases h with rfl | ⟨q, i, u, rfl, hu, hc⟩
  · injection h with h
    subst h
    rw [load_root]
    simp
  · rw [load_child hu hc]
    simp [expect]

/-- C59: next and previous link neighbouring children of the same parent, in both directions, and nothing else. -/
theorem C59_siblings (root u : Tree) (p : Path) (i : Nat) (hu : root.at? p = some u) (hi : i < u.children.length) :
    (∀ q, ((load root).mem (p ++ [i])).next = some q ↔ q = p ++ [i + 1] ∧ i + 1 < u.children.length) ∧
    (∀ q, ((load root).mem (p ++ [i])).previous = some q ↔ ∃ j, j + 1 = i ∧ q = p ++ [j]) := by
  rw [load_child hu (List.getElem?_eq_getElem hi)]
  refine ⟨fun q => ?_, fun q => ?_⟩
  · simp only [expect]
    split
    · rename_i h
      simp [h, eq_comm]
    · rename_i h
      simp [h]
  · simp only [expect]
    cases i with
    | zero => simp
    | succ i => simp [eq_comm]

/-- C59: the root has no siblings. -/
theorem C59_root_alone (root : Tree) : ((load root).mem []).next = none ∧ ((load root).mem []).previous = none := by
  rw [load_root]
  exact ⟨rfl, rfl⟩

theorem named_eq (p : Path) (n : Str) (i : Nat) (ts : List Tree) :
    named p n i ts = ((List.range ts.length).filter fun k => (ts[k]?.map Tree.name) = some n).map fun k => p ++ [i + k] := by
  induction ts generalizing i with
  | nil => rfl
  | cons t ts ih =>
    simp only [named, List.length_cons, List.range_succ_eq_map, List.filter_cons, List.filter_map, List.getElem?_cons_zero,
      Option.map_some, Option.some.injEq, decide_eq_true_eq]
    have e : ((fun k => decide (((t :: ts)[k]?).map Tree.name = some n)) ∘ Nat.succ) = fun k => decide ((ts[k]?).map Tree.name = some n) := by
      funext k
      simp
    have e2 : ((fun k => p ++ [i + k]) ∘ Nat.succ) = fun k => p ++ [i + 1 + k] := by
      funext k
      simp only [Function.comp]
      rw [show i + k.succ = i + 1 + k by omega]
    rw [e, ih (i + 1)]
    split <;> simp [List.map_map, e2]

/-- C59: `Items[name]` lists the children with the name in document order, and `Item[name]` is the first of them. -/
theorem C59_items (root u : Tree) (p : Path) (n : Str) (hu : root.at? p = some u) :
    ((load root).mem p).items n = ((List.range u.children.length).filter fun k => (u.children[k]?.map Tree.name) = some n).map (fun k => p ++ [k]) ∧
    ((load root).mem p).item n = (((load root).mem p).items n).head? := by
  rcases at_cases hu with rfl | ⟨q, i, v, rfl, hv, hc⟩
  · injection hu with hu
    subst hu
    rw [load_root]
    refine ⟨?_, rfl⟩
    dsimp only
    rw [named_eq]
    simp
  · rw [load_child hv hc]
    refine ⟨?_, rfl⟩
    simp only [expect]
    rw [named_eq]
    simp

mutual
theorem height_at (t : Tree) (q : Path) (u : Tree) (h : t.at? q = some u) : q.length ≤ height t := by
  match t, q with
  | .node n sp a inn cs, [] => simp
  | .node n sp a inn cs, k :: q =>
    simp only [Tree.at?] at h
    cases hk : (Tree.node n sp a inn cs).children[k]? with
    | none => rw [hk] at h; cases h
    | some d =>
      rw [hk] at h
      simp only [height]
      have := heights_at cs k q d u hk h
      simpa using this
theorem heights_at (ts : List Tree) (k : Nat) (q : Path) (d u : Tree) (hk : ts[k]? = some d) (h : d.at? q = some u) : q.length + 1 ≤ heights ts := by
  match ts, k with
  | [], _ => cases hk
  | t :: ts, 0 =>
    injection hk with hk
    subst hk
    have := height_at t q u h
    simp only [heights]
    omega
  | t :: ts, k + 1 =>
    have := heights_at ts k q d u hk h
    simp only [heights]
    omega
end

mutual
theorem height_reached (t : Tree) : ∃ q u, t.at? q = some u ∧ q.length = height t := by
  match t with
  | .node n sp a inn cs =>
    match cs, heights_reached cs with
    | [], _ => exact ⟨[], _, rfl, rfl⟩
    | c :: cs, h =>
      obtain ⟨k, d, q, u, hk, hu, hq⟩ := h (by simp)
      refine ⟨k :: q, u, ?_, by simpa [height] using hq⟩
      simp only [Tree.at?]
      rw [show (Tree.node n sp a inn (c :: cs)).children = c :: cs from rfl, hk]
      exact hu
theorem heights_reached (ts : List Tree) (h : ts ≠ []) : ∃ (k : Nat) (d : Tree) (q : Path) (u : Tree), ts[k]? = some d ∧ d.at? q = some u ∧ q.length + 1 = heights ts := by
  match ts with
  | [] => exact absurd rfl h
  | t :: ts =>
    obtain ⟨q, u, hu, hq⟩ := height_reached t
    simp only [heights]
    by_cases hmax : heights ts ≤ height t + 1
    · exact ⟨0, t, q, u, rfl, hu, by omega⟩
    · have hne : ts ≠ [] := by
        rintro rfl
        simp [heights] at hmax
      obtain ⟨k, d, q, u, hk, hu, hq⟩ := heights_reached ts hne
      exact ⟨k + 1, d, q, u, hk, hu, by omega⟩
end

/-- C59: `MaxDepth` is one more than the greatest level of a node. -/
theorem C59_max_depth (root : Tree) : (∀ p t, root.at? p = some t → p.length < (load root).maxDepth) ∧
    ∃ p t, root.at? p = some t ∧ p.length + 1 = (load root).maxDepth := by
  have h : (load root).maxDepth = height root + 1 := by
    unfold State.maxDepth
    rw [(load_done root).level]
    simp [State.update]
  rw [h]
  refine ⟨fun p t hp => Nat.lt_succ_of_le (height_at root p t hp), ?_⟩
  obtain ⟨q, u, hu, hq⟩ := height_reached root
  exact ⟨q, u, hu, by omega⟩

/-! ### The path of a node -/

/-- The loop of `Path` (XmlNode.go L65-71): the names up to the root; `fuel` bounds the pointers followed. -/
def ancestry (s : State) : Nat → Option Path → List Str
  | _, none => []
  | 0, some _ => []
  | fuel + 1, some p => (s.mem p).name :: ancestry s fuel (s.mem p).parent

/-- `Path` (L64-82) -/
def State.pathText (s : State) (fuel : Nat) (p : Path) : Str := 47#8 :: ((ancestry s fuel (some p)).reverse.flatMap fun n => 47#8 :: n)

/-- The names on the way from the root to a node. -/
def names (t : Tree) : Path → List Str
  | [] => [t.name]
  | i :: p => t.name :: (match t.children[i]? with | some c => names c p | none => [])

theorem names_snoc (t u c : Tree) (p : Path) (i : Nat) (hu : t.at? p = some u) (hc : u.children[i]? = some c) :
    names t (p ++ [i]) = names t p ++ [c.name] := by
  induction p generalizing t with
  | nil =>
    injection hu with hu
    subst hu
    simp [names, hc]
  | cons k p ih =>
    simp only [Tree.at?] at hu
    cases hk : t.children[k]? with
    | none => rw [hk] at hu; cases hu
    | some d =>
      rw [hk] at hu
      simp only [List.cons_append, names, hk]
      rw [ih d hu]

theorem ancestry_eq (root t : Tree) (p : Path) (h : root.at? p = some t) (fuel : Nat) (hf : p.length < fuel) :
    ancestry (load root) fuel (some p) = (names root p).reverse := by
  induction fuel generalizing p t with
  | zero => omega
  | succ fuel ih =>
    simp only [ancestry]
    have hp := C59_parent_level root t p h
    rw [hp.1, hp.2.2.2.2]
    rcases at_cases h with rfl | ⟨q, i, u, rfl, hu, hc⟩
    · injection h with h
      subst h
      simp [names, ancestry]
    · rw [if_neg (by simp), List.dropLast_concat, ih u q hu (by simp at hf; omega), names_snoc root u t q i hu hc]
      simp

/-- C59: the path of a node is "//" and the names from the root to it, separated by "/"; it is found by following at most as many
pointers as the document is deep. -/
theorem C59_path (root t : Tree) (p : Path) (h : root.at? p = some t) (fuel : Nat) (hf : (load root).maxDepth ≤ fuel) :
    (load root).pathText fuel p = 47#8 :: 47#8 :: Text.join 47#8 (names root p) := by
  unfold State.pathText
  rw [ancestry_eq root t p h fuel (Nat.lt_of_lt_of_le ((C59_max_depth root).1 p t h) hf), List.reverse_reverse]
  have : ∀ l : List Str, l ≠ [] → (l.flatMap fun n => 47#8 :: n) = 47#8 :: Text.join 47#8 l := by
    intro l hl
    induction l with
    | nil => exact absurd rfl hl
    | cons a l ih =>
      cases l with
      | nil => simp [Text.join]
      | cons b l =>
        rw [List.flatMap_cons, ih (by simp), Text.join_cons (p := a) (by simp)]
        rfl
  rw [this _ (by cases p <;> simp [names])]

/-! ### A concrete case -/

open Verif.Expr (lit) in
/-- `<a><b/><c><b/></c><b/></a>` -/
def sample : Tree := .node (lit "a") [] [] [] [.node (lit "b") [] [] [] [], .node (lit "c") [] [] [] [.node (lit "b") [] [] [] []],
  .node (lit "b") [] [] [] []]

open Verif.Expr (lit) in
/-- The theorems at the nodes of the sample. -/
example : ((load sample).mem [1, 0]).parent = some [1] ∧ ((load sample).mem [1, 0]).level = 2 ∧
    (∀ q, ((load sample).mem [1]).next = some q ↔ q = [2] ∧ 2 < 3) ∧ ((load sample).mem []).items (lit "b") = [[0], [2]] ∧
    ((load sample).mem []).item (lit "b") = some [0] ∧ (load sample).pathText 3 [1, 0] = lit "//a/c/b" ∧ (load sample).maxDepth = 3 := by
  have h1 := C59_parent_level sample (.node (lit "b") [] [] [] []) [1, 0] rfl
  have h2 := C59_siblings sample sample [] 1 rfl (by decide)
  have h3 := C59_items sample sample [] (lit "b") rfl
  have h4 : (load sample).maxDepth = 3 := rfl
  have h5 := C59_path sample (.node (lit "b") [] [] [] []) [1, 0] rfl 3 (by rw [h4])
  have h6 : ((load sample).mem []).items (lit "b") = [[0], [2]] := by rw [h3.1]; decide
  refine ⟨h1.2.2.2.2, h1.2.2.1, h2.1, h6, by rw [h3.2, h6]; rfl, by rw [h5]; rfl, h4⟩

end Verif.Xml
