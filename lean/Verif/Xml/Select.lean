import Verif.Xml.Load

/-!
# C59, C68: finding nodes by path (xml/XmlDocument.go L130-139, xml/XmlNode.go L125-273)

`strings.TrimSpace` is the parameter `L`.
-/

namespace Verif.Xml

open Text

/-- A node: where it is and its element. (xml/XmlNode.go L139-201) -/
structure Node where
  path : Path
  tree : Tree

/-- `GetChildNodes` (XmlNode.go L126-135) -/
def Node.children (n : Node) : List Node := n.tree.children.mapIdx fun i c => ⟨n.path ++ [i], c⟩

/-- `isMatch` (L203-205) -/
def isMatch (value name : Str) : Bool := value == name || name == [42#8]

/-- `Attributes[name]`: the last attribute with the local name, whatever its namespace (XmlDocument.go L81-87). -/
def attrOf (t : Tree) (name : Str) : Option Str :=
  (t.attrs.reverse.find? fun a => a.1 == name).map fun a => a.2.2

/-- `removeQuotes` (L267-273) -/
def removeQuotes (v : Str) : Str :=
  if v.head? = some 39#8 ∧ v.getLast? = some 39#8 ∧ v.length > 2 then v.tail.dropLast else v

/-- The parts of a predicate (L208-212, L250-254). -/
def parts (L : TextLib) (expr : Str) : List Str := (split 61#8 expr).map L.trim

/-- `attributeMatch` (L207-237); the loop over all attributes (L220-224) asks for some attribute with the value. -/
def attributeMatch (L : TextLib) (t : Tree) (expr : Str) : Bool :=
  match parts L expr with
  | [] => false
  | first :: rest =>
    if first = [42#8] then
      match rest with
      | [] => true
      | v :: _ => t.attrs.any fun a => attrOf t a.1 == some (removeQuotes v)
    else match attrOf t first with
      | some value =>
        match rest with
        | [v] => value == removeQuotes v
        | _ => true
      | none => false

/-- `valueMatch` (L249-265) -/
def valueMatch (L : TextLib) (t : Tree) (expr : Str) : Bool :=
  match parts L expr with
  | [] => false
  | first :: rest =>
    if first = t.name ∨ first = [42#8] then
      match rest with
      | [v] => t.inner == removeQuotes v
      | _ => true
    else false

/-- `childValueMatch` (L239-247) -/
def childValueMatch (L : TextLib) (t : Tree) (expr : Str) : Bool := t.children.any fun c => valueMatch L c expr

/-- Index of a byte (`strings.IndexRune` of an ASCII character). (xml/XmlNode.go L139-201) -/
def indexOf (b : Byte) (s : Str) : Option Nat := s.findIdx? (· == b)

/-- The predicate of a step and the name before it (L165-170). -/
def predicate? (expr : Str) : Option (Str × Str) :=
  match indexOf 91#8 expr, indexOf 93#8 expr with
  | some l, some r => if r > l ∧ expr.length > 2 then some (expr.take l, (expr.drop (l + 1)).take (r - (l + 1))) else none
  | _, _ => none

/-- Whether a node matches a step (L164-183); `predicate[0]` of an empty predicate panics (L172). -/
def matchStep (L : TextLib) (expr : Str) (t : Tree) : Res Bool :=
  match predicate? expr with
  | some (_, []) => .panic
  | some (name, b :: p) =>
    if b = 64#8 then .ok (isMatch t.name name && attributeMatch L t p)
    else .ok (isMatch t.name name && childValueMatch L t (b :: p))
  | none => .ok (isMatch t.name expr)

/-- The loop over the nodes of a level (L163-184). -/
def step (L : TextLib) (expr : Str) : List Node → Res (List Node)
  | [] => .ok []
  | n :: ns =>
    match matchStep L expr n.tree with
    | .ok m =>
      match step L expr ns with
      | .ok rest => .ok (if m then n :: rest else rest)
      | .err => .err
      | .panic => .panic
    | .err => .err
    | .panic => .panic

/-- The loop over the steps (L159-198). -/
def steps (L : TextLib) : List Str → List Node → Res (List Node)
  | [], _ => .ok []
  | [e], ns => step L e ns
  | e :: e' :: es, ns =>
    match step L e ns with
    | .ok [] => .ok []
    | .ok (r :: rs) => steps L (e' :: es) ((r :: rs).flatMap Node.children)
    | .err => .err
    | .panic => .panic

/-- `XmlNode.SelectNodes` (L152-201) -/
def Node.select (L : TextLib) (n : Node) (xpath : Str) : Res (List Node) := steps L (split 47#8 xpath) n.children

/-- `SelectNodes` of several nodes (L139-147). -/
def selectAll (L : TextLib) : List Node → Str → Res (List Node)
  | [], _ => .ok []
  | n :: ns, xpath => do
    let r ← n.select L xpath
    return r ++ (← selectAll L ns xpath)

/-- `XmlDocument.SelectNodes` (XmlDocument.go L132-139) -/
def selectDoc (L : TextLib) (root : Tree) (xpath : Str) : Res (List Node) :=
  if [47#8, 47#8] <+: xpath ∧ (root.name ++ [47#8]) <+: xpath.drop 2 then (Node.mk [] root).select L (xpath.drop (3 + root.name.length))
  else (Node.mk [] root).select L xpath

/-! ### What is expected -/

/-- Going down from a node, a child for every step, each meeting its step. -/
def Reaches (sat : Str → Tree → Prop) : List Str → Node → Node → Prop
  | [], n, m => n = m
  | e :: es, n, m => ∃ c ∈ n.children, sat e c.tree ∧ Reaches sat es c m

/-- Document order of nodes none of which is inside the other: where the paths part, the child number is smaller. -/
def Before (p q : Path) : Prop := ∃ c a b x y, p = c ++ a :: x ∧ q = c ++ b :: y ∧ a < b

/-- In document order, so also without repetition. -/
def InOrder (ns : List Node) : Prop := ns.Pairwise fun m n => Before m.path n.path

theorem before_irrefl (p : Path) : ¬ Before p p := by
  rintro ⟨c, a, b, x, y, h1, h2, h⟩
  rw [h1] at h2
  have := List.append_cancel_left h2
  injection this with this
  omega

theorem before_append {p q : Path} (x y : Path) (h : Before p q) : Before (p ++ x) (q ++ y) := by
  obtain ⟨c, a, b, u, v, rfl, rfl, h⟩ := h
  exact ⟨c, a, b, u ++ x, v ++ y, by simp, by simp, h⟩

theorem before_children {p : Path} {i j : Nat} (h : i < j) : Before (p ++ [i]) (p ++ [j]) := ⟨p, i, j, [], [], rfl, rfl, h⟩

theorem mem_children (n c : Node) : c ∈ n.children ↔ ∃ i, n.tree.children[i]? = some c.tree ∧ c.path = n.path ++ [i] := by
  unfold Node.children
  rw [List.mem_mapIdx]
  constructor
  · rintro ⟨i, hi, rfl⟩
    exact ⟨i, List.getElem?_eq_getElem hi, rfl⟩
  · rintro ⟨i, hi, hp⟩
    obtain ⟨h, e⟩ := List.getElem?_eq_some_iff.mp hi
    refine ⟨i, h, ?_⟩
    cases c
    simp only at e hp
    rw [e, hp]

theorem children_inOrder (n : Node) : InOrder n.children := by
  unfold InOrder Node.children
  rw [List.pairwise_iff_getElem]
  intro i j hi hj hij
  simp only [List.getElem_mapIdx]
  exact before_children hij

theorem flatMap_inOrder {ns : List Node} (h : InOrder ns) : InOrder (ns.flatMap Node.children) := by
  unfold InOrder at *
  rw [List.pairwise_flatMap]
  refine ⟨fun n _ => children_inOrder n, h.imp ?_⟩
  intro a b hab x hx y hy
  obtain ⟨i, -, hx⟩ := (mem_children a x).mp hx
  obtain ⟨j, -, hy⟩ := (mem_children b y).mp hy
  rw [hx, hy]
  exact before_append _ _ hab

/-- What a step gives when it does not panic. -/
theorem step_eq {L : TextLib} {e : Str} {ns rs : List Node} (h : step L e ns = .ok rs) :
    rs.Sublist ns ∧ ∀ n, n ∈ rs ↔ n ∈ ns ∧ matchStep L e n.tree = .ok true := by
  induction ns generalizing rs with
  | nil => injection h with h; subst h; simp
  | cons n ns ih =>
    simp only [step] at h
    cases hm : matchStep L e n.tree with
    | ok m =>
      rw [hm] at h
      cases hs : step L e ns with
      | ok rest =>
        rw [hs] at h
        obtain ⟨h1, h2⟩ := ih hs
        injection h with h
        subst h
        cases m with
        | true =>
          refine ⟨h1.cons_cons n, fun x => ?_⟩
          simp only [if_true, List.mem_cons, h2 x]
          constructor
          · rintro (rfl | h)
            · exact ⟨.inl rfl, hm⟩
            · exact ⟨.inr h.1, h.2⟩
          · rintro ⟨rfl | h, h'⟩
            · exact .inl rfl
            · exact .inr ⟨h, h'⟩
        | false =>
          refine ⟨h1.cons n, fun x => ?_⟩
          simp only [Bool.false_eq_true, if_false, List.mem_cons, h2 x]
          constructor
          · exact fun h => ⟨.inr h.1, h.2⟩
          · rintro ⟨rfl | h, h'⟩
            · rw [hm] at h'; injection h' with h'; cases h'
            · exact ⟨h, h'⟩
      | err => rw [hs] at h; cases h
      | panic => rw [hs] at h; cases h
    | err => rw [hm] at h; cases h
    | panic => rw [hm] at h; cases h

/-- A step that can be tested on every element. -/
def Total (e : Str) : Prop := ∀ n, predicate? e ≠ some (n, [])

theorem matchStep_total {L : TextLib} {e : Str} (h : Total e) (t : Tree) : ∃ b, matchStep L e t = .ok b := by
  unfold matchStep
  cases hp : predicate? e with
  | none => exact ⟨_, rfl⟩
  | some x =>
    obtain ⟨name, p⟩ := x
    cases p with
    | nil => exact absurd hp (h name)
    | cons b p =>
      dsimp only
      split <;> exact ⟨_, rfl⟩

theorem matchStep_empty {L : TextLib} {e n : Str} (h : predicate? e = some (n, [])) (t : Tree) : matchStep L e t = .panic := by
  unfold matchStep
  rw [h]

theorem step_total {L : TextLib} {e : Str} (h : Total e) (ns : List Node) : ∃ rs, step L e ns = .ok rs := by
  induction ns with
  | nil => exact ⟨[], rfl⟩
  | cons n ns ih =>
    obtain ⟨rs, hr⟩ := ih
    obtain ⟨b, hb⟩ := matchStep_total (L := L) h n.tree
    exact ⟨_, by simp only [step, hb, hr]; rfl⟩

/-- A node of a level from which the steps lead to `m`. -/
theorem steps_eq {L : TextLib} {es : List Str} {ns rs : List Node} (he : es ≠ []) (h : steps L es ns = .ok rs) (ho : InOrder ns) :
    InOrder rs ∧ ∀ m, m ∈ rs ↔ ∃ n ∈ ns, matchStep L es.head! n.tree = .ok true ∧ Reaches (fun e t => matchStep L e t = .ok true) es.tail n m := by
  induction es generalizing ns with
  | nil => exact absurd rfl he
  | cons e es ih =>
    cases es with
    | nil =>
      obtain ⟨h1, h2⟩ := step_eq h
      refine ⟨List.Pairwise.sublist h1 ho, fun m => ?_⟩
      rw [h2]
      constructor
      · exact fun h => ⟨m, h.1, h.2, rfl⟩
      · rintro ⟨n, hn, hm, rfl⟩
        exact ⟨hn, hm⟩
    | cons e' es =>
      simp only [steps] at h
      cases hs : step L e ns with
      | ok r1 =>
        rw [hs] at h
        obtain ⟨h1, h2⟩ := step_eq hs
        have ho1 : InOrder r1 := List.Pairwise.sublist h1 ho
        have hgoal : ∀ rs', (InOrder rs' ∧ ∀ m, m ∈ rs' ↔ ∃ n ∈ r1.flatMap Node.children, matchStep L e' n.tree = .ok true ∧
            Reaches (fun e t => matchStep L e t = .ok true) es n m) → InOrder rs' ∧ ∀ m, m ∈ rs' ↔ ∃ n ∈ ns,
            matchStep L e n.tree = .ok true ∧ Reaches (fun e t => matchStep L e t = .ok true) (e' :: es) n m := by
          rintro rs' ⟨hi, hm⟩
          refine ⟨hi, fun m => ?_⟩
          rw [hm]
          constructor
          · rintro ⟨c, hc, hce, hr⟩
            obtain ⟨n, hn, hcn⟩ := List.mem_flatMap.mp hc
            obtain ⟨hn1, hn2⟩ := (h2 n).mp hn
            exact ⟨n, hn1, hn2, c, hcn, hce, hr⟩
          · rintro ⟨n, hn1, hn2, c, hcn, hce, hr⟩
            exact ⟨c, List.mem_flatMap.mpr ⟨n, (h2 n).mpr ⟨hn1, hn2⟩, hcn⟩, hce, hr⟩
        cases r1 with
        | nil =>
          injection h with h
          subst h
          exact hgoal [] ⟨List.Pairwise.nil, by simp⟩
        | cons a r1 => exact hgoal rs (ih (by simp) h (flatMap_inOrder ho1))
      | err => rw [hs] at h; cases h
      | panic => rw [hs] at h; cases h

/-- Whenever `SelectNodes` returns, it gives in document order exactly the nodes reached by the steps of the path. -/
theorem select_eq {L : TextLib} {n : Node} {xpath : Str} {rs : List Node} (h : n.select L xpath = .ok rs) :
    InOrder rs ∧ ∀ m, m ∈ rs ↔ Reaches (fun e t => matchStep L e t = .ok true) (split 47#8 xpath) n m := by
  unfold Node.select at h
  obtain ⟨h1, h2⟩ := steps_eq (split_ne_nil _ _) h (children_inOrder n)
  refine ⟨h1, fun m => ?_⟩
  rw [h2]
  cases hs : split 47#8 xpath with
  | nil => exact absurd hs (split_ne_nil _ _)
  | cons e es =>
    constructor
    · rintro ⟨c, hc, hm, hr⟩
      exact ⟨c, hc, hm, hr⟩
    · rintro ⟨c, hc, hm, hr⟩
      exact ⟨c, hc, hm, hr⟩

theorem steps_total {L : TextLib} {es : List Str} (h : ∀ e ∈ es, Total e) (ns : List Node) : ∃ rs, steps L es ns = .ok rs := by
  induction es generalizing ns with
  | nil => exact ⟨[], rfl⟩
  | cons e es ih =>
    obtain ⟨r1, h1⟩ := step_total (L := L) (h e (by simp)) ns
    cases es with
    | nil => exact ⟨r1, h1⟩
    | cons e' es =>
      simp only [steps, h1]
      cases r1 with
      | nil => exact ⟨[], rfl⟩
      | cons a r1 => exact ih (fun x hx => h x (by simp [hx])) _

/-! ### C59: paths without predicates -/

theorem indexOf_none {b : Byte} {s : Str} (h : b ∉ s) : indexOf b s = none := by
  unfold indexOf
  rw [List.findIdx?_eq_none_iff]
  intro x hx
  simp only [beq_eq_false_iff_ne]
  rintro rfl
  exact h hx

theorem predicate_none {e : Str} (h : 91#8 ∉ e) : predicate? e = none := by
  unfold predicate?
  rw [indexOf_none h]

theorem matchStep_plain {L : TextLib} {e : Str} (h : 91#8 ∉ e) (t : Tree) : matchStep L e t = .ok true ↔ t.name = e ∨ e = [42#8] := by
  unfold matchStep
  rw [predicate_none h]
  simp [isMatch]

theorem reaches_congr {p q : Str → Tree → Prop} {es : List Str} (h : ∀ e ∈ es, ∀ t, p e t ↔ q e t) (n m : Node) :
    Reaches p es n m ↔ Reaches q es n m := by
  induction es generalizing n with
  | nil => exact Iff.rfl
  | cons e es ih =>
    constructor
    · rintro ⟨c, hc, he, hr⟩
      exact ⟨c, hc, (h e (by simp) _).mp he, (ih (fun x hx => h x (by simp [hx])) c).mp hr⟩
    · rintro ⟨c, hc, he, hr⟩
      exact ⟨c, hc, (h e (by simp) _).mpr he, (ih (fun x hx => h x (by simp [hx])) c).mpr hr⟩

/-- C59: on a path without predicates `SelectNodes` gives, in document order and once each, exactly the nodes as many levels down as
the path has steps, whose names and those of the nodes on the way are the steps; "*" stands for any name. -/
theorem C59_select_partial (L : TextLib) (n : Node) (es : List Str) (hne : es ≠ []) (hes : ∀ e ∈ es, 47#8 ∉ e ∧ 91#8 ∉ e) :
    ∃ rs, n.select L (join 47#8 es) = .ok rs ∧ InOrder rs ∧
      ∀ m, m ∈ rs ↔ Reaches (fun e t => t.name = e ∨ e = [42#8]) es n m := by
  have hsplit : split 47#8 (join 47#8 es) = es := split_join hne (fun e he => (hes e he).1)
  obtain ⟨rs, hr⟩ := steps_total (L := L) (es := es) (fun e he n h => by rw [predicate_none (hes e he).2] at h; cases h) n.children
  have hs : n.select L (join 47#8 es) = .ok rs := by unfold Node.select; rw [hsplit, hr]
  obtain ⟨h1, h2⟩ := select_eq hs
  refine ⟨rs, hs, h1, fun m => ?_⟩
  rw [h2, hsplit]
  exact reaches_congr (fun e he t => matchStep_plain (hes e he).2 t) n m

/-- What reaching means for the paths of the nodes. -/
theorem reaches_at {sat : Str → Tree → Prop} {es : List Str} {n m : Node} (h : Reaches sat es n m) :
    ∃ q, m.path = n.path ++ q ∧ n.tree.at? q = some m.tree ∧ q.length = es.length := by
  induction es generalizing n with
  | nil => cases h; exact ⟨[], by simp, rfl, rfl⟩
  | cons e es ih =>
    obtain ⟨c, hc, -, hr⟩ := h
    obtain ⟨i, hi, hp⟩ := (mem_children n c).mp hc
    obtain ⟨q, hq, ht, hl⟩ := ih hr
    refine ⟨i :: q, by rw [hq, hp]; simp, ?_, by simp [hl]⟩
    simp only [Tree.at?, hi]
    exact ht

/-- C59: nothing but the empty predicate makes `SelectNodes` panic. -/
theorem C59_no_panic_partial (L : TextLib) (n : Node) (xpath : Str) (h : ∀ e ∈ split 47#8 xpath, Total e) : ∃ rs, n.select L xpath = .ok rs :=
  steps_total h _

theorem step_panic {L : TextLib} {e : Str} {ns : List Node} : step L e ns = .panic ↔ ns ≠ [] ∧ ¬ Total e := by
  constructor
  · intro h
    constructor
    · rintro rfl; cases h
    · intro ht
      obtain ⟨rs, hr⟩ := step_total (L := L) ht ns
      rw [hr] at h; cases h
  · rintro ⟨hne, ht⟩
    cases ns with
    | nil => exact absurd rfl hne
    | cons n ns =>
      unfold Total at ht
      push Not at ht
      obtain ⟨x, hx⟩ := ht
      simp only [step, matchStep_empty hx]

/-- C59: `SelectNodes` panics exactly when some step has an empty predicate and the steps before it lead to a node with a child. -/
theorem C59_panic_iff (L : TextLib) (n : Node) (xpath : Str) : n.select L xpath = .panic ↔
    ∃ pre e post, split 47#8 xpath = pre ++ e :: post ∧ (∀ x ∈ pre, Total x) ∧ ¬ Total e ∧
      ∃ m, Reaches (fun e t => matchStep L e t = .ok true) pre n m ∧ m.children ≠ [] := by
  have key : ∀ (es : List Str) (ns : List Node), steps L es ns = .panic ↔ ∃ pre e post, es = pre ++ e :: post ∧ (∀ x ∈ pre, Total x) ∧
      ¬ Total e ∧ (match pre with
        | [] => ns ≠ []
        | p :: pre => ∃ c ∈ ns, matchStep L p c.tree = .ok true ∧ ∃ m, Reaches (fun e t => matchStep L e t = .ok true) pre c m ∧ m.children ≠ []) := by
    intro es
    induction es with
    | nil => intro ns; simp [steps]
    | cons e es ih =>
      intro ns
      by_cases ht : Total e
      · obtain ⟨r1, h1⟩ := step_total (L := L) ht ns
        obtain ⟨-, h2⟩ := step_eq h1
        cases es with
        | nil =>
          simp only [steps, h1]
          constructor
          · intro h; cases h
          · rintro ⟨pre, x, post, hx, hpre, hxt, -⟩
            cases pre with
            | nil => injection hx with hx; subst hx; exact absurd ht hxt
            | cons a pre => injection hx with _ hx; simp at hx
        | cons e' es =>
          have hst : steps L (e :: e' :: es) ns = .panic ↔ steps L (e' :: es) (r1.flatMap Node.children) = .panic := by
            simp only [steps, h1]
            cases r1 with
            | nil =>
              have : steps L (e' :: es) [] = .ok [] := by cases es <;> rfl
              simp [this]
            | cons a r1 => exact Iff.rfl
          rw [hst, ih]
          constructor
          · rintro ⟨pre, x, post, hx, hpre, hxt, hr⟩
            refine ⟨e :: pre, x, post, by rw [hx]; rfl, by simpa [ht] using hpre, hxt, ?_⟩
            cases pre with
            | nil =>
              obtain ⟨c, hc⟩ := List.exists_mem_of_ne_nil _ hr
              obtain ⟨m, hm, hcm⟩ := List.mem_flatMap.mp hc
              obtain ⟨hm1, hm2⟩ := (h2 m).mp hm
              exact ⟨m, hm1, hm2, m, rfl, List.ne_nil_of_mem hcm⟩
            | cons p pre =>
              obtain ⟨c, hc, hcp, m, hr, hm⟩ := hr
              obtain ⟨d, hd, hcd⟩ := List.mem_flatMap.mp hc
              obtain ⟨hd1, hd2⟩ := (h2 d).mp hd
              exact ⟨d, hd1, hd2, m, ⟨c, hcd, hcp, hr⟩, hm⟩
          · rintro ⟨pre, x, post, hx, hpre, hxt, hr⟩
            cases pre with
            | nil => injection hx with hx; subst hx; exact absurd ht hxt
            | cons p pre =>
              injection hx with hxe hx
              subst hxe
              refine ⟨pre, x, post, hx, fun y hy => hpre y (by simp [hy]), hxt, ?_⟩
              obtain ⟨d, hd1, hd2, m, hr, hm⟩ := hr
              have hd := (h2 d).mpr ⟨hd1, hd2⟩
              cases pre with
              | nil =>
                cases hr
                obtain ⟨c, hc⟩ := List.exists_mem_of_ne_nil _ hm
                exact List.ne_nil_of_mem (List.mem_flatMap.mpr ⟨d, hd, hc⟩)
              | cons q pre =>
                obtain ⟨c, hc, hcq, hr⟩ := hr
                exact ⟨c, List.mem_flatMap.mpr ⟨d, hd, hc⟩, hcq, m, hr, hm⟩
      · have hst : steps L (e :: es) ns = .panic ↔ ns ≠ [] := by
          cases es with
          | nil => simp only [steps, step_panic]; simp [ht]
          | cons e' es =>
            simp only [steps]
            by_cases hn : ns = []
            · subst hn; simp [step]
            · rw [step_panic.mpr ⟨hn, ht⟩]; simp [hn]
        rw [hst]
        constructor
        · intro hn
          exact ⟨[], e, es, rfl, by simp, ht, hn⟩
        · rintro ⟨pre, x, post, hx, hpre, hxt, hr⟩
          cases pre with
          | nil => exact hr
          | cons p pre =>
            injection hx with hxe hx
            subst hxe
            exact absurd (hpre e (by simp)) ht
  unfold Node.select
  rw [key]
  constructor
  · rintro ⟨pre, e, post, hs, hp, he, hr⟩
    refine ⟨pre, e, post, hs, hp, he, ?_⟩
    cases pre with
    | nil => exact ⟨n, rfl, hr⟩
    | cons p pre =>
      obtain ⟨c, hc, hcp, m, hr, hm⟩ := hr
      exact ⟨m, ⟨c, hc, hcp, hr⟩, hm⟩
  · rintro ⟨pre, e, post, hs, hp, he, m, hr, hm⟩
    refine ⟨pre, e, post, hs, hp, he, ?_⟩
    cases pre with
    | nil => cases hr; exact hm
    | cons p pre =>
      obtain ⟨c, hc, hcp, hr⟩ := hr
      exact ⟨c, hc, hcp, m, hr, hm⟩

/-- C59: a path that begins with "//" and the name of the root starts below the root; any other path does, too. -/
theorem C59_document (L : TextLib) (root : Tree) (xpath : Str) :
    selectDoc L root ([47#8, 47#8] ++ root.name ++ 47#8 :: xpath) = (Node.mk [] root).select L xpath ∧
    (¬ ([47#8, 47#8] ++ root.name ++ [47#8]) <+: xpath → selectDoc L root xpath = (Node.mk [] root).select L xpath) := by
  constructor
  · unfold selectDoc
    rw [if_pos]
    · congr 1
      rw [show [47#8, 47#8] ++ root.name ++ 47#8 :: xpath = ([47#8, 47#8] ++ root.name ++ [47#8]) ++ xpath by simp]
      rw [List.drop_left' (by simp; omega)]
    · refine ⟨⟨root.name ++ 47#8 :: xpath, by simp⟩, ⟨xpath, by simp⟩⟩
  · intro h
    unfold selectDoc
    rw [if_neg]
    rintro ⟨⟨x, rfl⟩, y, hy⟩
    apply h
    refine ⟨y, ?_⟩
    simp only [List.cons_append, List.nil_append, List.drop_succ_cons, List.drop_zero] at hy
    rw [← hy]
    simp

/-- Names on the way lead to the node. -/
theorem reaches_names (t u : Tree) (base p : Path) (hu : t.at? p = some u) :
    Reaches (fun e t => t.name = e ∨ e = [42#8]) (names t p).tail ⟨base, t⟩ ⟨base ++ p, u⟩ := by
  induction p generalizing t base with
  | nil => injection hu with hu; subst hu; simp [names, Reaches]
  | cons i p ih =>
    simp only [Tree.at?] at hu
    cases hc : t.children[i]? with
    | none => rw [hc] at hu; cases hu
    | some c =>
      rw [hc] at hu
      have := ih c (base ++ [i]) hu
      have hn : (names t (i :: p)).tail = c.name :: (names c p).tail := by
        simp only [names, hc, List.tail_cons]
        cases p <;> simp [names]
      rw [hn]
      refine ⟨⟨base ++ [i], c⟩, (mem_children _ _).mpr ⟨i, hc, rfl⟩, .inl rfl, ?_⟩
      simpa using this

/-- C59: selecting by the path of a node below the root finds the node. -/
theorem C59_path_finds (L : TextLib) (root u : Tree) (p : Path) (hu : root.at? p = some u) (hp : p ≠ []) (fuel : Nat)
    (hf : (load root).maxDepth ≤ fuel) (hn : ∀ e ∈ names root p, 47#8 ∉ e ∧ 91#8 ∉ e) :
    ∃ rs, selectDoc L root ((load root).pathText fuel p) = .ok rs ∧ ⟨p, u⟩ ∈ rs := by
  rw [C59_path root u p hu fuel hf]
  cases p with
  | nil => exact absurd rfl hp
  | cons i q =>
    have hd : names root (i :: q) = root.name :: (names root (i :: q)).tail := by simp [names]
    have ht : (names root (i :: q)).tail ≠ [] := by
      simp only [names, List.tail_cons]
      simp only [Tree.at?] at hu
      cases hc : root.children[i]? with
      | none => rw [hc] at hu; cases hu
      | some c => cases q <;> simp [names]
    obtain ⟨rs, h1, -, h2⟩ := C59_select_partial L ⟨[], root⟩ (names root (i :: q)).tail ht (fun e he => hn e (List.mem_of_mem_tail he))
    refine ⟨rs, ?_, (h2 _).mpr ?_⟩
    · rw [hd, join_cons ht, ← h1]
      have := (C59_document L root (join 47#8 (names root (i :: q)).tail)).1
      simpa using this
    · have := reaches_names root u [] (i :: q) hu
      simpa using this

/-! ### A concrete case -/

open Verif.Expr (lit)

/-- `C59_select_partial`: the nodes named b inside a c. -/
example : ∃ rs, (Node.mk [] sample).select TextLib.ascii (lit "c/b") = .ok rs ∧ ⟨[1, 0], .node (lit "b") [] [] [] []⟩ ∈ rs := by
  obtain ⟨rs, h1, -, h2⟩ := C59_select_partial TextLib.ascii ⟨[], sample⟩ [lit "c", lit "b"] (by simp) (by decide)
  refine ⟨rs, h1, (h2 _).mpr ⟨⟨[1], .node (lit "c") [] [] [] [.node (lit "b") [] [] [] []]⟩, ?_, .inl rfl, ⟨[1, 0], _⟩, ?_, .inl rfl, rfl⟩⟩
  · exact (mem_children _ _).mpr ⟨1, rfl, rfl⟩
  · exact (mem_children _ _).mpr ⟨0, rfl, rfl⟩

/-- C59: the claim that no path makes it panic is false: an empty predicate does, on any node with a child. -/
theorem C59_no_panic_false (L : TextLib) (n : Node) (h : n.children ≠ []) : n.select L (lit "b[]") = .panic := by
  have hs : split 47#8 (lit "b[]") = [] ++ lit "b[]" :: [] := by decide
  exact (C59_panic_iff L n (lit "b[]")).mpr ⟨[], lit "b[]", [], hs, by simp, fun ht => ht (lit "b") (by decide), n, rfl, h⟩

/-- `C59_path_finds` for the inner b. -/
example : ∃ rs, selectDoc TextLib.ascii sample (lit "//a/c/b") = .ok rs ∧ ⟨[1, 0], .node (lit "b") [] [] [] []⟩ ∈ rs := by
  have := C59_path_finds TextLib.ascii sample (.node (lit "b") [] [] [] []) [1, 0] rfl (by simp) 3 (by decide) (by decide)
  rw [C59_path sample (.node (lit "b") [] [] [] []) [1, 0] rfl 3 (by decide)] at this
  exact this

end Verif.Xml
