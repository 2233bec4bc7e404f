import Verif.Xml.Select

/-!
# C68: predicates in paths (xml/XmlNode.go L164-183, L207-273)
-/

namespace Verif.Xml

open Text
open Verif.Expr (lit)

theorem indexOf_append {b : Byte} {s t : Str} (h : b ∉ s) : indexOf b (s ++ b :: t) = some s.length := by
  unfold indexOf
  induction s with
  | nil => simp [List.findIdx?_cons]
  | cons a s ih =>
    have ha : (a == b) = false := by
      rw [beq_eq_false_iff_ne]
      rintro rfl
      exact h (by simp)
    rw [List.cons_append, List.findIdx?_cons, ha, ih (fun hs => h (by simp [hs]))]
    simp

/-- The step `name[p]` is taken apart. -/
theorem predicate_some {name p : Str} (hn : 91#8 ∉ name) (hn' : 93#8 ∉ name) (hp : 93#8 ∉ p) (hne : p ≠ []) :
    predicate? (name ++ 91#8 :: p ++ [93#8]) = some (name, p) := by
  unfold predicate?
  have h1 : indexOf 91#8 (name ++ 91#8 :: p ++ [93#8]) = some name.length := by
    rw [List.append_assoc, List.cons_append]
    exact indexOf_append hn
  have h2 : indexOf 93#8 (name ++ 91#8 :: p ++ [93#8]) = some (name.length + 1 + p.length) := by
    have := indexOf_append (b := 93#8) (s := name ++ 91#8 :: p) (t := []) (by
      intro h
      rcases List.mem_append.mp h with h | h
      · exact hn' h
      · rcases List.mem_cons.mp h with h | h
        · exact absurd h (by decide)
        · exact hp h)
    rw [this]
    congr 1
    simp only [List.length_append, List.length_cons]
    omega
  rw [h1, h2]
  have hl : 0 < p.length := List.length_pos_iff.mpr hne
  dsimp only
  rw [if_pos ⟨by omega, by simp; omega⟩]
  have e1 : (name ++ 91#8 :: p ++ [93#8]).take name.length = name := by
    rw [List.append_assoc, List.take_left']
    rfl
  have e2 : ((name ++ 91#8 :: p ++ [93#8]).drop (name.length + 1)).take (name.length + 1 + p.length - (name.length + 1)) = p := by
    rw [show name ++ 91#8 :: p ++ [93#8] = (name ++ [91#8]) ++ (p ++ [93#8]) by simp, List.drop_left' (by simp),
      List.take_left' (by omega)]
  rw [e1, e2]

theorem isMatch_iff (v n : Str) : isMatch v n = true ↔ v = n ∨ n = [42#8] := by simp [isMatch]

/-- A step with an attribute predicate. -/
theorem matchStep_attr {L : TextLib} {name p : Str} (hn : 91#8 ∉ name) (hn' : 93#8 ∉ name) (hp : 93#8 ∉ p) (t : Tree) :
    matchStep L (name ++ 91#8 :: (64#8 :: p) ++ [93#8]) t = .ok true ↔ (t.name = name ∨ name = [42#8]) ∧ attributeMatch L t p = true := by
  unfold matchStep
  rw [predicate_some hn hn' (fun h => by rcases List.mem_cons.mp h with h | h; exacts [absurd h (by decide), hp h]) (by simp)]
  simp [isMatch_iff]

/-- A step with a child predicate. -/
theorem matchStep_child {L : TextLib} {name p : Str} (hn : 91#8 ∉ name) (hn' : 93#8 ∉ name) (hp : 93#8 ∉ p) (hne : p ≠ []) (hat : p.head? ≠ some 64#8)
    (t : Tree) : matchStep L (name ++ 91#8 :: p ++ [93#8]) t = .ok true ↔ (t.name = name ∨ name = [42#8]) ∧ childValueMatch L t p = true := by
  unfold matchStep
  rw [predicate_some hn hn' hp hne]
  cases p with
  | nil => exact absurd rfl hne
  | cons b p =>
    dsimp only
    rw [if_neg (fun h => hat (by rw [h]; rfl))]
    simp [isMatch_iff]

theorem removeQuotes_quoted {v : Str} (h : v ≠ []) : removeQuotes (39#8 :: v ++ [39#8]) = v := by
  have hl : 0 < v.length := List.length_pos_iff.mpr h
  unfold removeQuotes
  rw [if_pos ⟨rfl, List.getLast?_concat, by simp; omega⟩]
  simp

theorem parts_one {L : TextLib} {a : Str} (ha : 61#8 ∉ a) : parts L a = [L.trim a] := by
  unfold parts
  rw [split_clean_eq ha]
  rfl

theorem parts_two {L : TextLib} {a v : Str} (ha : 61#8 ∉ a) (hv : 61#8 ∉ v) : parts L (a ++ 61#8 :: v) = [L.trim a, L.trim v] := by
  unfold parts
  rw [split_append, split_clean_eq ha, split_clean_eq hv]
  rfl

/-- Quotes are not white space. -/
theorem trim_quoted {L : TextLib} (hL : L.Laws) (v : Str) : L.trim (39#8 :: v ++ [39#8]) = 39#8 :: v ++ [39#8] :=
  hL.trim_ends 39#8 v 39#8 (by decide) (by decide) (by decide) (by decide)

/-- The bytes with a meaning in paths. -/
def Plain (s : Str) : Prop := 47#8 ∉ s ∧ 61#8 ∉ s ∧ 91#8 ∉ s ∧ 93#8 ∉ s

/-- `'v'` -/
def quoted (v : Str) : Str := 39#8 :: v ++ [39#8]

theorem quoted_mem {v : Str} {b : Byte} (h : b ∉ v) (hb : b ≠ 39#8) : b ∉ quoted v := by
  unfold quoted
  simp [h, hb]

/-- The step `name[@attr='v']`. -/
def attrStep (name a v : Str) : Str := name ++ 91#8 :: (64#8 :: (a ++ 61#8 :: quoted v)) ++ [93#8]

/-- The step `name[@attr]`. -/
def attrOnly (name a : Str) : Str := name ++ 91#8 :: (64#8 :: a) ++ [93#8]

/-- The step `name[child='v']`. -/
def childStep (name c v : Str) : Str := name ++ 91#8 :: (c ++ 61#8 :: quoted v) ++ [93#8]

/-- The step `name[child]`. -/
def childOnly (name c : Str) : Str := name ++ 91#8 :: c ++ [93#8]

/-- What a path of one step selects among the children of a node. -/
theorem select_step {L : TextLib} (n : Node) {e : Str} (h : 47#8 ∉ e) (ht : Total e) :
    ∃ rs, n.select L e = .ok rs ∧ InOrder rs ∧ ∀ m, m ∈ rs ↔ m ∈ n.children ∧ matchStep L e m.tree = .ok true := by
  obtain ⟨rs, hr⟩ := C59_no_panic_partial L n e (by rw [split_clean_eq h]; simpa using ht)
  obtain ⟨h1, h2⟩ := select_eq hr
  refine ⟨rs, hr, h1, fun m => ?_⟩
  rw [h2, split_clean_eq h]
  constructor
  · rintro ⟨c, hc, hm, rfl⟩
    exact ⟨hc, hm⟩
  · rintro ⟨hc, hm⟩
    exact ⟨m, hc, hm, rfl⟩

theorem step_no_slash {name p : Str} (hn : 47#8 ∉ name) (hp : 47#8 ∉ p) : 47#8 ∉ name ++ 91#8 :: p ++ [93#8] := by
  simp [hn, hp]

theorem total_of {name p : Str} (hn : 91#8 ∉ name) (hn' : 93#8 ∉ name) (hp : 93#8 ∉ p) (hne : p ≠ []) : Total (name ++ 91#8 :: p ++ [93#8]) := by
  intro m h
  rw [predicate_some hn hn' hp hne] at h
  injection h with h
  injection h with _ h
  exact hne h

/-- C68: `name[@attr='v']` selects, in document order, exactly the children with the name whose attribute has the value, for values
that are not empty and contain no character with a meaning in paths. -/
theorem C68_attribute_partial (L : TextLib) (hL : L.Laws) (n : Node) (name a v : Str) (hn : Plain name) (ha : Plain a) (hv : Plain v)
    (hat : L.trim a = a) (hstar : a ≠ [42#8]) (hne : v ≠ []) :
    ∃ rs, n.select L (attrStep name a v) = .ok rs ∧ InOrder rs ∧
      ∀ m, m ∈ rs ↔ m ∈ n.children ∧ (m.tree.name = name ∨ name = [42#8]) ∧ attrOf m.tree a = some v := by
  have hp : ∀ b, b ∉ a → b ≠ 61#8 → b ∉ quoted v → b ∉ a ++ 61#8 :: quoted v := by
    intro b h1 h2 h3 h
    rcases List.mem_append.mp h with h | h
    · exact h1 h
    · rcases List.mem_cons.mp h with h | h
      · exact h2 h
      · exact h3 h
  have h93 := hp 93#8 ha.2.2.2 (by decide) (quoted_mem hv.2.2.2 (by decide))
  have h47 := hp 47#8 ha.1 (by decide) (quoted_mem hv.1 (by decide))
  obtain ⟨rs, h1, h2, h3⟩ := select_step (L := L) n (e := attrStep name a v)
    (step_no_slash hn.1 (fun h => by rcases List.mem_cons.mp h with h | h; exacts [absurd h (by decide), h47 h]))
    (total_of hn.2.2.1 hn.2.2.2 (fun h => by rcases List.mem_cons.mp h with h | h; exacts [absurd h (by decide), h93 h]) (by simp))
  refine ⟨rs, h1, h2, fun m => ?_⟩
  rw [h3]
  have hm := matchStep_attr (L := L) hn.2.2.1 hn.2.2.2 h93 m.tree
  have : attributeMatch L m.tree (a ++ 61#8 :: quoted v) = true ↔ attrOf m.tree a = some v := by
    unfold attributeMatch
    rw [parts_two ha.2.1 (quoted_mem hv.2.1 (by decide)), hat, show L.trim (quoted v) = quoted v from trim_quoted hL v]
    dsimp only
    rw [if_neg hstar, show removeQuotes (quoted v) = v from removeQuotes_quoted hne]
    cases attrOf m.tree a <;> simp
  unfold attrStep
  rw [hm, this]

/-- C68: `name[@attr]` selects the children with the name that have the attribute. -/
theorem C68_has_attribute (L : TextLib) (n : Node) (name a : Str) (hn : Plain name) (ha : Plain a) (hat : L.trim a = a) (hstar : a ≠ [42#8]) :
    ∃ rs, n.select L (attrOnly name a) = .ok rs ∧ InOrder rs ∧
      ∀ m, m ∈ rs ↔ m ∈ n.children ∧ (m.tree.name = name ∨ name = [42#8]) ∧ (attrOf m.tree a).isSome := by
  obtain ⟨rs, h1, h2, h3⟩ := select_step (L := L) n (e := attrOnly name a)
    (step_no_slash hn.1 (fun h => by rcases List.mem_cons.mp h with h | h; exacts [absurd h (by decide), ha.1 h]))
    (total_of hn.2.2.1 hn.2.2.2 (fun h => by rcases List.mem_cons.mp h with h | h; exacts [absurd h (by decide), ha.2.2.2 h]) (by simp))
  refine ⟨rs, h1, h2, fun m => ?_⟩
  rw [h3]
  have hm := matchStep_attr (L := L) hn.2.2.1 hn.2.2.2 ha.2.2.2 m.tree
  have : attributeMatch L m.tree a = true ↔ (attrOf m.tree a).isSome := by
    unfold attributeMatch
    rw [parts_one ha.2.1, hat]
    dsimp only
    rw [if_neg hstar]
    cases attrOf m.tree a <;> simp
  unfold attrOnly
  rw [hm, this]

/-- C68: `name[child='v']` selects the children with the name that have a child element of that name (or any, for "*") whose content is
the value. -/
theorem C68_child_partial (L : TextLib) (hL : L.Laws) (n : Node) (name c v : Str) (hn : Plain name) (hc : Plain c) (hv : Plain v)
    (hct : L.trim c = c) (hat : c.head? ≠ some 64#8) (hcn : c ≠ []) (hne : v ≠ []) :
    ∃ rs, n.select L (childStep name c v) = .ok rs ∧ InOrder rs ∧
      ∀ m, m ∈ rs ↔ m ∈ n.children ∧ (m.tree.name = name ∨ name = [42#8]) ∧ ∃ d ∈ m.tree.children, (d.name = c ∨ c = [42#8]) ∧ d.inner = v := by
  have hp : ∀ b, b ∉ c → b ≠ 61#8 → b ∉ quoted v → b ∉ c ++ 61#8 :: quoted v := by
    intro b h1 h2 h3 h
    rcases List.mem_append.mp h with h | h
    · exact h1 h
    · rcases List.mem_cons.mp h with h | h
      · exact h2 h
      · exact h3 h
  have h93 := hp 93#8 hc.2.2.2 (by decide) (quoted_mem hv.2.2.2 (by decide))
  have h47 := hp 47#8 hc.1 (by decide) (quoted_mem hv.1 (by decide))
  have hpn : c ++ 61#8 :: quoted v ≠ [] := by simp
  obtain ⟨rs, h1, h2, h3⟩ := select_step (L := L) n (e := childStep name c v) (step_no_slash hn.1 h47) (total_of hn.2.2.1 hn.2.2.2 h93 hpn)
  refine ⟨rs, h1, h2, fun m => ?_⟩
  rw [h3]
  have hhead : (c ++ 61#8 :: quoted v).head? ≠ some 64#8 := by
    cases c with
    | nil => exact absurd rfl hcn
    | cons b c => exact hat
  have hm := matchStep_child (L := L) hn.2.2.1 hn.2.2.2 h93 hpn hhead m.tree
  have : childValueMatch L m.tree (c ++ 61#8 :: quoted v) = true ↔ ∃ d ∈ m.tree.children, (d.name = c ∨ c = [42#8]) ∧ d.inner = v := by
    unfold childValueMatch
    rw [List.any_eq_true]
    refine exists_congr fun d => and_congr_right fun _ => ?_
    unfold valueMatch
    rw [parts_two hc.2.1 (quoted_mem hv.2.1 (by decide)), hct, show L.trim (quoted v) = quoted v from trim_quoted hL v]
    dsimp only
    rw [show removeQuotes (quoted v) = v from removeQuotes_quoted hne]
    by_cases h : c = d.name ∨ c = [42#8]
    · rw [if_pos h]
      have h' : d.name = c ∨ c = [42#8] := h.imp Eq.symm id
      simp [h']
    · rw [if_neg h]
      have h' : ¬ (d.name = c ∨ c = [42#8]) := fun x => h (x.imp Eq.symm id)
      simp [h']
  unfold childStep
  rw [hm, this]

/-- C68: `name[child]` selects the children with the name that have such a child element. -/
theorem C68_has_child (L : TextLib) (n : Node) (name c : Str) (hn : Plain name) (hc : Plain c) (hct : L.trim c = c)
    (hat : c.head? ≠ some 64#8) (hcn : c ≠ []) :
    ∃ rs, n.select L (childOnly name c) = .ok rs ∧ InOrder rs ∧
      ∀ m, m ∈ rs ↔ m ∈ n.children ∧ (m.tree.name = name ∨ name = [42#8]) ∧ ∃ d ∈ m.tree.children, d.name = c ∨ c = [42#8] := by
  obtain ⟨rs, h1, h2, h3⟩ := select_step (L := L) n (e := childOnly name c) (step_no_slash hn.1 hc.1) (total_of hn.2.2.1 hn.2.2.2 hc.2.2.2 hcn)
  refine ⟨rs, h1, h2, fun m => ?_⟩
  rw [h3]
  have hm := matchStep_child (L := L) hn.2.2.1 hn.2.2.2 hc.2.2.2 hcn hat m.tree
  have : childValueMatch L m.tree c = true ↔ ∃ d ∈ m.tree.children, d.name = c ∨ c = [42#8] := by
    unfold childValueMatch
    rw [List.any_eq_true]
    refine exists_congr fun d => and_congr_right fun _ => ?_
    unfold valueMatch
    rw [parts_one hc.2.1, hct]
    dsimp only
    by_cases h : c = d.name ∨ c = [42#8]
    · rw [if_pos h]
      have h' : d.name = c ∨ c = [42#8] := h.imp Eq.symm id
      simp [h']
    · rw [if_neg h]
      have h' : ¬ (d.name = c ∨ c = [42#8]) := fun x => h (x.imp Eq.symm id)
      simp [h']
  unfold childOnly
  rw [hm, this]

/-! ### What is false of the code -/

/-- C68: a value with an equals sign is ignored: every child with the attribute is selected. -/
theorem C68_equals_false (L : TextLib) (n : Node) (name a x y : Str) (hn : Plain name) (ha : Plain a) (hx : Plain x) (hy : Plain y)
    (hat : L.trim a = a) (hstar : a ≠ [42#8]) :
    ∃ rs, n.select L (attrStep name a (x ++ 61#8 :: y)) = .ok rs ∧
      ∀ m, m ∈ rs ↔ m ∈ n.children ∧ (m.tree.name = name ∨ name = [42#8]) ∧ (attrOf m.tree a).isSome := by
  have hmem : ∀ b, b ∉ a → b ∉ x → b ∉ y → b ≠ 61#8 → b ≠ 39#8 → b ∉ a ++ 61#8 :: quoted (x ++ 61#8 :: y) := by
    intro b h1 h2 h3 h4 h5
    unfold quoted
    simp [h1, h2, h3, h4, h5]
  have h93 := hmem 93#8 ha.2.2.2 hx.2.2.2 hy.2.2.2 (by decide) (by decide)
  have h47 := hmem 47#8 ha.1 hx.1 hy.1 (by decide) (by decide)
  obtain ⟨rs, h1, h2, h3⟩ := select_step (L := L) n (e := attrStep name a (x ++ 61#8 :: y))
    (step_no_slash hn.1 (fun h => by rcases List.mem_cons.mp h with h | h; exacts [absurd h (by decide), h47 h]))
    (total_of hn.2.2.1 hn.2.2.2 (fun h => by rcases List.mem_cons.mp h with h | h; exacts [absurd h (by decide), h93 h]) (by simp))
  refine ⟨rs, h1, fun m => ?_⟩
  rw [h3]
  have hm := matchStep_attr (L := L) hn.2.2.1 hn.2.2.2 h93 m.tree
  have hq : quoted (x ++ 61#8 :: y) = (39#8 :: x) ++ 61#8 :: (y ++ [39#8]) := by simp [quoted]
  have h39 : 61#8 ∉ 39#8 :: x := by simp [hx.2.1]
  have h39' : 61#8 ∉ y ++ [39#8] := by simp [hy.2.1]
  have : attributeMatch L m.tree (a ++ 61#8 :: quoted (x ++ 61#8 :: y)) = true ↔ (attrOf m.tree a).isSome := by
    unfold attributeMatch parts
    rw [split_append, split_clean_eq ha.2.1, hq, split_append, split_clean_eq h39, split_clean_eq h39']
    simp only [List.singleton_append, List.map_cons, List.map_nil, hat]
    rw [if_neg hstar]
    cases attrOf m.tree a <;> simp
  unfold attrStep
  rw [hm, this]

/-- C68: the empty value is not found: the quotes are compared, too. -/
theorem C68_empty_false (L : TextLib) (hL : L.Laws) (n : Node) (name a : Str) (hn : Plain name) (ha : Plain a)
    (hat : L.trim a = a) (hstar : a ≠ [42#8]) :
    ∃ rs, n.select L (attrStep name a []) = .ok rs ∧ ∀ m ∈ rs, attrOf m.tree a = some [39#8, 39#8] := by
  have hmem : ∀ b, b ∉ a → b ≠ 61#8 → b ≠ 39#8 → b ∉ a ++ 61#8 :: quoted [] := by
    intro b h1 h4 h5
    unfold quoted
    simp [h1, h4, h5]
  have h93 := hmem 93#8 ha.2.2.2 (by decide) (by decide)
  have h47 := hmem 47#8 ha.1 (by decide) (by decide)
  obtain ⟨rs, h1, h2, h3⟩ := select_step (L := L) n (e := attrStep name a [])
    (step_no_slash hn.1 (fun h => by rcases List.mem_cons.mp h with h | h; exacts [absurd h (by decide), h47 h]))
    (total_of hn.2.2.1 hn.2.2.2 (fun h => by rcases List.mem_cons.mp h with h | h; exacts [absurd h (by decide), h93 h]) (by simp))
  refine ⟨rs, h1, fun m hm => ?_⟩
  have hm := ((matchStep_attr (L := L) hn.2.2.1 hn.2.2.2 h93 m.tree).mp ((h3 m).mp hm).2).2
  unfold attributeMatch at hm
  rw [parts_two ha.2.1 (by decide), hat, show L.trim (quoted []) = quoted [] from trim_quoted hL []] at hm
  dsimp only at hm
  rw [if_neg hstar] at hm
  cases hx : attrOf m.tree a with
  | none => rw [hx] at hm; cases hm
  | some x =>
    rw [hx] at hm
    have : x = removeQuotes (quoted []) := by simpa using hm
    rw [this]
    rfl

/-- C68: `name[@*]` also selects elements without any attribute. -/
theorem C68_any_attribute_false (L : TextLib) (hL : L.Laws) (n : Node) :
    ∃ rs, n.select L (lit "*[@*]") = .ok rs ∧ ∀ m ∈ n.children, m ∈ rs := by
  obtain ⟨rs, h1, h2, h3⟩ := select_step (L := L) n (e := lit "*[@*]") (by decide) (by
    intro m h
    have : predicate? (lit "*[@*]") = some (lit "*", lit "@*") := by decide
    rw [this] at h
    injection h with h
    injection h with _ h
    cases h)
  refine ⟨rs, h1, fun m hm => (h3 m).mpr ⟨hm, ?_⟩⟩
  have hm := matchStep_attr (L := L) (name := lit "*") (p := lit "*") (by decide) (by decide) (by decide) m.tree
  refine hm.mpr ⟨.inr (by decide), ?_⟩
  unfold attributeMatch
  rw [parts_one (by decide), hL.trim_ascii _ (by unfold Ascii; decide), show trimAscii (lit "*") = [42#8] by decide]
  rfl

/-! ### Concrete cases -/

/-- `<r><d id="7" k=""><v>x</v></d><d id="8" k="1"/><e/></r>` -/
def sample2 : Tree := .node (lit "r") [] [] [] [
  .node (lit "d") [] [(lit "id", [], lit "7"), (lit "k", [], [])] (lit "<v>x</v>") [.node (lit "v") [] [] (lit "x") []],
  .node (lit "d") [] [(lit "id", [], lit "8"), (lit "k", [], lit "1")] [] [], .node (lit "e") [] [] [] []]

instance (s : Str) : Decidable (Plain s) := by unfold Plain; infer_instance

example : ∃ rs, (Node.mk [] sample2).select TextLib.ascii (lit "d[@id='8']") = .ok rs ∧ ∀ m, m ∈ rs ↔ m ∈ (Node.mk [] sample2).children ∧
    (m.tree.name = lit "d" ∨ lit "d" = [42#8]) ∧ attrOf m.tree (lit "id") = some (lit "8") := by
  obtain ⟨rs, h1, -, h2⟩ := C68_attribute_partial TextLib.ascii TextLib.ascii_laws ⟨[], sample2⟩ (lit "d") (lit "id") (lit "8") (by decide)
    (by decide) (by decide) (by decide) (by decide) (by decide)
  exact ⟨rs, h1, h2⟩

example : (Node.mk [] sample2).select TextLib.ascii (lit "d[v='x']") = .ok ((Node.mk [] sample2).children.take 1) := rfl

example : ∃ rs, (Node.mk [] sample2).select TextLib.ascii (lit "d[v='x']") = .ok rs ∧ ∀ m, m ∈ rs ↔ m ∈ (Node.mk [] sample2).children ∧
    (m.tree.name = lit "d" ∨ lit "d" = [42#8]) ∧ ∃ d ∈ m.tree.children, (d.name = lit "v" ∨ lit "v" = [42#8]) ∧ d.inner = lit "x" := by
  obtain ⟨rs, h1, -, h2⟩ := C68_child_partial TextLib.ascii TextLib.ascii_laws ⟨[], sample2⟩ (lit "d") (lit "v") (lit "x") (by decide)
    (by decide) (by decide) (by decide) (by decide) (by decide) (by decide)
  exact ⟨rs, h1, h2⟩

/-- `C68_equals_false`: both d are selected though neither has the value. -/
example : (Node.mk [] sample2).select TextLib.ascii (attrStep (lit "d") (lit "id") (lit "x" ++ 61#8 :: lit "y")) =
    .ok ((Node.mk [] sample2).children.take 2) := rfl

/-- `C68_empty_false`: the first d has the empty value and is not selected. -/
example : (Node.mk [] sample2).select TextLib.ascii (attrStep (lit "d") (lit "k") []) = .ok [] := rfl

/-- `C68_has_attribute`, `C68_has_child`. -/
example : (Node.mk [] sample2).select TextLib.ascii (attrOnly (lit "d") (lit "k")) = .ok ((Node.mk [] sample2).children.take 2) ∧
    (Node.mk [] sample2).select TextLib.ascii (childOnly (lit "d") (lit "v")) = .ok ((Node.mk [] sample2).children.take 1) := ⟨rfl, rfl⟩

/-- `C68_any_attribute_false`: e has no attribute. -/
example : (Node.mk [] sample2).select TextLib.ascii (lit "*[@*]") = .ok (Node.mk [] sample2).children := rfl

end Verif.Xml
