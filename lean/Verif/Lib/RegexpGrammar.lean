import Verif.Lib.RegexpNotation

/-!
# C140: which patterns are regular expressions

The grammar of patterns, and that the parser accepts exactly what it describes and makes of it what it describes: groups bind closest, then repetition, then
sequence, then alternatives.
-/

namespace Verif.Regexp

open Verif.Expr

variable {R : Lib.Rest}

/-- The levels of the grammar. -/
inductive Level where
  | piece
  | item
  | branch
  | whole

/-- The grammar over the parts of a pattern: what a list of parts stands for. -/
inductive Stands : Level → List Tok → Rx → Prop
  | atom (r : Rx) : Stands .piece [.atom r] r
  | group {ks : List Tok} {r : Rx} (h : Stands .whole ks r) : Stands .piece (.lparen :: (ks ++ [.rparen])) r
  | once {ks : List Tok} {r : Rx} (h : Stands .piece ks r) : Stands .item ks r
  | star {ks : List Tok} {r : Rx} (g : Bool) (h : Stands .piece ks r) : Stands .item (ks ++ [.rep 42 g]) (.star g r)
  | plus {ks : List Tok} {r : Rx} (g : Bool) (h : Stands .piece ks r) : Stands .item (ks ++ [.rep 43 g]) (.plus g r)
  | opt {ks : List Tok} {r : Rx} (g : Bool) (h : Stands .piece ks r) : Stands .item (ks ++ [.rep 63 g]) (.opt g r)
  | nothing : Stands .branch [] .eps
  | then_ {ks ks' : List Tok} {r r' : Rx} (h : Stands .item ks r) (h' : Stands .branch ks' r') : Stands .branch (ks ++ ks') (.cat r r')
  | one {ks : List Tok} {r : Rx} (h : Stands .branch ks r) : Stands .whole ks r
  | or_ {ks ks' : List Tok} {r r' : Rx} (h : Stands .branch ks r) (h' : Stands .whole ks' r') : Stands .whole (ks ++ .bar :: ks') (.alt r r')

/-! ## What the grammar describes is accepted -/

/-- What the parser does with a list of parts of each level. -/
def Runs : Level → List Tok → Rx → Prop
  | .piece, ks, r => ∀ rest outer alts items b, build (ks ++ rest) outer ⟨alts, items⟩ b = build rest outer ⟨alts, r :: items⟩ false
  | .item, ks, r => ∃ c, ∀ rest outer alts items b, build (ks ++ rest) outer ⟨alts, items⟩ b = build rest outer ⟨alts, r :: items⟩ c
  | .branch, ks, r => ∃ (l : List Rx) (c : Bool → Bool), concat l = r ∧
      ∀ rest outer alts items b, build (ks ++ rest) outer ⟨alts, items⟩ b = build rest outer ⟨alts, l ++ items⟩ (c b)
  | .whole, ks, r => ∃ (as l : List Rx) (c : Bool → Bool), alternate ⟨as, l⟩ = r ∧
      ∀ rest outer alts b, build (ks ++ rest) outer ⟨alts, []⟩ b = build rest outer ⟨as ++ alts, l⟩ (c b)

theorem runs_rep {ks : List Tok} {r : Rx} (k : Nat) (g : Bool) (h : Runs .piece ks r) : Runs .item (ks ++ [.rep k g]) (repeatOf k g r) := by
  refine ⟨true, fun rest outer alts items b => ?_⟩
  rw [List.append_assoc, h]
  rfl

theorem runs_of {lv : Level} {ks : List Tok} {r : Rx} (h : Stands lv ks r) : Runs lv ks r := by
  induction h with
  | atom r => intro rest outer alts items b; rfl
  | @group ks r _ ih =>
    obtain ⟨as, l, c, ha, hb⟩ := ih
    intro rest outer alts items b
    have := hb (.rparen :: rest) (⟨alts, items⟩ :: outer) [] false
    rw [List.append_nil] at this
    show build ((ks ++ [.rparen]) ++ rest) (⟨alts, items⟩ :: outer) ⟨[], []⟩ false = _
    rw [List.append_assoc, List.singleton_append, this, ← ha]
    rfl
  | once _ ih => exact ⟨false, ih⟩
  | star g _ ih => exact runs_rep 42 g ih
  | plus g _ ih => exact runs_rep 43 g ih
  | opt g _ ih => exact runs_rep 63 g ih
  | nothing => exact ⟨[], id, rfl, fun _ _ _ _ _ => rfl⟩
  | @then_ ks ks' r r' _ _ ih ih' =>
    obtain ⟨c, hc⟩ := ih
    obtain ⟨l, c', hl, hc'⟩ := ih'
    refine ⟨l ++ [r], fun _ => c' c, ?_, fun rest outer alts items b => ?_⟩
    · rw [concat, List.foldl_append, ← hl]
      rfl
    · rw [List.append_assoc, hc, hc', List.append_assoc]
      rfl
  | one _ ih =>
    obtain ⟨l, c, hl, hc⟩ := ih
    refine ⟨[], l, c, ?_, fun rest outer alts b => ?_⟩
    · rw [← hl]; rfl
    · rw [hc, List.append_nil]; rfl
  | @or_ ks ks' r r' _ _ ih ih' =>
    obtain ⟨l, c, hl, hc⟩ := ih
    obtain ⟨as, l', c', ha, hc'⟩ := ih'
    refine ⟨as ++ [r], l', fun _ => c' false, ?_, fun rest outer alts b => ?_⟩
    · rw [← ha]
      simp only [alternate, List.foldl_append]
      rfl
    · rw [List.append_assoc, hc, List.append_nil, List.append_assoc]
      show build (ks' ++ rest) outer ⟨concat l :: alts, []⟩ false = _
      rw [hc', hl]
      rfl

/-! ## Nothing else is accepted -/

/-- The parts of the present alternative that have been read, what they have come to, and whether the last one is a repetition. -/
inductive Items : List Tok → List Rx → Bool → Prop
  | nil (b : Bool) : Items [] [] b
  | piece {pre ks : List Tok} {l : List Rx} {b : Bool} {r : Rx} (h : Items pre l b) (hp : Stands .piece ks r) : Items (pre ++ ks) (r :: l) false
  | item {pre ks : List Tok} {l : List Rx} {b : Bool} {r : Rx} (h : Items pre l b) (hi : Stands .item ks r) : Items (pre ++ ks) (r :: l) true

/-- The parts of the present group that have been read. -/
inductive Read' : List Tok → Frame → Bool → Prop
  | first {pre : List Tok} {l : List Rx} {b : Bool} (h : Items pre l b) : Read' pre ⟨[], l⟩ b
  | more {pre ks : List Tok} {f : Frame} {l : List Rx} {b c : Bool} (h : Read' pre f b) (hi : Items ks l c) :
      Read' (pre ++ .bar :: ks) ⟨concat f.items :: f.alts, l⟩ c

/-- The parts before the present group that have been read. -/
inductive Outer : List Tok → List Frame → Prop
  | nil : Outer [] []
  | cons {p pre : List Tok} {fs : List Frame} {f : Frame} {b : Bool} (h : Outer p fs) (hf : Read' pre f b) : Outer (p ++ pre ++ [.lparen]) (f :: fs)

theorem Items.branch {pre : List Tok} {l : List Rx} {b : Bool} (h : Items pre l b) : ∀ {ks : List Tok} {r : Rx}, Stands .branch ks r →
    Stands .branch (pre ++ ks) (l.foldl (fun r x => .cat x r) r) := by
  induction h with
  | nil => intro ks r h; exact h
  | piece _ hp ih => intro ks r h; rw [List.append_assoc]; exact ih (.then_ (.once hp) h)
  | item _ hi ih => intro ks r h; rw [List.append_assoc]; exact ih (.then_ hi h)

theorem Items.stands {pre : List Tok} {l : List Rx} {b : Bool} (h : Items pre l b) : Stands .branch pre (concat l) := by
  have := h.branch .nothing
  rwa [List.append_nil] at this

theorem Read'.whole {pre : List Tok} {f : Frame} {b : Bool} (h : Read' pre f b) :
    (∀ {ks : List Tok} {r : Rx}, Stands .whole ks r → Stands .whole (pre ++ .bar :: ks) (f.alts.foldl (fun r x => .alt x r) (.alt (concat f.items) r))) ∧
    Stands .whole pre (alternate f) := by
  induction h with
  | first h => exact ⟨fun hr => .or_ h.stands hr, .one h.stands⟩
  | more _ hi ih =>
    refine ⟨fun hr => ?_, ih.1 (.one hi.stands)⟩
    have := ih.1 (.or_ hi.stands hr)
    rwa [List.append_assoc, List.cons_append]

theorem Read'.piece {pre ks : List Tok} {f : Frame} {b : Bool} {r : Rx} (h : Read' pre f b) (hp : Stands .piece ks r) :
    Read' (pre ++ ks) { f with items := r :: f.items } false := by
  cases h with
  | first h => exact .first (.piece h hp)
  | more h hi =>
    rw [List.append_assoc, List.cons_append]
    exact .more h (.piece hi hp)

theorem Items.rep {pre : List Tok} {l : List Rx} {r : Rx} (h : Items pre (r :: l) false) {k : Nat} (hk : k = 42 ∨ k = 43 ∨ k = 63) (g : Bool) :
    Items (pre ++ [.rep k g]) (repeatOf k g r :: l) true := by
  cases h with
  | piece h hp =>
    rw [List.append_assoc]
    refine .item h ?_
    rcases hk with rfl | rfl | rfl
    · exact .star g hp
    · exact .plus g hp
    · exact .opt g hp

theorem Read'.rep {pre : List Tok} {as l : List Rx} {r : Rx} (h : Read' pre ⟨as, r :: l⟩ false) {k : Nat} (hk : k = 42 ∨ k = 43 ∨ k = 63) (g : Bool) :
    Read' (pre ++ [.rep k g]) ⟨as, repeatOf k g r :: l⟩ true := by
  cases h with
  | first h => exact .first (h.rep hk g)
  | more h hi =>
    rw [List.append_assoc, List.cons_append]
    exact .more h (hi.rep hk g)

theorem stands_of : ∀ (ks : List Tok) (p pre : List Tok) (outer : List Frame) (f : Frame) (b : Bool) (r : Rx),
    (∀ k g, Tok.rep k g ∈ ks → k = 42 ∨ k = 43 ∨ k = 63) → Outer p outer → Read' pre f b → build ks outer f b = some r → Stands .whole (p ++ pre ++ ks) r
  | [], p, pre, outer, f, b, r, _, ho, hf, h => by
    cases ho with
    | nil =>
      cases h
      rw [List.nil_append, List.append_nil]
      exact hf.whole.2
    | cons _ _ => simp [build] at h
  | .atom x :: ks, p, pre, outer, f, b, r, hk, ho, hf, h => by
    have h : build ks outer { f with items := x :: f.items } false = some r := h
    have := stands_of ks p (pre ++ [.atom x]) outer _ false r (fun k g hm => hk k g (List.mem_cons_of_mem _ hm)) ho (hf.piece (.atom x)) h
    simpa using this
  | .lparen :: ks, p, pre, outer, f, b, r, hk, ho, hf, h => by
    have h : build ks (f :: outer) ⟨[], []⟩ false = some r := h
    have := stands_of ks (p ++ pre ++ [.lparen]) [] (f :: outer) _ false r (fun k g hm => hk k g (List.mem_cons_of_mem _ hm)) (.cons ho hf) (.first (.nil false)) h
    simpa using this
  | .rparen :: ks, p, pre, outer, f, b, r, hk, ho, hf, h => by
    cases ho with
    | nil => simp [build] at h
    | @cons p' pre' outer g b' ho' hg =>
      have h : build ks outer { g with items := alternate f :: g.items } false = some r := h
      have := stands_of ks p' (pre' ++ .lparen :: (pre ++ [.rparen])) outer _ false r (fun k g hm => hk k g (List.mem_cons_of_mem _ hm)) ho'
        (hg.piece (.group hf.whole.2)) h
      simpa using this
  | .bar :: ks, p, pre, outer, f, b, r, hk, ho, hf, h => by
    have h : build ks outer ⟨concat f.items :: f.alts, []⟩ false = some r := h
    have := stands_of ks p (pre ++ .bar :: []) outer _ false r (fun k g hm => hk k g (List.mem_cons_of_mem _ hm)) ho (.more hf (.nil false)) h
    simpa using this
  | .rep k g :: ks, p, pre, outer, ⟨as, items⟩, b, r, hk, ho, hf, h => by
    match b, items with
    | true, _ => simp [build] at h
    | false, [] => simp [build] at h
    | false, x :: l =>
      have h : build ks outer ⟨as, repeatOf k g x :: l⟩ true = some r := h
      have := stands_of ks p (pre ++ [.rep k g]) outer _ true r (fun k g hm => hk k g (List.mem_cons_of_mem _ hm)) ho
        (hf.rep (hk k g List.mem_cons_self) g) h
      simpa using this

/-- The parser accepts exactly what the grammar describes, and makes of it what the grammar describes. -/
theorem build_iff {ks : List Tok} (hk : ∀ k g, Tok.rep k g ∈ ks → k = 42 ∨ k = 43 ∨ k = 63) (r : Rx) :
    build ks [] ⟨[], []⟩ false = some r ↔ Stands .whole ks r := by
  constructor
  · intro h
    have := stands_of ks [] [] [] ⟨[], []⟩ false r hk .nil (.first (.nil false)) h
    simpa using this
  · intro h
    obtain ⟨as, l, c, ha, hc⟩ := runs_of h
    have := hc [] [] [] false
    rw [List.append_nil, List.append_nil] at this
    rw [this, ← ha]
    rfl

/-! ## Patterns -/

/-- The characters of a pattern and its parts: the signs, parentheses, bars and repetitions. -/
inductive Lexed : List Nat → List Tok → Prop
  | nil : Lexed [] []
  | sign {w s : List Nat} {r : Rx} {ks : List Tok} (h : Sign w r) (hs : Lexed s ks) : Lexed (w ++ s) (.atom r :: ks)
  | lparen {s : List Nat} {ks : List Tok} (hs : Lexed s ks) (h : s.head? ≠ some 63) : Lexed (40 :: s) (.lparen :: ks)
  | rparen {s : List Nat} {ks : List Tok} (hs : Lexed s ks) : Lexed (41 :: s) (.rparen :: ks)
  | bar {s : List Nat} {ks : List Tok} (hs : Lexed s ks) : Lexed (124 :: s) (.bar :: ks)
  | rep {k : Nat} (hk : k = 42 ∨ k = 43 ∨ k = 63) {s : List Nat} {ks : List Tok} (hs : Lexed s ks) (h : s.head? ≠ some 63) : Lexed (k :: s) (.rep k true :: ks)
  | repFew {k : Nat} (hk : k = 42 ∨ k = 43 ∨ k = 63) {s : List Nat} {ks : List Tok} (hs : Lexed s ks) : Lexed (k :: 63 :: s) (.rep k false :: ks)

theorem Lexed.toks {s : List Nat} {ks : List Tok} (h : Lexed s ks) : Toks s ks := by
  induction h with
  | nil => exact toks_nil
  | sign h _ ih => exact toks_sign h ih
  | @lparen s ks _ h ih =>
    refine toks_cons (s' := s) ?_ (Nat.le_refl _) ih
    unfold next
    rw [if_pos rfl, if_neg h]
  | rparen _ ih => exact toks_cons rfl (Nat.le_refl _) ih
  | bar _ ih => exact toks_cons rfl (Nat.le_refl _) ih
  | @rep k hk s ks _ h ih =>
    have hr : repeated k s = (.rep k true, s) := by
      unfold repeated
      split
      · simp at h
      · rfl
    refine toks_cons (s' := s) ?_ (Nat.le_refl _) ih
    rcases hk with rfl | rfl | rfl <;> (rw [← hr]; rfl)
  | @repFew k hk s ks _ ih =>
    refine toks_cons (s' := s) ?_ (by simp) ih
    rcases hk with rfl | rfl | rfl <;> rfl

theorem Lexed.kinds {s : List Nat} {ks : List Tok} (h : Lexed s ks) : ∀ k g, Tok.rep k g ∈ ks → k = 42 ∨ k = 43 ∨ k = 63 := by
  induction h with
  | nil => intro k g h; cases h
  | sign _ _ ih | lparen _ _ ih | rparen _ ih | bar _ ih =>
    intro k g h
    rcases List.mem_cons.1 h with h | h
    · cases h
    · exact ih k g h
  | rep hk _ _ ih | repFew hk _ ih =>
    intro k g h
    rcases List.mem_cons.1 h with h | h
    · cases h; exact hk
    · exact ih k g h

/-- C140, the grammar: a pattern whose parts the grammar describes matches what the grammar says, which is one thing; `RegExMatch` is true exactly of the texts
with a part that it matches. A pattern whose parts it does not describe is an error, for `RegExMatch` and for `RegExVal`. -/
theorem C140_grammar {s : List Nat} {ks : List Tok} (h : Lexed s ks) (hc : ∀ c ∈ s, Utf8.Valid c ∧ c ≠ 0xFFFD) (hl : (Utf8.text s).length ≤ 1000) (t : Str) :
    (∃ r, Stands .whole ks r ∧ (∀ r', Stands .whole ks r' → r' = r) ∧
      ∃ b, fnRegEx (P := Lib.go R.withRegexp) (.string (Utf8.text s)) (.string t) false = .ok (.boolean b) ∧
        (b = true ↔ ∃ i j, Boundary t i ∧ Between t r i j)) ∨
    ((¬ ∃ r, Stands .whole ks r) ∧ ∀ v, fnRegEx (P := Lib.go R.withRegexp) (.string (Utf8.text s)) (.string t) v = .err) := by
  have hp : compile (Utf8.text s) = match build ks [] ⟨[], []⟩ false with
      | some r => .ok r
      | none => .bad := by
    rw [compile_text hc hl]
    unfold parse
    rw [h.toks _ (Nat.le_refl _)]
    dsimp only
    cases build ks [] ⟨[], []⟩ false <;> rfl
  cases hb : build ks [] ⟨[], []⟩ false with
  | none =>
    rw [hb] at hp
    refine .inr ⟨fun ⟨r, hr⟩ => ?_, fun v => C140_refused hp v⟩
    rw [(build_iff h.kinds r).2 hr] at hb
    cases hb
  | some r =>
    rw [hb] at hp
    obtain ⟨b, h1, h2⟩ := C140_match_partial (R := R) (t := t) hp
    refine .inl ⟨r, (build_iff h.kinds r).1 hb, fun r' hr' => ?_, b, h1, ?_⟩
    · have := (build_iff h.kinds r').2 hr'
      rw [hb] at this
      exact (Option.some.inj this).symm
    · rw [h2]

/-- The parentheses of the parts pair up. -/
def depth : List Tok → Int
  | [] => 0
  | .lparen :: ks => depth ks + 1
  | .rparen :: ks => depth ks - 1
  | _ :: ks => depth ks

theorem depth_append (ks ks' : List Tok) : depth (ks ++ ks') = depth ks + depth ks' := by
  induction ks with
  | nil => simp [depth]
  | cons k ks ih =>
    cases k <;> simp only [List.cons_append, depth, ih] <;> omega

theorem stands_depth {lv : Level} {ks : List Tok} {r : Rx} (h : Stands lv ks r) : depth ks = 0 := by
  induction h with
  | atom r => rfl
  | group _ ih => simp only [depth, depth_append]; omega
  | once _ ih => exact ih
  | star _ _ ih | plus _ _ ih | opt _ _ ih => rw [depth_append, ih]; rfl
  | nothing => rfl
  | then_ _ _ ih ih' => rw [depth_append, ih, ih']; rfl
  | one _ ih => exact ih
  | or_ _ _ ih ih' => rw [depth_append, ih]; simp only [depth, ih']; rfl

/-- C140: a pattern with more left parentheses than right ones, or fewer, is an error. -/
theorem C140_parentheses {s : List Nat} {ks : List Tok} (h : Lexed s ks) (hc : ∀ c ∈ s, Utf8.Valid c ∧ c ≠ 0xFFFD) (hl : (Utf8.text s).length ≤ 1000)
    (hd : ks.count .lparen ≠ ks.count .rparen) (t : Str) (v : Bool) :
    fnRegEx (P := Lib.go R.withRegexp) (.string (Utf8.text s)) (.string t) v = .err := by
  rcases C140_grammar (R := R) h hc hl t with ⟨r, hr, _⟩ | ⟨_, h⟩
  · exfalso
    have h0 := stands_depth hr
    have key : ∀ l : List Tok, depth l = (l.count .lparen : Int) - l.count .rparen := by
      intro l
      induction l with
      | nil => rfl
      | cons k l ih =>
        cases k <;> simp [depth, ih] <;> omega
    rw [key] at h0
    omega
  · exact h v

/-- The pattern `(a|b)*?c`. -/
example : ∃ s ks r, Lexed s ks ∧ Stands .whole ks r ∧ Utf8.text s = lit "(a|b)*?c" ∧
    r = .cat (.star false (.alt (.cat (.set false [(97, 97)]) .eps) (.cat (.set false [(98, 98)]) .eps))) (.cat (.set false [(99, 99)]) .eps) := by
  have ha : Stands .whole [.atom (.set false [(97, 97)]), .bar, .atom (.set false [(98, 98)])] _ :=
    .or_ (.then_ (.once (.atom (.set false [(97, 97)]))) .nothing) (.one (.then_ (.once (.atom (.set false [(98, 98)]))) .nothing))
  have hw := Stands.one (.then_ (.star false (.group ha)) (.then_ (.once (.atom (.set false [(99, 99)]))) .nothing))
  refine ⟨_, _, _, .lparen (.sign (.plain (c := 97) (by decide)) (.bar (.sign (.plain (c := 98) (by decide)) (.rparen (.repFew (k := 42) (by decide)
    (.sign (.plain (c := 99) (by decide)) .nil)))))) (by decide), hw, by decide +kernel, rfl⟩

/-- The pattern `a(b` has a parenthesis too many. -/
example : ∃ s ks, Lexed s ks ∧ Utf8.text s = lit "a(b" ∧ ks.count .lparen ≠ ks.count .rparen :=
  ⟨_, _, .sign (.plain (c := 97) (by decide)) (.lparen (.sign (.plain (c := 98) (by decide)) .nil) (by decide)), by decide +kernel, by decide +kernel⟩

end Verif.Regexp
