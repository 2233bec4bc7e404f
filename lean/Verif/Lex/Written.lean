import Verif.Lex.KeyTokens
import Verif.Lex.Spread

/-!
# Every token, and every expression, can be written (data/FilterExpressionSyntax.g4 L26-371)
-/

namespace Verif.Lex

open Verif.Expr Verif.Parse

/-! ## Specification -/

/-- A word that is no keyword, or a name in backticks or brackets. -/
def NameText (w : List Nat) : Prop :=
  (Word w ∧ (∀ x ∈ keys, ¬ SameWord x.1 w) ∧ ¬ SameWord (codes "TRUE") w ∧ ¬ SameWord (codes "FALSE") w) ∨ Enclosed 96 96 w ∨ Enclosed 91 93 w

/-- The texts the tokens with a text can have. -/
def Spelled : Tok → List Nat → Prop
  | .ident _, w => NameText w
  | .integer _, w => Digits w ∨ ∃ x h, w = 48 :: x :: h ∧ (x = 88 ∨ x = 120) ∧ h ≠ [] ∧ ∀ c ∈ h, isHex c = true
  | .numeric _, w => NumberText w ∧ ¬ Digits w
  | .string _, w => ∃ s, w = 39 :: (quoted s ++ [39]) ∧ ¬ GuidText s
  | .datetime _, w => Enclosed 35 35 w
  | .guid _, w => (∃ g, (w = 39 :: (g ++ [39]) ∨ w = 123 :: (g ++ [125])) ∧ GuidText g) ∨ (GuidText w ∧ 2 ≤ w.count 45)
  | .boolean _, w => SameWord (codes "TRUE") w ∨ SameWord (codes "FALSE") w
  | .measurementKey _, w => KeyText w ∧ w.head? ≠ some 35 ∧ ¬ [45, 45] <+: w
  | .pointTag _, w => ∃ a, w = 34 :: (a ++ [34]) ∧ a ≠ [] ∧ ∀ c ∈ a, isAcronym c = true
  | _, _ => False

/-- The text a token carries. -/
def textOf : Tok → Option Str
  | .ident t | .integer t | .numeric t | .string t | .datetime t | .guid t | .boolean t | .measurementKey t | .pointTag t | .unexpected t => some t
  | _ => none

/-- A token with a text has one of its kind, in runes that can be written. -/
def Proper (t : Tok) : Prop := ∀ s, textOf t = some s → ∃ w, s = Utf8.text w ∧ (∀ c ∈ w, Utf8.Valid c) ∧ Spelled t w

/-! ## Tokens -/

theorem stands {k : Kind} {t : List Nat} (h : lex (t ++ []) = (k, t) :: lex []) (known : k ≠ .unexpected)
    (seen : k ≠ .space ∧ k ≠ .lineComment ∧ k ≠ .blockComment) (key : k = .measurementKey → t.head? ≠ some 35 ∧ ¬ [45, 45] <+: t) : Stands k t :=
  ⟨by rw [List.append_nil, lex_nil] at h; exact h, known, seen, key⟩

theorem valid_ascii {t : List Nat} (h : ∀ c ∈ t, c < 128) : ∀ c ∈ t, Utf8.Valid c := fun c hc => .inl (by have := h c hc; omega)

theorem op_writes : ∀ x ∈ ops, Writes x.2 x.1 := by
  intro x hx
  have h1 : ∀ x ∈ ops, lex x.1 = [(.op x.1 x.2, x.1)] ∧ ∀ c ∈ x.1, c < 128 := by decide +kernel
  refine ⟨valid_ascii (h1 x hx).2, _, ⟨(h1 x hx).1, nofun, ⟨nofun, nofun, nofun⟩, nofun⟩, rfl⟩

/-- A keyword may be written in any mixture of cases. -/
theorem key_writes {x : List Nat × Tok} (hx : x ∈ keys) {w : List Nat} (hw : SameWord x.1 w) : Writes x.2 w := by
  refine ⟨valid_ascii fun c hc => ?_, .key x.1 x.2, stands (C81_keyword hx hw (wordEnd (by simp))) nofun ⟨nofun, nofun, nofun⟩ nofun, rfl⟩
  have := hw.letters (keys_capital x hx) c hc
  simp only [isLetter, Bool.or_eq_true, Bool.and_eq_true, decide_eq_true_eq] at this
  omega

theorem keys_sameWord : ∀ x ∈ keys, SameWord x.1 x.1 := by decide +kernel

theorem plain_writes {t : Tok} (h : textOf t = none) : ∃ w, Writes t w := by
  have hop : ∀ {w : List Nat}, (w, t) ∈ ops → ∃ w, Writes t w := fun h => ⟨_, op_writes _ h⟩
  have hkey : ∀ {w : List Nat}, (w, t) ∈ keys → ∃ w, Writes t w := fun h => ⟨_, key_writes h (keys_sameWord _ h)⟩
  have hall : ∀ t : Tok, textOf t = none → (∃ w, (w, t) ∈ ops) ∨ ∃ w, (w, t) ∈ keys := by
    intro t ht
    have hfind : ∀ l : List (List Nat × Tok), (l.map (·.2)).contains t = true → ∃ w, (w, t) ∈ l := by
      intro l hl
      rw [List.contains_iff_mem] at hl
      obtain ⟨x, hx, rfl⟩ := List.mem_map.1 hl
      exact ⟨x.1, hx⟩
    cases t with
    | not b => cases b <;> first | exact .inl (hfind _ (by decide)) | exact .inr (hfind _ (by decide))
    | math o => cases o <;> exact .inl (hfind _ (by decide))
    | bit o => cases o <;> first | exact .inl (hfind _ (by decide)) | exact .inr (hfind _ (by decide))
    | cmp o => cases o <;> exact .inl (hfind _ (by decide))
    | log o => cases o <;> first | exact .inl (hfind _ (by decide)) | exact .inr (hfind _ (by decide))
    | fn f => cases f <;> exact .inr (hfind _ (by decide))
    | _ => first | exact .inl (hfind _ (by decide)) | exact .inr (hfind _ (by decide)) | cases ht
  rcases hall t h with ⟨w, hw⟩ | ⟨w, hw⟩
  · exact hop hw
  · exact hkey hw

/-- Every spelling of a token with a text is read as it. -/
theorem spelled_writes {t : Tok} {w : List Nat} (hv : ∀ c ∈ w, Utf8.Valid c) (ht : textOf t = some (Utf8.text w)) (h : Spelled t w) : Writes t w := by
  refine ⟨hv, ?_⟩
  have hno : ∀ {k : List Nat → Prop} (u : List Nat), u <+: w ++ [] → w.length < u.length → ¬ k u := by
    intro k u hu hl
    have := hu.length_le
    rw [List.append_nil] at this
    omega
  cases t with
  | ident s =>
    obtain rfl : s = Utf8.text w := by simpa [textOf] using ht
    refine ⟨.ident, ?_, rfl⟩
    refine stands ?_ nofun ⟨nofun, nofun, nofun⟩ nofun
    rcases h with ⟨h1, h2, h3, h4⟩ | ⟨s, rfl, h1, h2⟩ | ⟨s, rfl, h1, h2⟩
    · exact C81_identifier_partial h1 h2 h3 h4 (wordEnd (by simp))
    · exact C83_delimited (.inl ⟨rfl, rfl⟩) h1 h2
    · exact C83_delimited (.inr ⟨rfl, rfl⟩) h1 h2
  | integer s =>
    obtain rfl : s = Utf8.text w := by simpa [textOf] using ht
    refine ⟨.integer, ?_, rfl⟩
    refine stands ?_ nofun ⟨nofun, nofun, nofun⟩ nofun
    rcases h with h | ⟨x, z, rfl, hx, hz, hd⟩
    · exact C82_integer h (numberEnd (by simp))
    · exact C82_hex hx hz hd (by simp) fun u hu hl => hno u hu hl
  | numeric s =>
    obtain rfl : s = Utf8.text w := by simpa [textOf] using ht
    exact ⟨.numeric, stands (C82_number h.1 h.2 (numberEnd (by simp))) nofun ⟨nofun, nofun, nofun⟩ nofun, rfl⟩
  | string s =>
    obtain rfl : s = Utf8.text w := by simpa [textOf] using ht
    refine ⟨.string, ?_, rfl⟩
    obtain ⟨u, rfl, hu⟩ := h
    exact stands (C83_string_partial hu (by simp)) nofun ⟨nofun, nofun, nofun⟩ nofun
  | datetime s =>
    obtain rfl : s = Utf8.text w := by simpa [textOf] using ht
    refine ⟨.datetime, ?_, rfl⟩
    obtain ⟨u, rfl, h1, h2⟩ := h
    exact stands (C83_datetime h1 h2 fun u hu hl => hno u hu hl) nofun ⟨nofun, nofun, nofun⟩ nofun
  | guid s =>
    obtain rfl : s = Utf8.text w := by simpa [textOf] using ht
    refine ⟨.guid, ?_, rfl⟩
    refine stands ?_ nofun ⟨nofun, nofun, nofun⟩ nofun
    rcases h with ⟨g, rfl | rfl, hg⟩ | ⟨h1, h2⟩
    · exact C82_guid_quoted hg (by simp)
    · exact C82_guid_braces hg
    · exact C82_guid_dashes_partial h1 h2 fun u hu hl => hno u hu hl
  | boolean s =>
    obtain rfl : s = Utf8.text w := by simpa [textOf] using ht
    exact ⟨.boolean, stands (C81_boolean h (wordEnd (by simp))) nofun ⟨nofun, nofun, nofun⟩ nofun, rfl⟩
  | measurementKey s =>
    obtain rfl : s = Utf8.text w := by simpa [textOf] using ht
    exact ⟨.measurementKey, stands (C83_key h.1 h.2.1 h.2.2 (by simp)) nofun ⟨nofun, nofun, nofun⟩ fun _ => h.2, rfl⟩
  | pointTag s =>
    obtain rfl : s = Utf8.text w := by simpa [textOf] using ht
    refine ⟨.pointTag, ?_, rfl⟩
    obtain ⟨a, rfl, h1, h2⟩ := h
    exact stands (C83_tag h1 h2) nofun ⟨nofun, nofun, nofun⟩ nofun
  | _ => exact h.elim

theorem proper_writes {t : Tok} (h : Proper t) : ∃ w, Writes t w := by
  cases ht : textOf t with
  | none => exact plain_writes ht
  | some s =>
    obtain ⟨w, rfl, hv, hw⟩ := h s ht
    exact ⟨w, spelled_writes hv ht hw⟩

/-- Texts with one blank before each. -/
theorem spread_exists (ts : List (List Nat)) : ∃ s, Spread ts s := by
  have : ∃ s, Spread ts s ∧ ∀ c, s.head? = some c → isBlank c = true := by
    induction ts with
    | nil => exact ⟨[], .none (by simp [Blanks]), by simp⟩
    | cons t ts ih =>
      obtain ⟨s, hs, hn⟩ := ih
      exact ⟨[32] ++ (t ++ s), .some (by simp [Blanks, isBlank]) hs hn, by simp [isBlank]⟩
  obtain ⟨s, hs, -⟩ := this
  exact ⟨s, hs⟩

/-- **Every list of proper tokens can be written.** -/
theorem C86_tokens {toks : List Tok} (h : ∀ t ∈ toks, Proper t) : ∃ s : Str, tokens s = toks := by
  obtain ⟨ts, hts⟩ : ∃ ts, List.Forall₂ Writes toks ts := by
    induction toks with
    | nil => exact ⟨[], .nil⟩
    | cons t toks ih =>
      obtain ⟨w, hw⟩ := proper_writes (h t (by simp))
      obtain ⟨ts, hts⟩ := ih fun t ht => h t (by simp [ht])
      exact ⟨w :: ts, .cons hw hts⟩
  obtain ⟨s, hs⟩ := spread_exists ts
  exact ⟨Utf8.text s, C85_tokens hts hs⟩

/-- **Every expression can be written**: the operators group as the rules want, and its literals and names have texts of their kind. -/
theorem C86_text {e : E} (he : e.WF 0) (h : ∀ t ∈ e.toks, Proper t) : ∃ s : Str, parse (tokens s) = some e := by
  obtain ⟨s, hs⟩ := C86_tokens h
  exact ⟨s, by rw [hs]; exact (C70_parse _ e).2 ⟨he, rfl⟩⟩

end Verif.Lex
