import Verif.Lib.ImageProps
import Verif.Lib.MetadataProps
import Verif.Meta.Summary

/-!
# C125: what is reported of published metadata

The message of `Verif.Meta.Summary` with the libraries of `Verif.Lib`: the version shown and the whole message for a published document.
-/

namespace Verif.Lib

open Verif.Expr
open Verif.Data (TableDef Loaded)
open Verif.Table (Cell DT Row Table Column)
open Verif.Meta (versionLine summary handed Number LineFor)

variable {R : Rest}

theorem positions_loaded {X : Data.XmlLib (go R)} {T : TableDef (go R)} {n : Data.Named (go R)} (h : Loaded X T n) : Table.Positions n.table := by
  intro i c hc
  rw [h.columns, List.getElem?_mapIdx] at hc
  obtain ⟨d, -, rfl⟩ := Option.map_eq_some_iff.mp hc
  rfl

/-- C125: without the table of the version the message says so; without a row in it, it shows none; with one, it shows the value of the
first row as `C110` says. -/
theorem C125_version (cols : Row (go R) → Nat → Res (Val (go R))) (ds : Data.DataSet (go R)) :
    (ds.find (lit "SchemaVersion") = none → versionLine cols ds = .ok (lit "No SchemaVersion table found in metadata")) ∧
    (∀ n, ds.find (lit "SchemaVersion") = some n → n.table.rows = [] → versionLine cols ds = .ok (lit "Metadata schema version: ")) ∧
    (∀ n r c v, ds.find (lit "SchemaVersion") = some n → Table.Positions n.table → n.table.rows[0]? = some (some r) →
      n.table.columnByName (lit "VersionNumber") = some c → r.get (cols r) n.table c.type c.index = .ok (some v) → Ordinary v →
      ∃ s, Shows s v ∧ versionLine cols ds = .ok (lit "Metadata schema version: " ++ s)) := by
  refine ⟨?_, ?_, ?_⟩
  · intro h
    unfold versionLine
    rw [h]
  · intro n h hr
    unfold versionLine
    rw [h]
    dsimp only
    unfold Table.Table.rowTextByName Table.Table.row
    rw [hr, if_pos (by simp)]
    rfl
  · intro n r c v h hp hr hc hv ho
    obtain ⟨s, h1, -, h3⟩ := C110_value_partial hp r (hp.byName hc) hv ho
    refine ⟨s, h1, ?_⟩
    unfold versionLine
    rw [h]
    dsimp only
    have := (C110_by_row cols hr 0 (lit "VersionNumber")).2
    rw [Nat.cast_zero] at this
    rw [this, h3 _ hc]
    rfl

/-- What the message about a published data set ends with. -/
def VersionFor (D : List (TableDef (go R))) (version : Res Str) : Prop :=
  ((∀ V ∈ D, R.upper V.name ≠ R.upper (lit "SchemaVersion")) → version = .ok (lit "No SchemaVersion table found in metadata")) ∧
  ∀ V ∈ D, R.upper V.name = R.upper (lit "SchemaVersion") →
    (V.rows = [] → version = .ok (lit "Metadata schema version: ")) ∧
    ∀ (i : Nat) dt row v, V.cols[i]? = some (lit "VersionNumber", dt, []) → V.rows[0]? = some row → row[i]? = some (some v) → Ordinary v →
      ∃ s, Shows s (Data.asRead v) ∧ version = .ok (lit "Metadata schema version: " ++ s)

theorem ordinary_asRead (v : Cell (go R)) (h : Ordinary v) : Ordinary (Data.asRead v) := by
  cases v <;> exact h

/-- C125: when a published document has been received, the message gives the number of all records, one line for each table with its
number of records, in some order, and the version the document states, the characters of a text as XML escapes them. -/
theorem C125_published (cols : Row (go R) → Nat → Res (Val (go R))) (seconds : BitVec 64) (hf : Format.Finite seconds) (N : Xml.NameLib)
    (parse : List Column → Str → Option (Tree (go R))) (pro px ws name rest : Str) (D : List (TableDef (go R)))
    (hpx : Data.PrefixName N px) (hb : Data.Bindable px) (hpro : Xml.Prolog N pro) (hw : Xml.Blank ws) (hn : Data.Plain N name)
    (hne : name ≠ Data.schemaSpace) (hD : ∀ T ∈ D, Writable T) (hN : ∀ T ∈ D, Named N T) (hd : (D.map fun T => R.upper T.name).Nodup)
    (pre : Xml.Tree → Str) (hp : ∀ t, Data.IsPrefix t (pre t)) (hsum : (D.map fun S => S.rows.length).sum < 2 ^ 63) :
    ∃ ds, handed (Data.parseXml N (xml R parse) pre (pro ++ (Data.document (xml R parse) px ws name D ++ rest)) []) = .ok ds ∧
      ds.length = D.length ∧ VersionFor D (versionLine cols ds) ∧
      ∀ tables version, tables.Perm (ds.map Prod.snd) → versionLine cols ds = .ok version →
        ∃ total secs D' lines, Number (D.map fun S => S.rows.length).sum total ∧ Format.float seconds 3 = .ok secs ∧ D'.Perm D ∧
          List.Forall₂ LineFor D' lines ∧
          summary cols seconds ds tables = .ok (lit "Parsed " ++ total ++ lit " metadata records in " ++ secs ++ lit " seconds.\n" ++
            (lit "    Discovered:\n" ++ lines.flatten) ++ version) := by
  obtain ⟨ds, h1, h2, h3⟩ := C67_libraries_bytes N parse pro px ws name rest D hpx hb hpro hw hn hne hD hN hd pre hp
  obtain ⟨ds', g1, g2, g3⟩ := Meta.C125_written cols seconds hf N (xml R parse) pro px ws name rest D hpx hb hpro hw hn hne
    (fun T hT => (hN T hT).spelled parse) (fun T hT => (hD T hT).fits parse) hd pre hp hsum
  have e : ds' = ds := by
    rw [h1] at g1
    injection g1 with g1
    exact g1.symm
  subst e
  refine ⟨ds', g1, g2, ⟨?_, ?_⟩, g3⟩
  · intro hno
    exact (C125_version cols ds').1 (h3 _ hno)
  · intro V hV hname
    obtain ⟨n, k1, k2⟩ := h2 V hV _ hname.symm
    constructor
    · intro hr
      have hrows : n.table.rows = [] := by
        have := k2.rows
        rw [show V.asRead.rows = [] by show V.rows.map _ = []; rw [hr]; rfl] at this
        exact List.map_eq_nil_iff.mp this
      exact (C125_version cols ds').2.1 n k1 hrows
    · intro i dt row v hc hr hi ho
      have hrow : ∃ r, n.table.rows[0]? = some (some r) ∧ r.values = row.map (Option.map Data.asRead) := by
        have := congrArg (fun l => l[0]?) k2.rows
        rw [List.getElem?_map, List.getElem?_map, show V.asRead.rows = V.rows.map (List.map (Option.map Data.asRead)) from rfl,
          List.getElem?_map, hr] at this
        obtain ⟨x, e1, e2⟩ := Option.map_eq_some_iff.mp this
        obtain ⟨r, rfl, e3⟩ := Option.map_eq_some_iff.mp e2
        exact ⟨r, e1, e3⟩
      obtain ⟨r, e1, e2⟩ := hrow
      have hfit : List.Forall₂ FieldFits V.asRead.cols r.values := by
        rw [e2]
        exact fits_asRead (hD V hV).rows _ (List.mem_map_of_mem (List.mem_of_getElem? hr))
      have hc' : V.asRead.cols[i]? = some (lit "VersionNumber", dt, []) := hc
      obtain ⟨x, m1, m2, -⟩ := get_loaded k2 hc' hfit (cols r)
      have hx : x = some (Data.asRead v) := by
        rw [e2, List.getElem?_map, hi] at m1
        injection m1 with m1
        exact m1.symm
      subst hx
      exact (C125_version cols ds').2.2 n r _ (Data.asRead v) k1 (positions_loaded k2) e1 (k2.byName i _ hc') m2 (ordinary_asRead v ho)

/-- The table of the version. -/
def schemaVersion : TableDef (go sample) := ⟨lit "SchemaVersion", [(lit "VersionNumber", .int32, [])], [[some (.int32 14#32)]]⟩

theorem version_writable : Writable schemaVersion := by
  refine ⟨by decide, by decide, by decide, by decide +kernel, ?_⟩
  intro row hrow
  rw [show schemaVersion.rows = [_] from rfl, List.mem_singleton] at hrow
  subst hrow
  refine .cons ?_ .nil
  rintro x hx
  cases hx
  exact ⟨rfl, rfl, trivial⟩

/-- `C125_published` for three measurements and the version 14, reported in either order after 1.5 seconds. -/
example (pre : Xml.Tree → Str) (hp : ∀ t, Data.IsPrefix t (pre t)) :
    ∃ ds, handed (Data.parseXml Xml.ascii (xml sample fun _ _ => none) pre
        (Data.document (xml sample fun _ _ => none) (lit "xs") [10#8] (lit "D") [details, schemaVersion]) []) = .ok ds ∧
      ds.length = 2 ∧ ∀ tables, tables.Perm (ds.map Prod.snd) → ∃ total secs version D' lines, Number 4 total ∧ IntegerText version 14 ∧
        D'.Perm [details, schemaVersion] ∧ List.Forall₂ LineFor D' lines ∧
        summary (fun _ _ => .err) 0x3FF8000000000000#64 ds tables = .ok (lit "Parsed " ++ total ++ lit " metadata records in " ++ secs ++
          lit " seconds.\n" ++ (lit "    Discovered:\n" ++ lines.flatten) ++ (lit "Metadata schema version: " ++ version)) := by
  have name : ∀ n : Str, Xml.isName Xml.ascii n = true → 58#8 ∉ n → (n.all fun b => decide (b.toNat < 128 ∧ 32 ≤ b.toNat)) = true → Data.Plain Xml.ascii n :=
    fun n h1 h2 h3 => ⟨Data.ascii_name h1, h2, Data.chars_ascii_lit n h3⟩
  have named : ∀ T ∈ [details, schemaVersion], Named Xml.ascii T := by
    intro T hT
    have h0 : ∀ T ∈ [details, schemaVersion], Xml.isName Xml.ascii T.name = true ∧ 58#8 ∉ T.name ∧
        (T.name.all fun b => decide (b.toNat < 128 ∧ 32 ≤ b.toNat)) = true := by decide +kernel
    have h : ∀ T ∈ [details, schemaVersion], ∀ c ∈ T.cols, (Xml.isName Xml.ascii c.1 = true ∧ 58#8 ∉ c.1 ∧
        (c.1.all fun b => decide (b.toNat < 128 ∧ 32 ≤ b.toNat)) = true) ∧ c.2.2 = [] := by decide +kernel
    have h' : ∀ T ∈ [details, schemaVersion], ∀ row ∈ T.rows, ∀ v ∈ row,
        (match v with | some (.string s) => (s.all fun b => decide (b.toNat < 128 ∧ 32 ≤ b.toNat)) | _ => true) = true := by decide +kernel
    refine ⟨name _ (h0 T hT).1 (h0 T hT).2.1 (h0 T hT).2.2, ?_, ?_⟩
    · intro c hc
      obtain ⟨⟨h1, h2, h3⟩, h4⟩ := h T hT c hc
      exact ⟨name _ h1 h2 h3, by rw [h4]; exact Data.chars_ascii_lit _ (by decide)⟩
    · intro row hrow s hs
      exact Data.chars_ascii_lit s (h' T hT row hrow _ hs)
  obtain ⟨ds, h1, h2, h3, h4⟩ := C125_published (fun _ _ => .err) 0x3FF8000000000000#64 (by unfold Format.Finite; decide) Xml.ascii (fun _ _ => none)
    [] (lit "xs") [10#8] (lit "D") [] [details, schemaVersion]
    ⟨name _ (by decide +kernel) (by decide) (by decide), by decide, by decide⟩ (by unfold Data.Bindable; decide) .nil (by decide)
    (name _ (by decide +kernel) (by decide) (by decide)) (by decide) (by simp [details_writable, version_writable]) named (by decide +kernel) pre hp (by decide)
  rw [List.append_nil, List.nil_append] at h1
  obtain ⟨version, v1, v2⟩ := (h3.2 schemaVersion (by simp) rfl).2 0 .int32 _ (.int32 14#32) rfl rfl rfl trivial
  refine ⟨ds, h1, h2, fun tables ht => ?_⟩
  obtain ⟨total, secs, D', lines, g1, -, g3, g4, g5⟩ := h4 tables _ ht v2
  exact ⟨total, secs, version, D', lines, g1, v1, g3, g4, g5⟩

end Verif.Lib
