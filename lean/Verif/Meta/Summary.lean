import Verif.Data.Bytes
import Verif.Format.FloatProps
import Verif.Table.Image

/-!
# C125: what a subscriber reports of received metadata (sttp/Subscriber.go L517-541, L611-652)

`handleMetadataReceived` reports the tables of the data set whether or not the document could be read, and hands the data set to the
receiver of metadata. Go walks the tables in any order, a parameter here; so is the time taken.
-/

namespace Verif.Meta

open Verif.Expr Verif.Table Verif.Data

variable {P : Prim}

/-- `getRowCount` (Subscriber.go L612-620) -/
def rowCount (ds : DataSet P) (name : Str) : Nat :=
  match ds.find name with
  | none => 0
  | some n => n.table.rows.length

/-- The line of a table (L630-631). -/
def summaryLine (ds : DataSet P) (name : Str) : Res Str := do
  let rows ← Format.int64With (BitVec.ofNat 64 (rowCount ds name)) 44#8
  return lit "        " ++ rows ++ lit " " ++ name ++ lit " records\n"

/-- The loop over the tables (L627-632): the total and the lines. Go's `int` has 64 bits. -/
def summaryLines (ds : DataSet P) : List (Named P) → BitVec 64 → Str → Res (BitVec 64 × Str)
  | [], total, details => .ok (total, details)
  | n :: ns, total, details => do
    let line ← summaryLine ds n.name
    summaryLines ds ns (total + BitVec.ofNat 64 (rowCount ds n.name)) (details ++ line)

/-- The last line (L643-649); `cols` evaluates the columns of a row, for computed ones. -/
def versionLine (cols : Row P → Nat → Res (Val P)) (ds : DataSet P) : Res Str :=
  match ds.find (lit "SchemaVersion") with
  | some n => do
    let version ← n.table.rowTextByName cols 0 (lit "VersionNumber")
    return lit "Metadata schema version: " ++ version
  | none => .ok (lit "No SchemaVersion table found in metadata")

/-- `showMetadataSummary` (L611-652): the status message. `tables` is what `Tables` gave (DataSet.go L96-104), `seconds` the time taken. -/
def summary (cols : Row P → Nat → Res (Val P)) (seconds : BitVec 64) (ds : DataSet P) (tables : List (Named P)) : Res Str := do
  let (total, details) ← summaryLines ds tables 0#64 (lit "    Discovered:\n")
  let total ← Format.int64With total 44#8
  let seconds ← Format.float seconds 3
  let version ← versionLine cols ds
  return lit "Parsed " ++ total ++ lit " metadata records in " ++ seconds ++ lit " seconds.\n" ++ details ++ version

/-- The data set reported and handed to the receiver (L519-534), given what parsing into a new one came to: all errors of
`ParseXmlDocument` (DataSet.go L154-190) come before the first change of it. -/
def handed : Res (DataSet P) → Res (DataSet P)
  | .ok ds => .ok ds
  | .err => .ok []
  | .panic => .panic

/-! ### Specification -/

/-- Tables are held by the upper-case of their names, each name once. (data/DataSet.go L68-73) -/
def Keyed (ds : DataSet P) : Prop := (GoMap.keys ds).Nodup ∧ ∀ e ∈ ds, e.1 = P.upper e.2.name

/-- The number with its digits grouped by threes. -/
def Number (n : Nat) (s : Str) : Prop := Format.IsGrouped 44#8 (Format.decimal n) s

/-- The line of a table says how many records it has. -/
def LineOf (n : Named P) (line : Str) : Prop :=
  ∃ s, Number n.table.rows.length s ∧ line = lit "        " ++ s ++ lit " " ++ n.name ++ lit " records\n"

/-- The number of records of some tables. -/
def recordsOf (ns : List (Named P)) : Nat := (ns.map fun n => n.table.rows.length).sum

/-! ### Proofs -/

theorem Keyed.find {ds : DataSet P} (h : Keyed ds) {n : Named P} (hn : n ∈ ds.map Prod.snd) : ds.find n.name = some n := by
  obtain ⟨e, he, rfl⟩ := List.mem_map.mp hn
  obtain ⟨h1, h2⟩ := h
  unfold DataSet.find
  rw [← h2 e he]
  clear h2 hn
  unfold GoMap.get
  unfold GoMap.keys at h1
  induction ds with
  | nil => cases he
  | cons p ds ih =>
    rw [List.map_cons, List.nodup_cons] at h1
    rcases List.mem_cons.mp he with rfl | he
    · simp
    · have : ¬ p.1 = e.1 := fun x => h1.1 (x ▸ List.mem_map_of_mem he)
      rw [List.find?_cons_of_neg (by simpa using this)]
      exact ih he h1.2

theorem number_int {n : Nat} (hn : n < 2 ^ 63) : ∃ s, Number n s ∧ Format.int64With (BitVec.ofNat 64 n) 44#8 = .ok s := by
  obtain ⟨s, h1, h2⟩ := Format.C08_int64 (BitVec.ofNat 64 n) 44#8 (by decide)
  have hv : (BitVec.ofNat 64 n).toInt = n := by
    rw [BitVec.toInt_eq_toNat_of_lt (by rw [BitVec.toNat_ofNat]; omega), BitVec.toNat_ofNat]
    omega
  rw [hv] at h1 h2
  rw [if_neg (by omega)] at h2
  exact ⟨s, h1, h2⟩

theorem lines_of {ds : DataSet P} (h : Keyed ds) (ns : List (Named P)) (hs : ∀ n ∈ ns, n ∈ ds.map Prod.snd)
    (hb : ∀ n ∈ ns, n.table.rows.length < 2 ^ 63) (total : Nat) (details : Str) :
    ∃ lines, List.Forall₂ LineOf ns lines ∧
      summaryLines ds ns (BitVec.ofNat 64 total) details = .ok (BitVec.ofNat 64 (total + recordsOf ns), details ++ lines.flatten) := by
  induction ns generalizing total details with
  | nil => exact ⟨[], .nil, by simp [summaryLines, recordsOf]⟩
  | cons n ns ih =>
    have hc : rowCount ds n.name = n.table.rows.length := by
      unfold rowCount
      rw [h.find (hs n (by simp))]
    obtain ⟨s, h1, h2⟩ := number_int (hb n (by simp))
    obtain ⟨lines, h3, h4⟩ := ih (fun x hx => hs x (by simp [hx])) (fun x hx => hb x (by simp [hx])) (total + n.table.rows.length)
      (details ++ (lit "        " ++ s ++ lit " " ++ n.name ++ lit " records\n"))
    refine ⟨_ :: lines, .cons ⟨s, h1, rfl⟩ h3, ?_⟩
    unfold summaryLines summaryLine
    rw [hc, h2]
    simp only [Res.bind_ok]
    have : BitVec.ofNat 64 total + BitVec.ofNat 64 n.table.rows.length = BitVec.ofNat 64 (total + n.table.rows.length) := by
      rw [BitVec.ofNat_add]
    rw [this]
    refine h4.trans ?_
    rw [List.flatten_cons, List.append_assoc, recordsOf, recordsOf, List.map_cons, List.sum_cons, Nat.add_assoc]

theorem records_perm {a b : List (Named P)} (h : a.Perm b) : recordsOf a = recordsOf b := (h.map _).sum_eq

theorem records_le {n : Named P} {ns : List (Named P)} (h : n ∈ ns) : n.table.rows.length ≤ recordsOf ns :=
  List.single_le_sum (by simp) _ (List.mem_map_of_mem h)

/-- C125: whatever order Go walks the tables in, the message gives the number of all records, the seconds in three places, and one line
for each table with its number of records, then the version. -/
theorem C125_counts (cols : Row P → Nat → Res (Val P)) (seconds : BitVec 64) (hf : Format.Finite seconds) {ds : DataSet P} (h : Keyed ds)
    {tables : List (Named P)} (hp : tables.Perm (ds.map Prod.snd)) (hb : recordsOf (ds.map Prod.snd) < 2 ^ 63) {version : Str}
    (hv : versionLine cols ds = .ok version) :
    ∃ total secs lines, Number (recordsOf (ds.map Prod.snd)) total ∧ Format.float seconds 3 = .ok secs ∧ List.Forall₂ LineOf tables lines ∧
      summary cols seconds ds tables = .ok (lit "Parsed " ++ total ++ lit " metadata records in " ++ secs ++ lit " seconds.\n" ++
        (lit "    Discovered:\n" ++ lines.flatten) ++ version) := by
  have hb' := hb
  rw [← records_perm hp] at hb'
  obtain ⟨lines, h1, h2⟩ := lines_of h tables (fun n hn => hp.subset hn)
    (fun n hn => Nat.lt_of_le_of_lt (records_le hn) hb') 0 (lit "    Discovered:\n")
  obtain ⟨total, h3, h4⟩ := number_int hb
  obtain ⟨sign, whole, places, text, -, -, -, -, h5⟩ := Format.C93_grouped seconds hf 3 46#8 44#8 (by decide) (by decide)
  refine ⟨total, _, lines, h3, h5, h1, ?_⟩
  have h5' : Format.float seconds 3 = _ := h5
  unfold summary
  rw [show (0#64) = BitVec.ofNat 64 0 from rfl, h2, Nat.zero_add, records_perm hp]
  simp only [Res.bind_ok]
  rw [h4]
  simp only [Res.bind_ok]
  rw [h5']
  simp only [Res.bind_ok]
  rw [hv]
  rfl

/-- Two tables, the second without records. -/
def twoTables : DataSet Expr.Toy.prim :=
  [(lit "A", ⟨lit "a", { emptyTable Expr.Toy.prim with rows := [none, none] }⟩), (lit "B", ⟨lit "B", emptyTable Expr.Toy.prim⟩)]

/-- `C125_counts` for them, walked from the second to the first. -/
example : ∃ total secs lines, Number 2 total ∧ List.Forall₂ LineOf [⟨lit "B", emptyTable Expr.Toy.prim⟩,
      ⟨lit "a", { emptyTable Expr.Toy.prim with rows := [none, none] }⟩] lines ∧
    summary (fun _ _ => .err) 0#64 twoTables [⟨lit "B", emptyTable Expr.Toy.prim⟩, ⟨lit "a", { emptyTable Expr.Toy.prim with rows := [none, none] }⟩] =
      .ok (lit "Parsed " ++ total ++ lit " metadata records in " ++ secs ++ lit " seconds.\n" ++ (lit "    Discovered:\n" ++ lines.flatten) ++
        lit "No SchemaVersion table found in metadata") := by
  have hk : Keyed twoTables := by
    refine ⟨by decide, ?_⟩
    intro e he
    rcases List.mem_cons.mp he with rfl | he
    · decide
    · rw [List.mem_singleton.mp he]
      decide
  obtain ⟨total, secs, lines, h1, -, h3, h4⟩ := C125_counts (fun _ _ => .err) 0#64 (by unfold Format.Finite; decide) hk
    (tables := [⟨lit "B", emptyTable Expr.Toy.prim⟩, ⟨lit "a", { emptyTable Expr.Toy.prim with rows := [none, none] }⟩])
    (List.Perm.swap _ _ _) (by decide) (version := lit "No SchemaVersion table found in metadata") rfl
  exact ⟨total, secs, lines, h1, h3, h4⟩

/-! ### Data sets that were read -/

theorem keyed_nil : Keyed ([] : DataSet P) := ⟨List.nodup_nil, by simp⟩

theorem keyed_set {ds : DataSet P} (h : Keyed ds) (n : Named P) : Keyed (GoMap.set ds (P.upper n.name) n) := by
  refine ⟨GoMap.nodup_set _ _ _ h.1, ?_⟩
  intro e he
  unfold GoMap.set at he
  split at he
  · obtain ⟨p, hp, rfl⟩ := List.mem_map.mp he
    split
    · rfl
    · exact h.2 p hp
  · rcases List.mem_append.mp he with he | he
    · exact h.2 e he
    · rw [List.mem_singleton] at he
      rw [he]

theorem keyed_addTable {X : XmlLib P} {pre : Str} {ds ds' : DataSet P} {n : Xml.Node} (h : Keyed ds) (he : addTable X pre ds n = .ok ds') :
    Keyed ds' := by
  unfold addTable at he
  split at he
  · injection he with he; rwa [← he]
  · rename_i name _
    split at he
    · injection he with he; rwa [← he]
    · obtain ⟨fields, -, he⟩ := Res.bind_eq_ok.mp he
      cases he
      exact keyed_set h ⟨name, _⟩

theorem keyed_addTables {X : XmlLib P} {pre : Str} (ns : List Xml.Node) {ds ds' : DataSet P} (h : Keyed ds)
    (he : addTables X pre ns ds = .ok ds') : Keyed ds' := by
  induction ns generalizing ds with
  | nil => injection he with he; rwa [← he]
  | cons n ns ih =>
    obtain ⟨d, h1, h2⟩ := Res.bind_eq_ok.mp he
    exact ih (keyed_addTable h h1) h2

theorem loadRecords_names {X : XmlLib P} {root : Xml.Tree} (ds : DataSet P) {ds' : DataSet P} (he : loadRecords X root ds = .ok ds') :
    ds'.map (fun e => (e.1, e.2.name)) = ds.map fun e => (e.1, e.2.name) := by
  induction ds generalizing ds' with
  | nil => cases he; rfl
  | cons e ds ih =>
    obtain ⟨t, -, h⟩ := Res.bind_eq_ok.mp he
    obtain ⟨rest, h1, h2⟩ := Res.bind_eq_ok.mp h
    cases h2
    rw [List.map_cons, List.map_cons, ih h1]

theorem keyed_iff (ds : DataSet P) : Keyed ds ↔ ((ds.map fun e => (e.1, e.2.name)).map Prod.fst).Nodup ∧
    ∀ e ∈ ds.map (fun e => (e.1, e.2.name)), e.1 = P.upper e.2 := by
  unfold Keyed GoMap.keys
  rw [List.map_map]
  simp only [List.forall_mem_map]
  rfl

/-- The tables of any document that is read are held by the upper-case of their names, each once. -/
theorem keyed_document {X : XmlLib P} {pre : Str} {root : Xml.Tree} {ds ds' : DataSet P} (h : Keyed ds)
    (he : parseDocument X pre root ds = .ok ds') : Keyed ds' := by
  unfold parseDocument at he
  split at he
  · cases he
  · split at he
    · cases he
    · split at he
      · cases he
      · split at he
        · cases he
        · obtain ⟨d, h1, h2⟩ := Res.bind_eq_ok.mp he
          unfold loadSchema at h1
          obtain ⟨ns, -, h3⟩ := Res.bind_eq_ok.mp h1
          have := keyed_addTables ns h h3
          rw [keyed_iff] at this ⊢
          rwa [loadRecords_names d h2]

theorem keyed_bytes {T : Xml.NameLib} {X : XmlLib P} {pre : Xml.Tree → Str} {s : Str} {ds : DataSet P} (he : parseXml T X pre s [] = .ok ds) :
    Keyed ds := by
  unfold parseXml at he
  split at he
  · cases he
  · exact keyed_document keyed_nil he

/-- C125: for any bytes received there is a data set to report and to hand to the receiver. Its tables each have their own name and its
message has the totals and lines of `C125_counts`; bytes that cannot be read are reported as no records in no tables, with no version. -/
theorem C125_any_bytes (T : Xml.NameLib) (X : XmlLib P) (pre : Xml.Tree → Str) (s : Str) :
    ∃ ds, handed (parseXml T X pre s []) = .ok ds ∧ Keyed ds ∧
      (parseXml T X pre s [] = .err → ds = [] ∧ ∀ cols seconds tables, Format.Finite seconds → tables.Perm (ds.map Prod.snd) →
        ∃ secs, Format.float seconds 3 = .ok secs ∧ summary cols seconds ds tables =
          .ok (lit "Parsed 0 metadata records in " ++ secs ++ lit " seconds.\n    Discovered:\nNo SchemaVersion table found in metadata")) := by
  rcases C67_any_bytes T X pre s with ⟨_, _, _, _, ds, -, -, -, -, h, -⟩ | ⟨-, h⟩
  · exact ⟨ds, by rw [h]; rfl, keyed_bytes h, fun e => by rw [h] at e; cases e⟩
  · refine ⟨[], by rw [h]; rfl, keyed_nil, fun _ => ⟨rfl, ?_⟩⟩
    intro cols seconds tables hf hp
    rw [List.map_nil, List.perm_nil] at hp
    subst hp
    obtain ⟨sign, whole, places, text, -, -, -, -, h5⟩ := Format.C93_grouped seconds hf 3 46#8 44#8 (by decide) (by decide)
    have h5' : Format.float seconds 3 = _ := h5
    refine ⟨_, h5', ?_⟩
    unfold summary
    rw [show summaryLines ([] : DataSet P) [] 0#64 (lit "    Discovered:\n") = .ok (0#64, lit "    Discovered:\n") from rfl]
    simp only [Res.bind_ok]
    rw [show Format.int64With 0#64 44#8 = .ok (lit "0") by decide +kernel]
    simp only [Res.bind_ok]
    rw [h5']
    simp only [Res.bind_ok]
    rw [show versionLine cols ([] : DataSet P) = .ok (lit "No SchemaVersion table found in metadata") from rfl]
    simp only [Res.bind_ok]
    rw [show lit "Parsed 0 metadata records in " = lit "Parsed " ++ lit "0" ++ lit " metadata records in " by decide,
      show lit " seconds.\n    Discovered:\nNo SchemaVersion table found in metadata" =
        lit " seconds.\n" ++ lit "    Discovered:\n" ++ lit "No SchemaVersion table found in metadata" by decide]
    simp only [List.append_assoc]
    rfl

/-- Bytes that are no document. -/
example (X : XmlLib P) (pre : Xml.Tree → Str) : parseXml Xml.ascii X pre (lit "<a>") [] = .err ∧
    handed (parseXml Xml.ascii X pre (lit "<a>") []) = .ok [] := by
  have : Xml.decode Xml.ascii (lit "<a>") = none := by decide +kernel
  unfold parseXml
  rw [this]
  exact ⟨rfl, rfl⟩

/-- The line of a written table. -/
def LineFor (S : TableDef P) (line : Str) : Prop :=
  ∃ s, Number S.rows.length s ∧ line = lit "        " ++ s ++ lit " " ++ S.name ++ lit " records\n"

/-- The tables of a written data set are the tables found, in some order. -/
theorem tables_of {X : XmlLib P} {ds : DataSet P} (h : Keyed ds) (D : List (TableDef P)) (hd : (D.map fun S => P.upper S.name).Nodup)
    (h1 : ∀ S ∈ D, ∀ x, P.upper x = P.upper S.name → ∃ n, ds.find x = some n ∧ Loaded X S.asRead n)
    (h2 : ∀ x, (∀ S ∈ D, P.upper S.name ≠ P.upper x) → ds.find x = none) :
    ∃ ns, List.Forall₂ (fun S n => Loaded X S.asRead n) D ns ∧ ns.Perm (ds.map Prod.snd) := by
  have hex : ∀ D' : List (TableDef P), (∀ S ∈ D', S ∈ D) →
      ∃ ns, List.Forall₂ (fun S n => Loaded X S.asRead n ∧ ds.find S.name = some n) D' ns := by
    intro D' hs
    induction D' with
    | nil => exact ⟨[], .nil⟩
    | cons S D' ih =>
      obtain ⟨ns, hn⟩ := ih fun x hx => hs x (by simp [hx])
      obtain ⟨n, g1, g2⟩ := h1 S (hs S (by simp)) S.name rfl
      exact ⟨n :: ns, .cons ⟨g2, g1⟩ hn⟩
  obtain ⟨ns, hn⟩ := hex D fun _ h => h
  refine ⟨ns, hn.imp fun _ _ h => h.1, ?_⟩
  have hname : ns.map (fun n => P.upper n.name) = D.map fun S => P.upper S.name := by
    clear hd h1 h2 hex
    induction hn with
    | nil => rfl
    | cons g _ ih => rw [List.map_cons, List.map_cons, ih, g.1.name]; rfl
  have hnod : ns.Nodup := by
    rw [← hname] at hd
    exact hd.of_map _
  have hmem : ∀ k n, GoMap.get ds k = some n → n ∈ ds.map Prod.snd := by
    intro k n hk
    unfold GoMap.get at hk
    obtain ⟨e, he, rfl⟩ := Option.map_eq_some_iff.mp hk
    exact List.mem_map_of_mem (List.mem_of_find?_eq_some he)
  have hnod' : (ds.map Prod.snd).Nodup := by
    have := h.1
    unfold GoMap.keys at this
    have e : ds.map Prod.fst = (ds.map Prod.snd).map fun n => P.upper n.name := by
      rw [List.map_map]
      exact List.map_congr_left fun e he => h.2 e he
    rw [e] at this
    exact this.of_map _
  refine (List.perm_ext_iff_of_nodup hnod hnod').mpr fun n => ⟨?_, ?_⟩
  · intro hm
    obtain ⟨i, hi, rfl⟩ := List.getElem_of_mem hm
    have hl := hn.length_eq
    have := (List.forall₂_iff_get.mp hn).2 i (by omega) hi
    exact hmem _ _ this.2
  · intro hm
    have hf := h.find hm
    by_contra hno
    have : ∃ S ∈ D, P.upper S.name = P.upper n.name := by
      by_contra hc
      push Not at hc
      rw [h2 n.name hc] at hf
      cases hf
    obtain ⟨S, hS, e⟩ := this
    obtain ⟨i, hi, rfl⟩ := List.getElem_of_mem hS
    have hl := hn.length_eq
    have hg := (List.forall₂_iff_get.mp hn).2 i hi (by omega)
    have hg2 := hg.2
    unfold DataSet.find at hf hg2
    rw [List.get_eq_getElem] at hg2
    rw [e, hf] at hg2
    injection hg2 with hg2
    exact hno (by rw [hg2]; exact List.get_mem _ _)

/-- C125: of a written data set the message gives the number of all records and, in some order, one line for each table with its number of
records. -/
theorem C125_written (cols : Row P → Nat → Res (Val P)) (seconds : BitVec 64) (hf : Format.Finite seconds) (T : Xml.NameLib) (X : XmlLib P)
    (pro px ws name rest : Str) (D : List (TableDef P)) (hpx : PrefixName T px) (hb : Bindable px) (hpro : Xml.Prolog T pro) (hw : Xml.Blank ws)
    (hn : Plain T name) (hne : name ≠ schemaSpace) (hS : ∀ S ∈ D, Spelled T X S) (hD : ∀ S ∈ D, Fits X S)
    (hd : (D.map fun S => P.upper S.name).Nodup) (pre : Xml.Tree → Str) (hp : ∀ t, IsPrefix t (pre t))
    (hsum : (D.map fun S => S.rows.length).sum < 2 ^ 63) :
    ∃ ds, handed (parseXml T X pre (pro ++ (document X px ws name D ++ rest)) []) = .ok ds ∧ ds.length = D.length ∧
      ∀ tables version, tables.Perm (ds.map Prod.snd) → versionLine cols ds = .ok version →
        ∃ total secs D' lines, Number (D.map fun S => S.rows.length).sum total ∧ Format.float seconds 3 = .ok secs ∧ D'.Perm D ∧
          List.Forall₂ LineFor D' lines ∧
          summary cols seconds ds tables = .ok (lit "Parsed " ++ total ++ lit " metadata records in " ++ secs ++ lit " seconds.\n" ++
            (lit "    Discovered:\n" ++ lines.flatten) ++ version) := by
  obtain ⟨ds, h1, h2, h3⟩ := C67_bytes T X pro px ws name rest D hpx hb hpro hw hn hne hS hD hd pre hp
  have hk := keyed_bytes h1
  obtain ⟨ns, h4, h5⟩ := tables_of hk D hd h2 h3
  have hrows : ∀ {S : TableDef P} {n : Named P}, Loaded X S.asRead n → n.table.rows.length = S.rows.length := by
    intro S n hl
    have := congrArg List.length hl.rows
    rw [List.length_map, List.length_map] at this
    rw [this]
    exact List.length_map _
  have hrec : recordsOf ns = (D.map fun S => S.rows.length).sum := by
    clear hD hd h2 h3 h5 hS h1 hk hsum
    induction h4 with
    | nil => rfl
    | cons g _ ih =>
      unfold recordsOf at ih ⊢
      rw [List.map_cons, List.map_cons, List.sum_cons, List.sum_cons, ih, hrows g]
  refine ⟨ds, by rw [h1]; rfl, ?_, ?_⟩
  · have := h5.length_eq
    rw [List.length_map] at this
    rw [← this, h4.length_eq]
  intro tables version hperm hv
  obtain ⟨total, secs, lines, g1, g2, g3, g4⟩ := C125_counts cols seconds hf hk hperm (by rw [← records_perm h5, hrec]; exact hsum) hv
  rw [← records_perm h5, hrec] at g1
  obtain ⟨D', g5, g6⟩ := List.perm_comp_forall₂ (r := fun (n : Named P) (S : TableDef P) => Loaded X S.asRead n)
    (hperm.trans h5.symm) (List.Forall₂.flip h4)
  refine ⟨total, secs, D', lines, g1, g2, g6, ?_, g4⟩
  clear g4 g1 g2 hperm g6
  induction g3 generalizing D' with
  | nil => cases g5; exact .nil
  | cons a _ ih =>
    cases g5 with
    | cons b g5 =>
      obtain ⟨s, a1, a2⟩ := a
      exact .cons ⟨s, by rw [← hrows b]; exact a1, by rw [a2, b.name]; rfl⟩ (ih _ g5)

end Verif.Meta
