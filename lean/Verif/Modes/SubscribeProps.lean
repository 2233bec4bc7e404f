import Verif.Modes.Model
import Verif.Session.BlockProps
import Verif.Format.Props

/-!
# Subscription parameters (C32)

The publisher's side is a specification: a connection string is a sequence of settings separated by semicolons; a semicolon
inside braces does not separate; a setting is a key and a value with the first equals sign between them; braces around a value
are not part of it.
-/

namespace Verif.Modes

open Verif.Session (Env St exSt exCfg Cfg)

/-! ## Specification -/

/-- `;` -/
def semi : Byte := 59
/-- `{` -/
def lbrace : Byte := 123
/-- `}` -/
def rbrace : Byte := 125
/-- `=` -/
def equals : Byte := 61

/-- The settings of a connection string: cut at semicolons outside braces (`d` braces are open). -/
def settings : Nat → List Byte → List (List Byte)
  | _, [] => [[]]
  | d, c :: cs =>
    if c = semi ∧ d = 0 then [] :: settings 0 cs
    else
      let d := if c = lbrace then d + 1 else if c = rbrace then d - 1 else d
      match settings d cs with
      | [] => [[c]]
      | p :: ps => (c :: p) :: ps

/-- A value without the braces around it. -/
def unbrace (v : List Byte) : List Byte :=
  if v.head? = some lbrace ∧ v.getLast? = some rbrace then v.tail.dropLast else v

/-- A setting as key and value; `none` when it has no equals sign. -/
def keyValue (p : List Byte) : List Byte × Option (List Byte) :=
  if equals ∈ p then (p.takeWhile (· ≠ equals), some (unbrace ((p.dropWhile (· ≠ equals)).drop 1))) else (p, none)

/-- Reading a connection string. -/
def readSettings (t : List Byte) : List (List Byte × Option (List Byte)) := (settings 0 t).map keyValue

/-- Text without semicolons and braces. -/
def Plain (t : List Byte) : Prop := ∀ c ∈ t, c ≠ semi ∧ c ≠ lbrace ∧ c ≠ rbrace

/-- Text without braces. -/
def Braceless (t : List Byte) : Prop := ∀ c ∈ t, c ≠ lbrace ∧ c ≠ rbrace

/-- The texts of a subscription are plain; those sent between braces may have semicolons. Extra parameters are arbitrary. -/
structure Info.Ok (i : Info) : Prop where
  publishInterval : Plain i.publishInterval
  lagTime : Plain i.lagTime
  leadTime : Plain i.leadTime
  startTime : Plain i.startTime
  stopTime : Plain i.stopTime
  constraintParameters : Plain i.constraintParameters
  sourceInfo : Braceless i.sourceInfo
  versionInfo : Braceless i.versionInfo
  updatedOnInfo : Braceless i.updatedOnInfo
  filterExpression : Braceless i.filterExpression

/-- The word for a truth value. -/
def boolText (b : Bool) : List Byte := ascii (toString b).toList

/-- An integer in decimal. -/
def intText (n : Int) : List Byte := Format.formatInt n

/-- An optional setting. -/
def optional (key : String) (value : List Byte) : List (List Byte × Option (List Byte)) :=
  if value = [] then [] else [(ascii key.toList, some value)]

/-! ## Lemmas -/

/-- Text before the first cut. -/
def pre (x : List Byte) : List (List Byte) → List (List Byte)
  | [] => [x]
  | p :: ps => (x ++ p) :: ps

theorem settings_ne (d : Nat) (t : List Byte) : settings d t ≠ [] := by
  cases t with
  | nil => simp [settings]
  | cons c cs =>
    rw [settings]
    split
    · simp
    · dsimp only; split <;> simp

theorem settings_prefix (d : Nat) (x r : List Byte) (hx : Braceless x) (hd : d ≠ 0 ∨ semi ∉ x) :
    settings d (x ++ r) = pre x (settings d r) := by
  induction x with
  | nil =>
    cases h : settings d r with
    | nil => exact absurd h (settings_ne d r)
    | cons p ps => simp [pre, h]
  | cons c cs ih =>
    have hc := hx c (by simp)
    have h1 : ¬ (c = semi ∧ d = 0) := by
      rintro ⟨rfl, h0⟩
      rcases hd with hd | hd
      · exact hd h0
      · simp at hd
    rw [List.cons_append, settings, if_neg h1, if_neg hc.1, if_neg hc.2]
    dsimp only
    rw [ih (fun c hc => hx c (by simp [hc])) (hd.imp id (fun h => fun h' => h (by simp [h'])))]
    cases h : settings d r with
    | nil => exact absurd h (settings_ne d r)
    | cons p ps => rfl

theorem Plain.braceless {t : List Byte} (h : Plain t) : Braceless t := fun c hc => (h c hc).2

theorem Plain.nosemi {t : List Byte} (h : Plain t) : semi ∉ t := fun hc => (h _ hc).1 rfl

theorem settings_plain_semi (x r : List Byte) (hx : Plain x) :
    settings 0 (x ++ semi :: r) = x :: settings 0 r := by
  rw [settings_prefix 0 x _ hx.braceless (Or.inr hx.nosemi)]
  rw [settings, if_pos ⟨rfl, rfl⟩]
  simp [pre]

theorem settings_plain (x : List Byte) (hx : Plain x) : settings 0 x = [x] := by
  have := settings_prefix 0 x [] hx.braceless (Or.inr hx.nosemi)
  rw [List.append_nil] at this
  rw [this]
  simp [settings, pre]

theorem settings_braced (k y r : List Byte) (hk : Plain k) (hy : Braceless y) :
    settings 0 (k ++ lbrace :: (y ++ rbrace :: r)) = pre (k ++ lbrace :: (y ++ [rbrace])) (settings 0 r) := by
  rw [settings_prefix 0 k _ hk.braceless (Or.inr hk.nosemi)]
  rw [settings, if_neg (by simp [semi, lbrace]), if_pos rfl]
  dsimp only
  rw [settings_prefix 1 y _ hy (Or.inl (by omega))]
  rw [settings, if_neg (by simp [semi, rbrace]), if_neg (by decide), if_pos rfl]
  dsimp only
  cases h : settings 0 r with
  | nil => exact absurd h (settings_ne 0 r)
  | cons p ps => simp [pre, h]

/-- A block of settings at the end of which a cut or the end of the text comes. -/
def Closed (x : List Byte) : Prop :=
  ∃ ps, (∀ r, settings 0 (x ++ semi :: r) = ps ++ settings 0 r) ∧ settings 0 x = ps

theorem settings_empty_or (r : List Byte) (x : List Byte) (hx : ∀ r, settings 0 (x ++ r) = pre x (settings 0 r)) :
    settings 0 (x ++ semi :: r) = x :: settings 0 r := by
  rw [hx, settings, if_pos ⟨rfl, rfl⟩]
  simp [pre]

/-- A text with no cut in it and its braces closed. -/
def Whole (x : List Byte) : Prop := ∀ r, settings 0 (x ++ r) = pre x (settings 0 r)

theorem Plain.whole {x : List Byte} (h : Plain x) : Whole x :=
  fun r => settings_prefix 0 x r h.braceless (Or.inr h.nosemi)

theorem braced_whole {k y : List Byte} (hk : Plain k) (hy : Braceless y) : Whole (k ++ lbrace :: (y ++ [rbrace])) := by
  intro r
  have := settings_braced k y r hk hy
  rw [← this]
  simp

theorem pre_pre (x y : List Byte) (l : List (List Byte)) (hl : l ≠ []) : pre x (pre y l) = pre (x ++ y) l := by
  cases l with
  | nil => exact absurd rfl hl
  | cons p ps => simp [pre]

/-- Joining settings with semicolons. -/
def joined : List (List Byte) → List Byte
  | [] => []
  | [x] => x
  | x :: xs => x ++ semi :: joined xs

theorem settings_joined (xs : List (List Byte)) (hx : ∀ x ∈ xs, Whole x) (hne : xs ≠ []) (r : List Byte) :
    settings 0 (joined xs) = xs ∧ settings 0 (joined xs ++ semi :: r) = xs ++ settings 0 r := by
  induction xs with
  | nil => exact absurd rfl hne
  | cons x xs ih =>
    have hw := hx x (by simp)
    cases xs with
    | nil =>
      constructor
      · have := hw []
        rw [List.append_nil] at this
        rw [joined, this]; simp [settings, pre]
      · rw [joined, settings_empty_or r x hw]; rfl
    | cons y ys =>
      obtain ⟨h1, h2⟩ := ih (fun x hx' => hx x (by simp [hx'])) (by simp)
      constructor
      · rw [joined, settings_empty_or _ x hw, h1]
        simp
      · rw [joined, List.append_assoc, List.cons_append, settings_empty_or _ x hw, h2]
        · rfl
        · simp

theorem joined_cons (x : List Byte) (xs : List (List Byte)) (h : xs ≠ []) : joined (x :: xs) = x ++ semi :: joined xs := by
  cases xs with
  | nil => exact absurd rfl h
  | cons => rfl

theorem joined_snoc (xs : List (List Byte)) (hne : xs ≠ []) (y : List Byte) : joined (xs ++ [y]) = joined xs ++ semi :: y := by
  induction xs with
  | nil => exact absurd rfl hne
  | cons x xs ih =>
    cases xs with
    | nil => rfl
    | cons z zs =>
      have := ih (by simp)
      show joined (x :: (z :: zs ++ [y])) = _
      rw [joined_cons _ _ (by simp), this, joined_cons x (z :: zs) (by simp)]
      simp

/-- A key with its value. -/
theorem keyValue_eq (k v : List Byte) (hk : equals ∉ k) : keyValue (k ++ equals :: v) = (k, some (unbrace v)) := by
  unfold keyValue
  rw [if_pos (by simp)]
  have h1 : ∀ c ∈ k, (decide (c ≠ equals)) = true := by
    intro c hc; rw [decide_eq_true_iff]; rintro rfl; exact hk hc
  have h2 : (k ++ equals :: v).takeWhile (· ≠ equals) = k := by
    rw [List.takeWhile_append_of_pos h1]; simp
  have h3 : (k ++ equals :: v).dropWhile (· ≠ equals) = equals :: v := by
    rw [List.dropWhile_append_of_pos h1]; simp
  rw [h2, h3]
  rfl

theorem unbrace_plain {v : List Byte} (h : Plain v) : unbrace v = v := by
  unfold unbrace
  rw [if_neg]
  rintro ⟨h1, -⟩
  cases v with
  | nil => simp at h1
  | cons c cs =>
    simp only [List.head?_cons, Option.some.injEq] at h1
    exact (h c (by simp)).2.1 h1

theorem unbrace_braced (y : List Byte) : unbrace (lbrace :: (y ++ [rbrace])) = y := by
  unfold unbrace
  rw [if_pos]
  · simp
  · refine ⟨rfl, ?_⟩
    rw [← List.cons_append, List.getLast?_append]; rfl

/-! ## The string as joined settings -/

/-- One setting. -/
def setting (key : String) (v : List Byte) : List Byte := ascii key.toList ++ equals :: v

/-- One setting in braces. -/
def braced (key : String) (v : List Byte) : List Byte := ascii key.toList ++ equals :: lbrace :: (v ++ [rbrace])

/-- The settings the code always writes. -/
def fixedSettings (i : Info) : List (List Byte) :=
  [setting "throttled" (formatBool i.throttled), setting "publishInterval" i.publishInterval,
   setting "includeTime" (formatBool i.includeTime),
   setting "enableTimeReasonabilityCheck" (formatBool i.enableTimeReasonabilityCheck),
   setting "lagTime" i.lagTime, setting "leadTime" i.leadTime,
   setting "useLocalClockAsRealTime" (formatBool i.useLocalClockAsRealTime),
   setting "processingInterval" (Format.formatInt i.processingInterval.toInt),
   setting "useMillisecondResolution" (formatBool i.useMillisecondResolution),
   ascii "requestNaNValueFilter".toList ++ formatBool i.requestNaNValueFilter,
   braced "assemblyInfo" (ascii "source=".toList ++ i.sourceInfo ++ ascii ";version=".toList ++ i.versionInfo ++
     ascii ";updatedOn=".toList ++ i.updatedOnInfo)]

/-- The settings the code writes, but for the extra parameters. -/
def written (i : Info) : List (List Byte) :=
  fixedSettings i ++
  (if i.filterExpression.length > 0 then [braced "filterExpression" i.filterExpression] else []) ++
  (if i.udpDataChannel then
    [braced "dataChannel" (ascii "localport=".toList ++ Format.formatInt i.dataChannelLocalPort.toNat)] else []) ++
  (if i.startTime.length > 0 then [setting "startTimeConstraint" i.startTime] else []) ++
  (if i.stopTime.length > 0 then [setting "stopTimeConstraint" i.stopTime] else []) ++
  (if i.constraintParameters.length > 0 then [setting "timeConstraintParameters" i.constraintParameters] else [])

theorem fixed_ne (i : Info) : fixedSettings i ≠ [] := List.cons_ne_nil _ _

theorem joined_if (xs : List (List Byte)) (hne : xs ≠ []) (p : Prop) [Decidable p] (y : List Byte) :
    joined (xs ++ (if p then [y] else [])) = joined xs ++ (if p then semi :: y else []) := by
  by_cases hp : p
  · rw [if_pos hp, if_pos hp, joined_snoc xs hne]
  · rw [if_neg hp, if_neg hp, List.append_nil, List.append_nil]

theorem lit_publishInterval (r : List Byte) : ascii ";publishInterval=".toList ++ r = semi :: (ascii "publishInterval".toList ++ equals :: r) := rfl
theorem lit_includeTime (r : List Byte) : ascii ";includeTime=".toList ++ r = semi :: (ascii "includeTime".toList ++ equals :: r) := rfl
theorem lit_enableTimeReasonabilityCheck (r : List Byte) : ascii ";enableTimeReasonabilityCheck=".toList ++ r = semi :: (ascii "enableTimeReasonabilityCheck".toList ++ equals :: r) := rfl
theorem lit_lagTime (r : List Byte) : ascii ";lagTime=".toList ++ r = semi :: (ascii "lagTime".toList ++ equals :: r) := rfl
theorem lit_leadTime (r : List Byte) : ascii ";leadTime=".toList ++ r = semi :: (ascii "leadTime".toList ++ equals :: r) := rfl
theorem lit_useLocalClockAsRealTime (r : List Byte) : ascii ";useLocalClockAsRealTime=".toList ++ r = semi :: (ascii "useLocalClockAsRealTime".toList ++ equals :: r) := rfl
theorem lit_processingInterval (r : List Byte) : ascii ";processingInterval=".toList ++ r = semi :: (ascii "processingInterval".toList ++ equals :: r) := rfl
theorem lit_useMillisecondResolution (r : List Byte) : ascii ";useMillisecondResolution=".toList ++ r = semi :: (ascii "useMillisecondResolution".toList ++ equals :: r) := rfl
theorem lit_startTimeConstraint (r : List Byte) : ascii ";startTimeConstraint=".toList ++ r = semi :: (ascii "startTimeConstraint".toList ++ equals :: r) := rfl
theorem lit_stopTimeConstraint (r : List Byte) : ascii ";stopTimeConstraint=".toList ++ r = semi :: (ascii "stopTimeConstraint".toList ++ equals :: r) := rfl
theorem lit_timeConstraintParameters (r : List Byte) : ascii ";timeConstraintParameters=".toList ++ r = semi :: (ascii "timeConstraintParameters".toList ++ equals :: r) := rfl

theorem ne_append {xs ys : List (List Byte)} (h : xs ≠ []) : xs ++ ys ≠ [] := by
  cases xs with
  | nil => exact absurd rfl h
  | cons => exact List.cons_ne_nil _ _

theorem joined_fixed (i : Info) : joined (fixedSettings i) =
    ascii "throttled=".toList ++ formatBool i.throttled ++
    ascii ";publishInterval=".toList ++ i.publishInterval ++
    ascii ";includeTime=".toList ++ formatBool i.includeTime ++
    ascii ";enableTimeReasonabilityCheck=".toList ++ formatBool i.enableTimeReasonabilityCheck ++
    ascii ";lagTime=".toList ++ i.lagTime ++
    ascii ";leadTime=".toList ++ i.leadTime ++
    ascii ";useLocalClockAsRealTime=".toList ++ formatBool i.useLocalClockAsRealTime ++
    ascii ";processingInterval=".toList ++ Format.formatInt i.processingInterval.toInt ++
    ascii ";useMillisecondResolution=".toList ++ formatBool i.useMillisecondResolution ++
    ascii ";requestNaNValueFilter".toList ++ formatBool i.requestNaNValueFilter ++
    ascii ";assemblyInfo={source=".toList ++ i.sourceInfo ++
    ascii ";version=".toList ++ i.versionInfo ++
    ascii ";updatedOn=".toList ++ i.updatedOnInfo ++ ascii "}".toList := by
  have t : ∀ r, ascii "throttled=".toList ++ r = ascii "throttled".toList ++ equals :: r := fun _ => rfl
  have n : ∀ r, ascii ";requestNaNValueFilter".toList ++ r = semi :: (ascii "requestNaNValueFilter".toList ++ r) := fun _ => rfl
  have a : ∀ r, ascii ";assemblyInfo={source=".toList ++ r =
    semi :: (ascii "assemblyInfo".toList ++ equals :: lbrace :: (ascii "source=".toList ++ r)) := fun _ => rfl
  have b : ascii "}".toList = [rbrace] := rfl
  unfold fixedSettings
  repeat rw [joined_cons _ _ (List.cons_ne_nil _ _)]
  unfold joined setting braced
  simp only [List.append_assoc, List.cons_append]
  rw [t, lit_publishInterval, lit_includeTime, lit_enableTimeReasonabilityCheck, lit_lagTime, lit_leadTime,
    lit_useLocalClockAsRealTime, lit_processingInterval, lit_useMillisecondResolution, n, a, b]

theorem parameterString_eq (i : Info) : parameterString i =
    joined (written i) ++ (if i.extraParameters.length > 0 then semi :: i.extraParameters else []) := by
  unfold written
  rw [joined_if _ (ne_append (ne_append (ne_append (ne_append (fixed_ne i))))),
    joined_if _ (ne_append (ne_append (ne_append (fixed_ne i)))), joined_if _ (ne_append (ne_append (fixed_ne i))),
    joined_if _ (ne_append (fixed_ne i)), joined_if _ (fixed_ne i), joined_fixed]
  rfl

theorem plain_of_mem {t : List Byte} (h : ∀ c ∈ t, c ≠ 59 ∧ c ≠ 123 ∧ c ≠ 125) : Plain t := h

theorem plain_append {a b : List Byte} (ha : Plain a) (hb : Plain b) : Plain (a ++ b) := by
  intro c hc
  rcases List.mem_append.mp hc with h | h
  · exact ha c h
  · exact hb c h

theorem braceless_append {a b : List Byte} (ha : Braceless a) (hb : Braceless b) : Braceless (a ++ b) := by
  intro c hc
  rcases List.mem_append.mp hc with h | h
  · exact ha c h
  · exact hb c h

instance (t : List Byte) : Decidable (Plain t) := by unfold Plain; infer_instance
instance (t : List Byte) : Decidable (Braceless t) := by unfold Braceless; infer_instance

theorem plain_formatBool (b : Bool) : Plain (formatBool b) := by cases b <;> decide

theorem plain_formatInt (n : Int) : Plain (Format.formatInt n) := by
  have hd : ∀ m, Plain (Format.decimal m) := by
    intro m c hc
    have := Format.decimal_digits m c hc
    refine ⟨?_, ?_, ?_⟩ <;> rintro rfl <;> simp [semi, lbrace, rbrace] at this
  unfold Format.formatInt
  split
  · intro c hc
    simp only [List.mem_cons] at hc
    rcases hc with rfl | hc
    · decide
    · exact hd _ c hc
  · exact hd _

theorem setting_whole {k : String} {v : List Byte} (hk : Plain (ascii k.toList)) (hv : Plain v) : Whole (setting k v) := by
  apply Plain.whole
  unfold setting
  apply plain_append hk
  intro c hc
  simp only [List.mem_cons] at hc
  rcases hc with rfl | hc
  · decide
  · exact hv c hc

theorem bracedSetting_whole {k : String} {v : List Byte} (hk : Plain (ascii k.toList)) (hv : Braceless v) :
    Whole (braced k v) := by
  unfold braced
  have : ascii k.toList ++ equals :: lbrace :: (v ++ [rbrace]) = (ascii k.toList ++ [equals]) ++ lbrace :: (v ++ [rbrace]) := by
    simp
  rw [this]
  exact braced_whole (plain_append hk (by decide)) hv

theorem written_whole (i : Info) (h : i.Ok) : ∀ x ∈ written i, Whole x := by
  intro x hx
  have b1 : Braceless (ascii "source=".toList ++ i.sourceInfo ++ ascii ";version=".toList ++ i.versionInfo ++
     ascii ";updatedOn=".toList ++ i.updatedOnInfo) := by
    refine braceless_append (braceless_append (braceless_append (braceless_append (braceless_append ?_ h.sourceInfo) ?_)
      h.versionInfo) ?_) h.updatedOnInfo <;> decide
  have b2 : Braceless (ascii "localport=".toList ++ Format.formatInt i.dataChannelLocalPort.toNat) :=
    braceless_append (by decide) (plain_formatInt _).braceless
  simp only [written, fixedSettings, List.mem_append, List.mem_cons, List.not_mem_nil, or_false] at hx
  rcases hx with ((((hx | hx) | hx) | hx) | hx) | hx
  · rcases hx with rfl | rfl | rfl | rfl | rfl | rfl | rfl | rfl | rfl | rfl | rfl
    · exact setting_whole (by decide) (plain_formatBool _)
    · exact setting_whole (by decide) h.publishInterval
    · exact setting_whole (by decide) (plain_formatBool _)
    · exact setting_whole (by decide) (plain_formatBool _)
    · exact setting_whole (by decide) h.lagTime
    · exact setting_whole (by decide) h.leadTime
    · exact setting_whole (by decide) (plain_formatBool _)
    · exact setting_whole (by decide) (plain_formatInt _)
    · exact setting_whole (by decide) (plain_formatBool _)
    · exact (plain_append (by decide) (plain_formatBool _)).whole
    · exact bracedSetting_whole (by decide) b1
  · split at hx
    · rw [List.mem_singleton] at hx; subst hx; exact bracedSetting_whole (by decide) h.filterExpression
    · simp at hx
  · split at hx
    · rw [List.mem_singleton] at hx; subst hx; exact bracedSetting_whole (by decide) b2
    · simp at hx
  · split at hx
    · rw [List.mem_singleton] at hx; subst hx; exact setting_whole (by decide) h.startTime
    · simp at hx
  · split at hx
    · rw [List.mem_singleton] at hx; subst hx; exact setting_whole (by decide) h.stopTime
    · simp at hx
  · split at hx
    · rw [List.mem_singleton] at hx; subst hx; exact setting_whole (by decide) h.constraintParameters
    · simp at hx

theorem keyValue_setting {k : String} {v : List Byte} (hk : equals ∉ ascii k.toList) (hv : Plain v) :
    keyValue (setting k v) = (ascii k.toList, some v) := by
  rw [setting, keyValue_eq _ _ hk, unbrace_plain hv]

theorem keyValue_braced {k : String} {v : List Byte} (hk : equals ∉ ascii k.toList) :
    keyValue (braced k v) = (ascii k.toList, some v) := by
  rw [braced, keyValue_eq _ _ hk, unbrace_braced]

/-! ## C32 -/

/-- The settings of a subscription as they should be read, in order, but for the one that is misspelt. -/
def wanted (i : Info) (nan : List Byte × Option (List Byte)) : List (List Byte × Option (List Byte)) :=
  [(ascii "throttled".toList, some (boolText i.throttled)),
   (ascii "publishInterval".toList, some i.publishInterval),
   (ascii "includeTime".toList, some (boolText i.includeTime)),
   (ascii "enableTimeReasonabilityCheck".toList, some (boolText i.enableTimeReasonabilityCheck)),
   (ascii "lagTime".toList, some i.lagTime),
   (ascii "leadTime".toList, some i.leadTime),
   (ascii "useLocalClockAsRealTime".toList, some (boolText i.useLocalClockAsRealTime)),
   (ascii "processingInterval".toList, some (intText i.processingInterval.toInt)),
   (ascii "useMillisecondResolution".toList, some (boolText i.useMillisecondResolution)),
   nan,
   (ascii "assemblyInfo".toList, some (ascii "source=".toList ++ i.sourceInfo ++ ascii ";version=".toList ++ i.versionInfo ++
     ascii ";updatedOn=".toList ++ i.updatedOnInfo))] ++
  optional "filterExpression" i.filterExpression ++
  (if i.udpDataChannel then
    [(ascii "dataChannel".toList, some (ascii "localport=".toList ++ intText i.dataChannelLocalPort.toNat))] else []) ++
  optional "startTimeConstraint" i.startTime ++
  optional "stopTimeConstraint" i.stopTime ++
  optional "timeConstraintParameters" i.constraintParameters

theorem keyValue_nan (b : Bool) : keyValue (ascii "requestNaNValueFilter".toList ++ formatBool b) =
    (ascii "requestNaNValueFilter".toList ++ boolText b, none) := by cases b <;> decide

theorem formatBool_eq (b : Bool) : formatBool b = boolText b := by cases b <;> rfl

theorem map_if_setting (k : String) (v : List Byte) (hk : equals ∉ ascii k.toList) (hv : Plain v) :
    (if v.length > 0 then [setting k v] else []).map keyValue = optional k v := by
  unfold optional
  cases v with
  | nil => rfl
  | cons c cs =>
    rw [if_pos (by simp), if_neg (by simp), List.map_singleton, keyValue_setting hk hv]

theorem map_if_braced (k : String) (v : List Byte) (hk : equals ∉ ascii k.toList) :
    (if v.length > 0 then [braced k v] else []).map keyValue = optional k v := by
  unfold optional
  cases v with
  | nil => rfl
  | cons c cs =>
    rw [if_pos (by simp), if_neg (by simp), List.map_singleton, keyValue_braced hk]

theorem map_written (i : Info) (h : i.Ok) : (written i).map keyValue =
    wanted i (ascii "requestNaNValueFilter".toList ++ boolText i.requestNaNValueFilter, none) := by
  unfold written fixedSettings wanted
  rw [List.map_append, List.map_append, List.map_append, List.map_append, List.map_append,
    map_if_braced _ _ (by decide), map_if_setting _ _ (by decide) h.startTime, map_if_setting _ _ (by decide) h.stopTime,
    map_if_setting _ _ (by decide) h.constraintParameters]
  have e1 : (if i.udpDataChannel = true then
      [braced "dataChannel" (ascii "localport=".toList ++ Format.formatInt i.dataChannelLocalPort.toNat)] else []).map keyValue =
      (if i.udpDataChannel = true then
        [(ascii "dataChannel".toList, some (ascii "localport=".toList ++ intText i.dataChannelLocalPort.toNat))] else []) := by
    split
    · rw [List.map_singleton, keyValue_braced (by decide)]; rfl
    · rfl
  rw [e1]
  simp only [List.map_cons, List.map_nil]
  rw [keyValue_setting (by decide) (plain_formatBool _), keyValue_setting (by decide) h.publishInterval,
    keyValue_setting (by decide) (plain_formatBool _), keyValue_setting (by decide) (plain_formatBool _),
    keyValue_setting (by decide) h.lagTime, keyValue_setting (by decide) h.leadTime,
    keyValue_setting (by decide) (plain_formatBool _), keyValue_setting (by decide) (plain_formatInt _),
    keyValue_setting (by decide) (plain_formatBool _), keyValue_nan, keyValue_braced (by decide)]
  simp only [formatBool_eq]
  rfl

/-- C32: for all settings and all texts (plain; semicolons allowed between braces), the string reads back as exactly the
requested settings in order, each once, followed by whatever the extra parameters read as. Missing from the full statement: the
NaN filter, whose setting has no equals sign and reads as a key `requestNaNValueFiltertrue` without a value
(`C32_nan_filter_false`). -/
theorem C32_settings_partial (i : Info) (h : i.Ok) : readSettings (parameterString i) =
    wanted i (ascii "requestNaNValueFilter".toList ++ boolText i.requestNaNValueFilter, none) ++
      (if i.extraParameters = [] then [] else readSettings i.extraParameters) := by
  have hne : written i ≠ [] := ne_append (ne_append (ne_append (ne_append (ne_append (fixed_ne i)))))
  rw [parameterString_eq, ← map_written i h, readSettings]
  obtain ⟨h1, h2⟩ := settings_joined (written i) (written_whole i h) hne i.extraParameters
  cases hx : i.extraParameters with
  | nil =>
    rw [if_neg (by simp), if_pos rfl, List.append_nil, List.append_nil, h1]
  | cons c cs =>
    rw [if_pos (by simp), if_neg (by simp), ← hx, h2, List.map_append, readSettings]

/-- The decimal text of the processing interval reads back as the number. -/
theorem C32_interval_text (n : BitVec 32) : ∃ neg : Bool, ∃ digits, intText n.toInt = (if neg then 45 :: digits else digits) ∧
    n.toInt = if neg then -(Format.readDecimal digits : Int) else Format.readDecimal digits := by
  unfold intText Format.formatInt
  by_cases hn : n.toInt < 0
  · refine ⟨true, Format.decimal n.toInt.natAbs, ?_, ?_⟩
    · rw [if_pos hn]; rfl
    · rw [Format.readDecimal_decimal]; simp only [if_true]; omega
  · refine ⟨false, Format.decimal n.toInt.natAbs, ?_, ?_⟩
    · rw [if_neg hn]; rfl
    · rw [Format.readDecimal_decimal]; simp only [Bool.false_eq_true, if_false]; omega

/-- C32 fails for the NaN filter: whether requested or not, the string has no setting of that name. -/
theorem C32_nan_filter_false (i : Info) (h : i.Ok) (hx : i.extraParameters = []) :
    ∀ p ∈ readSettings (parameterString i), p.1 ≠ ascii "requestNaNValueFilter".toList := by
  rw [C32_settings_partial i h, if_pos hx, List.append_nil]
  intro p hp
  simp only [wanted, List.mem_append, List.mem_cons, List.not_mem_nil, or_false, optional] at hp
  rcases hp with ((((hp | hp) | hp) | hp) | hp) | hp
  · rcases hp with rfl | rfl | rfl | rfl | rfl | rfl | rfl | rfl | rfl | rfl | rfl
    all_goals first | decide | (dsimp only; cases i.requestNaNValueFilter <;> decide)
  all_goals
    split at hp
    · first
      | exact absurd hp List.not_mem_nil
      | (rw [List.mem_singleton] at hp; subst hp; dsimp only; decide)
    · first
      | exact absurd hp List.not_mem_nil
      | (rw [List.mem_singleton] at hp; subst hp; dsimp only; decide)

/-- On the wire: a successful `Subscribe` sends command 2 with the compact flag, the length of the string and the string. -/
theorem C32_wire (i : Info) (cfg : Cfg) (env1 env2 : Env) (s s' : St) (hw : env2.writeOk = true) (hs : s.subscribed = false)
    (h : Session.subscribe cfg env1 env2 (parameterString i) s = .ok s') :
    s'.log = s.log ++ [.sent (beBytes 4 ((subscribePayload i).length + 1) ++ [2] ++ subscribePayload i)] := by
  unfold Session.subscribe at h
  split at h
  · cases h
  rename_i hc
  split at h
  · cases h
  rw [hs] at h
  simp only [Bool.false_eq_true, if_false, Res.bind_ok] at h
  unfold Session.sendCommand at h
  rw [if_neg (by simpa using hc)] at h
  split at h
  · cases h
  · simp only [hw, if_true, Res.bind_ok] at h
    injection h with h
    rw [← h]
    rfl

/-- A subscription with a filter with semicolons, a start time, a negative interval and extra parameters. -/
def exInfo : Info where
  throttled := false
  publishInterval := ascii "1.000000".toList
  includeTime := true
  enableTimeReasonabilityCheck := false
  lagTime := ascii "10.000000".toList
  leadTime := ascii "5.000000".toList
  useLocalClockAsRealTime := false
  processingInterval := -1
  useMillisecondResolution := false
  requestNaNValueFilter := true
  sourceInfo := ascii "STTP Go API".toList
  versionInfo := ascii "1.0".toList
  updatedOnInfo := ascii "2022".toList
  filterExpression := ascii "PPA:1;PPA:2".toList
  udpDataChannel := true
  dataChannelLocalPort := 9600
  startTime := ascii "*-5M".toList
  stopTime := []
  constraintParameters := []
  extraParameters := ascii "a=1;b={x;y}".toList

/-- The hypotheses hold of it. -/
example : exInfo.Ok := by constructor <;> decide

example : ({ exInfo with extraParameters := [] } : Info).extraParameters = [] := rfl

theorem exInfo_length : (parameterString exInfo).length ≤ 1000 := by decide +kernel

/-- A `Subscribe` that succeeds. -/
example : exSt.subscribed = false ∧
    ∃ s', Session.subscribe exCfg ⟨true, none⟩ ⟨true, none⟩ (parameterString exInfo) exSt = .ok s' := by
  have h := exInfo_length
  generalize parameterString exInfo = p at h
  refine ⟨rfl, ?_⟩
  unfold Session.subscribe
  rw [if_neg (by decide), if_neg (by decide)]
  simp only [show exSt.subscribed = false from rfl, Bool.false_eq_true, if_false, Res.bind_ok]
  unfold Session.sendCommand
  rw [if_neg (by decide), if_neg (by simp [Session.maxPacketSize]; omega)]
  exact ⟨_, rfl⟩

end Verif.Modes
