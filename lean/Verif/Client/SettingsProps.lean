import Verif.Client.Sequence
import Verif.Format.FloatProps

/-!
# The settings of a subscription reach the publisher (C96)
-/

namespace Verif.Client

open Verif.Session (Env St Event Adds Confirms sendCommand cmdMetadataRefresh cmdSubscribe)
open Verif.Modes (ascii boolText intText readSettings Plain Braceless)

/-- The value of the first setting of that name, if there is one; it may have none. -/
def setting (k : String) (t : List Byte) : Option (Option (List Byte)) := (readSettings t).lookup (ascii k.toList)

/-- The text has a decimal number for the setting that differs from `x` by less than a millionth. -/
def Near (k : String) (t : List Byte) (x : ℚ) : Prop := ∃ v, setting k t = some (some v) ∧ |Format.readFixed v - x| < 1 / 10 ^ 6

/-- The text asks for this filter and these settings. A text setting that is empty, and no UDP port, is not mentioned; then, and only then, the
extra parameters may have one. -/
structure Asks (t : List Byte) (filter : List Byte) (s : Settings) : Prop where
  throttled : setting "throttled" t = some (some (boolText s.throttled))
  includeTime : setting "includeTime" t = some (some (boolText s.includeTime))
  check : setting "enableTimeReasonabilityCheck" t = some (some (boolText s.enableTimeReasonabilityCheck))
  localClock : setting "useLocalClockAsRealTime" t = some (some (boolText s.useLocalClockAsRealTime))
  milliseconds : setting "useMillisecondResolution" t = some (some (boolText s.useMillisecondResolution))
  processing : setting "processingInterval" t = some (some (intText s.processingInterval.toInt))
  publishInterval : Near "publishInterval" t (Format.doubleValue s.publishInterval)
  lagTime : Near "lagTime" t (Format.doubleValue s.lagTime)
  leadTime : Near "leadTime" t (Format.doubleValue s.leadTime)
  filter : setting "filterExpression" t = if filter = [] then setting "filterExpression" s.extraParameters else some (some filter)
  udp : setting "dataChannel" t = if s.udpPort = 0 then setting "dataChannel" s.extraParameters else
    some (some (ascii "localport=".toList ++ intText s.udpPort.toNat))
  start : setting "startTimeConstraint" t =
    if s.startTime = [] then setting "startTimeConstraint" s.extraParameters else some (some s.startTime)
  stop : setting "stopTimeConstraint" t =
    if s.stopTime = [] then setting "stopTimeConstraint" s.extraParameters else some (some s.stopTime)
  parameters : setting "timeConstraintParameters" t =
    if s.constraintParameters = [] then setting "timeConstraintParameters" s.extraParameters else some (some s.constraintParameters)
  /-- as the code writes it, without an equals sign (`C32_nan_filter_false`) -/
  nan : (readSettings t).lookup (ascii "requestNaNValueFilter".toList ++ boolText s.requestNaNValueFilter) = some none

/-- Settings that can be written: finite numbers, texts without semicolons and braces. -/
structure Settings.Plain (s : Settings) : Prop where
  publishInterval : s.publishInterval.toNat / 2 ^ 52 % 2 ^ 11 ≠ 2047
  lagTime : s.lagTime.toNat / 2 ^ 52 % 2 ^ 11 ≠ 2047
  leadTime : s.leadTime.toNat / 2 ^ 52 % 2 ^ 11 ≠ 2047
  startTime : Modes.Plain s.startTime
  stopTime : Modes.Plain s.stopTime
  constraintParameters : Modes.Plain s.constraintParameters

/-- The texts about the subscriber itself have no braces. -/
structure App.Named (c : App) : Prop where
  source : Braceless c.sourceInfo
  version : Braceless c.versionInfo
  updatedOn : Braceless c.updatedOnInfo

theorem plain_format {f : BitVec 64} (hf : f.toNat / 2 ^ 52 % 2 ^ 11 ≠ 2047) (prec : Nat) : Modes.Plain (Format.formatFloat f prec) := by
  obtain ⟨whole, places, h1, h2, -⟩ := Format.C93_shape f hf prec
  rw [h1]
  have digit : ∀ b : Byte, 48 ≤ b.toNat ∧ b.toNat ≤ 57 → b ≠ Modes.semi ∧ b ≠ Modes.lbrace ∧ b ≠ Modes.rbrace := by
    intro b hb
    refine ⟨?_, ?_, ?_⟩ <;> rintro rfl <;> revert hb <;> decide
  intro b hb
  rw [List.mem_append, List.mem_append] at hb
  rcases hb with (hb | hb) | hb
  · split at hb
    · rw [List.mem_singleton] at hb; subst hb; decide
    · simp at hb
  · exact digit b (h2 b (by simp [hb]))
  · split at hb
    · simp at hb
    · rcases List.mem_cons.1 hb with rfl | hb
      · decide
      · exact digit b (h2 b (by simp [hb]))

theorem info_ok {c : App} {f : List Byte} {s : Settings} (hc : c.sub = setSubscription f s) (hn : c.Named) (hs : s.Plain) (hf : Braceless f) :
    c.info.Ok := by
  unfold App.info
  rw [hc]
  exact ⟨plain_format hs.publishInterval 6, plain_format hs.lagTime 6, plain_format hs.leadTime 6, hs.startTime, hs.stopTime,
    hs.constraintParameters, hn.source, hn.version, hn.updatedOn, hf⟩

theorem near {f : BitVec 64} (hf : f.toNat / 2 ^ 52 % 2 ^ 11 ≠ 2047) :
    |Format.readFixed (Format.formatFloat f 6) - Format.doubleValue f| < 1 / 10 ^ 6 :=
  lt_of_le_of_lt (Format.C93_value_partial f hf 6) (by norm_num)

theorem lookup_optional (k k' : String) (v : List Byte) (rest : List (List Byte × Option (List Byte))) :
    (Modes.optional k' v ++ rest).lookup (ascii k.toList) =
      if ascii k.toList = ascii k'.toList ∧ v ≠ [] then some (some v) else rest.lookup (ascii k.toList) := by
  unfold Modes.optional
  by_cases hv : v = []
  · simp [hv]
  · rw [if_neg hv, List.singleton_append, List.lookup_cons]
    by_cases hk : ascii k.toList = ascii k'.toList
    · simp [hk, hv]
    · rw [if_neg (by simp [hk])]
      have : (ascii k.toList == ascii k'.toList) = false := by simpa using hk
      rw [this]

/-- Settings that are always written. -/
def always (i : Modes.Info) : List (List Byte × Option (List Byte)) :=
  [(ascii "throttled".toList, some (boolText i.throttled)),
   (ascii "publishInterval".toList, some i.publishInterval),
   (ascii "includeTime".toList, some (boolText i.includeTime)),
   (ascii "enableTimeReasonabilityCheck".toList, some (boolText i.enableTimeReasonabilityCheck)),
   (ascii "lagTime".toList, some i.lagTime),
   (ascii "leadTime".toList, some i.leadTime),
   (ascii "useLocalClockAsRealTime".toList, some (boolText i.useLocalClockAsRealTime)),
   (ascii "processingInterval".toList, some (intText i.processingInterval.toInt)),
   (ascii "useMillisecondResolution".toList, some (boolText i.useMillisecondResolution)),
   (ascii "requestNaNValueFilter".toList ++ boolText i.requestNaNValueFilter, none),
   (ascii "assemblyInfo".toList, some (ascii "source=".toList ++ i.sourceInfo ++ ascii ";version=".toList ++ i.versionInfo ++
     ascii ";updatedOn=".toList ++ i.updatedOnInfo))]

theorem lookup_cons_ne {k a : List Byte} {v : Option (List Byte)} {l : List (List Byte × Option (List Byte))} (h : k ≠ a) :
    List.lookup k ((a, v) :: l) = List.lookup k l := by
  rw [List.lookup_cons]
  have : (k == a) = false := by simpa using h
  rw [this]

theorem lookup_cons_eq {k : List Byte} {v : Option (List Byte)} {l : List (List Byte × Option (List Byte))} :
    List.lookup k ((k, v) :: l) = some v := by
  rw [List.lookup_cons, beq_self_eq_true]

theorem lookup_always (i : Modes.Info) (k : List Byte) (h : ∀ p ∈ always i, p.1 ≠ k) (rest : List (List Byte × Option (List Byte))) :
    (always i ++ rest).lookup k = rest.lookup k := by
  generalize always i = l at h
  induction l with
  | nil => rfl
  | cons p l ih =>
    obtain ⟨a, v⟩ := p
    rw [List.cons_append, lookup_cons_ne (Ne.symm (h (a, v) (by simp)))]
    exact ih fun p hp => h p (by simp [hp])

theorem not_always (i : Modes.Info) (k : String) (h : ascii k.toList ∉ [ascii "throttled".toList, ascii "publishInterval".toList,
    ascii "includeTime".toList, ascii "enableTimeReasonabilityCheck".toList, ascii "lagTime".toList, ascii "leadTime".toList,
    ascii "useLocalClockAsRealTime".toList, ascii "processingInterval".toList, ascii "useMillisecondResolution".toList,
    ascii "requestNaNValueFilterfalse".toList, ascii "requestNaNValueFiltertrue".toList, ascii "assemblyInfo".toList]) :
    ∀ p ∈ always i, p.1 ≠ ascii k.toList := by
  have h1 : ascii "requestNaNValueFilter".toList ++ boolText false = ascii "requestNaNValueFilterfalse".toList := by decide
  have h2 : ascii "requestNaNValueFilter".toList ++ boolText true = ascii "requestNaNValueFiltertrue".toList := by decide
  unfold always
  generalize ascii k.toList = key at *
  cases i.requestNaNValueFilter
  · rw [h1]
    intro p hp he
    subst he
    simp only [List.mem_cons, List.not_mem_nil, or_false] at hp h
    rcases hp with rfl | rfl | rfl | rfl | rfl | rfl | rfl | rfl | rfl | rfl | rfl <;> simp at h
  · rw [h2]
    intro p hp he
    subst he
    simp only [List.mem_cons, List.not_mem_nil, or_false] at hp h
    rcases hp with rfl | rfl | rfl | rfl | rfl | rfl | rfl | rfl | rfl | rfl | rfl <;> simp at h

theorem setting_extra (k : String) (hk : ascii k.toList ≠ []) (x : List Byte) :
    List.lookup (ascii k.toList) (if x = [] then [] else readSettings x) = setting k x := by
  unfold setting
  split
  · rename_i hx
    subst hx
    rw [show readSettings [] = [([], none)] from rfl, lookup_cons_ne hk]
  · rfl

/-- The parameter string asks for the settings it was made from. -/
theorem asks {c : App} {f : List Byte} {s : Settings} (hc : c.sub = setSubscription f s) (hn : c.Named) (hs : s.Plain) (hf : Braceless f) :
    Asks (Modes.parameterString c.info) f s := by
  have h := Modes.C32_settings_partial c.info (info_ok hc hn hs hf)
  have hi : c.info = { c.info with
      throttled := s.throttled
      publishInterval := Format.formatFloat s.publishInterval 6
      includeTime := s.includeTime
      enableTimeReasonabilityCheck := s.enableTimeReasonabilityCheck
      lagTime := Format.formatFloat s.lagTime 6
      leadTime := Format.formatFloat s.leadTime 6
      useLocalClockAsRealTime := s.useLocalClockAsRealTime
      processingInterval := s.processingInterval
      useMillisecondResolution := s.useMillisecondResolution
      requestNaNValueFilter := s.requestNaNValueFilter
      filterExpression := f
      udpDataChannel := decide (s.udpPort > 0)
      dataChannelLocalPort := if s.udpPort > 0 then s.udpPort else 0
      startTime := s.startTime
      stopTime := s.stopTime
      constraintParameters := s.constraintParameters
      extraParameters := s.extraParameters } := by
    unfold App.info
    rw [hc]
    rfl
  generalize c.info = i at *
  have hset0 : ∀ k : List Byte, (readSettings (Modes.parameterString i)).lookup k = List.lookup k (always i ++ (Modes.optional "filterExpression" f ++
      ((if s.udpPort > 0 then [(ascii "dataChannel".toList, some (ascii "localport=".toList ++ intText s.udpPort.toNat))] else []) ++
      (Modes.optional "startTimeConstraint" s.startTime ++ (Modes.optional "stopTimeConstraint" s.stopTime ++
      (Modes.optional "timeConstraintParameters" s.constraintParameters ++
      (if s.extraParameters = [] then [] else readSettings s.extraParameters))))))) := by
    intro k
    rw [h, Modes.wanted]
    rw [show i.filterExpression = f by rw [hi], show i.startTime = s.startTime by rw [hi], show i.stopTime = s.stopTime by rw [hi],
      show i.constraintParameters = s.constraintParameters by rw [hi], show i.extraParameters = s.extraParameters by rw [hi],
      show i.udpDataChannel = decide (s.udpPort > 0) by rw [hi], show i.dataChannelLocalPort = if s.udpPort > 0 then s.udpPort else 0 by rw [hi]]
    have hu : (if decide (s.udpPort > 0) = true then [(ascii "dataChannel".toList, some (ascii "localport=".toList ++
        intText (if s.udpPort > 0 then s.udpPort else 0).toNat))] else []) =
        (if s.udpPort > 0 then [(ascii "dataChannel".toList, some (ascii "localport=".toList ++ intText s.udpPort.toNat))] else []) := by
      by_cases hu : s.udpPort > 0
      · rw [if_pos (decide_eq_true hu), if_pos hu, if_pos hu]
      · rw [if_neg (by simpa using hu), if_neg hu]
    rw [hu]
    unfold always
    simp only [List.append_assoc]
  have hset : ∀ k : String, setting k (Modes.parameterString i) = _ := fun k => hset0 (ascii k.toList)
  have hport : s.udpPort > 0 ↔ ¬ s.udpPort = 0 := by
    constructor
    · rintro h1 h2; rw [h2] at h1; exact absurd h1 (by decide)
    · intro h1
      have : s.udpPort.toNat ≠ 0 := fun h2 => h1 (BitVec.eq_of_toNat_eq h2)
      exact show (0 : Nat) < s.udpPort.toNat by omega
  have hrest : ∀ (k : String) (_ : ∀ p ∈ always i, p.1 ≠ ascii k.toList), ascii k.toList ≠ [] → setting k (Modes.parameterString i) =
      if ascii k.toList = ascii "filterExpression".toList ∧ f ≠ [] then some (some f)
      else if ascii k.toList = ascii "dataChannel".toList ∧ s.udpPort ≠ 0 then some (some (ascii "localport=".toList ++ intText s.udpPort.toNat))
      else if ascii k.toList = ascii "startTimeConstraint".toList ∧ s.startTime ≠ [] then some (some s.startTime)
      else if ascii k.toList = ascii "stopTimeConstraint".toList ∧ s.stopTime ≠ [] then some (some s.stopTime)
      else if ascii k.toList = ascii "timeConstraintParameters".toList ∧ s.constraintParameters ≠ [] then some (some s.constraintParameters)
      else setting k s.extraParameters := by
    intro k hk hne
    have hu : ∀ rest : List (List Byte × Option (List Byte)), List.lookup (ascii k.toList)
        ((if s.udpPort > 0 then [(ascii "dataChannel".toList, some (ascii "localport=".toList ++ intText s.udpPort.toNat))] else []) ++ rest) =
        if ascii k.toList = ascii "dataChannel".toList ∧ s.udpPort ≠ 0 then some (some (ascii "localport=".toList ++ intText s.udpPort.toNat))
        else List.lookup (ascii k.toList) rest := by
      intro rest
      by_cases hu : s.udpPort = 0
      · rw [if_neg (fun h => hport.1 h hu), if_neg (fun h => h.2 hu)]; rfl
      · rw [if_pos (hport.2 hu), List.singleton_append]
        by_cases hk' : ascii k.toList = ascii "dataChannel".toList
        · rw [if_pos ⟨hk', hu⟩, hk', lookup_cons_eq]
        · rw [if_neg (fun h => hk' h.1), lookup_cons_ne hk']
    rw [hset, lookup_always i _ hk, lookup_optional, hu, lookup_optional, lookup_optional, lookup_optional, setting_extra k hne]
  have first : ∀ (k : String) (v : List Byte), (∀ rest, List.lookup (ascii k.toList) (always i ++ rest) = some (some v)) →
      setting k (Modes.parameterString i) = some (some v) := fun k v hk => by rw [hset, hk]
  have e1 : i.throttled = s.throttled := by rw [hi]
  have e2 : i.publishInterval = Format.formatFloat s.publishInterval 6 := by rw [hi]
  have e3 : i.includeTime = s.includeTime := by rw [hi]
  have e4 : i.enableTimeReasonabilityCheck = s.enableTimeReasonabilityCheck := by rw [hi]
  have e5 : i.lagTime = Format.formatFloat s.lagTime 6 := by rw [hi]
  have e6 : i.leadTime = Format.formatFloat s.leadTime 6 := by rw [hi]
  have e7 : i.useLocalClockAsRealTime = s.useLocalClockAsRealTime := by rw [hi]
  have e8 : i.processingInterval = s.processingInterval := by rw [hi]
  have e9 : i.useMillisecondResolution = s.useMillisecondResolution := by rw [hi]
  have e10 : i.requestNaNValueFilter = s.requestNaNValueFilter := by rw [hi]
  clear hi h
  constructor
  · exact first _ _ fun rest => by rw [always, e1, List.cons_append, lookup_cons_eq]
  · exact first _ _ fun rest => by
      rw [always, e3, List.cons_append, lookup_cons_ne (by decide), List.cons_append, lookup_cons_ne (by decide), List.cons_append, lookup_cons_eq]
  · exact first _ _ fun rest => by
      rw [always, e4]; simp only [List.cons_append]
      rw [lookup_cons_ne (by decide), lookup_cons_ne (by decide), lookup_cons_ne (by decide), lookup_cons_eq]
  · exact first _ _ fun rest => by
      rw [always, e7]; simp only [List.cons_append]
      rw [lookup_cons_ne (by decide), lookup_cons_ne (by decide), lookup_cons_ne (by decide), lookup_cons_ne (by decide),
        lookup_cons_ne (by decide), lookup_cons_ne (by decide), lookup_cons_eq]
  · exact first _ _ fun rest => by
      rw [always, e9]; simp only [List.cons_append]
      rw [lookup_cons_ne (by decide), lookup_cons_ne (by decide), lookup_cons_ne (by decide), lookup_cons_ne (by decide),
        lookup_cons_ne (by decide), lookup_cons_ne (by decide), lookup_cons_ne (by decide), lookup_cons_ne (by decide), lookup_cons_eq]
  · exact first _ _ fun rest => by
      rw [always, e8]; simp only [List.cons_append]
      rw [lookup_cons_ne (by decide), lookup_cons_ne (by decide), lookup_cons_ne (by decide), lookup_cons_ne (by decide),
        lookup_cons_ne (by decide), lookup_cons_ne (by decide), lookup_cons_ne (by decide), lookup_cons_eq]
  · exact ⟨_, first _ _ fun rest => by
      rw [always, e2]; simp only [List.cons_append]
      rw [lookup_cons_ne (by decide), lookup_cons_eq], near hs.publishInterval⟩
  · exact ⟨_, first _ _ fun rest => by
      rw [always, e5]; simp only [List.cons_append]
      rw [lookup_cons_ne (by decide), lookup_cons_ne (by decide), lookup_cons_ne (by decide), lookup_cons_ne (by decide), lookup_cons_eq],
      near hs.lagTime⟩
  · exact ⟨_, first _ _ fun rest => by
      rw [always, e6]; simp only [List.cons_append]
      rw [lookup_cons_ne (by decide), lookup_cons_ne (by decide), lookup_cons_ne (by decide), lookup_cons_ne (by decide),
        lookup_cons_ne (by decide), lookup_cons_eq], near hs.leadTime⟩
  · rw [hrest _ (not_always i _ (by decide)) (by decide)]
    by_cases hx : f = []
    · rw [if_neg (fun h => h.2 hx), if_neg (fun h => absurd h.1 (by decide)), if_neg (fun h => absurd h.1 (by decide)),
        if_neg (fun h => absurd h.1 (by decide)), if_neg (fun h => absurd h.1 (by decide)), if_pos hx]
    · rw [if_pos ⟨rfl, hx⟩, if_neg hx]
  · rw [hrest _ (not_always i _ (by decide)) (by decide)]
    by_cases hx : s.udpPort = 0
    · rw [if_neg (fun h => absurd h.1 (by decide)), if_neg (fun h => h.2 hx), if_neg (fun h => absurd h.1 (by decide)),
        if_neg (fun h => absurd h.1 (by decide)), if_neg (fun h => absurd h.1 (by decide)), if_pos hx]
    · rw [if_neg (fun h => absurd h.1 (by decide)), if_pos ⟨rfl, hx⟩, if_neg hx]
  · rw [hrest _ (not_always i _ (by decide)) (by decide)]
    by_cases hx : s.startTime = []
    · rw [if_neg (fun h => absurd h.1 (by decide)), if_neg (fun h => absurd h.1 (by decide)), if_neg (fun h => h.2 hx),
        if_neg (fun h => absurd h.1 (by decide)), if_neg (fun h => absurd h.1 (by decide)), if_pos hx]
    · rw [if_neg (fun h => absurd h.1 (by decide)), if_neg (fun h => absurd h.1 (by decide)), if_pos ⟨rfl, hx⟩, if_neg hx]
  · rw [hrest _ (not_always i _ (by decide)) (by decide)]
    by_cases hx : s.stopTime = []
    · rw [if_neg (fun h => absurd h.1 (by decide)), if_neg (fun h => absurd h.1 (by decide)), if_neg (fun h => absurd h.1 (by decide)),
        if_neg (fun h => h.2 hx), if_neg (fun h => absurd h.1 (by decide)), if_pos hx]
    · rw [if_neg (fun h => absurd h.1 (by decide)), if_neg (fun h => absurd h.1 (by decide)), if_neg (fun h => absurd h.1 (by decide)),
        if_pos ⟨rfl, hx⟩, if_neg hx]
  · rw [hrest _ (not_always i _ (by decide)) (by decide)]
    by_cases hx : s.constraintParameters = []
    · rw [if_neg (fun h => absurd h.1 (by decide)), if_neg (fun h => absurd h.1 (by decide)), if_neg (fun h => absurd h.1 (by decide)),
        if_neg (fun h => absurd h.1 (by decide)), if_neg (fun h => h.2 hx), if_pos hx]
    · rw [if_neg (fun h => absurd h.1 (by decide)), if_neg (fun h => absurd h.1 (by decide)), if_neg (fun h => absurd h.1 (by decide)),
        if_neg (fun h => absurd h.1 (by decide)), if_pos ⟨rfl, hx⟩, if_neg hx]
  · rw [hset0, always, e10]; simp only [List.cons_append]
    have ne : ∀ k : String, ascii k.toList ∉ [ascii "requestNaNValueFilterfalse".toList, ascii "requestNaNValueFiltertrue".toList] →
        ascii "requestNaNValueFilter".toList ++ boolText s.requestNaNValueFilter ≠ ascii k.toList := by
      intro k hk
      have h1 : ascii "requestNaNValueFilter".toList ++ boolText false = ascii "requestNaNValueFilterfalse".toList := by decide
      have h2 : ascii "requestNaNValueFilter".toList ++ boolText true = ascii "requestNaNValueFiltertrue".toList := by decide
      cases s.requestNaNValueFilter
      · rw [h1]; intro he; exact hk (by rw [he]; simp)
      · rw [h2]; intro he; exact hk (by rw [he]; simp)
    rw [lookup_cons_ne (ne _ (by decide)), lookup_cons_ne (ne _ (by decide)), lookup_cons_ne (ne _ (by decide)), lookup_cons_ne (ne _ (by decide)),
      lookup_cons_ne (ne _ (by decide)), lookup_cons_ne (ne _ (by decide)), lookup_cons_ne (ne _ (by decide)), lookup_cons_ne (ne _ (by decide)),
      lookup_cons_ne (ne _ (by decide)), lookup_cons_eq]

/-! ## C96 -/

/-- The payload of a `Subscribe` command: flags for the compact format, length of the text, text. -/
def subscription (t : List Byte) : Event := frame 2 (0x02 :: beBytes 4 t.length ++ t)

theorem subscription_eq (i : Modes.Info) : frame 2 (Modes.subscribePayload i) = subscription (Modes.parameterString i) := rfl

/-- C96, connected: `Subscribe` on a validated connection sends a `Subscribe` command that asks for the filter and every setting given, after the
end of the previous subscription if there is one. Missing from the full statement: the filter for NaN (`C32_nan_filter_false`). -/
theorem C96_sent_partial (net : Net) (filter : List Byte) (s : Settings) (c c' : App) (h : subscribe net filter (some s) c = .ok c')
    (hc : c.st.connected = true) (hv : c.version.toNat < 2 ∨ c.st.validated = true) (hu : s.udpPort ≠ 0 → net.udpOk = true)
    (hw : net.env.writeOk = true) (hn : c.Named) (hs : s.Plain) (hf : Braceless filter) : ∃ t, Asks t filter s ∧
      c'.st.log = c.st.log ++ (if c.st.subscribed ∧ c.st.validated then [frame 3 []] else []) ++ [subscription t] := by
  unfold subscribe at h
  dsimp only [Option.getD_some] at h
  rw [if_pos hc, Res.bind_eq_ok] at h
  obtain ⟨⟨c1, b⟩, h1, h⟩ := h
  injection h with h
  subst h
  obtain ⟨d, hd⟩ : ∃ d : App, d = { c with sub := setSubscription filter s } := ⟨_, rfl⟩
  have hd1 : d.st = c.st := by rw [hd]
  have hd2 : d.sub = setSubscription filter s := by rw [hd]
  have hd3 : d.version = c.version := by rw [hd]
  have hd4 : d.Named := by rw [hd]; exact ⟨hn.source, hn.version, hn.updatedOn⟩
  rw [← hd] at h1
  clear hd
  obtain ⟨-, h2⟩ := subscribe_exact h1 (by rw [hd1]; exact hc) (by rw [hd1, hd3]; exact hv) (by
    intro hx
    refine hu fun h0 => ?_
    rw [hd2] at hx
    change decide (s.udpPort > 0) = true at hx
    rw [h0] at hx
    exact absurd hx (by decide)) hw
  refine ⟨_, asks hd2 hd4 hs hf, ?_⟩
  rw [h2, frame_eq, subscription_eq, hd1]
  congr 1

/-- C96, defaults: without settings the subscription is not throttled, has a publish interval of one second, time, a lag time of ten and a lead
time of five seconds, the default processing interval, ticks, the publisher's clock, no data channel and no time constraints. -/
theorem C96_defaults (net : Net) (filter : List Byte) (c c' : App) (h : subscribe net filter none c = .ok c')
    (hc : c.st.connected = true) (hv : c.version.toNat < 2 ∨ c.st.validated = true) (hw : net.env.writeOk = true) (hn : c.Named)
    (hf : Braceless filter) : ∃ t, c'.st.log.getLast? = some (subscription t) ∧
      setting "throttled" t = some (some (ascii "false".toList)) ∧ setting "includeTime" t = some (some (ascii "true".toList)) ∧
      setting "enableTimeReasonabilityCheck" t = some (some (ascii "false".toList)) ∧
      setting "useLocalClockAsRealTime" t = some (some (ascii "false".toList)) ∧
      setting "useMillisecondResolution" t = some (some (ascii "false".toList)) ∧
      setting "processingInterval" t = some (some (ascii "-1".toList)) ∧
      Near "publishInterval" t 1 ∧ Near "lagTime" t 10 ∧ Near "leadTime" t 5 ∧
      setting "filterExpression" t = (if filter = [] then none else some (some filter)) ∧
      setting "dataChannel" t = none ∧ setting "startTimeConstraint" t = none ∧ setting "stopTimeConstraint" t = none ∧
      setting "timeConstraintParameters" t = none := by
  have hp : settingsDefaults.Plain := by
    refine ⟨by decide, by decide, by decide, ?_, ?_, ?_⟩ <;> intro x hx <;> cases hx
  obtain ⟨t, ht, hl⟩ := C96_sent_partial net filter settingsDefaults c c' h hc hv (fun hx => absurd rfl hx) hw hn hp hf
  have h1 : Format.doubleValue 0x3FF0000000000000 = 1 := by
    unfold Format.doubleValue
    rw [show (0x3FF0000000000000 : BitVec 64).toNat = 0x3FF0000000000000 from rfl]
    norm_num
  have h10 : Format.doubleValue 0x4024000000000000 = 10 := by
    unfold Format.doubleValue
    rw [show (0x4024000000000000 : BitVec 64).toNat = 0x4024000000000000 from rfl]
    norm_num
  have h5 : Format.doubleValue 0x4014000000000000 = 5 := by
    unfold Format.doubleValue
    rw [show (0x4014000000000000 : BitVec 64).toNat = 0x4014000000000000 from rfl]
    norm_num
  have none_of : ∀ k : String, ascii k.toList ≠ [] → setting k [] = none := by
    intro k hk
    rw [← setting_extra k hk, if_pos rfl]
    rfl
  refine ⟨t, by rw [hl]; simp, ht.throttled, ht.includeTime, ht.check, ht.localClock, ht.milliseconds, ?_, ?_, ?_, ?_, ?_, ?_, ?_, ?_, ?_⟩
  · rw [ht.processing]
    decide +kernel
  · rw [← h1]; exact ht.publishInterval
  · rw [← h10]; exact ht.lagTime
  · rw [← h5]; exact ht.leadTime
  · rw [ht.filter, show settingsDefaults.extraParameters = [] from rfl, none_of _ (by decide)]
  · rw [ht.udp, if_pos (show settingsDefaults.udpPort = 0 from rfl), show settingsDefaults.extraParameters = [] from rfl, none_of _ (by decide)]
  · rw [ht.start, if_pos (show settingsDefaults.startTime = [] from rfl), show settingsDefaults.extraParameters = [] from rfl, none_of _ (by decide)]
  · rw [ht.stop, if_pos (show settingsDefaults.stopTime = [] from rfl), show settingsDefaults.extraParameters = [] from rfl, none_of _ (by decide)]
  · rw [ht.parameters, if_pos (show settingsDefaults.constraintParameters = [] from rfl), show settingsDefaults.extraParameters = [] from rfl, none_of _ (by decide)]

/-- What a subscription is made of is the same. -/
structure Keeps (c c' : App) : Prop where
  sub : c'.sub = c.sub
  source : c'.sourceInfo = c.sourceInfo
  version : c'.versionInfo = c.versionInfo
  updatedOn : c'.updatedOnInfo = c.updatedOnInfo

theorem Keeps.trans {a b c : App} (h1 : Keeps a b) (h2 : Keeps b c) : Keeps a c :=
  ⟨h2.sub.trans h1.sub, h2.source.trans h1.source, h2.version.trans h1.version, h2.updatedOn.trans h1.updatedOn⟩

theorem Only.keeps {c c' : App} (h : Only c c') : Keeps c c' := by rw [h]; exact ⟨rfl, rfl, rfl, rfl⟩

theorem keeps_disconnect (c : App) : Keeps c (disconnect c) := by
  unfold disconnect
  split <;> exact ⟨rfl, rfl, rfl, rfl⟩

theorem keeps_step {lib : Lib} {x : Action} {c c' : App} (h : x.run lib c = .ok c') (hs : x.isSubscribe = false) : Keeps c c' := by
  cases x with
  | dial net r ps a cfg =>
    unfold Action.run at h
    dsimp only at h
    rw [Res.bind_eq_ok] at h
    obtain ⟨⟨c2, o⟩, h2, h⟩ := h
    injection h with h
    subst h
    by_cases ho : o = .refused
    · rcases dial_cases h2 with ⟨-, rfl, -⟩ | ⟨host, port, -, -, -, d, -, h3⟩
      · exact ⟨rfl, rfl, rfl, rfl⟩
      · rcases h3 with ⟨-, h3, -⟩ | ⟨-, e, -, ⟨-, h3, -⟩ | ⟨-, h3, -⟩⟩ <;> rw [ho] at h3 <;> cases h3
    · obtain ⟨host, port, rc, -, -, -, h3⟩ := dial_only h2 ho
      exact Keeps.trans (b := { configured host port { c with config := cfg.getD c.config } with reconnectCallback := rc })
        ⟨rfl, rfl, rfl, rfl⟩ h3.keeps
  | listen opened a cfg =>
    injection h with h
    subst h
    unfold listen
    split
    · exact ⟨rfl, rfl, rfl, rfl⟩
    split
    · exact ⟨rfl, rfl, rfl, rfl⟩
    split
    · exact ⟨rfl, rfl, rfl, rfl⟩
    · dsimp only
      split <;> exact ⟨rfl, rfl, rfl, rfl⟩
  | accept net => exact (accept_only h).keeps
  | disconnect => injection h with h; subst h; exact keeps_disconnect c
  | lost => injection h with h; subst h; exact ⟨rfl, rfl, rfl, rfl⟩
  | reconnect net r ps =>
    rcases reconnect_cases h with rfl | rfl | ⟨c2, c3, -, h2, h3, h4⟩
    · exact ⟨rfl, rfl, rfl, rfl⟩
    · exact keeps_disconnect c
    · exact (((establish_moves h2).1.trans (packets_moves h3).only).trans (handleConnect_moves h4).only).keeps
  | packet env body => exact (packet_moves h).only.keeps
  | metadata net => exact (metadataGoroutine_only h).keeps
  | changed net => exact (changed_moves h).only.keeps
  | requestMetadata net => exact (requestMetadata_moves h).only.keeps
  | subscribe net f s => cases hs
  | unsubscribe net =>
    change Client.unsubscribe net c = .ok c' at h
    unfold Client.unsubscribe at h
    rw [Res.bind_eq_ok] at h
    obtain ⟨st, -, h⟩ := h
    injection h with h
    subst h
    exact ⟨rfl, rfl, rfl, rfl⟩

theorem keeps_run {lib : Lib} {as : List Action} {c c' : App} (h : run lib as c = .ok c') (hs : ∀ x ∈ as, x.isSubscribe = false) : Keeps c c' := by
  induction as generalizing c with
  | nil => injection h with h; subst h; exact ⟨rfl, rfl, rfl, rfl⟩
  | cons x as ih =>
    rw [run, Res.bind_eq_ok] at h
    obtain ⟨c1, h1, h⟩ := h
    exact (keeps_step h1 (hs x (by simp))).trans (ih h fun y hy => hs y (by simp [hy]))

/-- A new subscriber's texts about itself. -/
theorem named_new : App.new.Named := by
  refine ⟨?_, ?_, ?_⟩ <;> unfold Braceless <;> decide

/-- C96, deferred: settings given while there is no connection send nothing, and are those every later automatic `Subscribe` asks for, whatever
happens in between except another `Subscribe` of the application: here the one after metadata. -/
theorem C96_deferred_partial (lib : Lib) (net net' : Net) (filter : List Byte) (s : Settings) (as : List Action) (c c1 c2 c3 : App)
    (hc : c.st.connected = false) (h1 : subscribe net filter (some s) c = .ok c1) (h2 : run lib as c1 = .ok c2)
    (has : ∀ x ∈ as, x.isSubscribe = false) (h3 : metadataGoroutine net' c2 = .ok c3) (hp : 0 < c2.pending)
    (ha : c2.config.autoRequestMetadata = true) (hb : c2.config.autoSubscribe = true) (hc2 : c2.st.connected = true)
    (hv : c2.version.toNat < 2 ∨ c2.st.validated = true) (hu : s.udpPort ≠ 0 → net'.udpOk = true) (hw : net'.env.writeOk = true)
    (hn : c.Named) (hs : s.Plain) (hf : Braceless filter) :
    c1.st = c.st ∧ ∃ t, Asks t filter s ∧ c3.st.log.getLast? = some (subscription t) := by
  have hc1 : c1 = { c with sub := setSubscription filter s } := by
    unfold subscribe at h1
    dsimp only [Option.getD_some] at h1
    rw [if_neg (by simp [hc])] at h1
    injection h1 with h1
    exact h1.symm
  have hk := keeps_run h2 has
  have hsub : c2.sub = setSubscription filter s := by rw [hk.sub, hc1]
  have hn2 : c2.Named := by
    constructor
    · rw [hk.source, hc1]; exact hn.source
    · rw [hk.version, hc1]; exact hn.version
    · rw [hk.updatedOn, hc1]; exact hn.updatedOn
  refine ⟨by rw [hc1], _, asks hsub hn2 hs hf, ?_⟩
  obtain ⟨-, h4⟩ := C97_after_metadata net' c2 c3 h3 hp ha hb hc2 hv (by
    intro hx
    refine hu fun h0 => ?_
    rw [hsub] at hx
    change decide (s.udpPort > 0) = true at hx
    rw [h0] at hx
    exact absurd hx (by decide)) hw
  rw [h4, subscription_eq, List.getLast?_append]
  rfl

/-- C96, deferred, without metadata: the `Subscribe` a connection begins with. -/
theorem C96_deferred_at_once_partial (lib : Lib) (net net' : Net) (filter : List Byte) (s : Settings) (as : List Action) (x : Action)
    (c c1 c2 c3 : App) (hc : c.st.connected = false) (h1 : subscribe net filter (some s) c = .ok c1) (h2 : run lib as c1 = .ok c2)
    (has : ∀ x ∈ as, x.isSubscribe = false) (hx : Connects net' x) (h3 : x.run lib c2 = .ok c3) (hc2 : c2.st.connected = false)
    (hc3 : c3.st.connected = true) (hl : x = .accept net' ↔ c2.establishedCallback = true) (ha : c3.config.autoRequestMetadata = false)
    (hb : c3.config.autoSubscribe = true) (hv : c3.version.toNat < 2 ∨ c2.st.validated = true) (hu : s.udpPort ≠ 0 → net'.udpOk = true)
    (hw : net'.env.writeOk = true) (hn : c.Named) (hs : s.Plain) (hf : Braceless filter) :
    c1.st = c.st ∧ ∃ t, Asks t filter s ∧ c3.st.log.getLast? = some (subscription t) := by
  have hc1 : c1 = { c with sub := setSubscription filter s } := by
    unfold subscribe at h1
    dsimp only [Option.getD_some] at h1
    rw [if_neg (by simp [hc])] at h1
    injection h1 with h1
    exact h1.symm
  have hk2 := keeps_run h2 has
  have hxs : x.isSubscribe = false := by cases hx <;> rfl
  have hk := hk2.trans (keeps_step h3 hxs)
  have hsub : c3.sub = setSubscription filter s := by rw [hk.sub, hc1]
  have hn2 : c3.Named := by
    constructor
    · rw [hk.source, hc1]; exact hn.source
    · rw [hk.version, hc1]; exact hn.version
    · rw [hk.updatedOn, hc1]; exact hn.updatedOn
  refine ⟨by rw [hc1], _, asks hsub hn2 hs hf, ?_⟩
  obtain ⟨m, mid, -, -, h4⟩ := C97_subscribes_partial lib net' x c2 c3 hx h3 hc2 hc3 hw hl ha hb (by
    intro hx
    refine hu fun h0 => ?_
    rw [hk2.sub, hc1] at hx
    change decide (s.udpPort > 0) = true at hx
    rw [h0] at hx
    exact absurd hx (by decide)) hv
  rw [h4, subscription_eq, List.getLast?_append]
  rfl

/-- What a new subscriber holds is what `Subscribe` without a filter expression and without settings sets. -/
theorem new_sub (net : Net) : subscribe net [] (some settingsDefaults) App.new = .ok App.new := rfl

/-- C96, never subscribed: with no `Subscribe` of the application at all, the automatic one after metadata asks for no filter expression, with the
default settings. -/
theorem C96_never_subscribed_partial (lib : Lib) (net : Net) (as : List Action) (c c' : App) (h : run lib as App.new = .ok c)
    (has : ∀ x ∈ as, x.isSubscribe = false) (h' : metadataGoroutine net c = .ok c') (hp : 0 < c.pending)
    (ha : c.config.autoRequestMetadata = true) (hb : c.config.autoSubscribe = true) (hc : c.st.connected = true)
    (hv : c.version.toNat < 2 ∨ c.st.validated = true) (hw : net.env.writeOk = true) :
    ∃ t, Asks t [] settingsDefaults ∧ c'.st.log.getLast? = some (subscription t) :=
  (C96_deferred_partial lib net net [] settingsDefaults as App.new App.new c c' rfl (new_sub net) h has h' hp ha hb hc hv
    (fun hx => absurd rfl hx) hw named_new (by refine ⟨by decide, by decide, by decide, ?_, ?_, ?_⟩ <;> intro x hx <;> cases hx)
    (by unfold Braceless; decide)).2

/-- C96, never subscribed, without metadata: the `Subscribe` a connection begins with. -/
theorem C96_never_subscribed_at_once_partial (lib : Lib) (net : Net) (as : List Action) (x : Action) (c c' : App) (h : run lib as App.new = .ok c)
    (has : ∀ x ∈ as, x.isSubscribe = false) (hx : Connects net x) (h' : x.run lib c = .ok c') (hc : c.st.connected = false)
    (hc' : c'.st.connected = true) (hl : x = .accept net ↔ c.establishedCallback = true) (ha : c'.config.autoRequestMetadata = false)
    (hb : c'.config.autoSubscribe = true) (hv : c'.version.toNat < 2 ∨ c.st.validated = true) (hw : net.env.writeOk = true) :
    ∃ t, Asks t [] settingsDefaults ∧ c'.st.log.getLast? = some (subscription t) :=
  (C96_deferred_at_once_partial lib net net [] settingsDefaults as x App.new App.new c c' rfl (new_sub net) h has hx h' hc hc' hl ha hb hv
    (fun hx => absurd rfl hx) hw named_new (by refine ⟨by decide, by decide, by decide, ?_, ?_, ?_⟩ <;> intro x hx <;> cases hx)
    (by unfold Braceless; decide)).2

/-- C96 fails for a UDP port chosen after connecting: the modes sent before announced compressed data, which is left out for UDP otherwise
(DataSubscriber.go L1545-1547), and are not sent again. -/
theorem C96_udp_modes_false (lib : Lib) (net : Net) (a : List Byte) (host : List Byte) (port : BitVec 16)
    (ha : readAddress a = some (host, port)) (cfg : Config) (hcfg : cfg.compressPayloadData = true ∧ cfg.autoRequestMetadata = false ∧
      cfg.autoSubscribe = false) (hw : net.env.writeOk = true) (hu : net.udpOk = true) (filter : List Byte) (s : Settings) (hp : s.udpPort ≠ 0)
    (hs : s.Plain) (hf : Braceless filter) (c : App)
    (hr : run lib [.dial net .yes [] a (some cfg), .subscribe net filter (some s)] App.new = .ok c) :
    ∃ (w : BitVec 32) (t : List Byte), c.st.log = [frame 6 (beBytes 4 w.toNat), subscription t] ∧ w.getLsbD 29 = true ∧
      setting "dataChannel" t = some (some (ascii "localport=".toList ++ intText s.udpPort.toNat)) := by
  rw [run, Res.bind_eq_ok] at hr
  obtain ⟨c1, h1, hr⟩ := hr
  rw [run, Res.bind_eq_ok] at hr
  obtain ⟨c2, h2, hr⟩ := hr
  injection hr with hr
  subst hr
  have hk : Keeps App.new c1 := keeps_step h1 rfl
  have hn : c1.Named := by
    constructor
    · rw [hk.source]; exact named_new.source
    · rw [hk.version]; exact named_new.version
    · rw [hk.updatedOn]; exact named_new.updatedOn
  obtain ⟨w, e1, e2, e3, e4, e5, e6⟩ : ∃ w : BitVec 32, c1.st.log = [frame 6 (beBytes 4 w.toNat)] ∧ w.getLsbD 29 = true ∧
      c1.st.connected = true ∧ c1.st.validated = true ∧ c1.st.subscribed = false ∧ True := by
    unfold Action.run at h1
    dsimp only at h1
    rw [Res.bind_eq_ok] at h1
    obtain ⟨⟨d, o⟩, h3, h1⟩ := h1
    injection h1 with h1
    subst h1
    rcases dial_cases h3 with ⟨-, -, h4 | h4 | h4⟩ | ⟨host', port', -, -, -, d', hd', h4⟩
    · cases h4
    · cases h4
    · rw [ha] at h4; cases h4
    · rcases h4 with ⟨h4, -⟩ | ⟨-, e, he, ⟨h4, -⟩ | ⟨-, -, c3, c4, h4, h5, h6⟩⟩
      · cases h4
      · cases h4
      · obtain ⟨s1, g1, g2, g3, g4, g5⟩ := establish_exact h4 hw
        have hcb : e.establishedCallback = false := by rw [he, hd']; rfl
        rw [if_neg (by simp [hcb])] at g5
        injection h5 with h5
        subst h5
        have hcfg' : c3.config = cfg := by rw [g5, he, hd']; rfl
        unfold handleConnect at h6
        rw [hcfg', if_neg (by simp [hcfg.2.1]), if_neg (by simp [hcfg.2.2])] at h6
        injection h6 with h6
        subst h6
        have hfol : Follows e := by rw [he, hd']; exact ⟨rfl, rfl, rfl, rfl, rfl⟩
        refine ⟨Modes.operationalModes e.options, ?_, ?_, ?_, ?_, ?_, trivial⟩
        · rw [g5]
          show s1.log = _
          rw [g1, he, hd']
          simp only [frame, beBytes_length]
          rfl
        · obtain ⟨-, -, -, h7, -⟩ := announces_modes hfol
          refine h7.2 ⟨?_, ?_⟩
          · rw [he, hd']; exact hcfg.1
          · rw [he, hd']; rfl
        · rw [g5]; exact g2
        · rw [g5]; show s1.validated = true; rw [g3, he, hd']; rfl
        · rw [g5]; exact g4
  obtain ⟨t, ht, hl⟩ := C96_sent_partial net filter s c1 c2 h2 e3 (.inr e4) (fun _ => hu) hw hn hs hf
  refine ⟨w, t, ?_, e2, ?_⟩
  · rw [hl, e1, if_neg (by simp [e5])]
    rfl
  · rw [ht.udp, if_neg hp]

/-- Settings with everything set. -/
def exSettings : Settings :=
  { settingsDefaults with
    throttled := true, publishInterval := 0x3FB999999999999A, udpPort := 9500, startTime := ascii "*-5M".toList,
    extraParameters := ascii "x=1".toList }

example : exSettings.Plain := by
  refine ⟨by decide, by decide, by decide, ?_, ?_, ?_⟩ <;> unfold Modes.Plain <;> decide

/-- On a connection to which a subscription was made already: the end of that one and the new one, whose text is read back. -/
example : ((exState [.dial exNet .yes [] exAddress (some exConfig), .subscribe exNet [65] none, .packet ⟨true, none⟩ [0x80, 2, 0, 0, 0, 0],
      .subscribe exNet (ascii "FILTER ActiveMeasurements WHERE True".toList) (some exSettings)]).map fun c =>
        (c.st.connected, c.st.validated, decide (c.version = 2), (c.st.log.drop 4).map fun e => e.command)) =
      some (true, true, true, [some 3, some 2]) ∧
    ((exState [.dial exNet .yes [] exAddress (some exConfig), .subscribe exNet (ascii "FILTER ActiveMeasurements WHERE True".toList)
        (some exSettings)]).bind fun c => match c.st.log.getLast? with
        | some (.sent b) => some (["throttled", "publishInterval", "dataChannel", "startTimeConstraint", "stopTimeConstraint", "x",
            "filterExpression"].map fun k => setting k (b.drop 10))
        | _ => none) =
      some [some (some (ascii "true".toList)), some (some (ascii "0.100000".toList)), some (some (ascii "localport=9500".toList)),
        some (some (ascii "*-5M".toList)), none, some (some (ascii "1".toList)),
        some (some (ascii "FILTER ActiveMeasurements WHERE True".toList))] := by
  decide +kernel

/-- The settings are given before there is a connection; they are sent after the metadata of the second connection. -/
example : ((exState [.subscribe exNet [65] (some exSettings), .dial exNet .yes [] exAddress (some exConfig), .lost,
      .reconnect exNet .yes [], .packet ⟨true, none⟩ [0x80, 6, 0, 0, 0, 0], .packet ⟨true, none⟩ [0x80, 1, 0, 0, 0, 2, 60, 62]]).map fun c =>
        (decide (0 < c.pending), c.config.autoRequestMetadata, c.config.autoSubscribe, c.st.connected, c.st.validated)) =
      some (true, true, true, true, true) ∧
    ((exState [.subscribe exNet [65] (some exSettings), .dial exNet .yes [] exAddress (some exConfig), .lost,
      .reconnect exNet .yes [], .packet ⟨true, none⟩ [0x80, 6, 0, 0, 0, 0], .packet ⟨true, none⟩ [0x80, 1, 0, 0, 0, 2, 60, 62], .metadata exNet]).bind fun c => match c.st.log.getLast? with
        | some (.sent b) => some (setting "filterExpression" (b.drop 10), setting "dataChannel" (b.drop 10))
        | _ => none) =
      some (some (some [65]), some (some (ascii "localport=9500".toList))) := by
  decide +kernel

/-- `C96_never_subscribed_partial` and `C96_never_subscribed_at_once_partial`: nothing but a Dial, with and without metadata. -/
example : ((exState [.dial exNet .yes [] exAddress (some exConfig), .packet ⟨true, none⟩ [0x80, 1, 0, 0, 0, 2, 60, 62], .metadata exNet]).bind fun c =>
      match c.st.log.getLast? with
        | some (.sent b) => some (setting "throttled" (b.drop 10), setting "filterExpression" (b.drop 10))
        | _ => none) = some (some (some (ascii "false".toList)), none) ∧
    ((exState [.dial exNet .yes [] exAddress (some { exConfig with autoRequestMetadata := false })]).bind fun c => match c.st.log.getLast? with
        | some (.sent b) => some (setting "throttled" (b.drop 10), setting "filterExpression" (b.drop 10))
        | _ => none) = some (some (some (ascii "false".toList)), none) ∧
    ((exState [.dial exNet .yes [] exAddress (some { exConfig with autoRequestMetadata := false })]).map fun c => (c.st.connected, c.st.validated)) =
      some (true, true) := by
  decide +kernel

end Verif.Client
