import Verif.Client.AddressProps

/-!
# C132: the connection ID (transport/Common.go L68-84, transport/DataSubscriber.go L384-397)

`net.LookupAddr` is a parameter: the host names of an address, `none` for an error. `net.JoinHostPort`, `TCPAddr.String` are written out from the library.
-/

namespace Verif.Client

/-- `net.JoinHostPort` (Go's net/ipsock.go), of which the text of a TCP address is made (net/tcpsock.go); used for `RemoteAddr` (DataSubscriber.go L388-390). -/
def joinHostPort (host port : List Byte) : List Byte :=
  if (indexByte colon host).isSome then lbracket :: host ++ [rbracket, colon] ++ port else host ++ colon :: port

/-- `resolveDNSName` (Common.go L68-76): what is looked up. -/
def lookedUp (addr : List Byte) : List Byte :=
  if (indexByte colon addr).isSome then
    match splitHostPort addr with
    | some (host, _) => host
    | none => addr
  else addr

/-- `resolveDNSName` (Common.go L77-84). -/
def resolveDNSName (lookup : List Byte → Option (List (List Byte))) (addr : List Byte) : List Byte :=
  match lookup (lookedUp addr) with
  | some (name :: _) => name ++ [32, 40] ++ lookedUp addr ++ [41]
  | _ => lookedUp addr

/-- Who is at the other end: the host and port dialled, or the address accepted, none if the connection has none. (DataSubscriber.go L385-395) -/
inductive Peer where
  | dialled (host : List Byte) (port : BitVec 16)
  | accepted (address : Option (List Byte))

/-- `establishConnection` (DataSubscriber.go L384-397): the connection ID; the first is `<unknown>`. -/
def connectionID (lookup : List Byte → Option (List (List Byte))) : Peer → List Byte
  | .dialled host port => joinAddress host port
  | .accepted none => [60, 117, 110, 107, 110, 111, 119, 110, 62]
  | .accepted (some addr) => resolveDNSName lookup addr

/-- A host as it stands in the text of an address: neither brackets nor parentheses. -/
def Host (h : List Byte) : Prop := ∀ b ∈ h, b ≠ 91#8 ∧ b ≠ 93#8 ∧ b ≠ 40#8 ∧ b ≠ 41#8

/-- A port as it stands there. -/
def Port (p : List Byte) : Prop := ∀ b ∈ p, 48#8 ≤ b ∧ b ≤ 57#8

theorem port_chars {p : List Byte} (h : Port p) : ∀ b ∈ p, b ≠ 58#8 ∧ b ≠ 91#8 ∧ b ≠ 93#8 := by
  intro b hb
  have := h b hb
  revert this
  generalize b = b
  revert b
  decide

theorem join_split {host port : List Byte} (hh : Host host) (hp : Port port) : splitHostPort (joinHostPort host port) = some (host, port) := by
  rw [C94_split]
  unfold joinHostPort
  have hp' := port_chars hp
  split
  · refine .inr ⟨by simp [lbracket, rbracket, colon], ?_, fun hm => (hp' _ hm).1 rfl⟩
    intro b hb
    rcases List.mem_append.1 hb with hb | hb
    · exact ⟨(hh b hb).1, (hh b hb).2.1⟩
    · exact (hp' b hb).2
  · rename_i hc
    rw [indexByte_isSome] at hc
    refine .inl ⟨rfl, ?_⟩
    intro b hb
    rcases List.mem_append.1 hb with hb | hb
    · exact ⟨fun h => hc (by rw [show colon = 58#8 from rfl, ← h]; exact hb), (hh b hb).1, (hh b hb).2.1⟩
    · exact hp' b hb

theorem join_lookedUp {host port : List Byte} (hh : Host host) (hp : Port port) : lookedUp (joinHostPort host port) = host := by
  unfold lookedUp
  rw [join_split hh hp]
  split
  · rfl
  · rename_i hc
    rw [indexByte_isSome] at hc
    refine absurd ?_ hc
    unfold joinHostPort
    split <;> simp

/-- **A listening subscriber shows the host that connected**, with its first name in front if there is one. -/
theorem C132_accepted (lookup : List Byte → Option (List (List Byte))) {host port : List Byte} (hh : Host host) (hp : Port port) :
    connectionID lookup (.accepted (some (joinHostPort host port))) = match lookup host with
      | some (name :: _) => name ++ [32, 40] ++ host ++ [41]
      | _ => host := by
  simp only [connectionID, resolveDNSName, join_lookedUp hh hp]

theorem after_last {c : Byte} {x y h h' : List Byte} (hh : c ∉ h) (hh' : c ∉ h') (e : x ++ c :: h = y ++ c :: h') : h = h' := by
  have e := congrArg List.reverse e
  simp only [List.reverse_append, List.reverse_cons, List.append_assoc, List.singleton_append] at e
  have key : ∀ (a b r s : List Byte), c ∉ a → c ∉ b → a ++ c :: r = b ++ c :: s → a = b := by
    intro a
    induction a with
    | nil =>
      intro b r s _ hb e
      cases b with
      | nil => rfl
      | cons d b => injection e with e _; exact absurd (by rw [e]; simp) hb
    | cons d a ih =>
      intro b r s ha hb e
      cases b with
      | nil => injection e with e _; exact absurd (by rw [← e]; simp) ha
      | cons f b =>
        injection e with e1 e2
        rw [e1, ih b r s (fun hm => ha (by simp [hm])) (fun hm => hb (by simp [hm])) e2]
  have := key h.reverse h'.reverse _ _ (by simpa using hh) (by simpa using hh') e
  simpa using congrArg List.reverse this

/-- **Connections accepted from different hosts have different IDs**, whatever names are found for them, at the same time or not. -/
theorem C132_hosts_differ (lookup lookup' : List Byte → Option (List (List Byte))) {host port host' port' : List Byte} (hh : Host host) (hp : Port port)
    (hh' : Host host') (hp' : Port port')
    (h : connectionID lookup (.accepted (some (joinHostPort host port))) = connectionID lookup' (.accepted (some (joinHostPort host' port')))) :
    host = host' := by
  have n40 : ∀ {h : List Byte}, Host h → 40#8 ∉ h := fun hh hm => (hh _ hm).2.2.1 rfl
  have n41 : ∀ {h : List Byte}, Host h → 41#8 ∉ h := fun hh hm => (hh _ hm).2.2.2 rfl
  rw [C132_accepted lookup hh hp, C132_accepted lookup' hh' hp'] at h
  have close : ∀ {x y : List Byte}, x ++ [41#8] = y ++ [41#8] → x = y := fun e => List.append_cancel_right e
  have named : ∀ {n n' : List Byte}, n ++ [32, 40] ++ host ++ [41#8] = n' ++ [32, 40] ++ host' ++ [41#8] → host = host' := by
    intro n n' e
    have e := close e
    refine after_last (x := n ++ [32#8]) (y := n' ++ [32#8]) (n40 hh) (n40 hh') ?_
    simpa using e
  split at h
  · split at h
    · exact named h
    · exact absurd (by rw [← h]; simp) (n41 hh')
  · split at h
    · exact absurd (by rw [h]; simp) (n41 hh)
    · exact h

/-- **Dialled connections with the same ID go to the same host and port.** -/
theorem C132_dialled (lookup lookup' : List Byte → Option (List (List Byte))) {host host' : List Byte} {port port' : BitVec 16}
    (h : connectionID lookup (.dialled host port) = connectionID lookup' (.dialled host' port')) : host = host' ∧ port = port' := by
  have nc : ∀ p : BitVec 16, colon ∉ Format.decimal p.toNat := by
    intro p hm
    have := Format.decimal_digits p.toNat _ hm
    revert this
    decide
  have e : host ++ colon :: Format.decimal port.toNat = host' ++ colon :: Format.decimal port'.toNat := h
  have hd := after_last (nc port) (nc port') e
  rw [hd] at e
  refine ⟨List.append_cancel_right e, BitVec.eq_of_toNat_eq ?_⟩
  rw [← Format.readDecimal_decimal port.toNat, hd, Format.readDecimal_decimal]

/-- `C132_accepted` with and without a name, and for an IPv6 address: `localhost (127.0.0.1)`, `127.0.0.1`, `::1`. -/
example :
    let v4 := "127.0.0.1".toList.map fun c => BitVec.ofNat 8 c.toNat
    let v6 := "::1".toList.map fun c => BitVec.ofNat 8 c.toNat
    let port := "7165".toList.map fun c => BitVec.ofNat 8 c.toNat
    let names (a : List Byte) : Option (List (List Byte)) := if a = v4 then some ["localhost".toList.map fun c => BitVec.ofNat 8 c.toNat] else some []
    connectionID names (.accepted (some (joinHostPort v4 port))) = ("localhost (127.0.0.1)".toList.map fun c => BitVec.ofNat 8 c.toNat) ∧
    connectionID (fun _ => none) (.accepted (some (joinHostPort v4 port))) = v4 ∧
    joinHostPort v6 port = ("[::1]:7165".toList.map fun c => BitVec.ofNat 8 c.toNat) ∧
    connectionID names (.accepted (some (joinHostPort v6 port))) = v6 ∧
    connectionID names (.dialled v4 7165#16) = ("127.0.0.1:7165".toList.map fun c => BitVec.ofNat 8 c.toNat) := by decide +kernel

/-- The hosts and ports of the examples meet the conditions. -/
example : Host ("fe80::1%eth0".toList.map fun c => BitVec.ofNat 8 c.toNat) ∧ Port ("7165".toList.map fun c => BitVec.ofNat 8 c.toNat) := by
  unfold Host Port
  decide

/-- C132 (partial: hosts). Full statement: different peers have different connection IDs. Missing: two publishers on one host that connect to a listening
subscriber have one ID (`C132_port_false`). Proved: connections accepted from different hosts, and connections dialled to different hosts or ports, have different IDs. -/
theorem C132_peers_partial (lookup lookup' : List Byte → Option (List (List Byte))) :
    (∀ {host host' : List Byte} {port port' : BitVec 16}, (host, port) ≠ (host', port') →
      connectionID lookup (.dialled host port) ≠ connectionID lookup' (.dialled host' port')) ∧
    (∀ {host port host' port' : List Byte}, Host host → Port port → Host host' → Port port' → host ≠ host' →
      connectionID lookup (.accepted (some (joinHostPort host port))) ≠ connectionID lookup' (.accepted (some (joinHostPort host' port')))) := by
  refine ⟨fun hne he => hne ?_, fun hh hp hh' hp' hne he => hne (C132_hosts_differ lookup lookup' hh hp hh' hp' he)⟩
  obtain ⟨h1, h2⟩ := C132_dialled lookup lookup' he
  rw [h1, h2]

/-- **Two publishers on one host have the same ID** when they connect to a listening subscriber. -/
theorem C132_port_false (lookup : List Byte → Option (List (List Byte))) : ¬ ∀ (host port port' : List Byte), Host host → Port port → Port port' → port ≠ port' →
    connectionID lookup (.accepted (some (joinHostPort host port))) ≠ connectionID lookup (.accepted (some (joinHostPort host port'))) := by
  intro h
  have hh : Host [49#8] := by unfold Host; decide
  have hp : Port [49#8] := by unfold Port; decide
  have hp' : Port [50#8] := by unfold Port; decide
  exact h [49#8] [49#8] [50#8] hh hp hp' (by decide) (by rw [C132_accepted lookup hh hp, C132_accepted lookup hh hp'])

end Verif.Client
