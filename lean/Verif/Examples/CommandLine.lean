import Verif.Client.AddressProps
import Verif.Client.Props
import Verif.Guid.TextProps

/-!
# C137: the command line of the examples

The five example programs share `parseCmdLineArgs` (examples/*/ParseCmdLineArgs.go L34-57, the same text in all of them but for their names); the address it
returns goes to `Dial` or `Listen`. Left out: what the messages say besides the text they quote. `os.Exit` ends the program, so it is an outcome.
-/

namespace Verif.Examples

open Verif.Client

/-- What `parseCmdLineArgs` comes to (examples/SimpleSubscribe/ParseCmdLineArgs.go L34-57): the usage and exit code 1; a message that quotes a text and exit
code 2, the text being no number or one out of range; or the address. -/
inductive Parsed where
  | usage
  | invalidPort (quoted : List Byte)
  | outOfRange (quoted : List Byte)
  | address (a : List Byte)
  deriving DecidableEq

/-- `strconv.Itoa` (examples/SimpleSubscribe/ParseCmdLineArgs.go L56). -/
def itoa (n : Int) : List Byte := if n < 0 then 45#8 :: Format.decimal n.natAbs else Format.decimal n.natAbs

/-- The rest of `parseCmdLineArgs` once there are two arguments (examples/SimpleSubscribe/ParseCmdLineArgs.go L43-56). -/
def parsePort (hostname portname : List Byte) : Parsed :=
  match atoi portname with
  | none => .invalidPort hostname
  | some port => if port < 1 ∨ port > 65535 then .outOfRange hostname else .address (hostname ++ [colon] ++ itoa port)

/-- `parseCmdLineArgs` (examples/SimpleSubscribe/ParseCmdLineArgs.go L34-57). -/
def parseCmdLineArgs : List (List Byte) → Parsed
  | _ :: hostname :: portname :: _ => parsePort hostname portname
  | _ => .usage

theorem parse_eq (program host port : List Byte) (rest : List (List Byte)) : parseCmdLineArgs (program :: host :: port :: rest) = parsePort host port := rfl

/-- C137, which command lines are accepted: a host and a port of decimal digits, possibly after a plus sign, that denote a number from 1 to 65535; the
address is made of the two. Further arguments are ignored. -/
theorem C137_accepted (args : List (List Byte)) (a : List Byte) : parseCmdLineArgs args = .address a ↔
    ∃ program host port rest digits, args = program :: host :: port :: rest ∧ (port = digits ∨ port = 43#8 :: digits) ∧ digits ≠ [] ∧
      (∀ b ∈ digits, 48 ≤ b.toNat ∧ b.toNat ≤ 57) ∧ 1 ≤ Format.readDecimal digits ∧ Format.readDecimal digits ≤ 65535 ∧
      a = host ++ [58#8] ++ Format.decimal (Format.readDecimal digits) := by
  constructor
  · intro h
    match args, h with
    | program :: host :: port :: rest, h =>
      rw [parse_eq] at h; unfold parsePort at h
      cases hn : atoi port with
      | none => rw [hn] at h; cases h
      | some n =>
        rw [hn] at h
        dsimp only at h
        by_cases hr : n < 1 ∨ n > 65535
        · rw [if_pos hr] at h; cases h
        · rw [if_neg hr] at h
          injection h with h
          obtain ⟨digits, h1, h2, h3, h4, h5⟩ := (atoi_port (BitVec.ofInt 16 n) port).1 ⟨n, hn, hr, rfl⟩
          have hv : (BitVec.ofInt 16 n).toNat = n.natAbs := by rw [BitVec.toNat_ofInt]; omega
          refine ⟨program, host, port, rest, digits, rfl, h1, h2, h3, by omega, by omega, ?_⟩
          rw [← h, h4, hv]
          unfold itoa
          rw [if_neg (by omega)]
          rfl
  · rintro ⟨program, host, port, rest, digits, rfl, h1, h2, h3, h4, h5, rfl⟩
    obtain ⟨n, g1, g2, g3⟩ := (atoi_port (BitVec.ofNat 16 (Format.readDecimal digits)) port).2
      ⟨digits, h1, h2, h3, by rw [BitVec.toNat_ofNat]; omega, by rw [BitVec.toNat_ofNat]; omega⟩
    rw [parse_eq]
    unfold parsePort
    rw [g1]
    dsimp only
    rw [if_neg g2]
    have hv := congrArg BitVec.toNat g3
    rw [BitVec.toNat_ofInt, BitVec.toNat_ofNat] at hv
    have : n.natAbs = Format.readDecimal digits := by omega
    unfold itoa
    rw [if_neg (by omega), this]
    rfl

/-- C137, where `Dial` and `Listen` take the address for: the host and port given if the host has no colon and no bracket; the host within the brackets if it
is given in brackets; and nothing at all otherwise. -/
theorem C137_exact (given host : List Byte) (n : Nat) (hn : 1 ≤ n ∧ n ≤ 65535) (port : BitVec 16) :
    readAddress (given ++ [58#8] ++ Format.decimal n) = some (host, port) ↔
      port.toNat = n ∧ ((host = given ∧ ∀ b ∈ given, b ≠ 58#8 ∧ b ≠ 91#8 ∧ b ≠ 93#8) ∨ (given = 91#8 :: host ++ [93#8] ∧ ∀ b ∈ host, b ≠ 91#8 ∧ b ≠ 93#8)) := by
  have hd : ∀ b ∈ Format.decimal n, 48 ≤ b.toNat ∧ b.toNat ≤ 57 := Format.decimal_digits n
  have hne : Format.decimal n ≠ [] := by
    intro h
    have := Format.readDecimal_decimal n
    rw [h] at this
    have h0 : Format.readDecimal [] = 0 := rfl
    omega
  have no : ∀ (c : Byte), (c = 58#8 ∨ c = 91#8 ∨ c = 93#8) → c ∉ Format.decimal n := by
    intro c hc hm
    have := hd c hm
    rcases hc with rfl | rfl | rfl <;> simp at this
  -- the last colon
  have last : ∀ (x y p q : List Byte), 58#8 ∉ p → 58#8 ∉ q → x ++ 58#8 :: p = y ++ 58#8 :: q → x = y ∧ p = q := by
    intro x
    induction x with
    | nil =>
      intro y p q hp hq h
      cases y with
      | nil => simpa using h
      | cons c y =>
        simp only [List.nil_append, List.cons_append, List.cons.injEq] at h
        exact absurd (h.2 ▸ List.mem_append_right y (by simp : (58#8 : Byte) ∈ 58#8 :: q)) hp
    | cons c x ih =>
      intro y p q hp hq h
      cases y with
      | nil =>
        simp only [List.nil_append, List.cons_append, List.cons.injEq] at h
        exact absurd (h.2.symm ▸ List.mem_append_right x (by simp : (58#8 : Byte) ∈ 58#8 :: p)) hq
      | cons d y =>
        simp only [List.cons_append, List.cons.injEq] at h
        obtain ⟨e1, e2⟩ := ih y p q hp hq h.2
        exact ⟨by rw [h.1, e1], e2⟩
  rw [C94_port]
  constructor
  · rintro ⟨digits, hs, h2, h3, h4, h5⟩
    have step : ∀ q : List Byte, splitHostPort (given ++ [58#8] ++ Format.decimal n) = some (host, q) →
        q = Format.decimal n ∧ ((host = given ∧ ∀ b ∈ given, b ≠ 58#8 ∧ b ≠ 91#8 ∧ b ≠ 93#8) ∨
          (given = 91#8 :: host ++ [93#8] ∧ ∀ b ∈ host, b ≠ 91#8 ∧ b ≠ 93#8)) := by
      intro q hq
      rcases (C94_split _ _ _).1 hq with ⟨e, hb⟩ | ⟨e, hb, hc⟩
      · have e' : given ++ 58#8 :: Format.decimal n = host ++ 58#8 :: q := by simpa [colon] using e
        obtain ⟨e1, e2⟩ := last _ _ _ _ (no _ (Or.inl rfl)) (fun h => (hb _ (List.mem_append_right _ h)).1 rfl) e'
        exact ⟨e2.symm, Or.inl ⟨e1.symm, fun b h => hb b (List.mem_append_left _ (e1 ▸ h))⟩⟩
      · have e' : given ++ 58#8 :: Format.decimal n = (91#8 :: host ++ [93#8]) ++ 58#8 :: q := by simpa using e
        obtain ⟨e1, e2⟩ := last _ _ _ _ (no _ (Or.inl rfl)) hc e'
        exact ⟨e2.symm, Or.inr ⟨e1, fun b h => hb b (List.mem_append_left _ h)⟩⟩
    rcases hs with hs | hs
    · obtain ⟨e, r⟩ := step _ hs
      rw [e, Format.readDecimal_decimal] at h4
      exact ⟨h4.symm, r⟩
    · obtain ⟨e, -⟩ := step _ hs
      have := hd 43#8 (e ▸ by simp)
      simp at this
  · rintro ⟨hp, h⟩
    refine ⟨Format.decimal n, Or.inl ((C94_split _ _ _).2 ?_), hne, hd, by rw [Format.readDecimal_decimal, hp], by omega⟩
    rcases h with ⟨rfl, hb⟩ | ⟨rfl, hb⟩
    · refine Or.inl ⟨by simp [colon], fun b hm => ?_⟩
      rcases List.mem_append.1 hm with hm | hm
      · exact hb b hm
      · exact ⟨fun e => no _ (Or.inl rfl) (e ▸ hm), fun e => no _ (Or.inr (Or.inl rfl)) (e ▸ hm), fun e => no _ (Or.inr (Or.inr rfl)) (e ▸ hm)⟩
    · refine Or.inr ⟨by simp, fun b hm => ?_, no _ (Or.inl rfl)⟩
      rcases List.mem_append.1 hm with hm | hm
      · exact hb b hm
      · exact ⟨fun e => no _ (Or.inr (Or.inl rfl)) (e ▸ hm), fun e => no _ (Or.inr (Or.inr rfl)) (e ▸ hm)⟩

/-- C137: the address that the example is given is the one that `Dial` and `Listen` read, for hosts without colons and brackets. Missing from the full statement:
other hosts, that is IPv6 addresses (`C137_ipv6_false`). -/
theorem C137_partial (program host port digits : List Byte) (rest : List (List Byte)) (a : List Byte) (h : parseCmdLineArgs (program :: host :: port :: rest) = .address a)
    (hh : ∀ b ∈ host, b ≠ 58#8 ∧ b ≠ 91#8 ∧ b ≠ 93#8) (hp : port = digits ∨ port = 43#8 :: digits) (hd : ∀ b ∈ digits, 48 ≤ b.toNat ∧ b.toNat ≤ 57) :
    readAddress a = some (host, BitVec.ofNat 16 (Format.readDecimal digits)) ∧ Format.readDecimal digits < 2 ^ 16 := by
  obtain ⟨_, host', port', _, digits', e, hp', -, hd', h1, h2, rfl⟩ := (C137_accepted _ _).1 h
  simp only [List.cons.injEq] at e
  obtain ⟨-, rfl, rfl, -⟩ := e
  have : digits' = digits := by
    have plus : ∀ d : List Byte, (∀ b ∈ d, 48 ≤ b.toNat ∧ b.toNat ≤ 57) → ∀ d', d ≠ 43#8 :: d' := by
      rintro d hd d' rfl
      have := hd 43#8 (by simp)
      simp at this
    rcases hp with rfl | rfl <;> rcases hp' with e | e
    · exact e.symm
    · exact absurd e (plus _ hd _)
    · exact absurd e.symm (plus _ hd' _)
    · exact (List.cons.inj e).2.symm
  subst this
  exact ⟨(C137_exact _ _ _ ⟨h1, h2⟩ _).2 ⟨by rw [BitVec.toNat_ofNat]; omega, Or.inl ⟨rfl, hh⟩⟩, by omega⟩

/-- False of the code: an IPv6 address is accepted on the command line, but the address made of it is none; `Dial` and `Listen` return an error and change
nothing, and of `Dial` the examples do not look at the error. -/
theorem C137_ipv6_false (program host port : List Byte) (rest : List (List Byte)) (a : List Byte) (h : parseCmdLineArgs (program :: host :: port :: rest) = .address a)
    (hc : 58#8 ∈ host) (hb : 91#8 ∉ host) : readAddress a = none ∧
    ∀ (net : Net) (r : Reached) (early : App → Res App) (opened : Bool) (cfg : Option Config) (c : App),
      dial net r early a cfg c = .ok (c, .refused) ∧ listen opened a cfg c = (c, .refused) := by
  have key : readAddress a = none := by
    obtain ⟨_, host', port', _, digits, e, -, -, -, h1, h2, rfl⟩ := (C137_accepted _ _).1 h
    simp only [List.cons.injEq] at e
    obtain ⟨-, rfl, rfl, -⟩ := e
    cases hr : readAddress (host ++ [58#8] ++ Format.decimal (Format.readDecimal digits)) with
    | none => rfl
    | some r =>
      obtain ⟨h', p⟩ := r
      rcases ((C137_exact _ _ _ ⟨h1, h2⟩ _).1 hr).2 with ⟨-, g⟩ | ⟨rfl, -⟩
      · exact absurd rfl (g _ hc).1
      · exact absurd (by simp) hb
  exact ⟨key, fun net r early opened cfg c => C94_refused net r early opened a cfg c (Or.inr (Or.inr key))⟩

/-- False of the code: the message about a port quotes the host, whatever the port. -/
theorem C137_message_false (program host port : List Byte) (rest : List (List Byte)) (quoted : List Byte)
    (h : parseCmdLineArgs (program :: host :: port :: rest) = .invalidPort quoted ∨ parseCmdLineArgs (program :: host :: port :: rest) = .outOfRange quoted) :
    quoted = host := by
  rw [parse_eq] at h
  unfold parsePort at h
  cases hn : atoi port with
  | none => rw [hn] at h; simpa [eq_comm] using h
  | some n =>
    rw [hn] at h
    dsimp only at h
    by_cases hr : n < 1 ∨ n > 65535
    · rw [if_pos hr] at h; simpa [eq_comm] using h
    · rw [if_neg hr] at h; simp at h

/-- C137, the usage is shown exactly if there are fewer than two arguments. -/
theorem C137_usage (args : List (List Byte)) : parseCmdLineArgs args = .usage ↔ args.length < 3 := by
  match args with
  | [] => simp [parseCmdLineArgs]
  | [_] => simp [parseCmdLineArgs]
  | [_, _] => simp [parseCmdLineArgs]
  | program :: host :: port :: rest =>
    have : parseCmdLineArgs (program :: host :: port :: rest) ≠ .usage := by
      rw [parse_eq]
      unfold parsePort
      cases atoi port with
      | none => simp
      | some n => dsimp only; split <;> simp
    simp [this]

/-- `example localhost 07175 x`, `example ::1 7175`, `example localhost http`, `example localhost 65536`. -/
example : parseCmdLineArgs [Guid.ascii "example", Guid.ascii "localhost", Guid.ascii "07175", Guid.ascii "x"] = .address (Guid.ascii "localhost:7175") ∧
    readAddress (Guid.ascii "localhost:7175") = some (Guid.ascii "localhost", 7175) ∧
    parseCmdLineArgs [Guid.ascii "example", Guid.ascii "::1", Guid.ascii "7175"] = .address (Guid.ascii "::1:7175") ∧
    parseCmdLineArgs [Guid.ascii "example", Guid.ascii "localhost", Guid.ascii "http"] = .invalidPort (Guid.ascii "localhost") ∧
    parseCmdLineArgs [Guid.ascii "example", Guid.ascii "localhost", Guid.ascii "65536"] = .outOfRange (Guid.ascii "localhost") ∧
    parseCmdLineArgs [Guid.ascii "example", Guid.ascii "localhost"] = .usage := by
  decide +kernel

end Verif.Examples
