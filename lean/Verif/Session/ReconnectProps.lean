import Verif.Session.BlockProps

/-!
# What a new connection starts with (C29)

`setupConnection` (DataSubscriber.go L370-381) resets some of the subscriber's state, not all.
-/

namespace Verif.Session

/-- The answer to the operational-modes negotiation, with any text. -/
def handshake (l0 l1 l2 l3 : Byte) (text : List Byte) : List Byte := 0x80 :: 6 :: l0 :: l1 :: l2 :: l3 :: text

theorem receive_connected {cfg : Cfg} {env : Env} {body : List Byte} {s s' : St} (h : receive cfg env body s = .ok s') :
    s'.connected = s.connected :=
  receiveAll_connected (ps := [(env, body)]) (by rw [receiveAll, h, Res.bind_ok]; rfl)

/-- C29, numbering: with every new connection the numbering of buffer blocks starts over at 0, whatever number was expected
when the last connection ended: blocks 0, 1, 2, … after the handshake are confirmed and handed over in order, each exactly
once. Missing from the full statement: as for `C29_in_order_partial`, and blocks of the old connection still waiting, see
`C29_stale_blocks_false`. -/
theorem C29_new_connection_partial (cfg : Cfg) (rs : Bool → List Sic.Rec) (bs : List (Env × Byte × Nat × SentBlock)) (s : St)
    (hempty : s.bufferBlockCache = []) (hcache : ∀ j, (s.half j).cache = Sic.build (rs j))
    (hw : ∀ b ∈ bs, b.1.writeOk = true) (env : Env) (l0 l1 l2 l3 : Byte) (text : List Byte) (ht : text.length ≤ 8192) :
    ∃ s', receiveAll cfg ((env, handshake l0 l1 l2 l3 text) :: blockPackets cfg.version 0 bs) (reconnected s) = .ok s' ∧
      s'.log = s.log ++ .status :: blockEvents cfg.version rs 0 bs := by
  obtain ⟨s1, h1, h2, h3, -, -, -, h4⟩ := C23_handshake cfg env (reconnected s) 0x80 l0 l1 l2 l3 text (.inl rfl) ht
  have hc : s1.connected = true := receive_connected h1
  have he : s1.bufferBlockExpectedSequenceNumber = 0 := h3.expected
  obtain ⟨s2, g1, -, g3⟩ := C29_in_order_partial cfg rs bs s1 h2 hc (h3.blocks.trans hempty)
    (fun j => by
      cases j
      · exact (congrArg Half.cache h3.half0).trans (hcache false)
      · exact (congrArg Half.cache h3.half1).trans (hcache true)) hw
  rw [he] at g1 g3
  refine ⟨s2, ?_, ?_⟩
  · rw [receiveAll, handshake, h1, Res.bind_ok, g1]
  · rw [g3, h4, if_pos rfl]
    exact List.append_assoc _ _ _

/-- C29 fails across connections: blocks still waiting when the last connection ended are not forgotten. The very first
block of the new connection is followed by as many made-up empty blocks as were waiting. -/
theorem C29_stale_blocks_false (cfg : Cfg) (rs : Bool → List Sic.Rec) (s : St) (hn : NoContent s)
    (hcache : ∀ j, (s.half j).cache = Sic.build (rs j)) (env : Env) (hw : env.writeOk = true) (l0 l1 l2 l3 : Byte)
    (text : List Byte) (ht : text.length ≤ 8192) (cc : Byte) (n : Nat) (b : SentBlock) :
    ∃ s', receiveAll cfg [(env, handshake l0 l1 l2 l3 text),
        (env, packet 0x88 cc n (blockPayload cfg.version 0 b.half b.index b.content))] (reconnected s) = .ok s' ∧
      s'.log = s.log ++ [.status, .sent [0, 0, 0, 5, 8, 0, 0, 0, 0],
        .newBufferBlocks (⟨sigOf (rs (blockHalf cfg.version b.half)) b.index, none⟩ ::
          List.replicate s.bufferBlockCache.length BufferBlock.zero)] := by
  obtain ⟨s1, h1, h2, h3, -, -, -, h4⟩ := C23_handshake cfg env (reconnected s) 0x80 l0 l1 l2 l3 text (.inl rfl) ht
  have hc : s1.connected = true := receive_connected h1
  have he : s1.bufferBlockExpectedSequenceNumber = 0 := h3.expected
  have hb : s1.bufferBlockCache = s.bufferBlockCache := h3.blocks
  obtain ⟨s2, g1, -, -, -, g5⟩ := block_step cfg env s1 h2 hc hw (by rw [NoContent, hb]; exact hn) cc n 0 b.half b.index
    b.content (rs (blockHalf cfg.version b.half)) (by
      cases blockHalf cfg.version b.half
      · exact (congrArg Half.cache h3.half0).trans (hcache false)
      · exact (congrArg Half.cache h3.half1).trans (hcache true))
  rw [if_pos he.symm, hb] at g5
  refine ⟨s2, ?_, ?_⟩
  · rw [receiveAll, handshake, h1, Res.bind_ok, receiveAll, g1, Res.bind_ok, receiveAll]
  · rw [g5.2.2, h4, if_pos rfl]
    exact List.append_assoc _ _ _

/-- A history meeting the hypotheses of the theorem above: block 7 has arrived while block 5 was expected, then the connection
was lost. -/
example : ∃ s : St, s.bufferBlockCache = [.zero, .zero, ⟨Guid.empty, none⟩] ∧ NoContent s ∧
    s.bufferBlockExpectedSequenceNumber = 5 ∧ (reconnected s).bufferBlockExpectedSequenceNumber = 0 ∧
    ∃ rs : Bool → List Sic.Rec, ∀ j, (s.half j).cache = Sic.build (rs j) := by
  refine ⟨{ exSt with bufferBlockCache := [.zero, .zero, ⟨Guid.empty, none⟩], bufferBlockExpectedSequenceNumber := 5 },
    rfl, ?_, rfl, rfl, fun j => if j then [] else Sic.exRecs, fun j => by cases j <;> rfl⟩
  intro b hb
  simp only [List.mem_cons, List.not_mem_nil, or_false] at hb
  rcases hb with rfl | rfl | rfl <;> rfl

/-- One meeting those of `C29_new_connection_partial`. -/
example : ∃ s : St, s.bufferBlockCache = [] ∧ s.bufferBlockExpectedSequenceNumber = 17 ∧
    ∃ rs : Bool → List Sic.Rec, ∀ j, (s.half j).cache = Sic.build (rs j) :=
  ⟨{ exSt with bufferBlockExpectedSequenceNumber := 17 }, rfl, rfl,
    fun j => if j then [] else Sic.exRecs, fun j => by cases j <;> rfl⟩

end Verif.Session
