import Verif.Model.Eip
import Verif.Spec.Eip
import Verif.Lemmas.Reader
import Verif.Props.Buffer

/-!
# Properties C06, C07, C10, C16 (encapsulation packets)
-/

namespace Verif.Props

open Verif Verif.Spec

/-- The bytes of a packet with an explicit length field. -/
theorem encaps_pack_eq (p : EncapsPacket) :
    p.pack = le 2 p.command.toNat ++ (le 2 p.length.toNat ++ (le 4 p.sessionHandle.toNat ++
      (le 4 p.status.toNat ++ (p.context ++ (le 4 p.options.toNat ++ p.data))))) := by
  simp [EncapsPacket.pack, C02_little_endian, Buffer.putBytes, Buffer.empty]

theorem reads_header (command length : BitVec 16) (session status : BitVec 32) (context : List Byte)
    (options : BitVec 32) (n : Nat) (hn : context.length = n) :
    Reads (EncapsPacket.header n)
      (le 2 command.toNat ++ (le 2 length.toNat ++ (le 4 session.toNat ++
      (le 4 status.toNat ++ (context ++ le 4 options.toNat)))))
      (command, length, session, status, context, options) :=
  (Reads.u16 command).bind ((Reads.u16 length).bind ((Reads.u32 session).bind ((Reads.u32 status).bind
    ((Reads.bytes' hn).bind ((Reads.u32 options).map_pure
      (fun o => (command, length, session, status, context, o)))))))

/-- Every byte string of at least 24 bytes is a header followed by a payload. -/
theorem header_split (data : List Byte) (h : 24 ≤ data.length) :
    ∃ (command length : BitVec 16) (session status : BitVec 32) (context : List Byte)
      (options : BitVec 32) (payload : List Byte), context.length = 8 ∧
      payload.length = data.length - 24 ∧
      data = le 2 command.toNat ++ (le 2 length.toNat ++ (le 4 session.toNat ++
      (le 4 status.toNat ++ (context ++ (le 4 options.toNat ++ payload))))) := by
  have key : ∀ (k : Nat) (l : List Byte), k ≤ l.length →
      ∃ v : BitVec (8 * k), l.take k = le k v.toNat := by
    intro k l hk
    have hl : (l.take k).length = k := by simp; omega
    refine ⟨BitVec.ofNat _ (ofLe (l.take k)), ?_⟩
    have hlt := ofLe_lt (l.take k)
    rw [hl] at hlt
    have : (256 : Nat) ^ k = 2 ^ (8 * k) := by rw [Nat.pow_mul]
    rw [BitVec.toNat_ofNat, Nat.mod_eq_of_lt (by omega)]
    have := le_ofLe (l.take k)
    rw [hl] at this
    exact this.symm
  obtain ⟨c, hc⟩ := key 2 data (by omega)
  obtain ⟨l, hl⟩ := key 2 (data.drop 2) (by simp; omega)
  obtain ⟨s, hs⟩ := key 4 (data.drop 4) (by simp; omega)
  obtain ⟨t, ht⟩ := key 4 (data.drop 8) (by simp; omega)
  obtain ⟨o, ho⟩ := key 4 (data.drop 20) (by simp; omega)
  refine ⟨c, l, s, t, (data.drop 12).take 8, o, data.drop 24, by simp; omega, by simp, ?_⟩
  rw [← hc, ← hl, ← hs, ← ht, ← ho]
  have e1 : data.drop 20 = (data.drop 20).take 4 ++ data.drop 24 := by
    conv => lhs; rw [← List.take_append_drop 4 (data.drop 20)]
    simp
  have e2 : data.drop 12 = (data.drop 12).take 8 ++ data.drop 20 := by
    conv => lhs; rw [← List.take_append_drop 8 (data.drop 12)]
    simp
  have e3 : data.drop 8 = (data.drop 8).take 4 ++ data.drop 12 := by
    conv => lhs; rw [← List.take_append_drop 4 (data.drop 8)]
    simp
  have e4 : data.drop 4 = (data.drop 4).take 4 ++ data.drop 8 := by
    conv => lhs; rw [← List.take_append_drop 4 (data.drop 4)]
    simp
  have e5 : data.drop 2 = (data.drop 2).take 2 ++ data.drop 4 := by
    conv => lhs; rw [← List.take_append_drop 2 (data.drop 2)]
    simp
  rw [← e1, ← e2, ← e3, ← e4, ← e5, List.take_append_drop]

/-- Computation of `expand` on header ++ payload, for any memory. -/
theorem expand_compute (m : Mem) (p : EncapsPacket) (hp : p.context.length = 8)
    (command length : BitVec 16) (session status : BitVec 32) (context : List Byte)
    (options : BitVec 32) (payload : List Byte) (hc : context.length = 8) :
    p.expand m (le 2 command.toNat ++ (le 2 length.toNat ++ (le 4 session.toNat ++
      (le 4 status.toNat ++ (context ++ (le 4 options.toNat ++ payload)))))) =
    if payload.length = length.toNat then
      .ok ⟨command, length, session, status, context, options, payload⟩ ()
    else .throw ⟨command, length, session, status, context, options, p.data⟩
      (.runtime "EncapsPacket data must be") := by
  have hr := (reads_header command length session status context options 8 hc).start (post := payload) m
  simp only [List.append_assoc] at hr
  unfold EncapsPacket.expand
  rw [hp, hr]
  have hlen : (le 2 command.toNat ++ (le 2 length.toNat ++ (le 4 session.toNat ++
      (le 4 status.toNat ++ (context ++ (le 4 options.toNat ++ payload)))))).length
      = 24 + payload.length := by
    simp [hc]; omega
  rw [hlen, if_neg (by simp [EncapsPacket.headerSize])]
  by_cases h : payload.length = length.toNat
  · rw [if_pos h]
    dsimp only
    rw [bytes_eq m length.toNat _ (by simp [hc]; omega)]
    simp [EncapsPacket.headerSize, h, hc]
    have e : (le 2 command.toNat ++ (le 2 length.toNat ++ (le 4 session.toNat ++
      (le 4 status.toNat ++ (context ++ (le 4 options.toNat ++ payload)))))).drop 24 = payload := by
      have : le 2 command.toNat ++ (le 2 length.toNat ++ (le 4 session.toNat ++
        (le 4 status.toNat ++ (context ++ (le 4 options.toNat ++ payload))))) =
        (le 2 command.toNat ++ (le 2 length.toNat ++ (le 4 session.toNat ++
        (le 4 status.toNat ++ (context ++ le 4 options.toNat))))) ++ payload := by simp
      rw [this, List.drop_append_of_le_length (by simp [hc]), List.drop_eq_nil_of_le (by simp [hc])]
      simp
    rw [e, ← h, List.take_length]
  · rw [if_neg h]
    simp [EncapsPacket.headerSize, h]

/-! ## C06 -/

/-- C06. The wire layout: a packet with payload set by `setData` packs to the
EtherNet/IP frame, when the payload is at most 65535 bytes. -/
theorem C06_layout (p : EncapsPacket) (payload : List Byte) (h : payload.length < 65536) :
    (p.setData payload).pack = encapsFrame p.command.toNat p.sessionHandle.toNat p.status.toNat
      p.context p.options.toNat payload := by
  rw [encaps_pack_eq]
  simp [EncapsPacket.setData, encapsFrame, Nat.mod_eq_of_lt h]

/-- C06. Packing a packet whose payload was set by `setData` and expanding the
bytes into any packet object restores the packet exactly when the payload has at
most 65535 bytes. -/
theorem C06_roundtrip_iff (p q : EncapsPacket) (hp : p.context.length = 8) (hq : q.context.length = 8)
    (payload : List Byte) :
    (∀ m, q.expand m (p.setData payload).pack = .ok (p.setData payload) ()) ↔ payload.length < 65536 := by
  rw [encaps_pack_eq]
  constructor
  · intro h
    have h := h Mem.strict
    rw [expand_compute _ _ hq _ _ _ _ _ _ _ (by simpa [EncapsPacket.setData] using hp)] at h
    split at h
    · rename_i h1
      simp [EncapsPacket.setData] at h1
      omega
    · cases h
  · intro h m
    rw [expand_compute _ _ hq _ _ _ _ _ _ _ (by simpa [EncapsPacket.setData] using hp)]
    rw [if_pos (by simp [EncapsPacket.setData]; omega)]

example : (EncapsPacketFactory.sendRRData 5#32 0#16 [1#8, 2#8]).context.length = 8 := by decide

/-- C06. Beyond the limit the packed bytes are rejected by every receiver. -/
theorem C06_oversized_rejected (p q : EncapsPacket) (hp : p.context.length = 8) (hq : q.context.length = 8)
    (payload : List Byte) (h : 65536 ≤ payload.length) (m : Mem) :
    ∃ s e, q.expand m (p.setData payload).pack = .throw s e := by
  rw [encaps_pack_eq, expand_compute _ _ hq _ _ _ _ _ _ _ (by simpa [EncapsPacket.setData] using hp)]
  rw [if_neg (by simp [EncapsPacket.setData]; omega)]
  exact ⟨_, _, rfl⟩

/-! ## C07 -/

/-- C07. Decoding any byte string, into any packet object, with any memory
around: no undefined behaviour; an exception exactly when the string is shorter
than 24 bytes or its length field (bytes 2 and 3) is not the number of bytes
after the header; otherwise packing the result gives back the input. -/
theorem C07_total (m : Mem) (p : EncapsPacket) (hp : p.context.length = 8) (data : List Byte) :
    (∃ q, p.expand m data = .ok q () ∧ q.pack = data ∧ q.context.length = 8
      ∧ 24 ≤ data.length ∧ data.length - 24 = ofLe ((data.drop 2).take 2)) ∨
    (∃ q e, p.expand m data = .throw q e ∧
      (data.length < 24 ∨ data.length - 24 ≠ ofLe ((data.drop 2).take 2))) := by
  by_cases h24 : data.length < 24
  · right
    refine ⟨p, .runtime "EncapsPacket header must be 24 bytes", ?_, .inl h24⟩
    simp [EncapsPacket.expand, EncapsPacket.headerSize, h24]
  · obtain ⟨c, l, s, t, ctx, o, pl, hctx, hpl, rfl⟩ := header_split data (by omega)
    rw [expand_compute m p hp c l s t ctx o pl hctx]
    have hl : ofLe (((le 2 c.toNat ++ (le 2 l.toNat ++ (le 4 s.toNat ++ (le 4 t.toNat ++
        (ctx ++ (le 4 o.toNat ++ pl)))))).drop 2).take 2) = l.toNat := by
      rw [List.drop_append_of_le_length (by simp), List.drop_eq_nil_of_le (by simp),
        List.nil_append, List.take_append_of_le_length (by simp), List.take_of_length_le (by simp)]
      exact ofLe_le 2 _ l.isLt
    have hlen : (le 2 c.toNat ++ (le 2 l.toNat ++ (le 4 s.toNat ++ (le 4 t.toNat ++
        (ctx ++ (le 4 o.toNat ++ pl)))))).length = 24 + pl.length := by simp [hctx]; omega
    rw [hl, hlen]
    by_cases h : pl.length = l.toNat
    · left
      rw [if_pos h]
      exact ⟨_, rfl, by rw [encaps_pack_eq], hctx, by omega, by omega⟩
    · right
      rw [if_neg h]
      exact ⟨_, _, rfl, .inr (by omega)⟩

example : EncapsPacket.default.expand Mem.strict EncapsPacketFactory.registerSession.pack
    = .ok EncapsPacketFactory.registerSession () := by decide +kernel
example : EncapsPacket.default.context.length = 8 := by decide

/-! ## C10 -/

/-- C10. RegisterSession: command 0x65, handle 0, protocol version 1, options 0. -/
theorem C10_registerSession :
    EncapsPacketFactory.registerSession.pack =
      encapsFrame 0x65 0 0 (List.replicate 8 0#8) 0 (le 2 1 ++ le 2 0) := by decide

/-- C10. UnRegisterSession: command 0x66, the session's handle, no payload. -/
theorem C10_unRegisterSession (handle : BitVec 32) :
    (EncapsPacketFactory.unRegisterSession handle).pack =
      encapsFrame 0x66 handle.toNat 0 (List.replicate 8 0#8) 0 [] := by
  rw [encaps_pack_eq]
  simp [EncapsPacketFactory.unRegisterSession, EncapsPacket.default, encapsFrame,
    EncapsCommand.unRegisterSession, encapsSuccess]

/-- C10. SendRRData: command 0x6F, the handle, interface handle 0, timeout, data
(up to 65529 bytes, since six bytes precede it in the payload). -/
theorem C10_sendRRData (handle : BitVec 32) (timeout : BitVec 16) (data : List Byte)
    (h : data.length + 6 < 65536) :
    (EncapsPacketFactory.sendRRData handle timeout data).pack =
      encapsFrame 0x6F handle.toNat 0 (List.replicate 8 0#8) 0 (le 4 0 ++ le 2 timeout.toNat ++ data) := by
  have e : (((Buffer.empty.putU32 0#32).putU16 timeout).putBytes data).bytes
      = le 4 0 ++ le 2 timeout.toNat ++ data := by
    simp [C02_little_endian, Buffer.putBytes, Buffer.empty]
  rw [EncapsPacketFactory.sendRRData, e, C06_layout _ _ (by simp; omega)]
  rfl

example : ([1#8, 2#8, 3#8] : List Byte).length + 6 < 65536 := by decide

/-- C10. ListIdentity: command 0x63, handle 0, no payload. -/
theorem C10_listIdentity :
    EncapsPacketFactory.listIdentity.pack = encapsFrame 0x63 0 0 (List.replicate 8 0#8) 0 [] := by decide

/-! ## C16 (encapsulation part) -/

/-- C16. When `expand` throws, the payload of the object is kept; if the input was
too short for a header nothing changed, otherwise every header field has been
overwritten by the input's header. -/
theorem C16_encaps_exception_state (m : Mem) (p q : EncapsPacket) (e : Exn) (hp : p.context.length = 8)
    (data : List Byte) (h : p.expand m data = .throw q e) :
    q.data = p.data ∧
      ((data.length < 24 ∧ q = p) ∨
       (24 ≤ data.length ∧ { q with data := [] }.pack = data.take 24)) := by
  by_cases h24 : data.length < 24
  · simp [EncapsPacket.expand, EncapsPacket.headerSize, h24] at h
    obtain ⟨rfl, rfl⟩ := h
    exact ⟨rfl, .inl ⟨h24, rfl⟩⟩
  · obtain ⟨c, l, s, t, ctx, o, pl, hctx, hpl, rfl⟩ := header_split data (by omega)
    rw [expand_compute m p hp c l s t ctx o pl hctx] at h
    split at h
    · cases h
    · injection h with h1 h2
      subst h1
      refine ⟨rfl, .inr ⟨by omega, ?_⟩⟩
      · rw [encaps_pack_eq]
        have : le 2 c.toNat ++ (le 2 l.toNat ++ (le 4 s.toNat ++
          (le 4 t.toNat ++ (ctx ++ (le 4 o.toNat ++ pl))))) =
          (le 2 c.toNat ++ (le 2 l.toNat ++ (le 4 s.toNat ++
          (le 4 t.toNat ++ (ctx ++ le 4 o.toNat))))) ++ pl := by simp
        rw [this, List.take_append_of_le_length (by simp [hctx]), List.take_of_length_le (by simp [hctx])]
        simp

/-- C16. The expectation "a failed expand leaves the object unchanged" is false. -/
theorem C16_all_or_nothing_violated :
    ∃ (p : EncapsPacket) (data : List Byte) (q : EncapsPacket) (e : Exn), p.context.length = 8 ∧
      p.expand Mem.strict data = .throw q e ∧ q ≠ p :=
  ⟨EncapsPacket.default, List.replicate 24 1#8,
    ⟨0x0101#16, 0x0101#16, 0x01010101#32, 0x01010101#32, List.replicate 8 1#8, 0x01010101#32, []⟩,
    .runtime "EncapsPacket data must be", by decide, by decide +kernel, by decide⟩

end Verif.Props
