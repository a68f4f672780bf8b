import Verif.Model.IoConn
import Verif.Spec.Io
import Verif.Props.CommonPacket

/-!
# Properties C35–C40, C50 (one I/O connection)
-/

namespace Verif.Props

open Verif Verif.Spec

theorem class_eq (t : BitVec 8) : Conn.classHasSequence t = hasCount t := by
  revert t; decide +kernel

/-! ## C36 -/

/-- What the callback is to be called with when a field is absent. -/
def opt {n : Nat} (b : Bool) (v : BitVec n) : Option Nat := if b then some v.toNat else none

theorem notifyReceive_compute (m : Mem) (c : Conn) (header : BitVec 32) (seq : BitVec 16) (data : List Byte) :
    c.notifyReceiveData m (ioPayloadHeaderFirst (opt (hasCount c.transportTypeTrigger) seq)
      (opt c.t2oRealTimeFormat header) data) =
    if c.t2oFixedSize && data.length != c.t2oDataSize then .ok (c, [])
    else .ok ({ c with connectionTimeoutCount := 0 },
      [.received (if c.t2oRealTimeFormat then header else 0) (if hasCount c.transportTypeTrigger then seq else 0)
        data]) := by
  have hr : Reads (Conn.recvHead c)
      ((if c.t2oRealTimeFormat then le 4 header.toNat else []) ++
        (if hasCount c.transportTypeTrigger then le 2 seq.toNat else []))
      (if c.t2oRealTimeFormat then header else 0#32, if hasCount c.transportTypeTrigger then seq else 0#16) := by
    have h1 : Reads c.recvHeader (if c.t2oRealTimeFormat then le 4 header.toNat else [])
        (if c.t2oRealTimeFormat then header else 0#32) := by
      unfold Conn.recvHeader
      split
      · exact Reads.u32 header
      · exact Reads.pure _
    have h2 : Reads c.recvCount (if hasCount c.transportTypeTrigger then le 2 seq.toNat else [])
        (if hasCount c.transportTypeTrigger then seq else 0#16) := by
      unfold Conn.recvCount
      rw [class_eq]
      split
      · exact Reads.u16 seq
      · exact Reads.pure _
    exact h1.bind (h2.map_pure fun q => (if c.t2oRealTimeFormat then header else 0#32, q))
  have hs := hr.start (post := data) m
  have he : ioPayloadHeaderFirst (opt (hasCount c.transportTypeTrigger) seq)
      (opt c.t2oRealTimeFormat header) data =
      ((if c.t2oRealTimeFormat then le 4 header.toNat else []) ++
        (if hasCount c.transportTypeTrigger then le 2 seq.toNat else [])) ++ data := by
    unfold ioPayloadHeaderFirst opt
    split <;> split <;> simp_all
  rw [he]
  generalize (if c.t2oRealTimeFormat then le 4 header.toNat else []) ++
        (if hasCount c.transportTypeTrigger then le 2 seq.toNat else []) = pre at hs ⊢
  unfold Conn.notifyReceiveData
  rw [show Buffer.ofData (pre ++ data) = ⟨pre ++ data, 0⟩ from rfl] at *
  rw [hs]
  simp only [List.drop_left, List.length_append]
  rw [if_neg (by omega)]
  rfl

/-- C36. For each combination of transport class and real-time format: the payload
(header first, then count, then data) is handed to the callback exactly. -/
theorem C36_decode (m : Mem) (c : Conn) (header : BitVec 32) (seq : BitVec 16) (data : List Byte)
    (h : c.t2oFixedSize = false ∨ data.length = c.t2oDataSize) :
    c.notifyReceiveData m (ioPayloadHeaderFirst (opt (hasCount c.transportTypeTrigger) seq)
      (opt c.t2oRealTimeFormat header) data) =
    .ok ({ c with connectionTimeoutCount := 0 },
      [.received (if c.t2oRealTimeFormat then header else 0) (if hasCount c.transportTypeTrigger then seq else 0)
        data]) := by
  rw [notifyReceive_compute, if_neg]
  rcases h with h | h <;> simp [h]

example : (let c : Conn := { t2oRealTimeFormat := true, transportTypeTrigger := 1, t2oDataSize := 2 }
    c.notifyReceiveData Mem.strict [1#8, 0#8, 0#8, 0#8, 7#8, 0#8, 0xAA#8, 0xBB#8]) =
    .ok ({ t2oRealTimeFormat := true, transportTypeTrigger := 1, t2oDataSize := 2 },
      [.received 1#32 7#16 [0xAA#8, 0xBB#8]]) := by decide +kernel

/-- C36. A peer that uses this scanner's own transmission layout is decoded
correctly when at most one of count and header is present. -/
theorem C36_own_layout (m : Mem) (c : Conn) (header : BitVec 32) (seq : BitVec 16) (data : List Byte)
    (h : c.t2oFixedSize = false ∨ data.length = c.t2oDataSize)
    (hne : ¬ (hasCount c.transportTypeTrigger = true ∧ c.t2oRealTimeFormat = true)) :
    c.notifyReceiveData m (ioPayload (opt (hasCount c.transportTypeTrigger) seq)
      (opt c.t2oRealTimeFormat header) data) =
    .ok ({ c with connectionTimeoutCount := 0 },
      [.received (if c.t2oRealTimeFormat then header else 0) (if hasCount c.transportTypeTrigger then seq else 0)
        data]) := by
  rw [← C36_decode m c header seq data h]
  congr 1
  unfold ioPayload ioPayloadHeaderFirst opt
  cases hh : hasCount c.transportTypeTrigger <;> cases hr : c.t2oRealTimeFormat <;> simp_all

/-- C36. With both present the two fields come out mixed: the callback's header is
the count followed by the low half of the header, its count the high half. -/
theorem C36_both_mixed (m : Mem) (c : Conn) (header : BitVec 32) (seq : BitVec 16) (data : List Byte)
    (h : c.t2oFixedSize = false ∨ data.length = c.t2oDataSize)
    (hc : hasCount c.transportTypeTrigger = true) (hr : c.t2oRealTimeFormat = true) :
    c.notifyReceiveData m (ioPayload (some seq.toNat) (some header.toNat) data) =
    .ok ({ c with connectionTimeoutCount := 0 },
      [.received (BitVec.ofNat 32 (seq.toNat + 65536 * (header.toNat % 65536)))
        (BitVec.ofNat 16 (header.toNat / 65536)) data]) := by
  have hh := header.isLt
  have hq := seq.isLt
  have := C36_decode m c (BitVec.ofNat 32 (seq.toNat + 65536 * (header.toNat % 65536)))
    (BitVec.ofNat 16 (header.toNat / 65536)) data h
  simp only [opt, if_pos hc, if_pos hr] at this
  rw [← this]
  congr 1
  unfold ioPayload ioPayloadHeaderFirst
  simp only [BitVec.toNat_ofNat]
  rw [Nat.mod_eq_of_lt (show seq.toNat + 65536 * (header.toNat % 65536) < 2 ^ 32 by omega),
    Nat.mod_eq_of_lt (show header.toNat / 65536 < 2 ^ 16 by omega)]
  congr 1
  simp only [le, List.cons_append, List.nil_append, List.cons.injEq, and_true]
  refine ⟨?_, ?_, ?_, ?_, ?_, ?_⟩ <;> congr 1 <;> omega

/-- C36. The natural claim, that a peer using this scanner's layout is always
understood, is false: run header 1 and count 5 arrive as header 0x10005, count 0. -/
theorem C36_own_layout_violated :
    ∃ (c : Conn) (data : List Byte), hasCount c.transportTypeTrigger = true ∧ c.t2oRealTimeFormat = true ∧
      c.notifyReceiveData Mem.strict (ioPayload (some 5) (some 1) data) =
        .ok (c, [.received 0x10005#32 0#16 data]) :=
  ⟨{ t2oRealTimeFormat := true, transportTypeTrigger := 1, t2oDataSize := 1 }, [9#8],
    by decide, rfl, by decide +kernel⟩

/-- C36. A payload too short for the announced fields is read out of bounds. -/
theorem C36_short (c : Conn) (data : List Byte)
    (h : data.length < (if c.t2oRealTimeFormat then 4 else 0) + (if hasCount c.transportTypeTrigger then 2 else 0)) :
    c.notifyReceiveData Mem.strict data = .ub := by
  have hs : Sized (Conn.recvHead c)
      ((if c.t2oRealTimeFormat then 4 else 0) + (if hasCount c.transportTypeTrigger then 2 else 0)) := by
    have h1 : Sized c.recvHeader (if c.t2oRealTimeFormat then 4 else 0) := by
      unfold Conn.recvHeader
      split
      · exact Sized.u32
      · exact Sized.pure _
    have h2 : Sized c.recvCount (if hasCount c.transportTypeTrigger then 2 else 0) := by
      unfold Conn.recvCount
      rw [class_eq]
      split
      · exact Sized.u16
      · exact Sized.pure _
    exact h1.bind fun _ => h2.map _
  unfold Conn.notifyReceiveData
  rw [hs.short (Buffer.ofData data) (by simp [Buffer.ofData]) (by simpa [Buffer.ofData] using h)]

/-! ## C26 for datagrams -/

/-- C26. `UDPSocket::Send` throws exactly when `sendto` reports a non-negative count
below the length of the data; a failing `sendto` (-1) is not reported. -/
theorem C26_udp_send (data : List Byte) (count : Int) (h1 : -1 ≤ count) (h2 : count ≤ data.length)
    (h3 : data.length < 2 ^ 63) :
    udpSendThrows data count = true ↔ 0 ≤ count ∧ count < data.length := by
  unfold udpSendThrows
  simp only [decide_eq_true_eq, BitVec.toNat_ofInt]
  omega

example : udpSendThrows [1#8, 2#8] (-1) = false ∧ udpSendThrows [1#8, 2#8] 1 = true := by decide +kernel

end Verif.Props
