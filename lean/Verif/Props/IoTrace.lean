import Verif.Props.IoConn
import Verif.Spec.IoTrace

/-!
# Properties C35, C37–C40, C50 (histories of one I/O connection)

A history is a list of operations (ticks with clock readings, receptions, new
output data); `Conn.run` gives the events of each operation.
-/

namespace Verif.Props

open Verif Verif.Spec

/-- The negotiated, constant part of a connection is the same. -/
structure SameConfig (c d : Conn) : Prop where
  o2tId : d.o2tNetworkConnectionId = c.o2tNetworkConnectionId
  t2oId : d.t2oNetworkConnectionId = c.t2oNetworkConnectionId
  o2tAPI : d.o2tAPI = c.o2tAPI
  t2oAPI : d.t2oAPI = c.t2oAPI
  o2tSize : d.o2tDataSize = c.o2tDataSize
  t2oSize : d.t2oDataSize = c.t2oDataSize
  o2tFixed : d.o2tFixedSize = c.o2tFixedSize
  t2oFixed : d.t2oFixedSize = c.t2oFixedSize
  mult : d.connectionTimeoutMultiplier = c.connectionTimeoutMultiplier
  serial : d.serialNumber = c.serialNumber
  trigger : d.transportTypeTrigger = c.transportTypeTrigger
  o2tRt : d.o2tRealTimeFormat = c.o2tRealTimeFormat
  t2oRt : d.t2oRealTimeFormat = c.t2oRealTimeFormat
  path : d.connectionPath = c.connectionPath
  vendor : d.originatorVendorId = c.originatorVendorId
  origSerial : d.originatorSerialNumber = c.originatorSerialNumber
  socket : d.socket = c.socket

theorem SameConfig.refl (c : Conn) : SameConfig c c := by constructor <;> rfl

theorem SameConfig.trans {a b c : Conn} (h : SameConfig a b) (g : SameConfig b c) : SameConfig a c := by
  constructor
  · exact g.1.trans h.1
  · exact g.2.trans h.2
  · exact g.3.trans h.3
  · exact g.4.trans h.4
  · exact g.5.trans h.5
  · exact g.6.trans h.6
  · exact g.7.trans h.7
  · exact g.8.trans h.8
  · exact g.9.trans h.9
  · exact g.10.trans h.10
  · exact g.11.trans h.11
  · exact g.12.trans h.12
  · exact g.13.trans h.13
  · exact g.14.trans h.14
  · exact g.15.trans h.15
  · exact g.16.trans h.16
  · exact g.17.trans h.17

/-- Microseconds counted by a tick. -/
def period (c : Conn) (now : Nat) : Nat := (now - c.lastHandleTime) / 1000000 * 1000

/-- The three ways a tick can go. -/
inductive TickCase (c : Conn) (now : Nat) (hook : Hook) (count : Int) : Conn → List IoEv → TickRet → Prop
  | dead (h : c.connectionTimeoutMultiplier.setWidth 32 * c.t2oAPI <
        c.connectionTimeoutCount + BitVec.ofNat 32 (period c now)) :
      TickCase c now hook count
        { c with connectionTimeoutCount := c.connectionTimeoutCount + BitVec.ofNat 32 (period c now) }
        [.closed] (Conn.closeRet hook)
  | idle (h : ¬ c.connectionTimeoutMultiplier.setWidth 32 * c.t2oAPI <
        c.connectionTimeoutCount + BitVec.ofNat 32 (period c now))
      (h2 : c.o2tTimer + BitVec.ofNat 32 (period c now) < c.o2tAPI) :
      TickCase c now hook count
        { c with connectionTimeoutCount := c.connectionTimeoutCount + BitVec.ofNat 32 (period c now),
                 lastHandleTime := now, o2tTimer := c.o2tTimer + BitVec.ofNat 32 (period c now) }
        [] .alive
  | prod (h : ¬ c.connectionTimeoutMultiplier.setWidth 32 * c.t2oAPI <
        c.connectionTimeoutCount + BitVec.ofNat 32 (period c now))
      (h2 : c.o2tAPI ≤ c.o2tTimer + BitVec.ofNat 32 (period c now)) (evs : List IoEv) (ret : TickRet)
      (hev : (evs = [.asked (hook.left.getD c.outputData)] ∧
          c.o2tFixedSize = true ∧ (hook.left.getD c.outputData).length ≠ c.o2tDataSize ∧ hook.throws = none ∧ ret = .alive) ∨
        (∃ e, evs = [.asked (hook.left.getD c.outputData)] ∧ hook.throws = some e ∧ ret = .threw e) ∨
        (∃ bytes, evs = [.asked (hook.left.getD c.outputData), .sent c.socket bytes] ∧
          (c.o2tFixedSize = true → (hook.left.getD c.outputData).length = c.o2tDataSize) ∧
          ((hook.left.getD c.outputData).length + 6 < 65536 → bytes = ioFrame c.o2tNetworkConnectionId.toNat
            (c.o2tSequenceNumber + 1).toNat
            (ioPayload (opt (hasCount c.transportTypeTrigger) (c.sequenceValueCount + 1))
              (if c.o2tRealTimeFormat then some 1 else none) (hook.left.getD c.outputData))) ∧
          hook.throws = none ∧ ret = if udpSendThrows bytes count then .threw (.system 0) else .alive)) :
      TickCase c now hook count
        { c with connectionTimeoutCount := c.connectionTimeoutCount + BitVec.ofNat 32 (period c now),
                 lastHandleTime := now, o2tTimer := 0, o2tSequenceNumber := c.o2tSequenceNumber + 1,
                 sequenceValueCount := if hasCount c.transportTypeTrigger then c.sequenceValueCount + 1
                   else c.sequenceValueCount,
                 outputData := hook.left.getD c.outputData }
        evs ret

theorem ioFrame_pack (id seqNum : BitVec 32) (payload : List Byte) (h : payload.length < 65536) :
    CommonPacket.pack [CommonPacketItemFactory.sequenceAddress id seqNum,
      CommonPacketItemFactory.connectedData payload] = ioFrame id.toNat seqNum.toNat payload := by
  have := C08_layout [(0x8002#16, ((Buffer.empty.putU32 id).putU32 seqNum).bytes), (0xB1#16, payload)]
    ⟨by simp, by
      intro i hi
      simp at hi
      rcases hi with rfl | rfl
      · simp [Buffer.putU32, Buffer.empty]
      · exact h⟩
  have e : ((Buffer.empty.putU32 id).putU32 seqNum).bytes = le 4 id.toNat ++ le 4 seqNum.toNat := by
    simp [C02_little_endian, Buffer.empty]
  unfold ioFrame
  rw [← e]
  exact this

theorem tick_cases (c : Conn) (now : Nat) (hook : Hook) (count : Int) :
    TickCase c now hook count (c.notifyTick now hook count).1 (c.notifyTick now hook count).2.1
      (c.notifyTick now hook count).2.2 := by
  have hp : (now - c.lastHandleTime) / 1000000 * 1000 = period c now := rfl
  unfold Conn.notifyTick
  simp only [hp]
  by_cases h : c.connectionTimeoutMultiplier.setWidth 32 * c.t2oAPI <
        c.connectionTimeoutCount + BitVec.ofNat 32 (period c now)
  · rw [if_pos h]
    exact .dead h
  · rw [if_neg h]
    by_cases h2 : c.o2tAPI ≤ c.o2tTimer + BitVec.ofNat 32 (period c now)
    · rw [if_pos h2]
      unfold Conn.produce
      simp only [class_eq]
      cases hth : hook.throws with
      | some e => exact .prod h h2 _ _ (.inr (.inl ⟨e, rfl, hth, rfl⟩))
      | none =>
      by_cases h3 : (c.o2tFixedSize && (hook.left.getD c.outputData).length != c.o2tDataSize) = true
      · rw [if_pos h3]
        refine .prod h h2 _ _ (.inl ⟨rfl, ?_⟩)
        simp at h3
        exact ⟨h3.1, h3.2, hth, rfl⟩
      · rw [if_neg h3]
        refine .prod h h2 _ _ (.inr (.inr ⟨_, rfl, ?_, ?_, hth, rfl⟩))
        · intro hf
          simp [hf] at h3
          exact h3
        · intro hl
          rw [ioFrame_pack]
          · congr 1
            unfold ioPayload opt
            split <;> split <;> simp [C02_little_endian, Buffer.putBytes, Buffer.empty] <;> decide
          · split <;> split <;> simp [Buffer.putU16, Buffer.putU32, Buffer.putBytes, Buffer.empty] <;> omega
    · rw [if_neg h2]
      exact .idle h (by simpa [BitVec.not_le] using h2)

/-- A tick as a step of a history. -/
theorem tick_step {m : Mem} {c d : Conn} {now : Nat} {hook : Hook} {count : Int} {evs : List IoEv}
    (h : c.step m (.tick now hook count) = some (d, evs)) : ∃ ret, TickCase c now hook count d evs ret := by
  simp only [Conn.step] at h
  injection h with h; injection h with h1 h2
  have := tick_cases c now hook count
  rw [h1, h2] at this
  exact ⟨_, this⟩

/-- A reception as a step of a history. -/
theorem recv_step {m : Mem} {c d : Conn} {data : List Byte} {evs : List IoEv}
    (h : c.step m (.recv data) = some (d, evs)) : c.notifyReceiveData m data = .ok (d, evs) := by
  simp only [Conn.step] at h
  split at h
  · rename_i r hr
    injection h with h
    subst h
    exact hr
  · cases h

/-- New output data as a step of a history. -/
theorem setData_step {m : Mem} {c d : Conn} {data : List Byte} {evs : List IoEv}
    (h : c.step m (.setData data) = some (d, evs)) : d = { c with outputData := data } ∧ evs = [] := by
  simp only [Conn.step] at h
  injection h with h; injection h with h1 h2
  exact ⟨h1.symm, h2.symm⟩

/-- The two ways a reception can go when it is defined. -/
theorem recv_cases (m : Mem) (c d : Conn) (data : List Byte) (evs : List IoEv)
    (h : c.notifyReceiveData m data = .ok (d, evs)) :
    (d = c ∧ evs = []) ∨
    (d = { c with connectionTimeoutCount := 0 } ∧ ∃ header seq io, evs = [.received header seq io] ∧
      (c.t2oFixedSize = true → io.length = c.t2oDataSize)) := by
  unfold Conn.notifyReceiveData at h
  split at h
  · cases h
  · cases h
  · split at h
    · cases h
    · dsimp only at h
      split at h
      · injection h with h; injection h with h1 h2
        exact .inl ⟨h1.symm, h2.symm⟩
      · rename_i hf
        injection h with h; injection h with h1 h2
        refine .inr ⟨h1.symm, _, _, _, h2.symm, fun hc => ?_⟩
        simpa [hc] using hf

theorem step_config (m : Mem) (c d : Conn) (op : ConnOp) (evs : List IoEv) (h : c.step m op = some (d, evs)) :
    SameConfig c d := by
  cases op with
  | tick now hook count =>
    obtain ⟨ret, ht⟩ := tick_step h
    cases ht <;> constructor <;> rfl
  | recv data =>
    rcases recv_cases m c d data evs (recv_step h) with ⟨rfl, _⟩ | ⟨rfl, _⟩
    · exact .refl _
    · constructor <;> rfl
  | setData data =>
    obtain ⟨rfl, _⟩ := setData_step h
    constructor <;> rfl

theorem run_cons {m : Mem} {c c' : Conn} {op : ConnOp} {ops : List ConnOp} {tr : List (ConnOp × List IoEv)}
    (h : c.run m (op :: ops) = some (c', tr)) :
    ∃ d evs tr', c.step m op = some (d, evs) ∧ d.run m ops = some (c', tr') ∧ tr = (op, evs) :: tr' := by
  simp only [Conn.run] at h
  split at h
  · cases h
  · rename_i d evs hs
    split at h
    · cases h
    · rename_i c'' tr' hr
      injection h with h; injection h with h1 h2
      subst h1
      exact ⟨d, evs, tr', hs, hr, h2.symm⟩

theorem run_config (m : Mem) (c c' : Conn) (ops : List ConnOp) (tr : List (ConnOp × List IoEv))
    (h : c.run m ops = some (c', tr)) : SameConfig c c' := by
  induction ops generalizing c tr with
  | nil => simp [Conn.run] at h; rw [← h.1]; exact .refl _
  | cons op ops ih =>
    obtain ⟨d, evs, tr', h1, h2, _⟩ := run_cons h
    exact (step_config m c d op evs h1).trans (ih d tr' h2)

/-- A run in two parts. -/
theorem run_append (m : Mem) (c : Conn) (xs ys : List ConnOp) :
    c.run m (xs ++ ys) = match c.run m xs with
      | none => none
      | some (d, tr) => match d.run m ys with
        | none => none
        | some (e, tr') => some (e, tr ++ tr') := by
  induction xs generalizing c with
  | nil => simp only [List.nil_append, Conn.run]; cases c.run m ys <;> rfl
  | cons op xs ih =>
    simp only [List.cons_append, Conn.run]
    cases c.step m op with
    | none => rfl
    | some r =>
      simp only
      rw [ih]
      cases r.1.run m xs with
      | none => rfl
      | some q => simp only; cases q.1.run m ys <;> rfl

/-! ## C35 -/

/-- C35. Over any history of a fixed-size connection, the receive callback is only
ever called with data of the agreed length. -/
theorem C35_fixed_size (m : Mem) (c c' : Conn) (ops : List ConnOp) (tr : List (ConnOp × List IoEv))
    (hrun : c.run m ops = some (c', tr)) (hf : c.t2oFixedSize = true) :
    ∀ e ∈ tr, ∀ header seq data, IoEv.received header seq data ∈ e.2 → data.length = c.t2oDataSize := by
  induction ops generalizing c tr with
  | nil => simp [Conn.run] at hrun; intro e he; rw [hrun.2] at he; simp at he
  | cons op ops ih =>
    obtain ⟨d, evs, tr', h1, h2, rfl⟩ := run_cons hrun
    have hc := step_config m c d op evs h1
    intro e he header seq data hin
    rw [List.mem_cons] at he
    rcases he with rfl | he
    · cases op with
      | tick now hook count =>
        obtain ⟨ret, ht⟩ := tick_step h1
        cases ht with
        | dead => simp at hin
        | idle => simp at hin
        | prod _ _ _ _ hev =>
          rcases hev with ⟨he, _⟩ | ⟨_, he, _⟩ | ⟨_, he, _⟩ <;> simp [he] at hin
      | recv dat =>
        rcases recv_cases m c d dat evs (recv_step h1) with ⟨_, rfl⟩ | ⟨_, hd, sq, io, rfl, hl⟩
        · simp at hin
        · simp at hin
          rw [hin.2.2]; exact hl hf
      | setData dat =>
        obtain ⟨_, rfl⟩ := setData_step h1
        simp at hin
    · rw [← hc.t2oSize]
      exact ih d tr' h2 (by rw [hc.t2oFixed, hf]) e he header seq data hin

/-- C35. A datagram of another length changes nothing at all: no callback, no sign of life. -/
theorem C35_wrong_size_ignored (m : Mem) (c : Conn) (header : BitVec 32) (seq : BitVec 16) (data : List Byte)
    (hf : c.t2oFixedSize = true) (hl : data.length ≠ c.t2oDataSize) :
    c.notifyReceiveData m (ioPayloadHeaderFirst (opt (hasCount c.transportTypeTrigger) seq)
      (opt c.t2oRealTimeFormat header) data) = .ok (c, []) := by
  rw [notifyReceive_compute, if_pos]
  simp [hf, hl]

example : ∃ c : Conn, c.t2oFixedSize = true ∧ [1#8, 2#8].length ≠ c.t2oDataSize := ⟨{ t2oDataSize := 3 }, rfl, by decide⟩

/-- A point of a history: the part before it is a history too. -/
theorem run_split (m : Mem) (c c' : Conn) (ops : List ConnOp) (pre post : IoTrace) (e : ConnOp × List IoEv)
    (h : c.run m ops = some (c', pre ++ e :: post)) :
    ∃ opsPre opsPost d d', ops = opsPre ++ e.1 :: opsPost ∧ c.run m opsPre = some (d, pre) ∧
      d.step m e.1 = some (d', e.2) ∧ d'.run m opsPost = some (c', post) := by
  induction pre generalizing c ops with
  | nil =>
    cases ops with
    | nil => simp [Conn.run] at h
    | cons op ops =>
      obtain ⟨d, evs, tr', h1, h2, h3⟩ := run_cons h
      simp only [List.nil_append, List.cons.injEq] at h3
      obtain ⟨rfl, rfl⟩ := h3
      exact ⟨[], ops, c, d, rfl, rfl, h1, h2⟩
  | cons p pre ih =>
    cases ops with
    | nil => simp [Conn.run] at h
    | cons op ops =>
      obtain ⟨d, evs, tr', h1, h2, h3⟩ := run_cons h
      simp only [List.cons_append, List.cons.injEq] at h3
      obtain ⟨rfl, rfl⟩ := h3
      obtain ⟨o1, o2, d1, d2, rfl, g2, g3, g4⟩ := ih d ops h2
      refine ⟨op :: o1, o2, d1, d2, rfl, ?_, g3, g4⟩
      simp only [Conn.run, h1, g2]

/-- The operations of a history are those of its trace. -/
theorem run_ops (m : Mem) (c c' : Conn) (ops : List ConnOp) (tr : IoTrace) (h : c.run m ops = some (c', tr)) :
    tr.map Prod.fst = ops := by
  induction ops generalizing c tr with
  | nil => simp [Conn.run] at h; simp [h.2]
  | cons op ops ih =>
    obtain ⟨d, evs, tr', h1, h2, rfl⟩ := run_cons h
    simp [ih d tr' h2]

/-! ## C37, C50 -/

/-- The counters of a connection after a history. -/
theorem run_counters (m : Mem) (c c' : Conn) (ops : List ConnOp) (tr : IoTrace)
    (h : c.run m ops = some (c', tr)) :
    c'.o2tSequenceNumber = c.o2tSequenceNumber + BitVec.ofNat 32 (asks tr) ∧
    (hasCount c.transportTypeTrigger = true →
      c'.sequenceValueCount = c.sequenceValueCount + BitVec.ofNat 16 (asks tr)) ∧
    c'.outputData = lastWritten c.outputData tr := by
  induction ops generalizing c tr with
  | nil => simp [Conn.run] at h; simp [h.1, h.2, asks, lastWritten]
  | cons op ops ih =>
    obtain ⟨d, evs, tr', h1, h2, rfl⟩ := run_cons h
    have hc := step_config m c d op evs h1
    obtain ⟨i1, i2, i3⟩ := ih d tr' h2
    rw [i1, i3]
    rw [hc.trigger] at i2
    cases op with
    | tick now hook count =>
      obtain ⟨ret, ht⟩ := tick_step h1
      cases ht with
      | dead h =>
        refine ⟨by simp [asks, IoEv.isAsked], fun hh => by simp [i2 hh, asks, IoEv.isAsked], by simp [lastWritten]⟩
      | idle h h2 =>
        refine ⟨by simp [asks], fun hh => by simp [i2 hh, asks], by simp [lastWritten]⟩
      | prod h h2 _ _ hev =>
        rcases hev with ⟨he, _⟩ | ⟨_, he, _⟩ | ⟨_, he, _⟩
        all_goals
          subst he
          refine ⟨?_, fun hh => ?_, by simp [lastWritten]⟩
          · simp only [asks, List.countP_cons, List.countP_nil, IoEv.isAsked, BitVec.ofNat_add]
            simp [BitVec.add_assoc]
          · rw [i2 hh]
            simp only [asks, List.countP_cons, List.countP_nil, IoEv.isAsked, BitVec.ofNat_add, hh, if_true]
            simp [BitVec.add_assoc]
    | recv data =>
      rcases recv_cases m c d data evs (recv_step h1) with ⟨rfl, rfl⟩ | ⟨rfl, hd, sq, io, rfl, _⟩
      · refine ⟨by simp [asks], fun hh => by simp [i2 hh, asks], by simp [lastWritten]⟩
      · refine ⟨by simp [asks, IoEv.isAsked], fun hh => by simp [i2 hh, asks, IoEv.isAsked], by simp [lastWritten]⟩
    | setData data =>
      obtain ⟨rfl, rfl⟩ := setData_step h1
      refine ⟨by simp [asks], fun hh => by simp [i2 hh, asks], by simp [lastWritten]⟩

/-- C37, C50. In any history of a new connection, a datagram is only sent by a
tick; if it is the `k`-th production period, the datagram is the frame with the
O→T identifier, sequence number `k` (modulo 2^32), sequence count `k` (modulo 2^16)
if the class has one, run header 1 if the real-time format is used, and the data the
send callback left (or else the last written data); it goes to the connection's end point, and
a fixed-size connection only sends data of its size. -/
theorem C37_C50_transmission (m : Mem) (c c' : Conn) (ops : List ConnOp) (pre post : IoTrace) (op : ConnOp)
    (evs : List IoEv) (to : Option EndPoint) (bytes : List Byte)
    (hnew : c.o2tSequenceNumber = 0 ∧ c.sequenceValueCount = 0)
    (hrun : c.run m ops = some (c', pre ++ (op, evs) :: post))
    (hsent : IoEv.sent to bytes ∈ evs) :
    ∃ now hook count data, op = .tick now hook count ∧ hook.throws = none ∧
      data = hook.left.getD (lastWritten c.outputData pre) ∧
      evs = [.asked data, .sent to bytes] ∧
      to = c.socket ∧
      (c.o2tFixedSize = true → data.length = c.o2tDataSize) ∧
      (data.length + 6 < 65536 →
        bytes = ioFrame c.o2tNetworkConnectionId.toNat ((asks pre + 1) % 2 ^ 32)
          (ioPayload (if hasCount c.transportTypeTrigger then some ((asks pre + 1) % 2 ^ 16) else none)
            (if c.o2tRealTimeFormat then some 1 else none) data)) := by
  obtain ⟨o1, o2, d, d', rfl, h1, h2, h3⟩ := run_split m c c' ops pre post (op, evs) hrun
  have hc := run_config m c d o1 pre h1
  obtain ⟨k1, k2, k3⟩ := run_counters m c d o1 pre h1
  cases op with
  | tick now hook count =>
    obtain ⟨ret, ht⟩ := tick_step h2
    cases ht with
    | dead => simp at hsent
    | idle => simp at hsent
    | prod _ _ _ _ hev =>
      rcases hev with ⟨he, _⟩ | ⟨_, he, _⟩ | ⟨b, he, hfix, hb, hth, _⟩
      · subst he; simp at hsent
      · subst he; simp at hsent
      · subst he
        simp at hsent
        obtain ⟨rfl, rfl⟩ := hsent
        rw [k3, hc.o2tSize, hc.o2tFixed] at hfix
        rw [k3, hc.o2tId, hc.trigger, hc.o2tRt, k1, hnew.1] at hb
        refine ⟨now, hook, count, _, rfl, hth, rfl, by rw [k3], hc.socket, hfix, fun hl => ?_⟩
        rw [hb hl]
        have e1 : (0 + BitVec.ofNat 32 (asks pre) + 1).toNat = (asks pre + 1) % 2 ^ 32 := by
          simp [BitVec.toNat_add]
        rw [e1]
        unfold opt
        by_cases hh : hasCount c.transportTypeTrigger = true
        · rw [k2 hh, hnew.2]
          have e2 : (0 + BitVec.ofNat 16 (asks pre) + 1).toNat = (asks pre + 1) % 2 ^ 16 := by
            simp [BitVec.toNat_add]
          rw [e2]
        · simp [hh]
  | recv data =>
    rcases recv_cases m d d' data evs (recv_step h2) with ⟨_, rfl⟩ | ⟨_, _, _, _, rfl, _⟩ <;> simp at hsent
  | setData data =>
    obtain ⟨_, rfl⟩ := setData_step h2
    simp at hsent

/-! ## C38 -/

theorem asked_any (c d : Conn) (now : Nat) (hook : Hook) (count : Int) (evs : List IoEv) (ret : TickRet)
    (h : TickCase c now hook count d evs ret) (ha : evs.any IoEv.isAsked = true) :
    d.o2tTimer = 0 ∧ d.lastHandleTime = now ∧ c.o2tAPI ≤ c.o2tTimer + BitVec.ofNat 32 (period c now) := by
  cases h with
  | dead => simp [IoEv.isAsked] at ha
  | idle => simp at ha
  | prod _ h2 => exact ⟨rfl, rfl, h2⟩

theorem not_asked (c d : Conn) (now : Nat) (hook : Hook) (count : Int) (evs : List IoEv) (ret : TickRet)
    (h : TickCase c now hook count d evs ret) (ha : ¬ evs.any IoEv.isAsked = true) :
    (d.o2tTimer = c.o2tTimer ∧ d.lastHandleTime = c.lastHandleTime ∧ evs = [.closed]) ∨
    (d.o2tTimer = c.o2tTimer + BitVec.ofNat 32 (period c now) ∧ d.lastHandleTime = now ∧ evs = [] ∧
      c.o2tTimer + BitVec.ofNat 32 (period c now) < c.o2tAPI) := by
  cases h with
  | dead => exact .inl ⟨rfl, rfl, rfl⟩
  | idle _ h2 => exact .inr ⟨rfl, rfl, rfl, h2⟩
  | prod _ h2 _ _ hev => rcases hev with ⟨he, _⟩ | ⟨_, he, _⟩ | ⟨_, he, _⟩ <;> simp [he, IoEv.isAsked] at ha

theorem add_ofNat_le (x : BitVec 32) (n : Nat) : (x + BitVec.ofNat 32 n).toNat ≤ x.toNat + n := by
  simp only [BitVec.toNat_add, BitVec.toNat_ofNat]
  exact Nat.le_trans (Nat.mod_le _ _) (Nat.add_le_add_left (Nat.mod_le n (2 ^ 32)) _)

theorem elapsed_le {lp k x t p last now : Nat} (hge : k ≤ x) (ha : x ≤ t + p) (hinv : lp + t * 1000 ≤ last)
    (hp : last + p * 1000 ≤ now) : lp + k * 1000 ≤ now := by
  have h1 : k * 1000 ≤ (t + p) * 1000 := Nat.mul_le_mul_right _ (Nat.le_trans hge ha)
  rw [Nat.add_mul] at h1
  have h2 := Nat.add_le_add_left h1 lp
  rw [← Nat.add_assoc] at h2
  exact Nat.le_trans h2 (Nat.le_trans (Nat.add_le_add_right hinv _) hp)

theorem period_le (c : Conn) (now : Nat) (h : c.lastHandleTime ≤ now) :
    c.lastHandleTime + period c now * 1000 ≤ now := by
  unfold period; omega

theorem prod_spacing (m : Mem) (c c' : Conn) (ops : List ConnOp) (tr : IoTrace) (lp : Nat) (tmax : Nat)
    (hrun : c.run m ops = some (c', tr))
    (hclock : (tmax :: tickTimes ops).Pairwise (· ≤ ·)) (hlast : c.lastHandleTime ≤ tmax)
    (hinv : lp + c.o2tTimer.toNat * 1000 ≤ c.lastHandleTime) :
    (lp :: prodTimes tr).Pairwise (fun a b => a + c.o2tAPI.toNat * 1000 ≤ b) := by
  induction ops generalizing c tr lp tmax with
  | nil => simp [Conn.run] at hrun; simp [hrun.2, prodTimes]
  | cons op ops ih =>
    obtain ⟨d, evs, tr', h1, h2, rfl⟩ := run_cons hrun
    have hc := step_config m c d op evs h1
    cases op with
    | tick now hook count =>
      obtain ⟨ret, ht⟩ := tick_step h1
      simp only [tickTimes, List.pairwise_cons] at hclock
      obtain ⟨hc1, hc2, hc3⟩ := hclock
      have hle : tmax ≤ now := hc1 now (by simp)
      have hck : (now :: tickTimes ops).Pairwise (· ≤ ·) := by simp only [List.pairwise_cons]; exact ⟨hc2, hc3⟩
      have hp := period_le c now (by omega)
      have ha := add_ofNat_le c.o2tTimer (period c now)
      by_cases hask : evs.any IoEv.isAsked = true
      · obtain ⟨t0, tl, tge⟩ := asked_any c d now hook count evs ret ht hask
        have hge : c.o2tAPI.toNat ≤ (c.o2tTimer + BitVec.ofNat 32 (period c now)).toNat := BitVec.le_def.mp tge
        have i := ih d tr' now now h2 hck (by omega) (by rw [t0, tl]; simp)
        rw [hc.o2tAPI] at i
        simp only [prodTimes, hask, if_true]
        rw [List.pairwise_cons]
        refine ⟨?_, i⟩
        intro b hb
        rw [List.mem_cons] at hb
        rw [List.pairwise_cons] at i
        have hfirst := elapsed_le hge ha hinv hp
        rcases hb with rfl | hb
        · exact hfirst
        · exact Nat.le_trans hfirst (Nat.le_trans (Nat.le_add_right _ _) (i.1 b hb))
      · have i := ih d tr' lp now h2 hck
        rw [hc.o2tAPI] at i
        simp only [prodTimes, hask]
        apply i
        · rcases not_asked c d now hook count evs ret ht hask with ⟨_, tl, _⟩ | ⟨_, tl, _⟩ <;> omega
        · rcases not_asked c d now hook count evs ret ht hask with ⟨tt, tl, _⟩ | ⟨tt, tl, _⟩ <;> rw [tt, tl]
          · exact hinv
          · exact elapsed_le (Nat.le_refl _) ha hinv hp
    | recv data =>
      have : d.o2tTimer = c.o2tTimer ∧ d.lastHandleTime = c.lastHandleTime := by
        rcases recv_cases m c d data evs (recv_step h1) with ⟨rfl, _⟩ | ⟨rfl, _⟩ <;> exact ⟨rfl, rfl⟩
      have i := ih d tr' lp tmax h2 (by simpa [tickTimes] using hclock) (by omega) (by rw [this.1, this.2]; exact hinv)
      rw [hc.o2tAPI] at i
      simpa [prodTimes] using i
    | setData data =>
      obtain ⟨rfl, _⟩ := setData_step h1
      have i := ih _ tr' lp tmax h2 (by simpa [tickTimes] using hclock) hlast hinv
      simpa [prodTimes] using i

/-- C38. However irregularly a new connection is ticked, any two production periods are at
least the O→T interval (in microseconds) apart in real time (nanoseconds), and the
first is at least that long after the creation of the connection. -/
theorem C38_never_faster (m : Mem) (c c' : Conn) (ops : List ConnOp) (tr : IoTrace)
    (hnew : c.o2tTimer = 0)
    (hclock : (c.lastHandleTime :: tickTimes ops).Pairwise (· ≤ ·))
    (hrun : c.run m ops = some (c', tr)) :
    (c.lastHandleTime :: prodTimes tr).Pairwise (fun a b => a + c.o2tAPI.toNat * 1000 ≤ b) :=
  prod_spacing m c c' ops tr c.lastHandleTime c.lastHandleTime hrun hclock (Nat.le_refl _) (by simp [hnew])

/-! ## C39 -/

/-- C39. A new connection that is ticked again before a whole millisecond has passed,
each time, never produces, never sends and never times out, however long the
history is. -/
theorem C39_starved (m : Mem) (c c' : Conn) (ops : List ConnOp) (tr : IoTrace)
    (hnew : c.o2tTimer = 0 ∧ c.connectionTimeoutCount = 0) (hapi : c.o2tAPI ≠ 0)
    (hgaps : Steps (fun a b => b < a + 1000000) c.lastHandleTime (tickTimes ops))
    (hrun : c.run m ops = some (c', tr)) :
    ∀ e ∈ tr, ∀ ev ∈ e.2, IoEv.isReceived ev = true := by
  induction ops generalizing c tr with
  | nil => simp [Conn.run] at hrun; simp [hrun.2]
  | cons op ops ih =>
    obtain ⟨d, evs, tr', h1, h2, rfl⟩ := run_cons hrun
    have hc := step_config m c d op evs h1
    intro e he
    rw [List.mem_cons] at he
    cases op with
    | tick now hook count =>
      obtain ⟨ret, ht⟩ := tick_step h1
      simp only [tickTimes, Steps] at hgaps
      have hp : period c now = 0 := by unfold period; omega
      have hz : c.o2tTimer + BitVec.ofNat 32 (period c now) = 0 := by rw [hp, hnew.1]; rfl
      have hz2 : c.connectionTimeoutCount + BitVec.ofNat 32 (period c now) = 0 := by rw [hp, hnew.2]; rfl
      cases ht with
      | dead h => rw [hz2] at h; exact absurd h (by simp)
      | prod _ h => rw [hz] at h; exact absurd (BitVec.le_zero_iff.mp h) hapi
      | idle _ h =>
        rcases he with rfl | he
        · simp
        · exact ih _ tr' (by exact ⟨hz, hz2⟩) (by exact hapi) (by exact hgaps.2) h2 e he
    | recv data =>
      simp only [tickTimes] at hgaps
      rcases recv_cases m c d data evs (recv_step h1) with ⟨rfl, rfl⟩ | ⟨rfl, _, _, _, rfl, _⟩
      · rcases he with rfl | he
        · simp
        · exact ih _ tr' (by exact hnew) (by exact hapi) (by exact hgaps) h2 e he
      · rcases he with rfl | he
        · simp [IoEv.isReceived]
        · exact ih _ tr' (by exact ⟨hnew.1, rfl⟩) (by exact hapi) (by exact hgaps) h2 e he
    | setData data =>
      simp only [tickTimes] at hgaps
      obtain ⟨rfl, rfl⟩ := setData_step h1
      rcases he with rfl | he
      · simp
      · exact ih _ tr' (by exact hnew) (by exact hapi) (by exact hgaps) h2 e he

theorem starved_bound (m : Mem) (c c' : Conn) (ops : List ConnOp) (tr : IoTrace) (t0 : Nat)
    (hclock : (c.lastHandleTime :: tickTimes ops).Pairwise (· ≤ ·))
    (hrun : c.run m ops = some (c', tr))
    (hopen : ∀ e ∈ tr, IoEv.closed ∉ e.2) (hno : asks tr = 0)
    (hshort : lastTick c.lastHandleTime tr < t0 + 2 ^ 32 * 1000)
    (k : Nat) (hlo : c.lastHandleTime ≤ t0 + c.o2tTimer.toNat * 1000 + k * 1000000)
    (hhi : t0 + c.o2tTimer.toNat * 1000 ≤ c.lastHandleTime) (hlt : c.o2tTimer < c.o2tAPI) :
    lastTick c.lastHandleTime tr < t0 + c.o2tAPI.toNat * 1000 + (k + (tickTimes ops).length) * 1000000 := by
  induction ops generalizing c tr k with
  | nil =>
    simp [Conn.run] at hrun
    have := BitVec.lt_def.mp hlt
    simp only [hrun.2, lastTick, tickTimes, List.length_nil]
    omega
  | cons op ops ih =>
    obtain ⟨d, evs, tr', h1, h2, rfl⟩ := run_cons hrun
    have hc := step_config m c d op evs h1
    have hno' : asks tr' = 0 ∧ evs.countP IoEv.isAsked = 0 := by simp only [asks] at hno; omega
    have hopen' : ∀ e ∈ tr', IoEv.closed ∉ e.2 := fun e he => hopen e (List.mem_cons_of_mem _ he)
    cases op with
    | tick now hook count =>
      obtain ⟨ret, ht⟩ := tick_step h1
      simp only [tickTimes, List.pairwise_cons] at hclock
      obtain ⟨hc1, hc2, hc3⟩ := hclock
      have hle : c.lastHandleTime ≤ now := hc1 now (by simp)
      have hck : (now :: tickTimes ops).Pairwise (· ≤ ·) := by simp only [List.pairwise_cons]; exact ⟨hc2, hc3⟩
      have hna : ¬ evs.any IoEv.isAsked = true := by
        intro h
        have := hno'.2
        rw [List.countP_eq_zero] at this
        rw [List.any_eq_true] at h
        obtain ⟨x, hx, hy⟩ := h
        exact this x hx hy
      rcases not_asked c d now hook count evs ret ht hna with ⟨_, _, rfl⟩ | ⟨tt, tl, rfl, tlt⟩
      · exact absurd (List.mem_singleton.mpr rfl) (hopen (.tick now hook count, [.closed]) (by simp))
      · simp only [lastTick] at hshort ⊢
        have hnow : now ≤ lastTick now tr' := by
          have hmono : ∀ (t : Nat) (os : List ConnOp) (c1 c2 : Conn) (tr : IoTrace),
              (t :: tickTimes os).Pairwise (· ≤ ·) → c1.run m os = some (c2, tr) → t ≤ lastTick t tr := by
            intro t os
            induction os generalizing t with
            | nil => intro c1 c2 tr _ h; simp [Conn.run] at h; simp [h.2, lastTick]
            | cons o os ih2 =>
              intro c1 c2 tr hp h
              obtain ⟨d, evs, tr', _, g2, rfl⟩ := run_cons h
              cases o with
              | tick n _ _ =>
                simp only [tickTimes, List.pairwise_cons] at hp
                have := ih2 n d c2 tr' (by simp only [List.pairwise_cons]; exact hp.2) g2
                simp only [lastTick]
                exact Nat.le_trans (hp.1 n (by simp)) this
              | recv _ => exact ih2 t d c2 tr' (by simpa [tickTimes] using hp) g2
              | setData _ => exact ih2 t d c2 tr' (by simpa [tickTimes] using hp) g2
          exact hmono now ops d c' tr' hck h2
        have hp := period_le c now hle
        have hp2 : now ≤ c.lastHandleTime + period c now * 1000 + 1000000 := by unfold period; omega
        have hsum : (c.o2tTimer + BitVec.ofNat 32 (period c now)).toNat = c.o2tTimer.toNat + period c now := by
          have : c.o2tTimer.toNat + period c now < 2 ^ 32 := by
            have h0 : t0 + (c.o2tTimer.toNat + period c now) * 1000 ≤ now := elapsed_le (Nat.le_refl _) (Nat.le_refl _) hhi hp
            have h3 : t0 + (c.o2tTimer.toNat + period c now) * 1000 < t0 + 2 ^ 32 * 1000 :=
              Nat.lt_of_le_of_lt (Nat.le_trans h0 hnow) hshort
            have h4 := Nat.lt_of_add_lt_add_left h3
            exact Nat.lt_of_mul_lt_mul_right h4
          simp only [BitVec.toNat_add, BitVec.toNat_ofNat]
          rw [Nat.add_mod_mod, Nat.mod_eq_of_lt this]
        have i := ih d tr' (by rw [tl]; exact hck) h2 hopen' hno'.1 (by rw [tl]; exact hshort) (k + 1)
          (by rw [tl, tt, hsum]; generalize period c now = q at *; generalize c.o2tTimer.toNat = w at *; omega)
          (by rw [tl, tt, hsum]; exact elapsed_le (Nat.le_refl _) (Nat.le_refl _) hhi hp)
          (by rw [tt, hc.o2tAPI]; exact tlt)
        rw [tl, hc.o2tAPI] at i
        simp only [tickTimes, List.length_cons]
        have e : k + ((tickTimes ops).length + 1) = k + 1 + (tickTimes ops).length := by omega
        rw [e]
        exact i
    | recv data =>
      have : d.o2tTimer = c.o2tTimer ∧ d.lastHandleTime = c.lastHandleTime := by
        rcases recv_cases m c d data evs (recv_step h1) with ⟨rfl, _⟩ | ⟨rfl, _⟩ <;> exact ⟨rfl, rfl⟩
      have i := ih d tr' (by rw [this.2]; simpa [tickTimes] using hclock) h2 hopen' hno'.1
        (by rw [this.2]; simpa [lastTick] using hshort) k (by rw [this.1, this.2]; exact hlo)
        (by rw [this.1, this.2]; exact hhi) (by rw [this.1, hc.o2tAPI]; exact hlt)
      rw [this.2, hc.o2tAPI] at i
      simpa [lastTick, tickTimes] using i
    | setData data =>
      obtain ⟨rfl, rfl⟩ := setData_step h1
      have i := ih _ tr' (by simpa [tickTimes] using hclock) h2 hopen' hno'.1
        (by simpa [lastTick] using hshort) k hlo hhi hlt
      simpa [lastTick, tickTimes] using i

/-- C39. At most one millisecond is lost per call: a new connection that is not
closed and is ticked `n` times over at least its interval plus `n` milliseconds
(and less than 2^32 microseconds) has produced. -/
theorem C39_bounded_loss (m : Mem) (c c' : Conn) (ops : List ConnOp) (tr : IoTrace)
    (hnew : c.o2tTimer = 0) (hapi : c.o2tAPI ≠ 0)
    (hclock : (c.lastHandleTime :: tickTimes ops).Pairwise (· ≤ ·))
    (hrun : c.run m ops = some (c', tr))
    (hopen : ∀ e ∈ tr, IoEv.closed ∉ e.2)
    (hlong : c.lastHandleTime + c.o2tAPI.toNat * 1000 + (tickTimes ops).length * 1000000 ≤
      lastTick c.lastHandleTime tr)
    (hshort : lastTick c.lastHandleTime tr < c.lastHandleTime + 2 ^ 32 * 1000) :
    0 < asks tr := by
  rcases Nat.eq_zero_or_pos (asks tr) with h | h
  · have := starved_bound m c c' ops tr c.lastHandleTime hclock hrun hopen h hshort 0 (by rw [hnew]; simp)
      (by rw [hnew]; simp) (by
        rw [hnew, BitVec.lt_def]
        have : c.o2tAPI.toNat ≠ 0 := fun h => hapi (BitVec.eq_of_toNat_eq (by simpa using h))
        show 0 < _
        omega)
    rw [Nat.zero_add] at this
    exact absurd hlong (Nat.not_le.mpr this)
  · exact h

/-! ## C40 -/

theorem closed_iff (c d : Conn) (now : Nat) (hook : Hook) (count : Int) (evs : List IoEv) (ret : TickRet)
    (h : TickCase c now hook count d evs ret) :
    (IoEv.closed ∈ evs ↔ c.connectionTimeoutMultiplier.setWidth 32 * c.t2oAPI <
        c.connectionTimeoutCount + BitVec.ofNat 32 (period c now)) ∧
    d.connectionTimeoutCount = c.connectionTimeoutCount + BitVec.ofNat 32 (period c now) ∧
    (IoEv.closed ∉ evs → d.lastHandleTime = now) := by
  cases h with
  | dead h => exact ⟨by simp [h], rfl, by simp⟩
  | idle h => exact ⟨by simp [h], rfl, fun _ => rfl⟩
  | prod h _ _ _ hev =>
    refine ⟨?_, rfl, fun _ => rfl⟩
    rcases hev with ⟨he, _⟩ | ⟨_, he, _⟩ | ⟨_, he, _⟩ <;> simp [he, h]

/-- The timeout limit of a connection, in microseconds. -/
def limit (c : Conn) : Nat := c.connectionTimeoutMultiplier.toNat * c.t2oAPI.toNat

theorem limit_toNat (c : Conn) (h : limit c < 2 ^ 32) :
    (c.connectionTimeoutMultiplier.setWidth 32 * c.t2oAPI).toNat = limit c := by
  simp only [BitVec.toNat_mul, BitVec.toNat_setWidth]
  unfold limit at *
  rw [Nat.mod_eq_of_lt (show c.connectionTimeoutMultiplier.toNat < 2 ^ 32 by have := c.connectionTimeoutMultiplier.isLt; omega)]
  exact Nat.mod_eq_of_lt h

/-- The count of a connection that has not been closed. -/
theorem silence_inv (m : Mem) (c c' : Conn) (ops : List ConnOp) (tr : IoTrace) (ms : Nat)
    (hrun : c.run m ops = some (c', tr)) (hopen : ∀ e ∈ tr, IoEv.closed ∉ e.2)
    (hlim : limit c < 2 ^ 32)
    (hgaps : Steps (fun a b => limit c + (b - a) / 1000 < 2 ^ 32) c.lastHandleTime (tickTimes ops))
    (hms : c.connectionTimeoutCount.toNat = 1000 * ms) (hle : 1000 * ms ≤ limit c) :
    c'.connectionTimeoutCount.toNat = 1000 * silence c.lastHandleTime ms tr ∧
    1000 * silence c.lastHandleTime ms tr ≤ limit c ∧
    c'.lastHandleTime = lastTick c.lastHandleTime tr := by
  induction ops generalizing c tr ms with
  | nil =>
    simp [Conn.run] at hrun
    obtain ⟨rfl, rfl⟩ := hrun
    exact ⟨hms, hle, rfl⟩
  | cons op ops ih =>
    obtain ⟨d, evs, tr', h1, h2, rfl⟩ := run_cons hrun
    have hc := step_config m c d op evs h1
    have hlimd : limit d = limit c := by unfold limit; rw [hc.mult, hc.t2oAPI]
    have hopen' : ∀ e ∈ tr', IoEv.closed ∉ e.2 := fun e he => hopen e (List.mem_cons_of_mem _ he)
    have hop : IoEv.closed ∉ evs := hopen (op, evs) (by simp)
    cases op with
    | tick now hook count =>
      obtain ⟨ret, ht⟩ := tick_step h1
      obtain ⟨g1, g2, g3⟩ := closed_iff c d now hook count evs ret ht
      have hnot := mt g1.mpr hop
      simp only [tickTimes, Steps] at hgaps
      have hper : period c now = 1000 * ((now - c.lastHandleTime) / 1000000) := by unfold period; omega
      have hsum : (c.connectionTimeoutCount + BitVec.ofNat 32 (period c now)).toNat =
          1000 * (ms + (now - c.lastHandleTime) / 1000000) := by
        simp only [BitVec.toNat_add, BitVec.toNat_ofNat]
        rw [Nat.add_mod_mod, hms, hper, Nat.mod_eq_of_lt]
        · omega
        · have := hgaps.1; omega
      have hle' : 1000 * (ms + (now - c.lastHandleTime) / 1000000) ≤ limit c := by
        rw [BitVec.lt_def, limit_toNat c hlim, hsum] at hnot
        omega
      have gl := g3 hop
      have i := ih d tr' (ms + (now - c.lastHandleTime) / 1000000) h2 hopen' (by rw [hlimd]; exact hlim)
        (by rw [gl, hlimd]; exact hgaps.2) (by rw [g2, hsum]) (by rw [hlimd]; exact hle')
      rw [gl, hlimd] at i
      exact i
    | recv data =>
      simp only [tickTimes] at hgaps
      rcases recv_cases m c d data evs (recv_step h1) with ⟨rfl, rfl⟩ | ⟨rfl, _, _, _, rfl, _⟩
      · exact ih _ tr' ms h2 hopen' (by exact hlim) (by exact hgaps) (by exact hms) (by exact hle)
      · have i := ih _ tr' 0 h2 hopen' hlim hgaps rfl (by omega)
        exact i
    | setData data =>
      simp only [tickTimes] at hgaps
      obtain ⟨rfl, rfl⟩ := setData_step h1
      have i := ih _ tr' ms h2 hopen' (by exact hlim) (by exact hgaps) (by exact hms) (by exact hle)
      exact i

/-- C40. In any history of a new connection with timeout limit below 2^32 µs (and no gap between
ticks so long that the 32-bit counter could wrap), as long as it has not been
closed: a tick closes it if and only if the whole milliseconds counted since the
last accepted datagram, this tick included, exceed multiplier × T→O interval. -/
theorem C40_timeout (m : Mem) (c c' : Conn) (ops : List ConnOp) (pre post : IoTrace) (now : Nat)
    (hook : Hook) (count : Int) (evs : List IoEv)
    (hnew : c.connectionTimeoutCount = 0)
    (hrun : c.run m ops = some (c', pre ++ (.tick now hook count, evs) :: post))
    (hopen : ∀ e ∈ pre, IoEv.closed ∉ e.2)
    (hlim : c.connectionTimeoutMultiplier.toNat * c.t2oAPI.toNat < 2 ^ 32)
    (hgaps : Steps (fun a b => c.connectionTimeoutMultiplier.toNat * c.t2oAPI.toNat + (b - a) / 1000 < 2 ^ 32)
      c.lastHandleTime (tickTimes ops)) :
    IoEv.closed ∈ evs ↔
      c.connectionTimeoutMultiplier.toNat * c.t2oAPI.toNat <
        1000 * silence c.lastHandleTime 0 (pre ++ [(.tick now hook count, evs)]) := by
  obtain ⟨o1, o2, d, d', rfl, h1, h2, h3⟩ := run_split m c c' ops pre post _ hrun
  have hc := run_config m c d o1 pre h1
  have htimes : ∀ (xs ys : List ConnOp), tickTimes (xs ++ ys) = tickTimes xs ++ tickTimes ys := by
    intro xs ys
    induction xs with
    | nil => rfl
    | cons x xs ih => cases x <;> simp [tickTimes, ih]
  have hsteps : ∀ (R : Nat → Nat → Prop) (t : Nat) (xs : IoTrace) (ys : List Nat),
      Steps R t (tickTimes (xs.map Prod.fst) ++ ys) →
      Steps R t (tickTimes (xs.map Prod.fst)) ∧ Steps R (lastTick t xs) ys := by
    intro R t xs ys
    induction xs generalizing t with
    | nil => exact fun h => ⟨trivial, h⟩
    | cons x xs ih =>
      obtain ⟨o, ev⟩ := x
      cases o with
      | tick n _ _ =>
        intro h
        simp only [List.map_cons, tickTimes, List.cons_append, Steps] at h ⊢
        exact ⟨⟨h.1, (ih n h.2).1⟩, (ih n h.2).2⟩
      | recv _ => exact ih t
      | setData _ => exact ih t
  have hsil : ∀ (t n : Nat) (xs : IoTrace), silence t n (xs ++ [(.tick now hook count, evs)]) =
      silence t n xs + (now - lastTick t xs) / 1000000 := by
    intro t n xs
    induction xs generalizing t n with
    | nil => rfl
    | cons x xs ih =>
      obtain ⟨o, ev⟩ := x
      cases o <;> simp only [List.cons_append, silence, lastTick] <;> exact ih _ _
  rw [htimes] at hgaps
  simp only [tickTimes] at hgaps
  have hops := run_ops m c d o1 pre h1
  rw [← hops] at hgaps
  obtain ⟨ha, hgap, _⟩ := hsteps _ _ pre _ hgaps
  rw [hops] at ha
  obtain ⟨s1, s2, s3⟩ := silence_inv m c d o1 pre 0 h1 hopen hlim ha (by rw [hnew]; rfl) (by omega)
  obtain ⟨ret, ht⟩ := tick_step h2
  obtain ⟨g1, g2, g3⟩ := closed_iff d d' now hook count evs ret ht
  have hlimd : limit d = limit c := by unfold limit; rw [hc.mult, hc.t2oAPI]
  rw [g1, BitVec.lt_def, limit_toNat d (by rw [hlimd]; exact hlim), hlimd, hsil]
  have hper : period d now = 1000 * ((now - d.lastHandleTime) / 1000000) := by unfold period; omega
  have hsum : (d.connectionTimeoutCount + BitVec.ofNat 32 (period d now)).toNat =
      1000 * (silence c.lastHandleTime 0 pre + (now - lastTick c.lastHandleTime pre) / 1000000) := by
    simp only [BitVec.toNat_add, BitVec.toNat_ofNat]
    rw [Nat.add_mod_mod, s1, hper, s3, Nat.mod_eq_of_lt]
    · omega
    · unfold limit at s2; omega
  rw [hsum]
  rfl

/-- C40. For multiplier codes 0..5 (stored multiplier 4·2^code): the limit is the
T→O interval × 4 × 2^code. -/
theorem C40_timeout_codes (m : Mem) (c c' : Conn) (ops : List ConnOp) (pre post : IoTrace) (now : Nat)
    (hook : Hook) (count : Int) (evs : List IoEv) (code : Nat) (_ : code ≤ 5)
    (hcode : c.connectionTimeoutMultiplier.toNat = 4 * 2 ^ code)
    (hnew : c.connectionTimeoutCount = 0)
    (hrun : c.run m ops = some (c', pre ++ (.tick now hook count, evs) :: post))
    (hopen : ∀ e ∈ pre, IoEv.closed ∉ e.2)
    (hlim : 4 * 2 ^ code * c.t2oAPI.toNat < 2 ^ 32)
    (hgaps : Steps (fun a b => 4 * 2 ^ code * c.t2oAPI.toNat + (b - a) / 1000 < 2 ^ 32)
      c.lastHandleTime (tickTimes ops)) :
    IoEv.closed ∈ evs ↔
      4 * 2 ^ code * c.t2oAPI.toNat <
        1000 * silence c.lastHandleTime 0 (pre ++ [(.tick now hook count, evs)]) := by
  have := C40_timeout m c c' ops pre post now hook count evs hnew hrun hopen (by rw [hcode]; exact hlim)
    (by rw [hcode]; exact hgaps)
  rwa [hcode] at this

/-- C40. With stored multiplier 0 (codes 6 and 7) the first counted millisecond closes. -/
theorem C40_multiplier_zero (m : Mem) (c c' : Conn) (ops : List ConnOp) (pre post : IoTrace) (now : Nat)
    (hook : Hook) (count : Int) (evs : List IoEv)
    (hcode : c.connectionTimeoutMultiplier = 0)
    (hnew : c.connectionTimeoutCount = 0)
    (hrun : c.run m ops = some (c', pre ++ (.tick now hook count, evs) :: post))
    (hopen : ∀ e ∈ pre, IoEv.closed ∉ e.2)
    (hgaps : Steps (fun a b => (b - a) / 1000 < 2 ^ 32) c.lastHandleTime (tickTimes ops)) :
    IoEv.closed ∈ evs ↔ 1 ≤ silence c.lastHandleTime 0 (pre ++ [(.tick now hook count, evs)]) := by
  have := C40_timeout m c c' ops pre post now hook count evs hnew hrun hopen (by rw [hcode]; simp)
    (by rw [hcode]; simpa using hgaps)
  rw [this, hcode]
  simp
  omega

/-- C40. Without the bound on the product the claim fails: multiplier 128 and an
interval of 2^25 µs (33.5 s) give limit 0, and one millisecond closes. -/
theorem C40_overflow_violated :
    ∃ c : Conn, c.connectionTimeoutCount = 0 ∧ c.connectionTimeoutMultiplier = 4 * 2 ^ 5 ∧
      c.lastHandleTime = 0 ∧ 1000 < c.connectionTimeoutMultiplier.toNat * c.t2oAPI.toNat ∧
      (c.notifyTick 1000000 {} 0).2.1 = [.closed] :=
  ⟨{ t2oAPI := 0x2000000#32, connectionTimeoutMultiplier := 128 }, by decide +kernel⟩

/-- C40. Without the bound on the gap the claim fails: after 4294968 ms of silence
(72 minutes without a tick) the counter has wrapped and the connection stays open. -/
theorem C40_gap_violated :
    ∃ c : Conn, c.connectionTimeoutCount = 0 ∧ c.lastHandleTime = 0 ∧
      c.connectionTimeoutMultiplier.toNat * c.t2oAPI.toNat < 1000 * (4294968000000 / 1000000) ∧
      IoEv.closed ∉ (c.notifyTick 4294968000000 {} 0).2.1 :=
  ⟨{ t2oAPI := 1000#32, o2tAPI := 1000#32, connectionTimeoutMultiplier := 4 }, by decide +kernel⟩

/-! ## Non-vacuity: one history that meets the hypotheses above -/

/-- A new connection: 10 ms both ways, timeout 4 × 10 ms, class 1, 2 bytes each way. -/
def sampleConn : Conn where
  o2tNetworkConnectionId := 0xABCD
  t2oNetworkConnectionId := 0x10001
  o2tAPI := 10000
  t2oAPI := 10000
  o2tDataSize := 2
  t2oDataSize := 2
  connectionTimeoutMultiplier := 4
  transportTypeTrigger := 1
  outputData := [1, 2]
  lastHandleTime := 5000000

/-- Ticks at 12, 17, 27 ms, a reception, and silence until 80 ms. -/
def sampleOps : List ConnOp :=
  [.tick 12000000 {} 22, .tick 17000000 {} 22, .recv [1, 0, 7, 8], .setData [3, 4],
   .tick 27000000 {} 22, .tick 80000000 {} 22]

/-- Events of the sample history: it is the history of a new connection; it produces twice, receives, and is
closed by the last tick (63 ms counted since the reception). -/
def sampleTrace : IoTrace :=
  [(.tick 12000000 {} 22, []),
   (.tick 17000000 {} 22, [.asked [1, 2], .sent none (ioFrame 0xABCD 1 (ioPayload (some 1) none [1, 2]))]),
   (.recv [1, 0, 7, 8], [.received 0 1 [7, 8]]),
   (.setData [3, 4], []),
   (.tick 27000000 {} 22, [.asked [3, 4], .sent none (ioFrame 0xABCD 2 (ioPayload (some 2) none [3, 4]))]),
   (.tick 80000000 {} 22, [.closed])]

theorem sample_run : (sampleConn.run Mem.strict sampleOps).map Prod.snd = some sampleTrace := by decide +kernel

example : sampleConn.o2tTimer = 0 ∧ sampleConn.o2tSequenceNumber = 0 ∧ sampleConn.connectionTimeoutCount = 0 ∧
    (sampleConn.lastHandleTime :: tickTimes sampleOps).Pairwise (· ≤ ·) ∧
    sampleConn.t2oFixedSize = true ∧ prodTimes sampleTrace = [17000000, 27000000] ∧
    silence sampleConn.lastHandleTime 0 sampleTrace = 63 := by decide +kernel

example : Steps (fun a b => 4 * 2 ^ 0 * sampleConn.t2oAPI.toNat + (b - a) / 1000 < 2 ^ 32)
    sampleConn.lastHandleTime (tickTimes sampleOps) := by
  simp [sampleOps, tickTimes, Steps, sampleConn]

example : Steps (fun a b => b < a + 1000000) sampleConn.lastHandleTime
    (tickTimes [.tick 5900000 {} 0, .tick 6800000 {} 0, .tick 7700000 {} 0]) := by
  simp [tickTimes, Steps, sampleConn]

end Verif.Props
