import Verif.Props.ManagerTable
import Verif.Props.CommonPacket

/-!
# C34, C46, C47: incoming datagrams
-/

namespace Verif.Props

open Verif Verif.Spec

theorem udpReceive_eq (d : List Byte) : udpReceive 8192 (.dgram d) = .ok (asReceived d) := by
  unfold udpReceive asReceived
  rw [List.take_append, List.take_replicate]
  congr 3
  simp
  omega

theorem asReceived_length (d : List Byte) : (asReceived d).length = 8192 := by
  rw [asReceived, List.length_take, List.length_append, List.length_replicate]
  omega

/-- The packet decoder on an input of the grammar. -/
theorem accepts_expand {data : List Byte} {items : List (Nat × List Byte)} (h : CpfAccepts data items) (m : Mem) :
    CommonPacket.expand m data = .ok (items.map fun i => CommonPacketItem.mk' (BitVec.ofNat 16 i.1) i.2) := by
  obtain ⟨count, tail, hc, rfl, hn, ht, hi⟩ := h
  have := expand_ok (BitVec.ofNat 16 count) (items.map fun i => (BitVec.ofNat 16 i.1, i.2)) (by
      intro i hm
      rw [List.mem_map] at hm
      obtain ⟨j, hj, rfl⟩ := hm
      exact (hi j hj).2) (by simp; omega) m tail (by
      rcases ht with ht | ht
      · left; simp; omega
      · exact .inr ht)
  have hcnt : (BitVec.ofNat 16 count).toNat = count := by simp; omega
  rw [hcnt] at this
  have hfm : (items.map fun i => ((BitVec.ofNat 16 i.1 : BitVec 16), i.2)).flatMap (fun i => cpfItem i.1.toNat i.2) =
      items.flatMap (fun i => cpfItem i.1 i.2) := by
    clear this hn ht
    induction items with
    | nil => rfl
    | cons a l ih =>
      simp only [List.map_cons, List.flatMap_cons]
      rw [ih fun i hm => hi i (List.mem_cons_of_mem _ hm)]
      have := (hi a List.mem_cons_self).1
      congr 2
      simp; omega
  erw [hfm] at this
  rw [this]
  simp [List.map_map, Function.comp_def]

/-! ## The handler -/

theorem u32_head (m : Mem) (addr : List Byte) (h : 4 ≤ addr.length) :
    ∃ v b, Rd.u32 m (Buffer.ofData addr) = .ok (v, b) ∧ v.toNat = field addr 0 4 ∧
      (v.setWidth 16).toNat = field addr 0 4 % 65536 := by
  refine ⟨_, _, u32_at m (Buffer.ofData addr) (by simpa [Buffer.ofData] using h), ?_, ?_⟩
  · exact toNat_field32 addr 0
  · rw [BitVec.toNat_setWidth]
    congr 1
    exact toNat_field32 addr 0

/-- Unknown identifier: dropped. -/
theorem deliver_unknown (P : Plat) (s : Mgr) (d : List Byte) (t0 : Nat) (addr : List Byte) (rest : List (Nat × List Byte))
    (h : CpfAccepts (asReceived d) ((t0, addr) :: rest)) (ha : 4 ≤ addr.length)
    (hu : ∀ e ∈ s.table, e.1.toNat ≠ field addr 0 4 % 65536) : s.deliver P (.dgram d) = .ok (s, []) := by
  obtain ⟨v, b, h1, _, h2⟩ := u32_head P.mem addr ha
  have hf : tblFind (v.setWidth 16) s.table = none := by
    cases hf : tblFind (v.setWidth 16) s.table with
    | none => rfl
    | some id => exact absurd h2 (hu _ (tblFind_mem hf))
  simp only [Mgr.deliver, udpReceive_eq, accepts_expand h, List.map_cons, List.getElem?_cons_zero, CommonPacketItem.mk',
    h1, hf]

/-- Known identifier: the second item goes to that connection. -/
theorem deliver_known (P : Plat) (s : Mgr) (hi : Inv s) (d : List Byte) (t0 t1 : Nat) (addr payload : List Byte)
    (rest : List (Nat × List Byte)) (h : CpfAccepts (asReceived d) ((t0, addr) :: (t1, payload) :: rest))
    (ha : 4 ≤ addr.length) (k : BitVec 16) (id : Nat) (hm : (k, id) ∈ s.table)
    (hk : k.toNat = field addr 0 4 % 65536) (c : Conn) (hc : s.heap[id]? = some c) :
    s.deliver P (.dgram d) =
      match c.notifyReceiveData P.mem payload with
      | .ub => .ub
      | .throw e => .throw e
      | .ok (c', evs) => .ok ({ s with heap := s.heap.set id c' }, [.conn id (.recv payload) evs]) := by
  obtain ⟨v, b, h1, _, h2⟩ := u32_head P.mem addr ha
  have hf : tblFind (v.setWidth 16) s.table = some id := by
    rw [show v.setWidth 16 = k from BitVec.eq_of_toNat_eq (h2.trans hk.symm)]
    exact tblFind_of_mem hi.sorted hm
  simp only [Mgr.deliver, udpReceive_eq, accepts_expand h, List.map_cons, List.getElem?_cons_zero, CommonPacketItem.mk',
    h1, hf, hc, List.getElem?_cons_succ]
  cases c.notifyReceiveData P.mem payload <;> rfl

/-- The receive function of a connection on a payload that is long enough. -/
theorem notify_long (m : Mem) (c : Conn) (data : List Byte) (h : headLen c ≤ data.length) :
    ∃ header seq, (header.toNat = if c.t2oRealTimeFormat then field data 0 4 else 0) ∧
      (seq.toNat = if hasCount c.transportTypeTrigger then field data (if c.t2oRealTimeFormat then 4 else 0) 2 else 0) ∧
      c.notifyReceiveData m data =
        if c.t2oFixedSize = true ∧ data.length - headLen c ≠ c.t2oDataSize then .ok (c, [])
        else .ok ({ c with connectionTimeoutCount := 0 }, [.received header seq (data.drop (headLen c))]) := by
  have key : ∃ header seq, (header.toNat = if c.t2oRealTimeFormat then field data 0 4 else 0) ∧
      (seq.toNat = if hasCount c.transportTypeTrigger then field data (if c.t2oRealTimeFormat then 4 else 0) 2 else 0) ∧
      c.recvHead m (Buffer.ofData data) = .ok ((header, seq), ⟨data, headLen c⟩) := by
    unfold Conn.recvHead Conn.recvHeader Conn.recvCount headLen Buffer.ofData
    rw [class_eq]
    unfold headLen at h
    cases hr : c.t2oRealTimeFormat <;> cases hq : hasCount c.transportTypeTrigger <;>
      simp only [hr, hq, if_true, if_false, Bool.false_eq_true] at h ⊢
    · exact ⟨0#32, 0#16, rfl, rfl, rfl⟩
    · refine ⟨0#32, BitVec.ofNat 16 (field data 0 2), rfl, toNat_field16 _ _, ?_⟩
      rw [Rd.bind_ok (Rd.pure_run _ m _), Rd.bind_ok (u16_at m _ (by simp; omega))]
      rfl
    · refine ⟨BitVec.ofNat 32 (field data 0 4), 0#16, toNat_field32 _ _, rfl, ?_⟩
      rw [Rd.bind_ok (u32_at m _ (by simp; omega)), Rd.bind_ok (Rd.pure_run _ m _)]
      rfl
    · refine ⟨BitVec.ofNat 32 (field data 0 4), BitVec.ofNat 16 (field data 4 2), toNat_field32 _ _, toNat_field16 _ _, ?_⟩
      rw [Rd.bind_ok (u32_at m _ (by simp; omega)), Rd.bind_ok (u16_at m _ (by simp; omega))]
      rfl
  obtain ⟨header, seq, h1, h2, h3⟩ := key
  refine ⟨header, seq, h1, h2, ?_⟩
  unfold Conn.notifyReceiveData
  rw [h3]
  simp only
  rw [if_neg (by omega)]
  by_cases hf : c.t2oFixedSize = true ∧ data.length - headLen c ≠ c.t2oDataSize
  · rw [if_pos hf, if_pos (by simpa using hf)]
  · rw [if_neg hf, if_neg (by simpa using hf)]

/-! ## C46 -/

/-- C46. What any datagram does to a manager in any reachable state, by the grammar
alone.  An error of the receive call is thrown.  A datagram outside the packet grammar
is read out of bounds.  No item, or no second item for a known connection:
`out_of_range`.  A first item below four bytes, or a second one below the
connection's header, is read out of bounds.  Otherwise it is dropped, ignored or
delivered. -/
theorem C46_outcome (P : Plat) (hP : P.mem = Mem.strict) (inc : BitVec 16) (st : Statics) (s : Mgr) (ops : List MOp)
    (tr : MTrace) (hrun : (Mgr.new inc st).run P ops = some (s, tr)) :
    (∀ code, s.deliver P (.err code) = .throw (.system code)) ∧
    (∀ d, (¬ ∃ items, CpfAccepts (asReceived d) items) → s.deliver P (.dgram d) = .ub) ∧
    (∀ d, CpfAccepts (asReceived d) [] → s.deliver P (.dgram d) = .throw .outOfRange) ∧
    (∀ d t0 addr rest, CpfAccepts (asReceived d) ((t0, addr) :: rest) →
      (addr.length < 4 → s.deliver P (.dgram d) = .ub) ∧
      (4 ≤ addr.length →
        ((∀ e ∈ s.table, e.1.toNat ≠ field addr 0 4 % 65536) → s.deliver P (.dgram d) = .ok (s, [])) ∧
        (∀ k id, (k, id) ∈ s.table → k.toNat = field addr 0 4 % 65536 →
          (rest = [] → s.deliver P (.dgram d) = .throw .outOfRange) ∧
          (∀ t1 payload rest', rest = (t1, payload) :: rest' → ∃ c, s.heap[id]? = some c ∧
            (payload.length < headLen c → s.deliver P (.dgram d) = .ub) ∧
            (headLen c ≤ payload.length →
              (c.t2oFixedSize = true ∧ payload.length - headLen c ≠ c.t2oDataSize →
                s.deliver P (.dgram d) = .ok (s, [.conn id (.recv payload) []])) ∧
              (c.t2oFixedSize = false ∨ payload.length - headLen c = c.t2oDataSize →
                ∃ header seq, s.deliver P (.dgram d) =
                  .ok ({ s with heap := s.heap.set id { c with connectionTimeoutCount := 0 } },
                    [.conn id (.recv payload) [.received header seq (payload.drop (headLen c))]]))))))) := by
  have hi := inv_run P _ s ops tr (inv_new inc st) hrun
  refine ⟨fun code => rfl, fun d hn => ?_, fun d hd => ?_, fun d t0 addr rest hd => ⟨fun hl => ?_, fun hl => ⟨fun hu => ?_, ?_⟩⟩⟩
  · rcases C09_classification (asReceived d) (by rw [asReceived_length]; omega) with ⟨items, hx, _⟩ | ⟨_, hx, _⟩
    · exact absurd ⟨items, hx⟩ hn
    · simp only [Mgr.deliver, udpReceive_eq, hP, hx]
  · simp only [Mgr.deliver, udpReceive_eq, accepts_expand hd, List.map_nil, List.getElem?_nil]
  · have hub : Rd.u32 Mem.strict (Buffer.ofData addr) = .ub :=
      Sized.u32.short _ (by simp [Buffer.ofData]) (by simpa [Buffer.ofData] using hl)
    simp only [Mgr.deliver, udpReceive_eq, accepts_expand hd, List.map_cons, List.getElem?_cons_zero, CommonPacketItem.mk',
      hP, hub]
  · exact deliver_unknown P s d t0 addr rest hd hl hu
  · intro k id hm hk
    refine ⟨?_, ?_⟩
    · rintro rfl
      obtain ⟨v, b, h1, _, h2⟩ := u32_head P.mem addr hl
      have hf : tblFind (v.setWidth 16) s.table = some id := by
        rw [show v.setWidth 16 = k from BitVec.eq_of_toNat_eq (h2.trans hk.symm)]
        exact tblFind_of_mem hi.sorted hm
      simp only [Mgr.deliver, udpReceive_eq, accepts_expand hd, List.map_cons, List.map_nil, List.getElem?_cons_zero,
        CommonPacketItem.mk', h1, hf, List.getElem?_cons_succ, List.getElem?_nil]
    · rintro t1 payload rest' rfl
      obtain ⟨c, hc, _⟩ := hi.obj k id hm
      refine ⟨c, hc, fun hs => ?_, fun hs => ⟨fun hw => ?_, fun hw => ?_⟩⟩ <;>
        rw [deliver_known P s hi d t0 t1 addr payload rest' hd hl k id hm hk c hc]
      · rw [hP, C36_short c payload hs]
      · obtain ⟨header, seq, _, _, hn⟩ := notify_long P.mem c payload hs
        rw [hn, if_pos hw]
        simp only
        obtain ⟨hlt, rfl⟩ := List.getElem?_eq_some_iff.mp hc
        rw [List.set_getElem_self]
      · obtain ⟨header, seq, _, _, hn⟩ := notify_long P.mem c payload hs
        refine ⟨header, seq, ?_⟩
        rw [hn, if_neg (by rintro ⟨h1, h2⟩; rcases hw with hw | hw <;> simp_all)]

/-- C46. An arrival that throws ends the call with that exception: all connections,
their counters and the table are unchanged and no connection is ticked. -/
theorem C46_exception_state (P : Plat) (s : Mgr) (hs : s.sockets ≠ []) (r : Recv) (e : Exn)
    (th : Option Exn)
    (hr : s.deliver P r = .throw e) (start now : Nat) (timeoutMs : Int) (more : List Arrival) (rounds : List Round)
    (ticks : Nat → TickEnv) :
    ∃ tv, s.step P (.handle start timeoutMs (.ready ⟨r, th⟩ more now :: rounds) ticks) = .ok s [.waited tv] (.threw e) := by
  refine ⟨makePortableInterval (Mgr.remainingMs (start + timeoutMs * 1000000) start), ?_⟩
  cases hsk : s.sockets with
  | nil => exact absurd hsk hs
  | cons a l =>
    simp only [Mgr.step, Mgr.handle, hsk, Mgr.selectLoop, Mgr.deliverAll, hr]

/-- C46. An arrival that is read out of bounds leaves the call without defined
outcome. -/
theorem C46_ub (P : Plat) (s : Mgr) (hs : s.sockets ≠ []) (r : Recv)
    (th : Option Exn)
    (hr : s.deliver P r = .ub) (start now : Nat) (timeoutMs : Int) (more : List Arrival) (rounds : List Round)
    (ticks : Nat → TickEnv) :
    ∃ tv, s.step P (.handle start timeoutMs (.ready ⟨r, th⟩ more now :: rounds) ticks) = .stop [.waited tv] .ub := by
  refine ⟨makePortableInterval (Mgr.remainingMs (start + timeoutMs * 1000000) start), ?_⟩
  cases hsk : s.sockets with
  | nil => exact absurd hsk hs
  | cons a l =>
    simp only [Mgr.step, Mgr.handle, hsk, Mgr.selectLoop, Mgr.deliverAll, hr]

theorem asReceived_short (d : List Byte) (n : Nat) (h : d.length + n = 8192) : asReceived d = d ++ List.replicate n 0#8 := by
  rw [asReceived, List.take_append, List.take_replicate, List.take_of_length_le (by omega)]
  congr 2
  omega

theorem accepts_zeros (n : Nat) : CpfAccepts (List.replicate (2 + n) 0#8) [] := by
  refine ⟨0, List.replicate n 0#8, by omega, ?_, by simp, .inl rfl, by simp⟩
  rw [← List.replicate_append_replicate]
  rfl

theorem accepts_one (n : Nat) : CpfAccepts ([1#8, 0#8] ++ List.replicate (4 + n) 0#8) [(0, [])] := by
  refine ⟨1, List.replicate n 0#8, by omega, ?_, by simp, .inl rfl, by simp⟩
  rw [← List.replicate_append_replicate]
  rfl

theorem deliver_nothing (P : Plat) (s : Mgr) (d : List Byte) (h : CpfAccepts (asReceived d) []) :
    s.deliver P (.dgram d) = .throw .outOfRange := by
  simp only [Mgr.deliver, udpReceive_eq, accepts_expand h, List.map_nil, List.getElem?_nil]

theorem deliver_short (P : Plat) (hP : P.mem = Mem.strict) (s : Mgr) (d : List Byte) (t0 : Nat) (addr : List Byte)
    (rest : List (Nat × List Byte)) (h : CpfAccepts (asReceived d) ((t0, addr) :: rest)) (hl : addr.length < 4) :
    s.deliver P (.dgram d) = .ub := by
  have hub : Rd.u32 Mem.strict (Buffer.ofData addr) = .ub :=
    Sized.u32.short _ (by simp [Buffer.ofData]) (by simpa [Buffer.ofData] using hl)
  simp only [Mgr.deliver, udpReceive_eq, accepts_expand h, List.map_cons, List.getElem?_cons_zero, CommonPacketItem.mk',
    hP, hub]

/-- C46 violated for robustness: in every state, whatever is open, an empty datagram
makes the handler throw and the two bytes 1, 0 make it read out of bounds. -/
theorem C46_robust_violated (P : Plat) (hP : P.mem = Mem.strict) (s : Mgr) :
    s.deliver P (.dgram []) = .throw .outOfRange ∧ s.deliver P (.dgram [1#8, 0#8]) = .ub := by
  constructor
  · refine deliver_nothing P s [] ?_
    have : asReceived [] = [] ++ List.replicate (2 + 8190) 0#8 := asReceived_short [] (2 + 8190) (by simp)
    rw [this, List.nil_append]
    exact accepts_zeros 8190
  · refine deliver_short P hP s [1#8, 0#8] 0 [] [] ?_ (by simp)
    have : asReceived [1#8, 0#8] = [1#8, 0#8] ++ List.replicate (4 + 8186) 0#8 :=
      asReceived_short [1#8, 0#8] (4 + 8186) (by simp)
    rw [this]
    exact accepts_one 8186

/-! ## C47 -/

/-- C47. Appending zero bytes to a datagram makes no difference. -/
theorem C47_zeros (P : Plat) (s : Mgr) (d : List Byte) (n : Nat) :
    s.deliver P (.dgram (d ++ List.replicate n 0#8)) = s.deliver P (.dgram d) := by
  have : asReceived (d ++ List.replicate n 0#8) = asReceived d := by
    unfold asReceived
    rw [List.append_assoc, List.replicate_append_replicate, List.take_append, List.take_append (l₂ := List.replicate 8192 0#8),
      List.take_replicate, List.take_replicate]
    congr 2
    omega
  simp only [Mgr.deliver, udpReceive_eq, this]

/-- C47. Bytes after the first 8192 are lost. -/
theorem C47_cut (P : Plat) (s : Mgr) (d d' : List Byte) (h : d.length = 8192) :
    s.deliver P (.dgram (d ++ d')) = s.deliver P (.dgram d) := by
  have : asReceived (d ++ d') = asReceived d := by
    unfold asReceived
    rw [List.append_assoc, List.take_append_of_le_length (by omega), List.take_append_of_le_length (by omega)]
  simp only [Mgr.deliver, udpReceive_eq, this]

/-- C47. A datagram that ends inside its data item, of which only `got` arrived, is
delivered to the connection as `got` followed by as many zero bytes as are missing. -/
theorem C47_invented (P : Plat) (inc : BitVec 16) (st : Statics) (s : Mgr) (ops : List MOp) (tr : MTrace)
    (hrun : (Mgr.new inc st).run P ops = some (s, tr)) (t0 t1 missing : Nat) (addr got : List Byte)
    (ht0 : t0 < 65536) (ht1 : t1 < 65536) (ha : 4 ≤ addr.length)
    (hsize : addr.length + got.length + missing + 10 ≤ 8192)
    (k : BitVec 16) (id : Nat) (hm : (k, id) ∈ s.table) (hk : k.toNat = field addr 0 4 % 65536)
    (s' : Mgr) (evs : List MEv)
    (h : s.deliver P (.dgram (le 2 2 ++ cpfItem t0 addr ++ (le 2 t1 ++ le 2 (got.length + missing)) ++ got)) = .ok (s', evs)) :
    ∃ io, evs = [.conn id (.recv (got ++ List.replicate missing 0#8)) io] := by
  have hi := inv_run P _ s ops tr (inv_new inc st) hrun
  obtain ⟨c, hc, _⟩ := hi.obj k id hm
  have hacc : CpfAccepts (asReceived (le 2 2 ++ cpfItem t0 addr ++ (le 2 t1 ++ le 2 (got.length + missing)) ++ got))
      [(t0, addr), (t1, got ++ List.replicate missing 0#8)] := by
    refine ⟨2, List.replicate (8192 - (addr.length + got.length + missing + 10)) 0#8, by omega, ?_, by simp, .inl rfl, ?_⟩
    · rw [asReceived_short _ (missing + (8192 - (addr.length + got.length + missing + 10))) (by
        simp [cpfItem, le_length]; omega)]
      rw [← List.replicate_append_replicate]
      simp [cpfItem, List.append_assoc]
    · intro i hmem
      simp only [List.mem_cons, List.not_mem_nil, or_false] at hmem
      rcases hmem with rfl | rfl
      · exact ⟨ht0, by simp only; omega⟩
      · exact ⟨ht1, by simp only [List.length_append, List.length_replicate]; omega⟩
  rw [deliver_known P s hi _ t0 t1 addr _ [] hacc ha k id hm hk c hc] at h
  split at h
  · cases h
  · cases h
  · injection h with h
    injection h with _ h
    exact ⟨_, h.symm⟩

/-! ## C34 -/

/-- One arrival. -/
theorem routes_one (P : Plat) (hP : P.mem = Mem.strict) (s s' : Mgr) (hi : Inv s) (r : Recv) (evs : List MEv)
    (h : s.deliver P r = .ok (s', evs)) : Routes s.table [r] (deliveries evs) := by
  cases r with
  | err code => cases h
  | dgram d =>
    rcases C09_classification (asReceived d) (by rw [asReceived_length]; omega) with ⟨items, hx, _⟩ | ⟨_, hx, _⟩
    · match items, hx with
      | [], hx =>
        simp only [Mgr.deliver, udpReceive_eq, accepts_expand hx, List.map_nil, List.getElem?_nil] at h
        cases h
      | (t0, addr) :: rest, hx =>
        by_cases ha : 4 ≤ addr.length
        · by_cases hu : ∃ e ∈ s.table, e.1.toNat = field addr 0 4 % 65536
          case neg =>
            have hu : ∀ e ∈ s.table, e.1.toNat ≠ field addr 0 4 % 65536 := fun e he heq => hu ⟨e, he, heq⟩
            rw [deliver_unknown P s d t0 addr rest hx ha hu] at h
            injection h with h
            injection h with _ h
            subst h
            exact .unknown hx ha hu .nil
          case pos =>
            obtain ⟨⟨k, id⟩, hm, hk⟩ := hu
            match rest, hx with
            | [], hx =>
              obtain ⟨v, b, h1, _, h2⟩ := u32_head P.mem addr ha
              have hf : tblFind (v.setWidth 16) s.table = some id := by
                rw [show v.setWidth 16 = k from BitVec.eq_of_toNat_eq (h2.trans hk.symm)]
                exact tblFind_of_mem hi.sorted hm
              simp only [Mgr.deliver, udpReceive_eq, accepts_expand hx, List.map_cons, List.map_nil,
                List.getElem?_cons_zero, CommonPacketItem.mk', h1, hf, List.getElem?_cons_succ, List.getElem?_nil] at h
              cases h
            | (t1, payload) :: rest, hx =>
              obtain ⟨c, hc, _⟩ := hi.obj k id hm
              rw [deliver_known P s hi d t0 t1 addr payload rest hx ha k id hm hk c hc] at h
              split at h
              · cases h
              · cases h
              · injection h with h
                injection h with _ h
                subst h
                exact .hit hx ha hm hk .nil
        · have hub : Rd.u32 Mem.strict (Buffer.ofData addr) = .ub :=
            Sized.u32.short _ (by simp [Buffer.ofData]) (by simpa [Buffer.ofData] using ha)
          simp only [Mgr.deliver, udpReceive_eq, accepts_expand hx, List.map_cons, List.getElem?_cons_zero,
            CommonPacketItem.mk', hP, hub] at h
          cases h
    · simp only [Mgr.deliver, udpReceive_eq, hP, hx] at h
      cases h

theorem _root_.Verif.Spec.Routes.append {t : List (BitVec 16 × Nat)} {a b : List Recv} {x y : List (Nat × List Byte)}
    (h : Routes t a x) (g : Routes t b y) : Routes t (a ++ b) (x ++ y) := by
  induction h with
  | nil => exact g
  | hit h1 h2 h3 h4 _ ih => exact .hit h1 h2 h3 h4 ih
  | unknown h1 h2 h3 _ ih => exact .unknown h1 h2 h3 ih

theorem deliveries_append (a b : List MEv) : deliveries (a ++ b) = deliveries a ++ deliveries b := by
  induction a with
  | nil => rfl
  | cons e es ih =>
    cases e with
    | conn id op io => cases op <;> simp [deliveries, ih]
    | _ => simp [deliveries, ih]

theorem Quiet.inv {P : Plat} {s s' : Mgr} {evs : List MEv} (q : Quiet P s s' evs) (hi : Inv s) : Inv s' := by
  refine ⟨by rw [q.table]; exact hi.sorted, fun k id hm => ?_, fun id hid => ?_⟩
  · rw [q.table] at hm
    obtain ⟨c, hc, hk⟩ := hi.obj k id hm
    obtain ⟨c', hc', hs⟩ := replay_config q.replay hc
    exact ⟨c', hc', by rw [hs.t2oId]; exact hk⟩
  · rw [q.held] at hid
    exact Nat.lt_of_lt_of_le (hi.held id hid) (replay_length _ _ _ _ q.replay)

theorem deliverAll_routes (P : Plat) (hP : P.mem = Mem.strict) (rs : List Arrival) (s : Mgr) (hi : Inv s) :
    (∀ s' evs, Mgr.deliverAll P rs s = .go s' evs → Routes s.table (rs.map (·.recv)) (deliveries evs)) ∧
    (∀ s' evs e, Mgr.deliverAll P rs s = .threw s' evs e → ∃ done rest, rs = done ++ rest ∧
      Routes s.table (done.map (·.recv)) (deliveries evs)) := by
  induction rs generalizing s with
  | nil =>
    refine ⟨fun s' evs h => ?_, fun s' evs e h => ?_⟩
    · cases h; exact .nil
    · cases h
  | cons r rs ih =>
    refine ⟨fun s' evs h => ?_, fun s' evs e h => ?_⟩
    · simp only [Mgr.deliverAll] at h
      split at h
      · cases h
      · cases h
      · rename_i s1 evs1 hd
        have q := deliver_quiet P r.recv s s1 evs1 hd
        have r1 := routes_one P hP s s1 hi r.recv evs1 hd
        split at h
        · cases h
        split at h
        · rename_i s2 evs2 h2
          cases h
          have r2 := (ih s1 (q.inv hi)).1 _ _ h2
          rw [q.table] at r2
          rw [deliveries_append]
          exact r1.append r2
        · cases h
        · cases h
    · simp only [Mgr.deliverAll] at h
      split at h
      · cases h
      · cases h; exact ⟨[], r :: rs, rfl, .nil⟩
      · rename_i s1 evs1 hd
        have q := deliver_quiet P r.recv s s1 evs1 hd
        have r1 := routes_one P hP s s1 hi r.recv evs1 hd
        split at h
        · cases h; exact ⟨[r], rs, rfl, r1⟩
        split at h
        · cases h
        · rename_i s2 evs2 e2 h2
          cases h
          obtain ⟨done, rest, rfl, r2⟩ := (ih s1 (q.inv hi)).2 _ _ _ h2
          rw [q.table] at r2
          rw [deliveries_append]
          exact ⟨r :: done, rest, rfl, r1.append r2⟩
        · cases h

theorem selectLoop_routes (P : Plat) (hP : P.mem = Mem.strict) (stop : Int) (rounds : List Round) (now : Int) (s : Mgr)
    (hi : Inv s) :
    (∀ s' evs, Mgr.selectLoop P stop now rounds s = .go s' evs → Routes s.table (arrivals rounds) (deliveries evs)) ∧
    (∀ s' evs e, Mgr.selectLoop P stop now rounds s = .threw s' evs e → ∃ done rest, arrivals rounds = done ++ rest ∧
      Routes s.table done (deliveries evs)) := by
  induction rounds generalizing s now with
  | nil =>
    refine ⟨fun s' evs h => ?_, fun s' evs e h => ?_⟩
    · simp only [Mgr.selectLoop] at h; cases h; exact .nil
    · simp only [Mgr.selectLoop] at h; cases h
  | cons r rounds ih =>
    cases r with
    | fail code =>
      refine ⟨fun s' evs h => ?_, fun s' evs e h => ?_⟩
      · simp only [Mgr.selectLoop] at h; cases h
      · simp only [Mgr.selectLoop] at h; cases h; exact ⟨[], _, rfl, .nil⟩
    | ready r rs now' =>
      have hall := deliverAll_routes P hP (r :: rs) s hi
      refine ⟨fun s' evs h => ?_, fun s' evs e h => ?_⟩
      · simp only [Mgr.selectLoop] at h
        split at h
        · cases h
        · cases h
        · rename_i s1 evs1 hd
          have q := (deliverAll_quiet P (r :: rs) s).1 _ _ hd
          split at h
          · cases h
          · cases h
          · rename_i s2 evs2 h2
            cases h
            have r2 := (ih now' s1 (q.inv hi)).1 _ _ h2
            rw [q.table] at r2
            simp only [arrivals, List.cons_append, deliveries, deliveries_append]
            exact (hall.1 _ _ hd).append r2
      · simp only [Mgr.selectLoop] at h
        split at h
        · cases h
        · rename_i s1 evs1 e1 hd
          cases h
          obtain ⟨done, rest, he, r1⟩ := hall.2 _ _ _ hd
          refine ⟨done.map (·.recv), rest.map (·.recv) ++ arrivals rounds, ?_, r1⟩
          simp only [arrivals]
          rw [← List.map_cons, he, List.map_append, List.append_assoc]
        · rename_i s1 evs1 hd
          have q := (deliverAll_quiet P (r :: rs) s).1 _ _ hd
          split at h
          · cases h
          · rename_i s2 evs2 e2 h2
            cases h
            obtain ⟨done, rest, he, r2⟩ := (ih now' s1 (q.inv hi)).2 _ _ _ h2
            rw [q.table] at r2
            refine ⟨(r :: rs).map (·.recv) ++ done, rest, ?_, ?_⟩
            · simp only [arrivals, he, List.map_cons, List.append_assoc]
            · simp only [List.cons_append, deliveries, deliveries_append]
              exact (hall.1 _ _ hd).append r2
          · cases h

theorem tickAll_deliveries (ticks : Nat → TickEnv) (t : List (BitVec 16 × Nat)) (heap : List Conn) :
    deliveries (Mgr.tickAll ticks t heap).2.1 = [] := by
  induction t generalizing heap with
  | nil => rfl
  | cons a t ih =>
    obtain ⟨k, id⟩ := a
    unfold Mgr.tickAll
    split
    · exact ih heap
    · dsimp only
      split
      · rfl
      · exact ih _
      · exact ih _

/-- C34. In every reachable state, whatever datagrams arrive during a call of
`handleConnections`, the deliveries are exactly those the routing rule prescribes, in
order: to the connection with the identifier's low 16 bits and to no other.  If the
call throws, this holds of the arrivals handled before. -/
theorem C34_routes (P : Plat) (hP : P.mem = Mem.strict) (inc : BitVec 16) (st : Statics) (s s' : Mgr) (ops : List MOp)
    (tr : MTrace) (hrun : (Mgr.new inc st).run P ops = some (s, tr)) (start : Nat) (timeoutMs : Int)
    (rounds : List Round) (ticks : Nat → TickEnv) (evs : List MEv) (ret : MRet)
    (h : s.step P (.handle start timeoutMs rounds ticks) = .ok s' evs ret) :
    (ret = .unit → Routes s.table (arrivals rounds) (deliveries evs)) ∧
    ∃ done rest, arrivals rounds = done ++ rest ∧ Routes s.table done (deliveries evs) := by
  have hi := inv_run P _ s ops tr (inv_new inc st) hrun
  have hl := selectLoop_routes P hP (start + timeoutMs * 1000000) rounds start s hi
  simp only [Mgr.step, Mgr.handle] at h
  split at h
  · cases h
  · split at h
    · cases h
    · rename_i hsel
      cases h
      exact ⟨nofun, hl.2 _ _ _ hsel⟩
    · rename_i s1 evs1 hsel
      have h1 := hl.1 _ _ hsel
      have hd := tickAll_deliveries ticks s1.table s1.heap
      split at h <;> rename_i ht <;> cases h <;> rw [ht] at hd <;>
        exact ⟨fun _ => by rw [deliveries_append, hd, List.append_nil]; exact h1,
          _, [], (List.append_nil _).symm, by rw [deliveries_append, hd, List.append_nil]; exact h1⟩

/-- C34. The rule above with full identifiers: a datagram with the identifier of an
open connection goes to that connection. -/
theorem C34_right_connection (P : Plat) (inc : BitVec 16) (st : Statics) (s : Mgr) (ops : List MOp) (tr : MTrace)
    (hrun : (Mgr.new inc st).run P ops = some (s, tr)) (k : BitVec 16) (id : Nat) (hm : (k, id) ∈ s.table) (c : Conn)
    (hc : s.heap[id]? = some c) (d addr payload : List Byte) (t0 t1 : Nat) (rest : List (Nat × List Byte))
    (hd : CpfAccepts (asReceived d) ((t0, addr) :: (t1, payload) :: rest)) (ha : 4 ≤ addr.length)
    (hid : field addr 0 4 = c.t2oNetworkConnectionId.toNat) (rs : List Recv) (out : List (Nat × List Byte))
    (hr : Routes s.table (.dgram d :: rs) out) : ∃ out', out = (id, payload) :: out' ∧ Routes s.table rs out' := by
  have hi := inv_run P _ s ops tr (inv_new inc st) hrun
  obtain ⟨c', hc', hk⟩ := hi.obj k id hm
  rw [hc] at hc'
  injection hc' with hc'
  subst hc'
  have hkn : k.toNat = field addr 0 4 % 65536 := by rw [hk, hid]; simp
  have same : ∀ items, CpfAccepts (asReceived d) items →
      items.map (fun i => i.2) = addr :: payload :: rest.map (fun i => i.2) := by
    intro items hx
    have e1 := accepts_expand hx Mem.strict
    rw [accepts_expand hd Mem.strict] at e1
    injection e1 with e1
    have e2 := congrArg (List.map CommonPacketItem.data) e1
    simpa [List.map_map, Function.comp_def, CommonPacketItem.mk'] using e2.symm
  cases hr with
  | hit h1 h2 h3 h4 h5 =>
    rename_i k' id' _
    have e := same _ h1
    simp only [List.map_cons, List.cons.injEq] at e
    obtain ⟨rfl, rfl, _⟩ := e
    have : k' = k := BitVec.eq_of_toNat_eq (h4.trans hkn.symm)
    subst this
    have e2 := tblFind_of_mem hi.sorted hm
    rw [tblFind_of_mem hi.sorted h3] at e2
    injection e2 with e2
    subst e2
    exact ⟨_, rfl, h5⟩
  | unknown h1 h2 h3 h4 =>
    have e := same _ h1
    simp only [List.map_cons, List.cons.injEq] at e
    obtain ⟨rfl, _⟩ := e
    exact absurd hkn (h3 _ hm)

end Verif.Props
