import Verif.Props.File
import Verif.Props.Discovery
import Verif.Props.RouterIo
import Verif.Props.ManagerCore
import Verif.Spec.Bounds

/-!
# C119: how much a peer can make the library hold
-/

namespace Verif.Props

open Verif Spec

/-! ## Readers -/

/-- A successful read goes on by `n` bytes. -/
def Moves {α : Type} (x : Rd α) (n : Nat) : Prop :=
  ∀ m b a b', x m b = .ok (a, b') → b' = ⟨b.bytes, b.pos + n⟩

theorem Moves.pure {α : Type} (a : α) : Moves (Pure.pure a : Rd α) 0 := by
  intro m b a' b' h
  exact (Rd.pure_inv h).2

theorem Moves.bind {α β : Type} {x : Rd α} {f : α → Rd β} {n k : Nat} (hx : Moves x n) (hf : ∀ a, Moves (f a) k) :
    Moves (x >>= f) (n + k) := by
  intro m b c b' h
  obtain ⟨a, b1, h1, h2⟩ := Rd.bind_inv h
  rw [hf a m b1 c b' h2, hx m b a b1 h1, Nat.add_assoc]

theorem Moves.cast {α : Type} {x : Rd α} {n k : Nat} (h : Moves x n) (e : n = k) : Moves x k := e ▸ h

theorem Moves.u8 : Moves Rd.u8 1 := by
  intro m b a b' h
  unfold Rd.u8 at h
  split at h
  · cases h; rfl
  · split at h
    · cases h; rfl
    · cases h

theorem Moves.u16 : Moves Rd.u16 2 := Moves.u8.bind fun _ => Moves.u8.bind fun _ => Moves.pure _

theorem Moves.u32 : Moves Rd.u32 4 :=
  Moves.u8.bind fun _ => Moves.u8.bind fun _ => Moves.u8.bind fun _ => Moves.u8.bind fun _ => Moves.pure _

theorem Moves.bytes (n : Nat) : Moves (Rd.bytes n) n := by
  induction n with
  | zero => exact Moves.pure []
  | succ n ih => exact (Moves.u8.bind fun _ => ih.bind fun _ => Moves.pure _).cast (by omega)

theorem Moves.words (n : Nat) : Moves (Rd.words n) (2 * n) := by
  induction n with
  | zero => exact Moves.pure []
  | succ n ih => exact (Moves.u8.bind fun _ => Moves.u8.bind fun _ => ih.bind fun _ => Moves.pure _).cast (by omega)

theorem bytes_size {n : Nat} {m : Mem} {b b' : Buffer} {d : List Byte} (h : Rd.bytes n m b = .ok (d, b')) : d.length = n := by
  induction n generalizing b d b' with
  | zero => rw [(Rd.pure_inv h).1]; rfl
  | succ n ih =>
    obtain ⟨a, b1, h1, h2⟩ := Rd.bind_inv h
    obtain ⟨c, b2, h3, h4⟩ := Rd.bind_inv h2
    rw [(Rd.pure_inv h4).1, List.length_cons, ih h3]

theorem words_size {n : Nat} {m : Mem} {b b' : Buffer} {d : List (BitVec 16)} (h : Rd.words n m b = .ok (d, b')) :
    d.length = n := by
  induction n generalizing b d b' with
  | zero => rw [(Rd.pure_inv h).1]; rfl
  | succ n ih =>
    obtain ⟨a, b1, h1, h2⟩ := Rd.bind_inv h
    obtain ⟨c, b2, h3, h4⟩ := Rd.bind_inv h2
    obtain ⟨c', b3, h5, h6⟩ := Rd.bind_inv h4
    rw [(Rd.pure_inv h6).1, List.length_cons, ih h5]

/-! ## Items -/

theorem expandItem_size {m : Mem} {b b' : Buffer} {i : CommonPacketItem} (h : CommonPacket.expandItem m b = .ok (i, b')) :
    b' = ⟨b.bytes, b.pos + 4 + i.data.length⟩ ∧ b'.pos ≤ b'.bytes.length := by
  unfold CommonPacket.expandItem at h
  obtain ⟨t, b1, h1, h⟩ := Rd.bind_inv h
  obtain ⟨l, b2, h2, h⟩ := Rd.bind_inv h
  obtain ⟨d, b3, h3, h⟩ := Rd.bind_inv h
  obtain ⟨b4, b5, h4, h⟩ := Rd.bind_inv h
  cases h4
  have hd := bytes_size h3
  rw [Rd.ite_run] at h
  split at h
  · next hv =>
    obtain ⟨rfl, rfl⟩ := Rd.pure_inv h
    have e1 := Moves.u16 m b t b1 h1
    have e2 := Moves.u16 m b1 l b2 h2
    have e3 := Moves.bytes _ m b2 d _ h3
    refine ⟨?_, by simpa [Buffer.isValid] using hv⟩
    rw [e3, e2, e1, mk'_data, hd]
  · cases h

theorem expandItems_size {n : Nat} {m : Mem} {b b' : Buffer} {is : List CommonPacketItem}
    (h : CommonPacket.expandItems n m b = .ok (is, b')) :
    is = [] ∨ b.pos + (4 * is.length + itemBytes is) ≤ b.bytes.length := by
  induction n generalizing b b' is with
  | zero => exact .inl (Rd.pure_inv h).1
  | succ n ih =>
    unfold CommonPacket.expandItems at h
    obtain ⟨b4, b5, h4, h⟩ := Rd.bind_inv h
    cases h4
    rw [Rd.ite_run] at h
    split at h
    · exact .inl (Rd.pure_inv h).1
    · right
      obtain ⟨i, b1, h1, h⟩ := Rd.bind_inv h
      obtain ⟨js, b2, h2, h⟩ := Rd.bind_inv h
      obtain ⟨rfl, rfl⟩ := Rd.pure_inv h
      obtain ⟨e1, e2⟩ := expandItem_size h1
      rw [e1] at e2
      have := ih h2
      rw [e1] at this
      simp only [List.length_cons, itemBytes, List.map_cons, List.sum_cons] at this e2 ⊢
      rcases this with rfl | this
      · simp at e2 ⊢; omega
      · omega

theorem expand_size {m : Mem} {data : List Byte} {is : List CommonPacketItem} (h : CommonPacket.expand m data = .ok is) :
    is = [] ∨ 2 + (4 * is.length + itemBytes is) ≤ data.length := by
  unfold CommonPacket.expand at h
  split at h <;> cases h
  next b' hx =>
  unfold CommonPacket.expandRd at hx
  obtain ⟨c, b1, h1, h2⟩ := Rd.bind_inv hx
  have := Moves.u16 m _ c b1 h1
  have h3 := expandItems_size h2
  rw [this] at h3
  simpa [Buffer.ofData] using h3

/-! ## Replies -/

theorem parse_size {m : Mem} {data : List Byte} {r : MessageRouterResponse} (h : MessageRouterResponse.parse m data = .ok r) :
    2 * r.additionalStatus.length + r.data.length + 4 = data.length ∧ r.additionalStatus.length < 256 ∧ r.additionalItems = [] := by
  unfold MessageRouterResponse.parse at h
  cases hx : MessageRouterResponse.expand m MessageRouterResponse.default data with
  | ub => rw [hx] at h; cases h
  | throw _ _ => rw [hx] at h; cases h
  | ok r' u =>
  rw [hx] at h
  cases h
  replace h := hx
  unfold MessageRouterResponse.expand at h
  split at h
  · cases h
  next hl =>
  cases hh : MessageRouterResponse.header m (Buffer.ofData data) with
  | ub => rw [hh] at h; cases h
  | throw e => rw [hh] at h; cases h
  | ok p =>
    obtain ⟨⟨service, status, n⟩, b⟩ := p
    rw [hh] at h
    have e1 : b = ⟨data, 4⟩ := by
      have : Moves MessageRouterResponse.header 4 :=
        Moves.u8.bind fun _ => Moves.u8.bind fun _ => Moves.u8.bind fun _ => Moves.u8.bind fun _ => Moves.pure _
      exact this m _ _ _ hh
    dsimp only at h
    by_cases hn : n.toNat * 2 > data.length - 4
    · rw [if_pos hn] at h; cases h
    · rw [if_neg hn] at h
      cases hw : Rd.words n.toNat m b with
      | ub => rw [hw] at h; cases h
      | throw e => rw [hw] at h; cases h
      | ok q =>
        obtain ⟨ws, b1⟩ := q
        rw [hw] at h
        have e2 := Moves.words _ m b ws b1 hw
        have e3 := words_size hw
        rw [e1] at e2
        dsimp only at e2 h
        subst e2
        cases hb : Rd.bytes (data.length - (4 + 2 * n.toNat)) m ⟨data, 4 + 2 * n.toNat⟩ with
        | ub => dsimp only at h; rw [hb] at h; cases h
        | throw e => dsimp only at h; rw [hb] at h; cases h
        | ok q =>
          obtain ⟨d, b2⟩ := q
          dsimp only at h
          rw [hb] at h
          have e4 := bytes_size hb
          cases h
          have := n.isLt
          refine ⟨?_, ?_, rfl⟩
          · simp only [e3, e4]; omega
          · simp only [e3]; omega

theorem two_items {is : List CommonPacketItem} {i : CommonPacketItem} (h : is[1]? = some i) :
    itemBytes is = (is[0]?.map (·.data.length)).getD 0 + i.data.length + itemBytes (is.drop 2) ∧
    is.length = 2 + (is.drop 2).length := by
  match is, h with
  | a :: b :: l, h =>
    cases h
    constructor
    · simp [itemBytes]; omega
    · simp; omega

theorem routerReply_size {m : Mem} {data : List Byte} {r : MessageRouterResponse} (h : routerReply m data = .ok r) :
    replyBytes r + 4 * r.additionalItems.length + 20 ≤ data.length := by
  unfold routerReply at h
  split at h
  · cases h
  next hl =>
  split at h
  · cases h
  · cases h
  next receivedData b hx =>
  obtain ⟨_, b1, h1, hx⟩ := Rd.bind_inv hx
  obtain ⟨_, b2, h2, hx⟩ := Rd.bind_inv hx
  have e1 := bytes_size hx
  cases he : CommonPacket.expand m receivedData with
  | ub => rw [he] at h; cases h
  | throw e => rw [he] at h; cases h
  | ok items =>
    rw [he] at h
    dsimp only at h
    have e2 := expand_size he
    cases hi : items[1]? with
    | none => rw [hi] at h; cases h
    | some item =>
      rw [hi] at h
      dsimp only at h
      obtain ⟨e3, e4⟩ := two_items hi
      have e2 : 2 + (4 * items.length + itemBytes items) ≤ receivedData.length := by
        rcases e2 with rfl | e2
        · cases hi
        · exact e2
      cases hp : MessageRouterResponse.parse m item.data with
      | ub => rw [hp] at h; cases h
      | throw e => rw [hp] at h; cases h
      | ok resp =>
        rw [hp] at h
        obtain ⟨e5, -, e6⟩ := parse_size hp
        dsimp only at h
        split at h
        · cases h
          simp only [replyBytes]
          omega
        · cases h
          simp only [replyBytes, e6, itemBytes, List.map_nil, List.sum_nil, List.length_nil]
          omega

theorem sar_size {m : Mem} {handle : BitVec 32} {pkt reply : EncapsPacket} {s s' : Tcp}
    (h : sendAndReceive m handle pkt s = .ok s' reply) : reply.data.length ≤ 65535 := by
  obtain ⟨-, -, n, h1, h2, h3, -, -, h4⟩ := C23_only_success m handle pkt reply s s' h
  have := field_lt reply.pack 2 2
  have hl := congrArg List.length h1
  rw [padTake_length] at hl
  rw [h4, List.length_drop, hl]
  omega

/-- C119. Whatever the device sends: a packet that a session returns has at most 65535 bytes of data. -/
theorem C119_packet (m : Mem) (handle : BitVec 32) (pkt reply : EncapsPacket) (s s' : Tcp)
    (h : sendAndReceive m handle pkt s = .ok s' reply) : reply.data.length ≤ 65535 := sar_size h

/-- C119. Whatever the device sends: a reply of the message router, with additional status and additional items, has at most
65515 bytes. -/
theorem C119_reply (m : Mem) (handle : BitVec 32) (use8 : Bool) (service : BitVec 8) (path : EPath) (data : List Byte)
    (extra : List CommonPacketItem) (s s' : Tcp) (r : MessageRouterResponse)
    (h : sendRequest m (SessionIf.tcp m handle) use8 service path data extra s = .ok s' r) :
    replyBytes r + 4 * r.additionalItems.length ≤ 65515 := by
  unfold sendRequest at h
  rw [Prog.bind_run] at h
  split at h
  · next s1 p hs =>
    have h1 := sar_size (m := m) (handle := handle) hs
    cases hr : routerReply m p.data with
    | ub => rw [hr] at h; cases h
    | throw e => rw [hr] at h; cases h
    | ok r' =>
      rw [hr] at h
      cases h
      have := routerReply_size hr
      omega
  · cases h
  · cases h

/-- The bytes that a request takes from what has arrived. -/
theorem C119_taken (m : Mem) (handle : BitVec 32) (pkt : EncapsPacket) (s s' : Tcp)
    (h : (∃ reply, sendAndReceive m handle pkt s = .ok s' reply) ∨ ∃ e, sendAndReceive m handle pkt s = .throw s' e) :
    (stream s.net).1.length ≤ (stream s'.net).1.length + 65559 := by
  cases hs : Tcp.send pkt.pack s with
  | ub => simp only [Tcp.send] at hs; split at hs <;> cases hs
  | throw s1 e =>
    rw [sendAndReceive, Prog.bind_throw hs] at h
    rcases h with ⟨_, h⟩ | ⟨_, h⟩
    · cases h
    · cases h
      simp only [Tcp.send] at hs
      split at hs
      · cases hs; exact Nat.le_add_right _ _
      · cases hs
  | ok s1 u =>
    have hnet : s1.net = s.net := by
      simp only [Tcp.send] at hs; split at hs
      · cases hs
      · injection hs with hs _; rw [← hs]
    have hfl : frameLen (stream s1.net).1 ≤ 65559 := by
      have := field_lt (padTake 24 (stream s1.net).1) 2 2
      unfold frameLen
      omega
    rw [← hnet]
    by_cases hf : frameLen (stream s1.net).1 ≤ (stream s1.net).1.length ∨ (stream s1.net).2 = .closed
    · obtain ⟨net', q, hq, hst, h'⟩ := sar_compute m handle pkt s s1 hs hf
      have : s'.net = net' := by
        rw [h'] at h
        unfold accept at h
        rcases h with ⟨_, h⟩ | ⟨_, h⟩
        · split at h
          · cases h
          · split at h
            · cases h
            · cases h; rfl
        · split at h
          · cases h; rfl
          · split at h
            · cases h; rfl
            · cases h
      rw [this, hst, List.length_drop]
      omega
    · simp only [not_or] at hf
      omega

/-! ## Implicit data -/

theorem recv_size {m : Mem} {data : List Byte} {c c' : Conn} {evs : List IoEv}
    (h : c.notifyReceiveData m data = .ok (c', evs)) (hd sq : _) (d : List Byte) (hm : IoEv.received hd sq d ∈ evs) :
    d.length ≤ data.length := by
  unfold Conn.notifyReceiveData at h
  split at h
  · cases h
  · cases h
  · split at h
    · cases h
    · dsimp only at h
      split at h
      · cases h; cases hm
      · cases h
        rw [List.mem_singleton] at hm
        cases hm
        simp

/-- No listener is given more than 8182 bytes. -/
def HandsFew (evs : List MEv) : Prop :=
  ∀ id op es, MEv.conn id op es ∈ evs → ∀ hd sq d, IoEv.received hd sq d ∈ es → d.length ≤ 8182

theorem HandsFew.nil : HandsFew [] := fun _ _ _ h => absurd h (by simp)

theorem HandsFew.append {xs ys : List MEv} (hx : HandsFew xs) (hy : HandsFew ys) : HandsFew (xs ++ ys) := by
  intro id op es hm
  rcases List.mem_append.mp hm with h | h
  · exact hx id op es h
  · exact hy id op es h

theorem HandsFew.other {evs : List MEv} (h : ∀ id op es, MEv.conn id op es ∉ evs) : HandsFew evs :=
  fun id op es hm => absurd hm (h id op es)

theorem HandsFew.waited {tv : Int × Int} {xs : List MEv} (hx : HandsFew xs) : HandsFew (.waited tv :: xs) :=
  HandsFew.append (xs := [.waited tv]) (.other (by simp)) hx

theorem deliver_size {P : Plat} {r : Recv} {s s' : Mgr} {evs : List MEv} (h : s.deliver P r = .ok (s', evs)) : HandsFew evs := by
  unfold Mgr.deliver at h
  cases r with
  | err code => cases h
  | dgram bytes =>
    rw [udpReceive_eq] at h
    dsimp only at h
    cases he : CommonPacket.expand P.mem (asReceived bytes) with
    | ub => rw [he] at h; cases h
    | throw e => rw [he] at h; cases h
    | ok items =>
      rw [he] at h
      dsimp only at h
      have hsz := expand_size he
      rw [asReceived_length] at hsz
      split at h
      · cases h
      · split at h
        · cases h
        · cases h
        · split at h
          · cases h; exact .nil
          · split at h
            · cases h
            · cases h; exact .nil
            · next item c hi hc =>
              obtain ⟨e1, e2⟩ := two_items hi
              split at h
              · cases h
              · cases h
              · next c' es hr =>
                cases h
                intro id op es' hm hd sq d hd'
                rw [List.mem_singleton] at hm
                cases hm
                have := recv_size hr _ _ _ hd'
                rcases hsz with rfl | hsz
                · cases hi
                · omega

/-- What happened until a stage ended. -/
def stageEvs : Mgr.Stage → List MEv
  | .go _ evs => evs
  | .threw _ evs _ => evs
  | .ub evs => evs

theorem deliverAll_size {P : Plat} {rs : List Arrival} {s : Mgr} : HandsFew (stageEvs (s.deliverAll P rs)) := by
  induction rs generalizing s with
  | nil => exact .nil
  | cons r rs ih =>
    unfold Mgr.deliverAll
    cases hd : s.deliver P r.recv with
    | ub => exact .nil
    | throw e => exact .nil
    | ok p =>
      obtain ⟨s1, evs1⟩ := p
      have h1 := deliver_size hd
      have h2 := ih (s := s1)
      dsimp only
      cases hr : Mgr.raised r.throws evs1 with
      | some e => exact h1
      | none =>
        dsimp only
        generalize s1.deliverAll P rs = x at h2
        cases x <;> exact h1.append h2

theorem selectLoop_size {P : Plat} {stop : Int} {rounds : List Round} {now : Int} {s : Mgr} :
    HandsFew (stageEvs (s.selectLoop P stop now rounds)) := by
  induction rounds generalizing now s with
  | nil => exact .waited .nil
  | cons r rest ih =>
    cases r with
    | fail code => exact .waited .nil
    | ready r rs now' =>
      have h1 := deliverAll_size (P := P) (rs := r :: rs) (s := s)
      simp only [Mgr.selectLoop]
      generalize s.deliverAll P (r :: rs) = x at h1
      cases x with
      | ub e2 => exact .waited h1
      | threw s2 e2 e => exact .waited h1
      | go s2 e2 =>
        have h2 := ih (now := now') (s := s2)
        dsimp only
        generalize s2.selectLoop P stop now' rest = y at h2
        cases y <;> exact .waited (h1.append h2)

theorem tick_hands_none (c : Conn) (now : Nat) (hook : Hook) (count : Int) (hd sq : _) (d : List Byte) :
    IoEv.received hd sq d ∉ (c.notifyTick now hook count).2.1 := by
  intro hm
  unfold Conn.notifyTick at hm
  dsimp only at hm
  split at hm
  · simp at hm
  · split at hm
    · unfold Conn.produce at hm
      dsimp only at hm
      split at hm
      · simp at hm
      · split at hm <;> simp at hm
    · simp at hm

theorem tickAll_size (ticks : Nat → TickEnv) (table : List (BitVec 16 × Nat)) (heap : List Conn) :
    HandsFew (Mgr.tickAll ticks table heap).2.1 := by
  induction table generalizing heap with
  | nil => exact .nil
  | cons e rest ih =>
    obtain ⟨k, id⟩ := e
    unfold Mgr.tickAll
    cases hc : heap[id]? with
    | none => exact ih heap
    | some c =>
      have h1 : HandsFew [MEv.conn id (.tick (ticks id).now (ticks id).hook (ticks id).count)
          (c.notifyTick (ticks id).now (ticks id).hook (ticks id).count).2.1] := by
        intro id' op es hm hd sq d hd'
        rw [List.mem_singleton] at hm
        cases hm
        exact absurd hd' (tick_hands_none _ _ _ _ _ _ _)
      dsimp only
      split
      · exact h1
      · exact h1.append (ih _)
      · exact h1.append (ih _)

theorem step_size {P : Plat} {s s' : Mgr} {op : MOp} {evs : List MEv} {ret : MRet} (h : s.step P op = .ok s' evs ret) :
    HandsFew evs := by
  cases op with
  | forwardOpen host p large e =>
    obtain ⟨stt, data, _, _, hh⟩ := forwardOpen_cases P host p large e s s' evs ret h
    rcases hh with ⟨_, rfl, _⟩ | ⟨resp, _, _, r, mult, ep, socks, bs, _, _, _, _, hf, _, rfl, _⟩
    · exact .other (by simp)
    · refine .other fun id op es hc => ?_
      simp only [List.cons_append, List.mem_cons, reduceCtorEq, List.mem_append, List.not_mem_nil, or_false,
        false_or] at hc
      obtain ⟨x, hx⟩ := findOrCreate_events _ _ _ _ _ hf _ hc
      cases hx
  | handle start t rounds ticks =>
    simp only [Mgr.step, Mgr.handle] at h
    split at h
    · cases h
    · have h3 := selectLoop_size (P := P) (stop := start + t * 1000000) (rounds := rounds) (now := start) (s := s)
      split at h
      · cases h
      · next hx => cases h; rw [hx] at h3; exact h3
      · next s4 e4 hx =>
        rw [hx] at h3
        have h5 := tickAll_size ticks s4.table s4.heap
        split at h <;> next ht => cases h; rw [ht] at h5; exact HandsFew.append h3 h5
  | otherOpen inc mc p2p =>
    simp only [Mgr.step] at h
    split at h <;> cases h
    exact .nil
  | forwardClose ptr reply =>
    simp only [Mgr.step, Mgr.forwardClose] at h
    repeat' split at h
    all_goals first | (cases h; exact .other (by simp)) | cases h
  | hasOpen => simp only [Mgr.step] at h; cases h; exact .nil
  | setData i d =>
    simp only [Mgr.step] at h
    split at h <;> cases h
    · intro id op es hm hd sq d hd'
      rw [List.mem_singleton] at hm
      cases hm
      cases hd'
    · exact .nil
  | lock i => simp only [Mgr.step] at h; split at h <;> cases h <;> exact .nil
  | release i => simp only [Mgr.step] at h; cases h; exact .nil

/-- C119. In every history of a manager, whatever datagrams arrive, a receive listener is given at most 8182 bytes. -/
theorem C119_io (P : Plat) (s s' : Mgr) (ops : List MOp) (tr : MTrace) (h : s.run P ops = some (s', tr)) (id : Nat)
    (op : ConnOp) (es : List IoEv) (hm : MEv.conn id op es ∈ allEvs tr) (hd : BitVec 32) (sq : BitVec 16) (d : List Byte)
    (hr : IoEv.received hd sq d ∈ es) : d.length ≤ 8182 := by
  induction ops generalizing s tr with
  | nil =>
    simp only [Mgr.run, Option.some.injEq, Prod.mk.injEq] at h
    obtain ⟨rfl, rfl⟩ := h
    simp [allEvs] at hm
  | cons o ops ih =>
    obtain ⟨s1, evs, ret, tr', h1, h2, rfl⟩ := mrun_cons h
    rw [allEvs_cons, List.mem_append] at hm
    rcases hm with hm | hm
    · exact step_size h1 id op es hm hd sq d hr
    · exact ih s1 tr' h2 hm

/-! ## Files -/

theorem packet_size {m : Mem} {n ts : BitVec 8} {size : Nat} {data : List Byte} {p : Packet}
    (h : (FileObject.packet n ts size).from m data = .ok p) :
    (∀ bs, p = .more bs → bs.length = ts.toNat) ∧ ∀ bs, p = .last bs → bs.length + 4 = size := by
  obtain ⟨b, h⟩ := Rd.from_inv h
  obtain ⟨v, b1, h1, h⟩ := Rd.bind_inv h
  obtain ⟨t, b2, h2, h⟩ := Rd.bind_inv h
  by_cases hv : v ≠ n
  · rw [if_pos hv] at h
    rw [(Rd.pure_inv h).1]
    exact ⟨fun _ h => (by cases h), fun _ h => (by cases h)⟩
  · rw [if_neg hv] at h
    by_cases h0 : t = 0
    · rw [if_pos h0] at h
      obtain ⟨d, b3, h3, h⟩ := Rd.bind_inv h
      rw [(Rd.pure_inv h).1]
      exact ⟨fun _ h => (by cases h; exact bytes_size h3), fun _ h => (by cases h)⟩
    · rw [if_neg h0] at h
      by_cases h1 : t = 1
      · rw [if_pos h1] at h
        obtain ⟨d, b3, h3, h⟩ := Rd.bind_inv h
        rw [(Rd.pure_inv h).1]
        exact ⟨fun _ h => (by cases h; exact bytes_size h3), fun _ h => (by cases h)⟩
      · rw [if_neg h1] at h
        by_cases h2 : t = 2 ∨ t = 4
        · rw [if_pos h2] at h
          by_cases h4 : size < 4
          · rw [if_pos h4] at h; cases h
          · rw [if_neg h4] at h
            obtain ⟨d, b3, h3, h⟩ := Rd.bind_inv h
            rw [(Rd.pure_inv h).1]
            have := bytes_size h3
            exact ⟨fun _ h => (by cases h), fun _ h => (by cases h; omega)⟩
        · rw [if_neg h2] at h; cases h

/-- C119. Over a session, whatever the device sends: one call of `handleTransfers` adds at most 65511 bytes to what the
object holds, and what it gives to the handler is what it holds, of the announced size. -/
theorem C119_transfer (m : Mem) (handle : BitVec 32) (f f' : FileObject) (L L' : Link Tcp)
    (h : (∃ b, FileObject.handleTransfers m (Device.tcp m handle) (f, L) = .ok (f', L') b) ∨
      ∃ e, FileObject.handleTransfers m (Device.tcp m handle) (f, L) = .throw (f', L') e) :
    collected f' ≤ collected f + 65511 ∧
      ∃ new, f'.calls = f.calls ++ new ∧ new.length ≤ 1 ∧ ∀ c ∈ new, c.content.length < 2 ^ 32 ∧
        c.content.length ≤ collected f' := by
  by_cases hu : ∃ u, f.state = .uploading u
  · obtain ⟨u, hf⟩ := hu
    have hcf : collected f = u.content.length := by simp only [collected, hf]
    obtain ⟨ht, hub, hok⟩ := transfer_run m (Device.tcp m handle) L f u hf
    match ha : (Device.tcp m handle).answer ⟨0x4F#8, ⟨0x37, f.instanceId, 0, 2⟩, [u.number]⟩ L.dev with
    | .ub => rw [hub ha] at h; rcases h with ⟨_, h⟩ | ⟨_, h⟩ <;> cases h
    | .throw d e =>
      rw [ht d e ha] at h
      rcases h with ⟨_, h⟩ | ⟨_, h⟩
      · cases h
      · cases h; exact ⟨Nat.le_add_right _ _, [], by simp, by simp, by simp⟩
    | .ok d resp =>
      have hsz := C119_reply _ _ _ _ _ _ _ _ _ _ ha
      unfold replyBytes at hsz
      obtain ⟨hbad, hgood⟩ := hok d resp ha
      by_cases hst : resp.status = 0x00#8
      · rw [hgood hst] at h
        match hp : (FileObject.packet u.number u.transferSize resp.data.length).from m resp.data with
        | .ub => rw [hp] at h; rcases h with ⟨_, h⟩ | ⟨_, h⟩ <;> cases h
        | .throw x =>
          rw [hp] at h
          rcases h with ⟨_, h⟩ | ⟨_, h⟩
          · cases h
          · cases h; exact ⟨Nat.le_add_right _ _, [], by simp, by simp, by simp⟩
        | .ok .wrongNumber =>
          rw [hp] at h
          rcases h with ⟨_, h⟩ | ⟨_, h⟩
          · cases h
            refine ⟨?_, [_], rfl, by simp, by simp⟩
            simp only [collected, hf]; omega
          · cases h
        | .ok (.more bs) =>
          have hb := (packet_size hp).1 bs rfl
          have := u.transferSize.isLt
          rw [hp] at h
          rcases h with ⟨_, h⟩ | ⟨_, h⟩
          · cases h
            refine ⟨?_, [], by simp, by simp, by simp⟩
            simp only [collected, hf, List.length_append]; omega
          · cases h
        | .ok (.last bs) =>
          have hb := (packet_size hp).2 bs rfl
          have := u.fileSize.isLt
          rw [hp] at h
          rcases h with ⟨_, h⟩ | ⟨_, h⟩
          · cases h
            refine ⟨?_, [_], rfl, by simp, ?_⟩
            · simp only [collected, hf, List.length_append]; omega
            · intro c hc
              rw [List.mem_singleton] at hc
              subst hc
              simp only [collected]
              split
              · next he => exact ⟨by rw [he]; exact this, Nat.le_refl _⟩
              · exact ⟨by simp, by simp⟩
          · cases h
      · rw [hbad hst] at h
        rcases h with ⟨_, h⟩ | ⟨_, h⟩
        · cases h
          refine ⟨?_, [_], rfl, by simp, by simp⟩
          simp only [collected, hf]; omega
        · cases h
  · have h2 := C62_transfer_other m (Device.tcp m handle) L f fun u h => hu ⟨u, h⟩
    rw [h2] at h
    rcases h with ⟨_, h⟩ | ⟨_, h⟩
    · cases h; exact ⟨Nat.le_add_right _ _, [], by simp, by simp, by simp⟩
    · cases h

/-- A device with a file of `size` bytes by its own account, that has always one more packet, with these bytes. -/
def endlessDevice (size : Nat) (chunk : List Byte) : Device Unit :=
  ⟨fun r _ => .ok () { MessageRouterResponse.default with
    status := 0
    data := if r.service = 0x4F#8 then r.data ++ [1#8] ++ chunk
      else if r.service = 0x4B#8 then fileAnnounce size chunk.length
      else [2#8] }⟩

theorem endless_transfers (m : Mem) (size : Nat) (chunk : List Byte) (k : Nat) :
    ∀ (f : FileObject) (L : Link Unit) (u : Upload), f.state = .uploading u → chunk.length = u.transferSize.toNat →
      ∃ f' L', transfers m (endlessDevice size chunk) k (f, L) = .ok (f', L') (List.replicate k true) ∧ f'.calls = f.calls ∧
        collected f' = u.content.length + chunk.length * k := by
  induction k with
  | zero =>
    intro f L u hf _
    exact ⟨f, L, rfl, rfl, by simp only [collected, hf]; rfl⟩
  | succ k ih =>
    intro f L u hf hts
    have h1 := ((transfer_run m (endlessDevice size chunk) L f u hf).2.2 ()
      { MessageRouterResponse.default with status := 0, data := [u.number] ++ [1#8] ++ chunk } rfl).2 rfl
    have hp := packet_more m u.number u.transferSize u.number.toNat 1 chunk [] (by simp) (.inr rfl)
      hts ([u.number] ++ [1#8] ++ chunk).length
    rw [List.append_nil, show le 1 u.number.toNat = [u.number] by rw [le_one_ofNat]; simp, show le 1 1 = [1#8] from rfl] at hp
    dsimp only at h1
    rw [hp] at h1
    obtain ⟨f', L', i1, i2, i3⟩ := ih
      { f with state := .uploading { u with content := u.content ++ chunk, number := u.number + 1 } }
      ⟨(), L.sent ++ [⟨0x4F#8, ⟨0x37, f.instanceId, 0, 2⟩, [u.number]⟩]⟩ _ rfl hts
    refine ⟨f', L', transfers_succ h1 i1, i2, ?_⟩
    rw [i3, List.length_append, Nat.mul_succ]
    omega

/-- C119. The announced size of a file does not bound what is held of it. Against a device that announces any size, for
example none, and has always one more packet, each call of `handleTransfers` returns true, holds one more packet and tells
the handler nothing. -/
theorem C119_upload_violated (m : Mem) (size : Nat) (hs : size < 2 ^ 32) (chunk : List Byte) (hc : chunk.length < 256)
    (inst : BitVec 16) (hd k : Nat) :
    ∃ f1 L1 s2 f3 L3, FileObject.create m (endlessDevice size chunk) inst ⟨(), []⟩ = .ok L1 f1 ∧
      FileObject.beginUpload m (endlessDevice size chunk) hd (f1, L1) = .ok s2 () ∧
      transfers m (endlessDevice size chunk) k s2 = .ok (f3, L3) (List.replicate k true) ∧
      collected f3 = chunk.length * k ∧ f3.calls = [] := by
  have h1 := (C62_create m (endlessDevice size chunk) ⟨(), []⟩ inst ()
    { MessageRouterResponse.default with status := 0, data := [2#8] } rfl).1 2#8 [] rfl rfl
  have h2 := (C62_begin m (endlessDevice size chunk) ⟨(), [fileStateReq inst]⟩ ⟨inst, .loaded, []⟩ rfl hd).1 ()
    { MessageRouterResponse.default with status := 0, data := fileAnnounce size chunk.length } size chunk.length [] rfl rfl hs hc
    (by simp)
  obtain ⟨f', L', h3, h4, h5⟩ := endless_transfers m size chunk k
    { (⟨inst, .loaded, []⟩ : FileObject) with state := .uploading (freshUpload (BitVec.ofNat 32 size) (BitVec.ofNat 8 chunk.length) hd) }
    ⟨(), [fileStateReq inst] ++ [fileBeginReq inst]⟩ _ rfl
    (by simp only [freshUpload, BitVec.toNat_ofNat]; omega)
  refine ⟨_, _, _, f', L', h1, h2, h3, ?_, h4⟩
  rw [h5]
  simp [freshUpload]

/-! ## Discovery -/

theorem answer_size {m : Mem} {data : List Byte} {ds : List IdentityItem} (h : Discovery.answer m data = .ok ds)
    (hl : data.length = 504) : ds.length ≤ 119 := by
  unfold Discovery.answer at h
  cases he : CommonPacket.expand m (data.drop EncapsPacket.headerSize) with
  | ub => rw [he] at h; cases h
  | throw e => rw [he] at h; cases h
  | ok its =>
    rw [he] at h
    have h1 : ∀ (its : List CommonPacketItem) i ds, Discovery.items m i its = .ok ds → ds.length = its.length := by
      intro its
      induction its with
      | nil => intro i ds h; cases h; rfl
      | cons it rest ih =>
        intro i ds h
        unfold Discovery.items at h
        split at h
        · cases h
        · cases h
        · split at h
          · cases h
          · cases h
          · next hx => cases h; rw [List.length_cons, ih _ _ hx, List.length_cons]
    have h2 := expand_size he
    rw [List.length_drop, hl, show EncapsPacket.headerSize = 24 from rfl] at h2
    rw [h1 _ _ _ h]
    rcases h2 with rfl | h2
    · simp
    · omega

theorem loop_size {m : Mem} {rs : List Recv} {ds ds' : List IdentityItem} (h : Discovery.loop m ds rs = .done ds') :
    ds'.length + 119 ≤ ds.length + 119 * rs.length := by
  induction rs generalizing ds with
  | nil => cases h
  | cons r rs ih =>
    unfold Discovery.loop at h
    cases r with
    | err code =>
      simp only [udpReceive] at h
      split at h
      · cases h
      · cases h; rw [List.length_cons]; omega
    | dgram d =>
      rw [udpReceive_disc] at h
      dsimp only at h
      split at h
      · cases h
      · split at h
        · cases h
        · cases h; rw [List.length_cons]; omega
      · cases h
      · next ds1 ha =>
        have := answer_size ha (discReceived_length d)
        have := ih h
        rw [List.length_append] at this
        rw [List.length_cons]
        omega

/-- C119. A discovery returns at most 119 devices for each datagram it received. -/
theorem C119_discovery (m : Mem) (e : Discovery.Env) (devs : List IdentityItem) (h : (Discovery.discover m e).2 = .done devs) :
    devs.length + 119 ≤ 119 * e.recvs.length := by
  unfold Discovery.discover at h
  split at h
  · cases h
  · cases h
  · dsimp only at h
    split at h
    · cases h
    · have := loop_size h
      simpa using this

/-- The item of one device. -/
def repeatedItem : Nat × List Byte :=
  (0x0c, identityItem 44818 [192#8, 168#8, 1#8, 7#8] ⟨1, 12, 65, 1, 2, 0x60, 0x11223344, [0x41#8, 0x42#8]⟩)

/-- The answer of one device. -/
def repeatedAnswer : List Byte :=
  List.replicate 24 0#8 ++ (le 2 [repeatedItem].length ++ [repeatedItem].flatMap fun i => cpfItem i.1 i.2)

theorem repeated_fits : repeatedItem.1 < 65536 ∧ repeatedItem.2.length < 65536 ∧ IdentityFits repeatedItem.2 18 := by
  decide +kernel

theorem repeated_length : repeatedAnswer.length ≤ 504 := by decide +kernel

/-- C119. It has no bound: the same answer of one device is listed each time it comes. -/
theorem C119_discovery_violated (m : Mem) (n : Nat) :
    ∃ devs, discoverGets m (List.replicate n (.dgram repeatedAnswer) ++ [.err 11]) =
        (some (encapsFrame 0x63 0 0 (List.replicate 8 0#8) 0 []), .done devs) ∧
      devs.map foundView = List.replicate n (foundSpec (foundIn repeatedItem.2)) := by
  have hd : Announces repeatedAnswer [repeatedItem] := C52_wellformed _ [repeatedItem] (by simp) (by decide) (by
    intro x hx
    rw [List.mem_singleton] at hx
    subst hx
    exact repeated_fits) repeated_length
  obtain ⟨devs, h1, h2⟩ := C52_discovers m (List.replicate n (repeatedAnswer, [repeatedItem])) (fun a ha => by
    rw [(List.mem_replicate.mp ha).2]; exact hd) []
  refine ⟨devs, by simpa using h1, ?_⟩
  rw [h2]
  clear h1 h2
  induction n with
  | zero => rfl
  | succ n ih => simpa [List.replicate_succ, List.flatMap_cons] using ih

/-! ## Concrete cases -/

/-- A device with one reply for every request, that comes in two pieces. -/
def replyNet (data : List Byte) : Tcp :=
  let frame := encapsFrame 0x6F 7 0 (List.replicate 8 0#8) 0
    (List.replicate 6 0#8 ++ le 2 2 ++ cpfItem 0 [] ++ cpfItem 0xB2 data)
  ⟨[.seg 0x6F#8 ((frame.drop 1).take 29), .eintr, .seg 2#8 (frame.drop 31)], [200], []⟩

/-- What a request brings, and what it leaves. -/
def brings (x : Res Tcp MessageRouterResponse) : Option (Nat × Nat) :=
  match x with
  | .ok s r => some (replyBytes r, (stream s.net).1.length)
  | _ => none

example : brings (sendRequest Mem.strict (SessionIf.tcp Mem.strict 7) false 0x0E (EPath.mk3 1 1 7) [] []
    (replyNet [0x8E#8, 0, 0, 1, 5, 0, 1, 2, 3])) = some (5, 0) := by decide +kernel

/-- What a file object holds after a transfer, and what it has told. -/
def holds (x : Res (FileObject × Link Tcp) Bool) : Option (Nat × List UploadCall) :=
  match x with
  | .ok (f, _) _ => some (collected f, f.calls)
  | _ => none

example : holds (FileObject.handleTransfers Mem.strict (Device.tcp Mem.strict 7)
    (⟨0xC8, .uploading ⟨5, 3, [1, 2, 3], 1, 9⟩, []⟩, ⟨replyNet [0xCF#8, 0, 0, 0, 1, 2, 4, 5, 0x77, 0x66], []⟩)) =
    some (5, [⟨9, 0, [1, 2, 3, 4, 5]⟩]) := by decide +kernel

end Verif.Props
