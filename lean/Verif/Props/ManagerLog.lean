import Verif.Spec.ManagerLog
import Verif.Props.LogText

/-!
# C126: reading the open connections off the log
-/

namespace Verif.Props

open Verif.Spec

/-- The serial number of an object. -/
def serialAt (heap : List Conn) (id : Nat) : Option (BitVec 16) := (heap[id]?).map fun c => c.serialNumber.setWidth 16

theorem serialAt_set (heap : List Conn) (id : Nat) (c c' : Conn) (hc : heap[id]? = some c) (h : c'.serialNumber = c.serialNumber) :
    serialAt (heap.set id c') = serialAt heap := by
  funext j
  unfold serialAt
  by_cases hj : id = j
  · subst hj
    have hl : id < heap.length := by
      rw [List.getElem?_eq_some_iff] at hc; exact hc.1
    rw [List.getElem?_set_self hl, hc]
    simp [h]
  · rw [List.getElem?_set_ne hj]

theorem produce_log (hook : Hook) (count : Int) (c : Conn) :
    (c.produce hook count).1.serialNumber = c.serialNumber ∧ (c.produce hook count).2.2 ≠ .dead := by
  unfold Conn.produce
  dsimp only
  cases hook.throws with
  | some e => exact ⟨rfl, fun h => (by cases h)⟩
  | none =>
    dsimp only
    split
    · exact ⟨rfl, fun h => (by cases h)⟩
    · refine ⟨rfl, ?_⟩
      dsimp only
      generalize udpSendThrows _ count = t
      cases t <;> (intro h; cases h)

theorem tick_serial (c : Conn) (now : Nat) (hook : Hook) (count : Int) : (c.notifyTick now hook count).1.serialNumber = c.serialNumber := by
  unfold Conn.notifyTick
  dsimp only
  split
  · rfl
  · split
    · rw [(produce_log _ _ _).1]
    · rfl

theorem recv_serial (m : Mem) (data : List Byte) (c c' : Conn) (evs : List IoEv) (h : c.notifyReceiveData m data = .ok (c', evs)) :
    c'.serialNumber = c.serialNumber := by
  unfold Conn.notifyReceiveData at h
  cases hr : c.recvHead m (Buffer.ofData data) with
  | ub => rw [hr] at h; cases h
  | throw e => rw [hr] at h; cases h
  | ok x =>
    obtain ⟨⟨hd, sq⟩, b⟩ := x
    rw [hr] at h
    dsimp only at h
    by_cases h1 : data.length < b.pos
    · rw [if_pos h1] at h; cases h
    · rw [if_neg h1] at h
      by_cases h2 : (c.t2oFixedSize && (data.drop b.pos).length != c.t2oDataSize) = true
      · rw [if_pos h2] at h; cases h; rfl
      · rw [if_neg h2] at h; cases h; rfl

theorem deliver_serial (P : Plat) (r : Recv) (s s' : Mgr) (evs : List MEv) (h : s.deliver P r = .ok (s', evs)) :
    s'.table = s.table ∧ serialAt s'.heap = serialAt s.heap := by
  refine ⟨(deliver_replay P r s s' evs h).2.1, ?_⟩
  unfold Mgr.deliver at h
  split at h <;> try cases h
  split at h <;> try cases h
  split at h <;> try cases h
  split at h <;> try cases h
  split at h
  · cases h; rfl
  · split at h
    · cases h
    · cases h; rfl
    · rename_i item c hi hc
      split at h
      · cases h
      · cases h
      · rename_i c' evs hr
        cases h
        exact serialAt_set _ _ _ _ hc (recv_serial _ _ _ _ _ hr)

/-! ## Messages about data tell nothing about what is open -/

theorem recvLines_none (m : Mem) (data : List Byte) (c : Conn) : (c.recvLines m data).filter aboutOpen = [] := by
  unfold Conn.recvLines
  dsimp only
  repeat' split
  all_goals rfl

theorem deliverLines_none (P : Plat) (r : Recv) (s : Mgr) : (s.deliverLines P r).filter aboutOpen = [] := by
  unfold Mgr.deliverLines
  split <;> try rfl
  split <;> try rfl
  split <;> try rfl
  split <;> try rfl
  rw [List.filter_cons_of_neg (by simp [aboutOpen])]
  split
  · rfl
  · split
    · exact recvLines_none _ _ _
    · rfl

theorem deliverAll_log (P : Plat) (rs : List Arrival) : ∀ s : Mgr, (s.deliverAllLines P rs).filter aboutOpen = [] ∧
    (∀ s' evs, Mgr.deliverAll P rs s = .go s' evs → s'.table = s.table ∧ serialAt s'.heap = serialAt s.heap) ∧
    (∀ s' evs e, Mgr.deliverAll P rs s = .threw s' evs e → s'.table = s.table ∧ serialAt s'.heap = serialAt s.heap) := by
  induction rs with
  | nil =>
    intro s
    refine ⟨rfl, fun s' evs h => ?_, fun s' evs e h => ?_⟩
    · simp only [Mgr.deliverAll] at h; cases h; exact ⟨rfl, rfl⟩
    · simp only [Mgr.deliverAll] at h; cases h
  | cons r rs ih =>
    intro s
    simp only [Mgr.deliverAllLines, Mgr.deliverAll, List.filter_append, deliverLines_none, List.nil_append]
    cases hd : s.deliver P r.recv with
    | ub => exact ⟨rfl, fun _ _ h => (by cases h), fun _ _ _ h => (by cases h)⟩
    | throw e => exact ⟨rfl, fun _ _ h => (by cases h), fun _ _ _ h => (by cases h; exact ⟨rfl, rfl⟩)⟩
    | ok x =>
      obtain ⟨s1, evs1⟩ := x
      obtain ⟨t1, t2⟩ := deliver_serial P r.recv s s1 evs1 hd
      dsimp only
      cases Mgr.raised r.throws evs1 with
      | some e => exact ⟨rfl, fun _ _ h => (by cases h), fun _ _ _ h => (by cases h; exact ⟨t1, t2⟩)⟩
      | none =>
        dsimp only
        obtain ⟨i1, i2, i3⟩ := ih s1
        refine ⟨i1, fun s' evs h => ?_, fun s' evs e h => ?_⟩
        · cases hx : Mgr.deliverAll P rs s1 with
          | ub e => rw [hx] at h; cases h
          | threw a b c => rw [hx] at h; cases h
          | go a b => rw [hx] at h; cases h; obtain ⟨a1, a2⟩ := i2 _ _ hx; exact ⟨a1.trans t1, a2.trans t2⟩
        · cases hx : Mgr.deliverAll P rs s1 with
          | ub e => rw [hx] at h; cases h
          | threw a b c => rw [hx] at h; cases h; obtain ⟨a1, a2⟩ := i3 _ _ _ hx; exact ⟨a1.trans t1, a2.trans t2⟩
          | go a b => rw [hx] at h; cases h

theorem select_log (P : Plat) (stop : Int) (rounds : List Round) : ∀ (now : Int) (s : Mgr), (s.selectLines P rounds).filter aboutOpen = [] ∧
    (∀ s' evs, Mgr.selectLoop P stop now rounds s = .go s' evs → s'.table = s.table ∧ serialAt s'.heap = serialAt s.heap) ∧
    (∀ s' evs e, Mgr.selectLoop P stop now rounds s = .threw s' evs e → s'.table = s.table ∧ serialAt s'.heap = serialAt s.heap) := by
  induction rounds with
  | nil =>
    intro now s
    refine ⟨rfl, fun s' evs h => ?_, fun s' evs e h => ?_⟩
    · simp only [Mgr.selectLoop] at h; cases h; exact ⟨rfl, rfl⟩
    · simp only [Mgr.selectLoop] at h; cases h
  | cons r rounds ih =>
    intro now s
    cases r with
    | fail code =>
      refine ⟨rfl, fun s' evs h => ?_, fun s' evs e h => ?_⟩
      · simp only [Mgr.selectLoop] at h; cases h
      · simp only [Mgr.selectLoop] at h; cases h; exact ⟨rfl, rfl⟩
    | ready r rs now' =>
      obtain ⟨d1, d2, d3⟩ := deliverAll_log P (r :: rs) s
      simp only [Mgr.selectLines, Mgr.selectLoop, List.filter_append, d1, List.nil_append]
      cases hd : Mgr.deliverAll P (r :: rs) s with
      | ub evs => exact ⟨rfl, fun _ _ h => (by cases h), fun _ _ _ h => (by cases h)⟩
      | threw s1 evs e => exact ⟨rfl, fun _ _ h => (by cases h), fun _ _ _ h => (by cases h; exact d3 _ _ _ hd)⟩
      | go s1 evs =>
        dsimp only
        obtain ⟨t1, t2⟩ := d2 _ _ hd
        obtain ⟨i1, i2, i3⟩ := ih now' s1
        refine ⟨i1, fun s' evs h => ?_, fun s' evs e h => ?_⟩
        · cases hx : Mgr.selectLoop P stop now' rounds s1 with
          | ub e => rw [hx] at h; cases h
          | threw a b c => rw [hx] at h; cases h
          | go a b => rw [hx] at h; cases h; obtain ⟨a1, a2⟩ := i2 _ _ hx; exact ⟨a1.trans t1, a2.trans t2⟩
        · cases hx : Mgr.selectLoop P stop now' rounds s1 with
          | ub e => rw [hx] at h; cases h
          | threw a b c => rw [hx] at h; cases h; obtain ⟨a1, a2⟩ := i3 _ _ _ hx; exact ⟨a1.trans t1, a2.trans t2⟩
          | go a b => rw [hx] at h; cases h

/-! ## Ticks -/

theorem tick_line (c : Conn) (now : Nat) (hook : Hook) (count : Int) :
    ((c.notifyTick now hook count).2.2 = .dead → (c.tickLines now hook).filter aboutOpen = [.timedOut c.serialNumber]) ∧
    ((c.notifyTick now hook count).2.2 = .alive → (c.tickLines now hook).filter aboutOpen = []) := by
  unfold Conn.notifyTick Conn.tickLines
  dsimp only
  by_cases h1 : c.connectionTimeoutCount + BitVec.ofNat 32 ((now - c.lastHandleTime) / 1000000 * 1000) >
      c.connectionTimeoutMultiplier.setWidth 32 * c.t2oAPI
  · rw [if_pos h1, if_pos h1]
    refine ⟨fun _ => rfl, fun h => ?_⟩
    simp only [Conn.closeRet] at h
    split at h <;> cases h
  · rw [if_neg h1, if_neg h1]
    by_cases h2 : c.o2tTimer + BitVec.ofNat 32 ((now - c.lastHandleTime) / 1000000 * 1000) ≥ c.o2tAPI
    · rw [if_pos h2, if_pos h2]
      refine ⟨fun h => absurd h (produce_log _ _ _).2, fun _ => ?_⟩
      cases hook.throws with
      | some e => rfl
      | none => dsimp only; split <;> rfl
    · rw [if_neg h2, if_neg h2]
      exact ⟨fun h => (by cases h), fun _ => rfl⟩

/-- The connections that a walk over the table removes, in order: their messages are those about timeouts. -/
theorem ticks_log (ticks : Nat → TickEnv) (t : List (BitVec 16 × Nat)) : ∀ heap : List Conn,
    serialAt (Mgr.tickAll ticks t heap).1 = serialAt heap ∧
    ((Mgr.tickAll ticks t heap).2.2.2 = none → ∃ dead : List ((BitVec 16 × Nat) × BitVec 32),
      (∀ e ∈ dead, e.1 ∈ t ∧ serialAt heap e.1.2 = some (e.2.setWidth 16)) ∧
      (Mgr.tickAll ticks t heap).2.2.1 = dead.map (fun e => e.1.1) ∧
      (Mgr.tickAllLines ticks t heap).filter aboutOpen = dead.map fun e => .timedOut e.2) := by
  induction t with
  | nil => intro heap; exact ⟨rfl, fun _ => ⟨[], by simp, rfl, rfl⟩⟩
  | cons a t ih =>
    intro heap
    obtain ⟨k, id⟩ := a
    simp only [Mgr.tickAll, Mgr.tickAllLines]
    cases hc : heap[id]? with
    | none =>
      dsimp only
      obtain ⟨i1, i2⟩ := ih heap
      refine ⟨i1, fun h => ?_⟩
      obtain ⟨dead, d1, d2, d3⟩ := i2 h
      exact ⟨dead, fun e he => ⟨List.mem_cons_of_mem _ (d1 e he).1, (d1 e he).2⟩, d2, d3⟩
    | some c =>
      dsimp only
      have hset := serialAt_set heap id c (c.notifyTick (ticks id).now (ticks id).hook (ticks id).count).1 hc (tick_serial _ _ _ _)
      obtain ⟨l1, l2⟩ := tick_line c (ticks id).now (ticks id).hook (ticks id).count
      obtain ⟨i1, i2⟩ := ih (heap.set id (c.notifyTick (ticks id).now (ticks id).hook (ticks id).count).1)
      rw [hset] at i1 i2
      cases hr : (c.notifyTick (ticks id).now (ticks id).hook (ticks id).count).2.2 with
      | threw e => exact ⟨hset, fun h => (by cases h)⟩
      | alive =>
        dsimp only
        refine ⟨i1, fun h => ?_⟩
        obtain ⟨dead, d1, d2, d3⟩ := i2 h
        refine ⟨dead, fun e he => ⟨List.mem_cons_of_mem _ (d1 e he).1, (d1 e he).2⟩, d2, ?_⟩
        rw [List.filter_append, l2 hr, d3, List.nil_append]
      | dead =>
        dsimp only
        refine ⟨i1, fun h => ?_⟩
        obtain ⟨dead, d1, d2, d3⟩ := i2 h
        refine ⟨((k, id), c.serialNumber) :: dead, ?_, ?_, ?_⟩
        · intro e he
          rcases List.mem_cons.mp he with rfl | he
          · exact ⟨List.mem_cons_self, by simp [serialAt, hc]⟩
          · exact ⟨List.mem_cons_of_mem _ (d1 e he).1, (d1 e he).2⟩
        · rw [d2]; rfl
        · rw [List.filter_append, l1 hr, d3]; rfl

/-! ## What the reader believes -/

theorem believe_filter (ls : List LogLine) : ∀ b, ls.foldl believe b = (ls.filter aboutOpen).foldl believe b := by
  induction ls with
  | nil => intro b; rfl
  | cons l ls ih =>
    intro b
    cases h : aboutOpen l with
    | true => rw [List.filter_cons_of_pos h, List.foldl_cons, List.foldl_cons, ih]
    | false =>
      rw [List.filter_cons_of_neg (by simp [h]), List.foldl_cons, ih]
      have e : believe b l = b := by cases l <;> first | rfl | cases h
      rw [e]

theorem believe_deaths {α : Type} (dead : List (α × BitVec 32)) : ∀ (b : List (BitVec 16 × BitVec 16)) (e : BitVec 16 × BitVec 16),
    e ∈ (dead.map fun d => LogLine.timedOut d.2).foldl believe b ↔ e ∈ b ∧ ∀ d ∈ dead, e.2 ≠ d.2.setWidth 16 := by
  induction dead with
  | nil => intro b e; simp
  | cons d dead ih =>
    intro b e
    rw [List.map_cons, List.foldl_cons, ih]
    simp only [believe, List.mem_filter, List.forall_mem_cons, decide_not, Bool.not_eq_true', decide_eq_false_iff_not]
    exact and_assoc

/-- The reader is right, and can tell the connections apart by their serial numbers. -/
structure Reads (told : List (BitVec 16)) (b : List (BitVec 16 × BitVec 16)) (s : Mgr) : Prop where
  right : ∀ k n, (k, n) ∈ b ↔ ∃ id, (k, id) ∈ s.table ∧ serialAt s.heap id = some n
  apart : ∀ k k' n, (k, n) ∈ b → (k', n) ∈ b → k = k'
  known : ∀ k n, (k, n) ∈ b → n ∈ told

theorem Reads.same {told : List (BitVec 16)} {b : List (BitVec 16 × BitVec 16)} {s s' : Mgr} (h : Reads told b s) (ht : s'.table = s.table)
    (hh : ∀ k id, (k, id) ∈ s.table → serialAt s'.heap id = serialAt s.heap id) : Reads told b s' := by
  refine ⟨fun k n => ?_, h.apart, h.known⟩
  rw [h.right, ht]
  constructor
  · rintro ⟨id, h1, h2⟩; exact ⟨id, h1, by rw [hh k id h1]; exact h2⟩
  · rintro ⟨id, h1, h2⟩; exact ⟨id, h1, by rw [← hh k id h1]; exact h2⟩

theorem sorted_unique {t : List (BitVec 16 × Nat)} (hs : t.Pairwise fun a b => a.1 < b.1) {k : BitVec 16} {i j : Nat} (hi : (k, i) ∈ t)
    (hj : (k, j) ∈ t) : i = j := by
  induction hs with
  | nil => cases hi
  | @cons a t h1 _ ih =>
    rcases List.mem_cons.mp hi with hi | hi <;> rcases List.mem_cons.mp hj with hj | hj
    · rw [← hj] at hi; exact (Prod.mk.inj hi).2
    · have := h1 _ hj; rw [← hi] at this; exact absurd this (BitVec.lt_irrefl _)
    · have := h1 _ hi; rw [← hj] at this; exact absurd this (BitVec.lt_irrefl _)
    · exact ih hi hj

theorem reads_handle (P : Plat) (start : Nat) (timeoutMs : Int) (rounds : List Round) (ticks : Nat → TickEnv) (told : List (BitVec 16))
    (b : List (BitVec 16 × BitVec 16)) (s s' : Mgr) (evs : List MEv) (ret : MRet) (hi : Inv s) (hR : Reads told b s)
    (h : s.handle P start timeoutMs rounds ticks = .ok s' evs ret)
    (hq : ∀ x, ret = .threw x → ∀ l ∈ s.handleLines P start timeoutMs rounds ticks, aboutOpen l = false) :
    Reads told ((s.handleLines P start timeoutMs rounds ticks).foldl believe b) s' := by
  rw [believe_filter]
  unfold Mgr.handle at h
  unfold Mgr.handleLines at hq ⊢
  cases hso : s.sockets with
  | nil => rw [hso] at h; cases h
  | cons ep eps =>
    rw [hso] at h hq
    dsimp only at h hq ⊢
    obtain ⟨l1, l2, l3⟩ := select_log P (start + timeoutMs * 1000000) rounds start s
    rw [List.filter_append, l1, List.nil_append]
    cases hsel : Mgr.selectLoop P (start + timeoutMs * 1000000) start rounds s with
    | ub e => rw [hsel] at h; cases h
    | threw s1 e x =>
      rw [hsel] at h; cases h
      obtain ⟨t1, t2⟩ := l3 _ _ _ hsel
      exact hR.same t1 fun _ _ _ => by rw [t2]
    | go s1 e1 =>
      rw [hsel] at h hq
      dsimp only at h hq ⊢
      obtain ⟨t1, t2⟩ := l2 _ _ hsel
      have hR1 : Reads told b s1 := hR.same t1 fun _ _ _ => by rw [t2]
      obtain ⟨k1, k2⟩ := ticks_log ticks s1.table s1.heap
      cases hx : Mgr.tickAll ticks s1.table s1.heap with
      | mk heap r1 =>
        obtain ⟨evs1, keys, x⟩ := r1
        rw [hx] at h k1 k2
        dsimp only at h k1 k2
        cases x with
        | some x =>
          dsimp only at h
          cases h
          have e0 : (Mgr.tickAllLines ticks s1.table s1.heap).filter aboutOpen = [] := by
            rw [List.filter_eq_nil_iff]
            intro l hl
            rw [hq x rfl l (List.mem_append.mpr (.inr hl))]
            exact Bool.false_ne_true
          rw [e0]
          exact hR1.same rfl fun _ _ _ => by rw [k1]
        | none =>
          dsimp only at h
          cases h
          obtain ⟨dead, d1, d2, d3⟩ := k2 rfl
          rw [d3]
          have hs1 : s1.table.Pairwise fun a b => a.1 < b.1 := by rw [t1]; exact hi.sorted
          refine ⟨fun k n => ?_, fun k k' n h1 h2 => ?_, fun k n h1 => ?_⟩
          · rw [believe_deaths, hR1.right]
            dsimp only
            rw [k1]
            constructor
            · rintro ⟨⟨id, m1, m2⟩, m3⟩
              refine ⟨id, List.mem_filter.mpr ⟨m1, ?_⟩, m2⟩
              simp only [Bool.not_eq_true', List.contains_eq_mem, decide_eq_false_iff_not]
              rw [d2]
              intro hk
              obtain ⟨d, hd, hdk⟩ := List.mem_map.mp hk
              obtain ⟨g1, g2⟩ := d1 d hd
              have e1 : d.1 = (k, d.1.2) := by rw [← hdk]
              rw [e1] at g1
              rw [← sorted_unique hs1 m1 g1, m2] at g2
              exact m3 d hd (Option.some.inj g2)
            · rintro ⟨id, m1, m2⟩
              obtain ⟨m1, m3⟩ := List.mem_filter.mp m1
              refine ⟨⟨id, m1, m2⟩, fun d hd hn => ?_⟩
              obtain ⟨g1, g2⟩ := d1 d hd
              have b1 : (k, n) ∈ b := (hR1.right k n).mpr ⟨id, m1, m2⟩
              have b2 : (d.1.1, n) ∈ b := (hR1.right _ _).mpr ⟨d.1.2, g1, by rw [g2, hn]⟩
              have e1 := hR1.apart _ _ _ b1 b2
              simp only [Bool.not_eq_true', List.contains_eq_mem, decide_eq_false_iff_not] at m3
              apply m3
              rw [d2, e1]
              exact List.mem_map.mpr ⟨d, hd, rfl⟩
          · exact hR1.apart k k' n ((believe_deaths dead b _).mp h1).1 ((believe_deaths dead b _).mp h2).1
          · exact hR1.known k n ((believe_deaths dead b _).mp h1).1

theorem Reads.more {told told' : List (BitVec 16)} {b : List (BitVec 16 × BitVec 16)} {s : Mgr} (h : Reads told b s) :
    Reads (told ++ told') b s := ⟨h.right, h.apart, fun k n hm => List.mem_append.mpr (.inl (h.known k n hm))⟩

theorem Reads.keep {told told' : List (BitVec 16)} {b : List (BitVec 16 × BitVec 16)} {s s' : Mgr} (h : Reads told b s)
    (ht : s'.table = s.table) (hh : ∀ k id, (k, id) ∈ s.table → serialAt s'.heap id = serialAt s.heap id) : Reads (told ++ told') b s' :=
  (h.same ht hh).more

theorem reads_open (P : Plat) (host : String) (p : ConnectionParameters) (large : Bool) (e : OpenEnv) (told : List (BitVec 16))
    (b : List (BitVec 16 × BitVec 16)) (s s' : Mgr) (evs : List MEv) (ret : MRet) (hi : Inv s) (hR : Reads told b s)
    (h : s.forwardOpen P host p large e = .ok s' evs ret)
    (hq : ∀ x, ret = .threw x → ∀ l ∈ s.openLines P host p large e, aboutOpen l = false)
    (hn : (told ++ serialsTold (s.openLines P host p large e)).Nodup) :
    Reads (told ++ serialsTold (s.openLines P host p large e)) ((s.openLines P host p large e).foldl believe b) s' := by
  obtain ⟨st, data, hst, hdata, hh⟩ := forwardOpen_cases P host p large e s s' evs ret h
  rcases hh with ⟨rfl, _, hr⟩ | ⟨resp, h1, h2, r, mult, ep, socks, bs, h3, h4, h5, h6, h7, rfl, _, _⟩
  · have e0 : (s.openLines P host p large e).filter aboutOpen = [] := by
      rcases hr with ⟨x, rfl⟩ | ⟨_, resp, h1, h2⟩
      · rw [List.filter_eq_nil_iff]
        intro l hl
        rw [hq x rfl l hl]
        exact Bool.false_ne_true
      · unfold Mgr.openLines
        rw [hst]
        dsimp only
        rw [hdata, h1]
        dsimp only
        rw [if_neg h2]
        rfl
    rw [believe_filter, e0]
    exact hR.keep rfl fun _ _ _ => rfl
  · have e0 : s.openLines P host p large e = LogLine.request (if large then 0x5B#8 else 0x54#8) (EPath.mk2 6 1) ::
        LogLine.ioOpen r.o2tNetworkConnectionId r.t2oNetworkConnectionId r.connectionSerialNumber :: LogLine.sendsTo ep ::
        (match tblFind (r.t2oNetworkConnectionId.setWidth 16) s.table with
          | some _ => [LogLine.exists_ r.t2oNetworkConnectionId]
          | none => []) := by
      unfold Mgr.openLines
      rw [hst]
      dsimp only
      rw [hdata, h1]
      dsimp only
      rw [if_pos h2, h3]
      dsimp only
      rw [h4]
      dsimp only
      rw [h5]
      dsimp only
      rw [h6]
      dsimp only
      rw [h7]
      rfl
    obtain ⟨g1, g2, _⟩ := register_shape (Mgr.newConn p large r mult ep e.now) { s with statics := st, sockets := socks }
    have hold : ∀ k id, (k, id) ∈ s.table → serialAt (s.heap ++ [Mgr.newConn p large r mult ep e.now]) id = serialAt s.heap id := by
      intro k id hm
      obtain ⟨c, hc, _⟩ := hi.obj k id hm
      unfold serialAt
      rw [List.getElem?_append_left (List.getElem?_eq_some_iff.mp hc).1]
    rcases g2 with ⟨id, g2, g3⟩ | ⟨g2, g3⟩
    · have g2' : tblFind (r.t2oNetworkConnectionId.setWidth 16) s.table = some id := g2
      rw [e0, g2'] at hn ⊢
      have e1 : List.foldl believe b
          (LogLine.request (if large then 0x5B#8 else 0x54#8) (EPath.mk2 6 1) ::
            LogLine.ioOpen r.o2tNetworkConnectionId r.t2oNetworkConnectionId r.connectionSerialNumber :: LogLine.sendsTo ep ::
            [LogLine.exists_ r.t2oNetworkConnectionId]) = b := by
        simp [believe]
      dsimp only
      rw [e1]
      refine (hR.same g3 fun k id hm => ?_).more
      rw [g1]
      exact hold k id hm
    · have g2' : tblFind (r.t2oNetworkConnectionId.setWidth 16) s.table = none := g2
      rw [e0, g2'] at hn ⊢
      dsimp only at hn ⊢
      have hfresh : r.connectionSerialNumber ∉ told := by
        intro hm
        have := (List.nodup_append.mp hn).2.2 _ hm r.connectionSerialNumber (by simp [serialsTold])
        exact this rfl
      have hmem : ∀ x, x ∈ List.foldl believe b
          (LogLine.request (if large then 0x5B#8 else 0x54#8) (EPath.mk2 6 1) ::
            LogLine.ioOpen r.o2tNetworkConnectionId r.t2oNetworkConnectionId r.connectionSerialNumber :: LogLine.sendsTo ep :: []) ↔
          x = (r.t2oNetworkConnectionId.setWidth 16, r.connectionSerialNumber) ∨ x ∈ b := by
        intro x
        simp [believe]
      refine ⟨fun k n => ?_, fun k k' n => ?_, fun k n => ?_⟩
      · rw [hmem, hR.right, g3, g1]
        constructor
        · rintro (hx | ⟨id, m1, m2⟩)
          · obtain ⟨rfl, rfl⟩ := Prod.mk.inj hx
            refine ⟨s.heap.length, tblPut_mem.mpr (.inl rfl), ?_⟩
            simp [serialAt, Mgr.newConn]
          · exact ⟨id, tblPut_mem.mpr (.inr m1), by rw [← m2]; exact hold k id m1⟩
        · rintro ⟨id, m1, m2⟩
          rcases tblPut_mem.mp m1 with m1 | m1
          · obtain ⟨rfl, rfl⟩ := Prod.mk.inj m1
            left
            simp [serialAt, Mgr.newConn] at m2
            rw [m2]
            rfl
          · exact .inr ⟨id, m1, by rw [← m2]; exact (hold k id m1).symm⟩
      · rw [hmem, hmem]
        rintro (a | a) (c | c)
        · rw [(Prod.mk.inj a).1, (Prod.mk.inj c).1]
        · rw [(Prod.mk.inj a).2] at c; exact absurd (hR.known _ _ c) hfresh
        · rw [(Prod.mk.inj c).2] at a; exact absurd (hR.known _ _ a) hfresh
        · exact hR.apart _ _ _ a c
      · rw [hmem]
        rintro (a | a)
        · rw [(Prod.mk.inj a).2]; exact List.mem_append.mpr (.inr (by simp [serialsTold]))
        · exact List.mem_append.mpr (.inl (hR.known _ _ a))

theorem reads_close (P : Plat) (ptr : Option Nat) (reply : Outcome MessageRouterResponse) (told : List (BitVec 16))
    (b : List (BitVec 16 × BitVec 16)) (s s' : Mgr) (evs : List MEv) (ret : MRet) (hR : Reads told b s)
    (h : s.forwardClose P ptr reply = .ok s' evs ret) (hq : ∀ x, ret = .threw x → ∀ l ∈ s.closeLines ptr reply, aboutOpen l = false) :
    Reads told ((s.closeLines ptr reply).foldl believe b) s' := by
  unfold Mgr.forwardClose at h
  unfold Mgr.closeLines at hq ⊢
  cases ptr with
  | none => cases h; exact hR
  | some id =>
    dsimp only at h hq ⊢
    cases ha : s.alive id with
    | false => rw [ha] at h; cases h; exact hR
    | true =>
      rw [ha, if_pos rfl] at h hq
      rw [if_pos rfl]
      cases hc : s.heap[id]? with
      | none => rw [hc] at h; cases h; exact hR
      | some c =>
        rw [hc] at h hq
        dsimp only at h hq ⊢
        cases reply with
        | ub => cases h
        | throw x =>
          cases h
          have := hq x rfl (LogLine.close c.t2oNetworkConnectionId) (by simp)
          cases this
        | ok resp =>
          dsimp only at h ⊢
          have e1 : List.foldl believe b
              ([LogLine.close c.t2oNetworkConnectionId, LogLine.request 0x4E#8 (EPath.mk2 6 1)] ++
                if resp.status = GeneralStatus.success then [] else [LogLine.closeFailed resp.status]) =
              b.filter fun e => e.1 ≠ c.t2oNetworkConnectionId.setWidth 16 := by
            by_cases hs : resp.status = GeneralStatus.success
            · rw [if_pos hs]; rfl
            · rw [if_neg hs]; rfl
          rw [e1]
          have hmem : ∀ k n, (k, n) ∈ (b.filter fun e => e.1 ≠ c.t2oNetworkConnectionId.setWidth 16) ↔
              (k, n) ∈ b ∧ k ≠ c.t2oNetworkConnectionId.setWidth 16 := by
            intro k n; simp
          refine ⟨fun k n => ?_, fun k k' n x y => hR.apart k k' n ((hmem _ _).mp x).1 ((hmem _ _).mp y).1,
            fun k n x => hR.known k n ((hmem _ _).mp x).1⟩
          rw [hmem, hR.right]
          cases hf : tblFind (c.t2oNetworkConnectionId.setWidth 16) s.table with
          | some i =>
            rw [hf] at h
            cases h
            dsimp only
            constructor
            · rintro ⟨⟨id, m1, m2⟩, m3⟩
              exact ⟨id, by simp only [tblErase, List.mem_filter]; exact ⟨m1, by simpa using m3⟩, m2⟩
            · rintro ⟨id, m1, m2⟩
              simp only [tblErase, List.mem_filter] at m1
              exact ⟨⟨id, m1.1, m2⟩, by simpa using m1.2⟩
          | none =>
            rw [hf] at h
            have hs : s' = s := by
              dsimp only at h
              split at h
              · cases h; rfl
              · cases h
            rw [hs]
            constructor
            · exact fun x => x.1
            · rintro ⟨id, m1, m2⟩
              exact ⟨⟨id, m1, m2⟩, tblFind_none hf _ m1⟩

theorem serialsTold_append (a b : List LogLine) : serialsTold (a ++ b) = serialsTold a ++ serialsTold b := by
  simp [serialsTold]

theorem reads_step (P : Plat) (op : MOp) (told : List (BitVec 16)) (b : List (BitVec 16 × BitVec 16)) (s s' : Mgr) (evs : List MEv)
    (ret : MRet) (hi : Inv s) (hR : Reads told b s) (h : s.step P op = .ok s' evs ret)
    (hq : ∀ x, ret = .threw x → ∀ l ∈ s.stepLines P op, aboutOpen l = false) (hn : (told ++ serialsTold (s.stepLines P op)).Nodup) :
    Reads (told ++ serialsTold (s.stepLines P op)) ((s.stepLines P op).foldl believe b) s' := by
  cases op with
  | forwardOpen host p large e => exact reads_open P host p large e told b s s' evs ret hi hR h hq hn
  | otherOpen inc mc p2p =>
    simp only [Mgr.step] at h
    split at h
    · cases h
    · cases h; exact hR.keep rfl fun _ _ _ => rfl
  | forwardClose ptr reply => exact (reads_close P ptr reply told b s s' evs ret hR h hq).more
  | handle start t rounds ticks => exact (reads_handle P start t rounds ticks told b s s' evs ret hi hR h hq).more
  | hasOpen => simp only [Mgr.step] at h; cases h; exact hR.more
  | setData id data =>
    simp only [Mgr.step] at h
    split at h
    · rename_i c _ hc
      cases h
      refine hR.keep rfl fun _ _ _ => ?_
      dsimp only
      rw [serialAt_set s.heap id c (c.setDataToSend data) hc rfl]
    · cases h; exact hR.more
  | lock id =>
    simp only [Mgr.step] at h
    split at h
    · cases h; exact hR.keep rfl fun _ _ _ => rfl
    · cases h; exact hR.more
  | release id => simp only [Mgr.step] at h; cases h; exact hR.keep rfl fun _ _ _ => rfl

theorem reads_run (P : Plat) (ops : List MOp) : ∀ (told : List (BitVec 16)) (b : List (BitVec 16 × BitVec 16)) (s s' : Mgr) (tr : MTrace),
    Inv s → Reads told b s → s.run P ops = some (s', tr) → QuietThrows tr (s.runLines P ops) →
    (told ++ serialsTold (s.runLines P ops).flatten).Nodup →
    Reads (told ++ serialsTold (s.runLines P ops).flatten) ((s.runLines P ops).flatten.foldl believe b) s' := by
  induction ops with
  | nil =>
    intro told b s s' tr _ hR h _ _
    simp only [Mgr.run, Option.some.injEq, Prod.mk.injEq] at h
    rw [← h.1]
    exact hR.more
  | cons op ops ih =>
    intro told b s s' tr hi hR h hq hn
    obtain ⟨s1, evs, ret, tr', h1, h2, rfl⟩ := mrun_cons h
    simp only [Mgr.runLines, h1, List.flatten_cons, serialsTold_append, List.foldl_append, ← List.append_assoc] at hq hn ⊢
    exact ih _ _ s1 s' tr' (inv_step P s s1 op evs ret hi h1)
      (reads_step P op told b s s1 evs ret hi hR h1 hq.1 (List.nodup_append.mp hn).1) h2 hq.2 hn

/-- The reader of the log knows which connections are open, if the devices repeat no serial number and no call throws after the message.
A history that is cut off anywhere is a history, so this holds at all times. -/
theorem C126_open (P : Plat) (inc : BitVec 16) (st : Statics) (ops : List MOp) (s : Mgr) (tr : MTrace)
    (h : (Mgr.new inc st).run P ops = some (s, tr)) (hq : QuietThrows tr ((Mgr.new inc st).runLines P ops))
    (hn : (serialsTold ((Mgr.new inc st).runLines P ops).flatten).Nodup) (key serial : BitVec 16) :
    (key, serial) ∈ believed ((Mgr.new inc st).runLines P ops).flatten ↔ Has s key serial := by
  have hR : Reads [] [] (Mgr.new inc st) :=
    ⟨fun k n => by simp [Mgr.new], fun _ _ _ h => absurd h List.not_mem_nil, fun _ _ h => absurd h List.not_mem_nil⟩
  have := (reads_run P ops [] [] _ s tr (inv_new inc st) hR h hq hn).right key serial
  unfold believed
  rw [this]
  unfold Has serialAt
  simp only [Option.map_eq_some_iff]
  constructor
  · rintro ⟨id, m1, c, m2, m3⟩; exact ⟨id, c, m1, m2, m3⟩
  · rintro ⟨id, c, m1, m2, m3⟩; exact ⟨id, m1, c, m2, m3⟩

/-- `hasOpenConnections` answers what the reader would answer. -/
theorem C126_has (P : Plat) (inc : BitVec 16) (st : Statics) (ops : List MOp) (s : Mgr) (tr : MTrace)
    (h : (Mgr.new inc st).run P ops = some (s, tr)) (hq : QuietThrows tr ((Mgr.new inc st).runLines P ops))
    (hn : (serialsTold ((Mgr.new inc st).runLines P ops).flatten).Nodup) :
    s.step P .hasOpen = .ok s [] (.bool (!(believed ((Mgr.new inc st).runLines P ops).flatten).isEmpty)) := by
  have key := C126_open P inc st ops s tr h hq hn
  have hi : Inv s := inv_run P _ _ _ _ (inv_new inc st) h
  have e : s.table.isEmpty = (believed ((Mgr.new inc st).runLines P ops).flatten).isEmpty := by
    rw [Bool.eq_iff_iff, List.isEmpty_iff, List.isEmpty_iff]
    constructor
    · intro ht
      rw [List.eq_nil_iff_forall_not_mem]
      rintro ⟨k, n⟩ hm
      obtain ⟨id, c, m1, _⟩ := (key k n).mp hm
      rw [ht] at m1
      exact List.not_mem_nil m1
    · intro hb
      rw [List.eq_nil_iff_forall_not_mem]
      rintro ⟨k, id⟩ hm
      obtain ⟨c, hc, _⟩ := hi.obj k id hm
      have := (key k (c.serialNumber.setWidth 16)).mpr ⟨id, c, hm, hc, rfl⟩
      rw [hb] at this
      exact List.not_mem_nil this
  rw [← e]
  rfl

/-- The reader needs no more than what is shown at the default level: at the levels from INFO on they believe the same. -/
theorem C126_levels (ls : List LogLine) (g : LogLevel) (hg : g = .info ∨ g = .debug ∨ g = .trace) :
    believed (ls.filter fun l => decide (Passes l.level g)) = believed ls := by
  unfold believed
  rw [believe_filter, List.filter_filter, believe_filter ls]
  congr 1
  apply List.filter_congr
  intro l _
  rcases hg with rfl | rfl | rfl <;> cases l <;> rfl

/-- At the levels below, they do not hear of what is opened. -/
theorem C126_levels_violated (g : LogLevel) (hg : g = .off ∨ g = .error ∨ g = .warning) :
    ∃ ls : List LogLine, believed (ls.filter fun l => decide (Passes l.level g)) = [] ∧ believed ls ≠ [] := by
  refine ⟨[.ioOpen 0xA 0x10001 1], ?_, by decide⟩
  rcases hg with rfl | rfl | rfl <;> rfl

/-! ## Where the reader is wrong -/

/-- What the reader and the manager take to be open. -/
def bothViews (ops : List MOp) : Option (List (BitVec 16 × BitVec 16) × List (BitVec 16 × Option (BitVec 16))) :=
  match (Mgr.new 1 {}).run samplePlat ops with
  | none => none
  | some (s, _) => some (believed ((Mgr.new 1 {}).runLines samplePlat ops).flatten, s.table.map fun e => (e.1, serialAt s.heap e.2))

theorem bothViews_has {ops : List MOp} {b : List (BitVec 16 × BitVec 16)} {t : List (BitVec 16 × Option (BitVec 16))}
    (h : bothViews ops = some (b, t)) : ∃ s tr, (Mgr.new 1 {}).run samplePlat ops = some (s, tr) ∧
      believed ((Mgr.new 1 {}).runLines samplePlat ops).flatten = b ∧ ∀ k n, Has s k n ↔ (k, some n) ∈ t := by
  unfold bothViews at h
  split at h
  · cases h
  · rename_i s tr hr
    obtain ⟨h1, h2⟩ := Prod.mk.inj (Option.some.inj h)
    refine ⟨s, tr, hr, h1, fun k n => ?_⟩
    rw [← h2, List.mem_map]
    unfold Has serialAt
    constructor
    · rintro ⟨id, c, m1, m2, m3⟩
      exact ⟨(k, id), m1, by rw [m2, Option.map_some, m3]⟩
    · rintro ⟨⟨k', id⟩, m1, m2⟩
      have e1 : k' = k := (Prod.mk.inj m2).1
      obtain ⟨c, m3, m4⟩ := Option.map_eq_some_iff.mp (Prod.mk.inj m2).2
      exact ⟨id, c, e1 ▸ m1, m3, m4⟩

/-- A connection that is told to be open although `forwardOpen` has thrown: there was no socket for it. -/
theorem C126_opened_violated : ∃ ops s tr, (Mgr.new 1 {}).run samplePlat ops = some (s, tr) ∧
    (serialsTold ((Mgr.new 1 {}).runLines samplePlat ops).flatten).Nodup ∧
    (1, 1) ∈ believed ((Mgr.new 1 {}).runLines samplePlat ops).flatten ∧ ∀ k n, ¬ Has s k n := by
  obtain ⟨s, tr, h1, h2, h3⟩ := bothViews_has (ops := [.forwardOpen "192.168.1.10" sampleParams false
    { reply := .ok (sampleReply 0xA 0x10001 1), udpErr := some 24 }]) (b := [(1, 1)]) (t := []) (by decide +kernel)
  exact ⟨_, s, tr, h1, by decide +kernel, by rw [h2]; simp, fun k n h => List.not_mem_nil ((h3 k n).mp h)⟩

/-- A connection that is told to be closed and stays open: the request to close it has thrown. -/
theorem C126_closed_violated : ∃ ops s tr, (Mgr.new 1 {}).run samplePlat ops = some (s, tr) ∧
    (serialsTold ((Mgr.new 1 {}).runLines samplePlat ops).flatten).Nodup ∧
    believed ((Mgr.new 1 {}).runLines samplePlat ops).flatten = [] ∧ Has s 1 1 := by
  obtain ⟨s, tr, h1, h2, h3⟩ := bothViews_has (ops := [sampleOpen 0xA 0x10001 1, .forwardClose (some 0) (.throw (.system 32))])
    (b := []) (t := [(1, some 1)]) (by decide +kernel)
  exact ⟨_, s, tr, h1, by decide +kernel, h2, (h3 1 1).mpr (by simp)⟩

/-- A connection that is told to have timed out and stays open: the listener for its closing has thrown. -/
theorem C126_timedOut_violated : ∃ ops s tr, (Mgr.new 1 {}).run samplePlat ops = some (s, tr) ∧
    (serialsTold ((Mgr.new 1 {}).runLines samplePlat ops).flatten).Nodup ∧
    believed ((Mgr.new 1 {}).runLines samplePlat ops).flatten = [] ∧ Has s 1 1 := by
  obtain ⟨s, tr, h1, h2, h3⟩ := bothViews_has (ops := [sampleOpen 0xA 0x10001 1,
      .handle 41000000 5 [] fun _ => ⟨41000000, { throws := some (.runtime "") }, 0⟩])
    (b := []) (t := [(1, some 1)]) (by decide +kernel)
  exact ⟨_, s, tr, h1, by decide +kernel, h2, (h3 1 1).mpr (by simp)⟩

/-- Two devices choose the same serial number; one of the connections times out.  The message does not say which, though no call has
thrown. -/
theorem C126_serial_violated : ∃ ops s tr, (Mgr.new 1 {}).run samplePlat ops = some (s, tr) ∧ (∀ r ∈ tr, ∀ x, r.2.2 ≠ .threw x) ∧
    believed ((Mgr.new 1 {}).runLines samplePlat ops).flatten = [] ∧ Has s 1 1 := by
  obtain ⟨s, tr, h1, h2, h3⟩ := bothViews_has (ops := [sampleOpen 0xA 0x10001 1, sampleOpen 0xB 0x10002 1,
      .handle 39000000 5 [] fun id => if id = 0 then ⟨40000000, { left := some [1, 2] }, 22⟩ else ⟨41000000, { left := some [1, 2] }, 22⟩])
    (b := []) (t := [(1, some 1)]) (by decide +kernel)
  refine ⟨_, s, tr, h1, ?_, h2, (h3 1 1).mpr (by simp)⟩
  have key : (match (Mgr.new 1 {}).run samplePlat [sampleOpen 0xA 0x10001 1, sampleOpen 0xB 0x10002 1,
      .handle 39000000 5 [] fun id => if id = 0 then ⟨40000000, { left := some [1, 2] }, 22⟩ else ⟨41000000, { left := some [1, 2] }, 22⟩]
      with
      | some (_, tr) => tr.all fun r => match r.2.2 with
        | .threw _ => false
        | _ => true
      | none => false) = true := by decide +kernel
  rw [h1] at key
  intro r hr x hx
  have := List.all_eq_true.mp key r hr
  rw [hx] at this
  cases this

/-! ## The hypotheses are met -/

/-- Two connections, a third whose identifier is taken, data, one closed, one timed out: the reader follows. -/
example : bothViews sampleHistory = some ([], []) := by decide +kernel

example : bothViews [sampleOpen 0xA 0x10001 1, sampleOpen 0xB 0x10002 2, sampleOpen 0xC 0x20001 3, sampleOpen 0xD 0x10004 4,
    .forwardClose (some 1) (.ok { sampleReply 0 0 0 with status := 5 }),
    .handle 39000000 5 [] fun id => if id = 0 then ⟨40000000, { left := some [1, 2] }, 22⟩ else ⟨41000000, { left := some [1, 2] }, 22⟩] =
    some ([(1, 1)], [(1, some 1)]) := by decide +kernel

/-- Whether the hypotheses of `C126_open` hold. -/
def quietCheck : List (MOp × List MEv × MRet) → List (List LogLine) → Bool
  | (_, _, ret) :: tr, ls :: rest =>
    (match ret with
      | .threw _ => ls.all fun l => !aboutOpen l
      | _ => true) && quietCheck tr rest
  | _, _ => true

theorem quietCheck_sound : ∀ tr ls, quietCheck tr ls = true → QuietThrows tr ls := by
  intro tr
  induction tr with
  | nil => intro ls _; trivial
  | cons r tr ih =>
    intro ls h
    cases ls with
    | nil => trivial
    | cons l ls =>
      simp only [quietCheck, Bool.and_eq_true] at h
      refine ⟨fun x hx m hm => ?_, ih ls h.2⟩
      rw [hx] at h
      simpa using List.all_eq_true.mp h.1 m hm

/-- The history of the sample, after a `forwardOpen` that has thrown: the hypotheses hold. -/
example : ∃ s tr, (Mgr.new 1 {}).run samplePlat (.forwardOpen "192.168.1.10" sampleParams false { reply := .throw (.system 32) } ::
      sampleHistory.take 5) = some (s, tr) ∧
    QuietThrows tr ((Mgr.new 1 {}).runLines samplePlat (.forwardOpen "192.168.1.10" sampleParams false { reply := .throw (.system 32) } ::
      sampleHistory.take 5)) ∧
    (serialsTold ((Mgr.new 1 {}).runLines samplePlat (.forwardOpen "192.168.1.10" sampleParams false { reply := .throw (.system 32) } ::
      sampleHistory.take 5)).flatten).Nodup := by
  have key : (match (Mgr.new 1 {}).run samplePlat (.forwardOpen "192.168.1.10" sampleParams false { reply := .throw (.system 32) } ::
      sampleHistory.take 5) with
    | some (_, tr) => quietCheck tr ((Mgr.new 1 {}).runLines samplePlat
      (.forwardOpen "192.168.1.10" sampleParams false { reply := .throw (.system 32) } :: sampleHistory.take 5))
    | none => false) = true := by decide +kernel
  split at key
  · rename_i s tr h
    exact ⟨s, tr, h, quietCheck_sound _ _ key, by decide +kernel⟩
  · cases key

end Verif.Props
