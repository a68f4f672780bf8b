import Verif.Spec.AllocManager
import Verif.Props.Throwing
import Verif.Props.ManagerSample

/-!
# C121: running out of memory in a connection manager
-/

namespace Verif.Props

open Verif Verif.Spec

/-! ## One tick -/

/-- A tick without memory at some place is the tick, or ends before or after the send listener is called. -/
inductive TickCaseA (c : Conn) (place : Option TickPlace) (now : Nat) (hook : Hook) (count : Int) :
    Conn → List IoEv → TickRet → Prop
  | same {d evs ret} (h : TickCase c now hook count d evs ret) : TickCaseA c place now hook count d evs ret
  | address (hp : place = some .address) :
      TickCaseA c place now hook count
        { c with connectionTimeoutCount := c.connectionTimeoutCount + BitVec.ofNat 32 (period c now),
                 lastHandleTime := now, o2tTimer := c.o2tTimer + BitVec.ofNat 32 (period c now),
                 o2tSequenceNumber := c.o2tSequenceNumber + 1 } [] (.threw .badAlloc)
  | count (hp : place = some .count) :
      TickCaseA c place now hook count
        { c with connectionTimeoutCount := c.connectionTimeoutCount + BitVec.ofNat 32 (period c now),
                 lastHandleTime := now, o2tTimer := c.o2tTimer + BitVec.ofNat 32 (period c now),
                 o2tSequenceNumber := c.o2tSequenceNumber + 1,
                 sequenceValueCount := if hasCount c.transportTypeTrigger then c.sequenceValueCount + 1
                   else c.sequenceValueCount } [] (.threw .badAlloc)
  | frame (hp : place = some .frame) {d out to bytes ret}
      (h : TickCase c now hook count d [.asked out, .sent to bytes] ret) :
      TickCaseA c place now hook count d [.asked out] (.threw .badAlloc)

theorem notifyTickA_none (c : Conn) (now : Nat) (hook : Hook) (count : Int) :
    c.notifyTickA none now hook count = c.notifyTick now hook count := rfl

theorem notifyTickA_record (c : Conn) (now : Nat) (hook : Hook) (count : Int) :
    c.notifyTickA (some .record) now hook count = c.notifyTick now hook count := rfl

theorem tickA_cases (c : Conn) (place : Option TickPlace) (now : Nat) (hook : Hook) (count : Int) :
    TickCaseA c place now hook count (c.notifyTickA place now hook count).1 (c.notifyTickA place now hook count).2.1
      (c.notifyTickA place now hook count).2.2 := by
  have tc := tick_cases c now hook count
  have hp : (now - c.lastHandleTime) / 1000000 * 1000 = period c now := rfl
  unfold Conn.notifyTick at tc
  unfold Conn.notifyTickA
  simp only [hp] at tc ⊢
  split
  · rename_i h; rw [if_pos h] at tc; exact .same tc
  · rename_i h
    rw [if_neg h] at tc
    split
    · rename_i h2
      rw [if_pos h2] at tc
      unfold Conn.produceA
      split
      · exact .address rfl
      · split
        · simp only [class_eq]
          exact .count rfl
        · exact .same tc
      · dsimp only
        split
        · rename_i out to bytes he
          rw [he] at tc
          exact .frame rfl tc
        · exact .same tc
      · exact .same tc
    · rename_i h2
      rw [if_neg h2] at tc
      exact .same tc

theorem tickA_config {c d : Conn} {place : Option TickPlace} {now : Nat} {hook : Hook} {count : Int} {evs : List IoEv}
    {ret : TickRet} (h : TickCaseA c place now hook count d evs ret) : SameConfig c d := by
  cases h with
  | same h => cases h <;> constructor <;> rfl
  | address => constructor <;> rfl
  | count => constructor <;> rfl
  | frame _ h => cases h <;> constructor <;> rfl

/-- C121. A tick that ends for want of memory has sent nothing. -/
theorem C121_unsent (c c' : Conn) (place : Option TickPlace) (now : Nat) (hook : Hook) (count : Int) (evs : List IoEv)
    (h : c.notifyTickA place now hook count = (c', evs, .threw .badAlloc)) : ∀ to bytes, IoEv.sent to bytes ∉ evs := by
  have tc := tickA_cases c place now hook count
  rw [h] at tc
  simp only at tc
  intro to bytes hm
  cases tc with
  | same h0 =>
    rcases tick_threw h0 with ⟨_, rfl | ⟨_, rfl⟩⟩ | ⟨_, h1, _⟩
    · simp at hm
    · simp at hm
    · cases h1
  | address => simp at hm
  | count => simp at hm
  | frame => simp at hm

/-! ## Histories of one connection -/

theorem stepA_tick {m : Mem} {c d : Conn} {place : Option TickPlace} {now : Nat} {hook : Hook} {count : Int}
    {evs : List IoEv} (h : c.stepA m (.tick now hook count) place = some (d, evs)) :
    ∃ ret, TickCaseA c place now hook count d evs ret := by
  simp only [Conn.stepA] at h
  injection h with h; injection h with h1 h2
  have := tickA_cases c place now hook count
  rw [h1, h2] at this
  exact ⟨_, this⟩

theorem stepA_config {m : Mem} {c d : Conn} {op : ConnOp} {place : Option TickPlace} {evs : List IoEv}
    (h : c.stepA m op place = some (d, evs)) : SameConfig c d := by
  cases op with
  | tick now hook count =>
    obtain ⟨ret, ht⟩ := stepA_tick h
    exact tickA_config ht
  | recv data => exact step_config m c d (.recv data) evs h
  | setData data => exact step_config m c d (.setData data) evs h

theorem runA_cons {m : Mem} {c c' : Conn} {op : ConnOp × Option TickPlace} {ops : List (ConnOp × Option TickPlace)}
    {tr : IoTraceA} (h : c.runA m (op :: ops) = some (c', tr)) :
    ∃ d evs tr', c.stepA m op.1 op.2 = some (d, evs) ∧ d.runA m ops = some (c', tr') ∧ tr = (op, evs) :: tr' := by
  simp only [Conn.runA] at h
  split at h
  · cases h
  · rename_i d evs hs
    split at h
    · cases h
    · rename_i c'' tr' hr
      injection h with h; injection h with h1 h2
      subst h1
      exact ⟨d, evs, tr', hs, hr, h2.symm⟩

theorem runA_config {m : Mem} {c c' : Conn} {ops : List (ConnOp × Option TickPlace)} {tr : IoTraceA}
    (h : c.runA m ops = some (c', tr)) : SameConfig c c' := by
  induction ops generalizing c tr with
  | nil => simp [Conn.runA] at h; rw [← h.1]; exact .refl _
  | cons op ops ih =>
    obtain ⟨d, evs, tr', h1, h2, _⟩ := runA_cons h
    exact (stepA_config h1).trans (ih h2)

theorem runA_split {m : Mem} {c c' : Conn} {ops : List (ConnOp × Option TickPlace)} {pre post : IoTraceA}
    {e : (ConnOp × Option TickPlace) × List IoEv} (h : c.runA m ops = some (c', pre ++ e :: post)) :
    ∃ opsPre opsPost d d', c.runA m opsPre = some (d, pre) ∧
      d.stepA m e.1.1 e.1.2 = some (d', e.2) ∧ d'.runA m opsPost = some (c', post) := by
  induction pre generalizing c ops with
  | nil =>
    cases ops with
    | nil => simp [Conn.runA] at h
    | cons op ops =>
      obtain ⟨d, evs, tr', h1, h2, h3⟩ := runA_cons h
      simp only [List.nil_append, List.cons.injEq] at h3
      obtain ⟨rfl, rfl⟩ := h3
      exact ⟨[], ops, c, d, rfl, h1, h2⟩
  | cons p pre ih =>
    cases ops with
    | nil => simp [Conn.runA] at h
    | cons op ops =>
      obtain ⟨d, evs, tr', h1, h2, h3⟩ := runA_cons h
      simp only [List.cons_append, List.cons.injEq] at h3
      obtain ⟨rfl, rfl⟩ := h3
      obtain ⟨o1, o2, d1, d2, g2, g3, g4⟩ := ih h2
      refine ⟨op :: o1, o2, d1, d2, ?_, g3, g4⟩
      simp only [Conn.runA, h1, g2]

/-- The numbers after one step: both are advanced together, unless memory is missing. -/
def Advance (c d : Conn) (n k : Nat) : Prop :=
  d.o2tSequenceNumber = c.o2tSequenceNumber + BitVec.ofNat 32 n ∧
    (hasCount c.transportTypeTrigger = true → d.sequenceValueCount = c.sequenceValueCount + BitVec.ofNat 16 k)

theorem Advance.trans {a b c : Conn} {n k n' k' : Nat} (h : Advance a b n k) (g : Advance b c n' k') (hc : SameConfig a b) :
    Advance a c (n + n') (k + k') := by
  refine ⟨?_, fun hh => ?_⟩
  · rw [g.1, h.1, BitVec.ofNat_add, BitVec.add_assoc]
  · rw [g.2 (by rw [hc.trigger]; exact hh), h.2 hh, BitVec.ofNat_add, BitVec.add_assoc]

theorem tick_advance {c d : Conn} {now : Nat} {hook : Hook} {count : Int} {evs : List IoEv} {ret : TickRet}
    (h : TickCase c now hook count d evs ret) :
    Advance c d (evs.countP IoEv.isAsked) (evs.countP IoEv.isAsked) := by
  cases h with
  | dead => exact ⟨by simp [IoEv.isAsked], fun _ => by simp [IoEv.isAsked]⟩
  | idle => exact ⟨by simp, fun _ => by simp⟩
  | prod _ _ _ _ hev =>
    rcases hev with ⟨rfl, _⟩ | ⟨_, rfl, _⟩ | ⟨_, rfl, _⟩ <;>
      exact ⟨rfl, fun hh => by rw [if_pos hh]; rfl⟩

theorem stepA_advance {m : Mem} {c d : Conn} {op : ConnOp} {place : Option TickPlace} {evs : List IoEv}
    (h : c.stepA m op place = some (d, evs)) :
    ∃ n k, Advance c d n k ∧ evs.countP IoEv.isAsked ≤ k ∧ k ≤ n ∧
      n ≤ evs.countP IoEv.isAsked + (if isEarly (op, place) then 1 else 0) := by
  have zero : ∀ {e : Conn}, e.o2tSequenceNumber = c.o2tSequenceNumber → e.sequenceValueCount = c.sequenceValueCount →
      Advance c e 0 0 := fun h1 h2 => ⟨by rw [h1]; simp, fun _ => by rw [h2]; simp⟩
  cases op with
  | tick now hook count =>
    obtain ⟨ret, ht⟩ := stepA_tick h
    cases ht with
    | same h => exact ⟨_, _, tick_advance h, Nat.le_refl _, Nat.le_refl _, Nat.le_add_right _ _⟩
    | address hp =>
      subst hp
      exact ⟨1, 0, ⟨rfl, fun _ => by simp⟩, by simp, by omega, by simp [isEarly]⟩
    | count hp =>
      subst hp
      exact ⟨1, 1, ⟨rfl, fun hh => by simp [hh]⟩, by simp, by omega, by simp [isEarly]⟩
    | frame hp h0 =>
      refine ⟨1, 1, ?_, by simp [IoEv.isAsked], by omega, by simp [IoEv.isAsked]⟩
      exact tick_advance h0
  | recv data =>
    rcases recv_cases m c d data evs (recv_step (m := m) h) with ⟨rfl, rfl⟩ | ⟨rfl, _, _, _, rfl, _⟩
    · exact ⟨0, 0, zero rfl rfl, by simp, by omega, by simp⟩
    · exact ⟨0, 0, zero rfl rfl, by simp [IoEv.isAsked], by omega, by simp⟩
  | setData data =>
    obtain ⟨rfl, rfl⟩ := setData_step (m := m) h
    exact ⟨0, 0, zero rfl rfl, by simp, by omega, by simp⟩

theorem runA_advance {m : Mem} {c c' : Conn} {ops : List (ConnOp × Option TickPlace)} {tr : IoTraceA}
    (h : c.runA m ops = some (c', tr)) :
    ∃ n k, Advance c c' n k ∧ asksA tr ≤ k ∧ k ≤ n ∧ n ≤ asksA tr + early tr := by
  induction ops generalizing c tr with
  | nil =>
    simp only [Conn.runA, Option.some.injEq, Prod.mk.injEq] at h
    obtain ⟨rfl, rfl⟩ := h
    exact ⟨0, 0, ⟨by simp, fun _ => by simp⟩, by simp [asksA, asks], by omega, by omega⟩
  | cons op ops ih =>
    obtain ⟨d, evs, tr', h1, h2, rfl⟩ := runA_cons h
    obtain ⟨n, k, a1, a2, a3, a4⟩ := stepA_advance h1
    obtain ⟨n', k', b1, b2, b3, b4⟩ := ih h2
    refine ⟨n + n', k + k', a1.trans b1 (stepA_config h1), ?_, by omega, ?_⟩
    · simp only [asksA, asks, List.map_cons] at b2 ⊢; omega
    · simp only [asksA, asks, List.map_cons, early, List.countP_cons] at b4 ⊢
      have e1 : (op.1, op.2) = op := rfl
      rw [e1] at a4
      omega

/-- What a datagram sent by a step is. -/
theorem stepA_sent {m : Mem} {c d : Conn} {op : ConnOp} {place : Option TickPlace} {evs : List IoEv}
    (h : c.stepA m op place = some (d, evs)) {to : Option EndPoint} {bytes : List Byte} (hs : IoEv.sent to bytes ∈ evs) :
    ∃ data, evs = [.asked data, .sent to bytes] ∧ to = c.socket ∧ (c.o2tFixedSize = true → data.length = c.o2tDataSize) ∧
      (data.length + 6 < 65536 → bytes = ioFrame c.o2tNetworkConnectionId.toNat (c.o2tSequenceNumber + 1).toNat
        (ioPayload (opt (hasCount c.transportTypeTrigger) (c.sequenceValueCount + 1))
          (if c.o2tRealTimeFormat then some 1 else none) data)) ∧ Advance c d 1 1 := by
  cases op with
  | tick now hook count =>
    obtain ⟨ret, ht⟩ := stepA_tick h
    cases ht with
    | same h =>
      have adv := tick_advance h
      cases h with
      | dead => simp at hs
      | idle => simp at hs
      | prod _ _ _ _ hev =>
        rcases hev with ⟨rfl, _⟩ | ⟨_, rfl, _⟩ | ⟨b, rfl, h1, h2, _⟩
        · simp at hs
        · simp at hs
        · simp at hs
          obtain ⟨rfl, rfl⟩ := hs
          exact ⟨_, rfl, rfl, h1, h2, adv⟩
    | address => simp at hs
    | count => simp at hs
    | frame => simp at hs
  | recv data =>
    rcases recv_cases m c d data evs (recv_step (m := m) h) with ⟨rfl, rfl⟩ | ⟨rfl, _, _, _, rfl, _⟩ <;> simp at hs
  | setData data =>
    obtain ⟨rfl, rfl⟩ := setData_step (m := m) h
    simp at hs

/-! ## Replay -/

/-- The effect of one event of a call on the connection objects. -/
def applyEvA (m : Mem) (heap : List Conn) : MOpA × MEv → Option (List Conn)
  | (_, .created id c) => if id = heap.length then some (heap ++ [c]) else none
  | (call, .conn id op evs) =>
    match heap[id]? with
    | none => none
    | some c =>
      match c.stepA m op (MOpA.place call id) with
      | none => none
      | some (c', evs') => if evs' = evs then some (heap.set id c') else none
  | _ => some heap

def applyEvsA (m : Mem) : List Conn → List (MOpA × MEv) → Option (List Conn)
  | heap, [] => some heap
  | heap, e :: es =>
    match applyEvA m heap e with
    | none => none
    | some h => applyEvsA m h es

theorem applyEvsA_append (m : Mem) (h : List Conn) (xs ys : List (MOpA × MEv)) :
    applyEvsA m h (xs ++ ys) = (applyEvsA m h xs).bind fun h' => applyEvsA m h' ys := by
  induction xs generalizing h with
  | nil => rfl
  | cons x xs ih =>
    simp only [List.cons_append, applyEvsA]
    cases applyEvA m h x with
    | none => rfl
    | some h' => exact ih h'

theorem stepA_none (m : Mem) (c : Conn) (op : ConnOp) : c.stepA m op none = c.step m op := by
  cases op <;> rfl

theorem applyEvA_plain (m : Mem) (heap : List Conn) (call : MOpA) (ev : MEv)
    (h : (∀ id, MOpA.place call id = none) ∨ MEv.isTick ev = false) : applyEvA m heap (call, ev) = applyEv m heap ev := by
  cases ev with
  | conn id op io =>
    simp only [applyEvA, applyEv]
    cases heap[id]? with
    | none => rfl
    | some c =>
      have : c.stepA m op (MOpA.place call id) = c.step m op := by
        rcases h with h | h
        · rw [h, stepA_none]
        · cases op with
          | tick => simp [MEv.isTick] at h
          | recv => rfl
          | setData => rfl
      dsimp only
      rw [this]
      cases c.step m op <;> rfl
  | _ => rfl

theorem applyEvsA_plain (m : Mem) (call : MOpA) (evs : List MEv) (heap : List Conn)
    (h : (∀ id, MOpA.place call id = none) ∨ ∀ e ∈ evs, MEv.isTick e = false) :
    applyEvsA m heap (evs.map fun ev => (call, ev)) = applyEvs m heap evs := by
  induction evs generalizing heap with
  | nil => rfl
  | cons e es ih =>
    simp only [List.map_cons, applyEvsA, applyEvs]
    rw [applyEvA_plain m heap call e (h.imp_right fun h => h e List.mem_cons_self)]
    cases applyEv m heap e with
    | none => rfl
    | some h' => exact ih h' (h.imp_right fun h x hx => h x (List.mem_cons_of_mem _ hx))

theorem Quiet.noTick {P : Plat} {s s' : Mgr} {evs : List MEv} (q : Quiet P s s' evs) : ∀ e ∈ evs, MEv.isTick e = false := by
  intro e he
  rcases q.only e he with ⟨_, rfl⟩ | ⟨_, _, _, rfl, _⟩ <;> rfl

/-! ## Receiving -/

/-- The same datagrams with enough memory, or with an error instead. -/
theorem deliverAllA_enough (P : Plat) (rs : List ArrivalA) (s : Mgr) :
    Mgr.deliverAllA P rs s = Mgr.deliverAll P (rs.map (·.arrival)) s ∨
      ∃ s' evs, Mgr.deliverAllA P rs s = .threw s' evs .badAlloc := by
  induction rs generalizing s with
  | nil => exact .inl rfl
  | cons r rs ih =>
    simp only [Mgr.deliverAllA, Mgr.deliverA, List.map_cons, Mgr.deliverAll]
    cases hl : r.lost with
    | true => exact .inr ⟨s, [], rfl⟩
    | false =>
      simp only [Bool.false_eq_true, if_false]
      cases Mgr.deliver P r.arrival.recv s with
      | ub => exact .inl rfl
      | throw e => exact .inl rfl
      | ok q =>
        obtain ⟨s1, evs1⟩ := q
        dsimp only
        cases Mgr.raised r.arrival.throws evs1 with
        | some e => exact .inl rfl
        | none =>
          rcases ih s1 with h | ⟨s2, evs2, h⟩
          · rw [h]; exact .inl rfl
          · rw [h]; exact .inr ⟨_, _, rfl⟩

theorem deliverAllA_lost (P : Plat) (code : Int) (rs : List ArrivalA) (s : Mgr) :
    Mgr.deliverAllA P rs s = Mgr.deliverAll P (rs.map fun r => if r.lost then .err code else r.arrival) s ∨
      ∃ s' evs, Mgr.deliverAllA P rs s = .threw s' evs .badAlloc ∧
        Mgr.deliverAll P (rs.map fun r => if r.lost then .err code else r.arrival) s = .threw s' evs (.system code) := by
  induction rs generalizing s with
  | nil => exact .inl rfl
  | cons r rs ih =>
    simp only [Mgr.deliverAllA, Mgr.deliverA, List.map_cons, Mgr.deliverAll]
    cases hl : r.lost with
    | true => exact .inr ⟨s, [], rfl, rfl⟩
    | false =>
      simp only [Bool.false_eq_true, if_false]
      cases Mgr.deliver P r.arrival.recv s with
      | ub => exact .inl rfl
      | throw e => exact .inl rfl
      | ok q =>
        obtain ⟨s1, evs1⟩ := q
        dsimp only
        cases Mgr.raised r.arrival.throws evs1 with
        | some e => exact .inl rfl
        | none =>
          rcases ih s1 with h | ⟨s2, evs2, h, h'⟩
          · rw [h]; exact .inl rfl
          · rw [h, h']; exact .inr ⟨_, _, rfl, rfl⟩

theorem selectLoopA_enough (P : Plat) (stop : Int) (rounds : List RoundA) (now : Int) (s : Mgr) :
    Mgr.selectLoopA P stop now rounds s = Mgr.selectLoop P stop now (rounds.map RoundA.enough) s ∨
      ∃ s' evs, Mgr.selectLoopA P stop now rounds s = .threw s' evs .badAlloc := by
  induction rounds generalizing s now with
  | nil => exact .inl rfl
  | cons r rounds ih =>
    cases r with
    | fail code => exact .inl rfl
    | ready r rs now' =>
      simp only [Mgr.selectLoopA, List.map_cons, RoundA.enough, Mgr.selectLoop]
      have hd := deliverAllA_enough P (r :: rs) s
      simp only [List.map_cons] at hd
      rcases hd with hd | ⟨s1, evs1, hd⟩
      · rw [hd]
        cases Mgr.deliverAll P (r.arrival :: rs.map (·.arrival)) s with
        | ub evs => exact .inl rfl
        | threw s1 evs e => exact .inl rfl
        | go s1 evs =>
          rcases ih now' s1 with h | ⟨s2, evs2, h⟩
          · dsimp only; rw [h]; exact .inl rfl
          · dsimp only; rw [h]; exact .inr ⟨_, _, rfl⟩
      · rw [hd]; exact .inr ⟨_, _, rfl⟩

theorem selectLoopA_lost (P : Plat) (code : Int) (stop : Int) (rounds : List RoundA) (now : Int) (s : Mgr) :
    Mgr.selectLoopA P stop now rounds s = Mgr.selectLoop P stop now (rounds.map (RoundA.lostAs code)) s ∨
      ∃ s' evs, Mgr.selectLoopA P stop now rounds s = .threw s' evs .badAlloc ∧
        Mgr.selectLoop P stop now (rounds.map (RoundA.lostAs code)) s = .threw s' evs (.system code) := by
  induction rounds generalizing s now with
  | nil => exact .inl rfl
  | cons r rounds ih =>
    cases r with
    | fail c => exact .inl rfl
    | ready r rs now' =>
      simp only [Mgr.selectLoopA, List.map_cons, RoundA.lostAs, Mgr.selectLoop]
      have hd := deliverAllA_lost P code (r :: rs) s
      simp only [List.map_cons] at hd
      rcases hd with hd | ⟨s1, evs1, hd, hd'⟩
      · rw [hd]
        cases Mgr.deliverAll P ((if r.lost then .err code else r.arrival) ::
            rs.map fun r => if r.lost then .err code else r.arrival) s with
        | ub evs => exact .inl rfl
        | threw s1 evs e => exact .inl rfl
        | go s1 evs =>
          rcases ih now' s1 with h | ⟨s2, evs2, h, h'⟩
          · dsimp only; rw [h]; exact .inl rfl
          · dsimp only; rw [h, h']; exact .inr ⟨_, _, rfl, rfl⟩
      · rw [hd, hd']; exact .inr ⟨_, _, rfl, rfl⟩

theorem selectLoopA_quiet (P : Plat) (stop : Int) (rounds : List RoundA) (now : Int) (s : Mgr) :
    (∀ s' evs, Mgr.selectLoopA P stop now rounds s = .go s' evs → Quiet P s s' evs) ∧
    (∀ s' evs e, Mgr.selectLoopA P stop now rounds s = .threw s' evs e → Quiet P s s' evs) := by
  have q := selectLoop_quiet P stop (rounds.map (RoundA.lostAs 0)) now s
  rcases selectLoopA_lost P 0 stop rounds now s with h | ⟨s1, evs1, h, h'⟩
  · rw [h]; exact q
  · rw [h]
    refine ⟨fun _ _ hh => (by cases hh), fun s' evs e hh => ?_⟩
    injection hh with h1 h2 _
    subst h1 h2
    exact q.2 _ _ _ h'

/-! ## Ticks of all connections -/

theorem tickA_enough (c : Conn) (place : Option TickPlace) (now : Nat) (hook : Hook) (count : Int) :
    c.notifyTickA place now hook count = c.notifyTick now hook count ∨
      (c.notifyTickA place now hook count).2.2 = .threw .badAlloc := by
  unfold Conn.notifyTickA Conn.notifyTick
  dsimp only
  split
  · exact .inl rfl
  · split
    · unfold Conn.produceA
      split
      · exact .inr rfl
      · split
        · exact .inr rfl
        · exact .inl rfl
      · dsimp only
        split
        · exact .inr rfl
        · exact .inl rfl
      · exact .inl rfl
    · exact .inl rfl

theorem tickAllA_enough (ticks : Nat → TickEnvA) (t : List (BitVec 16 × Nat)) (heap : List Conn) :
    Mgr.tickAllA ticks t heap = Mgr.tickAll (fun id => (ticks id).env) t heap ∨
      (Mgr.tickAllA ticks t heap).2.2.2 = some .badAlloc := by
  induction t generalizing heap with
  | nil => exact .inl rfl
  | cons a t ih =>
    obtain ⟨k, id⟩ := a
    simp only [Mgr.tickAllA, Mgr.tickAll]
    cases heap[id]? with
    | none => exact ih heap
    | some c =>
      dsimp only
      rcases tickA_enough c (ticks id).place (ticks id).env.now (ticks id).env.hook (ticks id).env.count with h | h
      · rw [h]
        cases (c.notifyTick (ticks id).env.now (ticks id).env.hook (ticks id).env.count).2.2 with
        | threw e => exact .inl rfl
        | alive =>
          rcases ih (heap.set id (c.notifyTick (ticks id).env.now (ticks id).env.hook (ticks id).env.count).1) with h | h
          · dsimp only; rw [h]; exact .inl rfl
          · exact .inr h
        | dead =>
          dsimp only
          split
          · exact .inr rfl
          · rcases ih (heap.set id (c.notifyTick (ticks id).env.now (ticks id).env.hook (ticks id).env.count).1) with h | h
            · rw [h]; exact .inl rfl
            · exact .inr h
      · rw [h]; exact .inr rfl

theorem applyEvsA_conn {m : Mem} {heap : List Conn} {id : Nat} {c c' : Conn} {op : ConnOp} {evs : List IoEv} {call : MOpA}
    (h : heap[id]? = some c) (hs : c.stepA m op (MOpA.place call id) = some (c', evs)) :
    applyEvsA m heap [(call, .conn id op evs)] = some (heap.set id c') := by
  simp [applyEvsA, applyEvA, h, hs]

theorem tickAllA_spec (m : Mem) (call : MOpA) (ticks : Nat → TickEnvA) (hcall : ∀ id, MOpA.place call id = (ticks id).place)
    (t : List (BitVec 16 × Nat)) (heap : List Conn) :
    applyEvsA m heap ((Mgr.tickAllA ticks t heap).2.1.map fun ev => (call, ev)) = some (Mgr.tickAllA ticks t heap).1 ∧
    (∀ e ∈ (Mgr.tickAllA ticks t heap).2.1, MEv.isTick e = true) := by
  induction t generalizing heap with
  | nil => exact ⟨rfl, by simp [Mgr.tickAllA]⟩
  | cons a t ih =>
    obtain ⟨k, id⟩ := a
    simp only [Mgr.tickAllA]
    cases hc : heap[id]? with
    | none => exact ih heap
    | some c =>
      have hstep : c.stepA m (.tick (ticks id).env.now (ticks id).env.hook (ticks id).env.count) (MOpA.place call id) =
        some ((c.notifyTickA (ticks id).place (ticks id).env.now (ticks id).env.hook (ticks id).env.count).1,
          (c.notifyTickA (ticks id).place (ticks id).env.now (ticks id).env.hook (ticks id).env.count).2.1) := by
        rw [hcall]; rfl
      have happ := applyEvsA_conn hc hstep
      have one : ∀ io, ∀ e ∈ [MEv.conn id (.tick (ticks id).env.now (ticks id).env.hook (ticks id).env.count) io],
          MEv.isTick e = true := by simp [MEv.isTick]
      dsimp only
      split
      · exact ⟨happ, one _⟩
      · refine ⟨?_, fun x hx => ?_⟩
        · rw [List.map_cons, ← List.singleton_append, applyEvsA_append, happ]; exact (ih _).1
        · rw [List.mem_cons] at hx
          rcases hx with rfl | hx
          · rfl
          · exact (ih _).2 x hx
      · split
        · exact ⟨happ, one _⟩
        · refine ⟨?_, fun x hx => ?_⟩
          · rw [List.map_cons, ← List.singleton_append, applyEvsA_append, happ]; exact (ih _).1
          · rw [List.mem_cons] at hx
            rcases hx with rfl | hx
            · rfl
            · exact (ih _).2 x hx

/-! ## One call -/

theorem acceptA_cases (P : Plat) (host : String) (p : ConnectionParameters) (large : Bool) (e : OpenEnv) (place : OpenPlace)
    (resp : MessageRouterResponse) (ev : MEv) (s : Mgr) :
    s.acceptA P host p large e place resp ev = s.accept P host p large e resp ev ∨
    s.acceptA P host p large e place resp ev = .ok s [ev] (.threw .badAlloc) ∨
    (place = .entry ∧ ∃ socks bs b, Mgr.findOrCreateSocket (EndPoint.ofHost P.aton host 2222) b s.sockets = .ok (socks, bs) ∧
      s.acceptA P host p large e place resp ev = .ok { s with sockets := socks } (ev :: bs) (.threw .badAlloc)) := by
  unfold Mgr.acceptA Mgr.accept
  split
  · exact .inr (.inl rfl)
  cases ForwardOpenResponse.expand P.mem resp.data with
  | ub => exact .inl rfl
  | throw x => exact .inl rfl
  | ok r =>
  dsimp only
  split
  · exact .inr (.inl rfl)
  cases Mgr.timeoutMultiplier p.connectionTimeoutMultiplier with
  | ub => exact .inl rfl
  | throw x => exact .inl rfl
  | ok mult =>
  dsimp only
  cases Mgr.sendEndPoint P host resp.additionalItems with
  | ub => exact .inl rfl
  | throw x => exact .inl rfl
  | ok ep =>
  dsimp only
  split
  · exact .inr (.inl rfl)
  cases e.udpErr with
  | some code => exact .inl rfl
  | none =>
  dsimp only
  split
  · exact .inr (.inl rfl)
  split
  · exact .inr (.inl rfl)
  cases hf : Mgr.findOrCreateSocket (EndPoint.ofHost P.aton host Mgr.implicitPort) e.bindErr s.sockets with
  | ub => exact .inl rfl
  | throw x => exact .inl rfl
  | ok q =>
  obtain ⟨socks, bs⟩ := q
  dsimp only
  split
  · rename_i he; exact .inr (.inr ⟨he, socks, bs, _, hf, rfl⟩)
  · exact .inl rfl

/-- A forward open without memory at some place. -/
theorem openA_cases (P : Plat) (host : String) (p : ConnectionParameters) (large : Bool) (e : OpenEnv) (place : OpenPlace)
    (s : Mgr) :
    s.forwardOpenA P host p large e place = s.forwardOpen P host p large e ∨
    ∃ st s' evs, s.forwardOpenA P host p large e place = .ok s' evs (.threw .badAlloc) ∧
      ((place = .request ∧ s' = { s with statics := st } ∧ evs = []) ∨
       (place ≠ .request ∧ ∃ resp code path data socks bs b, e.reply = .ok resp ∧ resp.status = GeneralStatus.success ∧
         evs = .request code path data :: bs ∧ s' = { s with statics := st, sockets := socks } ∧
         ((socks = s.sockets ∧ bs = []) ∨ (place = .entry ∧
           Mgr.findOrCreateSocket (EndPoint.ofHost P.aton host 2222) b s.sockets = .ok (socks, bs))))) := by
  unfold Mgr.forwardOpenA Mgr.forwardOpen
  cases Mgr.bumpStatics s.incarnation (Mgr.o2tMulticast p large) (Mgr.t2oP2P p large) s.statics with
  | none => exact .inl rfl
  | some st =>
  dsimp only
  split
  · rename_i hp; exact .inr ⟨st, _, _, rfl, .inl ⟨hp, rfl, rfl⟩⟩
  · rename_i hp
    cases (if large then largeForwardOpenPack (Mgr.sentParams p large st)
      else forwardOpenPack (Mgr.sentParams p large st)) with
    | ub => exact .inl rfl
    | throw x => exact .inl rfl
    | ok data =>
    dsimp only
    cases hr : e.reply with
    | ub => exact .inl rfl
    | throw x => exact .inl rfl
    | ok resp =>
    dsimp only
    split
    · rename_i hok
      rcases acceptA_cases P host p large e place resp
        (MEv.request (if large then 0x5B#8 else 0x54#8) (EPath.mk2 6 1) data) { s with statics := st } with
        h | h | ⟨he, socks, bs, b, hf, h⟩
      · exact .inl h
      · exact .inr ⟨st, _, _, h, .inr ⟨hp, resp, _, _, _, s.sockets, [], none, rfl, hok, rfl, rfl, .inl ⟨rfl, rfl⟩⟩⟩
      · exact .inr ⟨st, _, _, h, .inr ⟨hp, resp, _, _, _, socks, bs, b, rfl, hok, rfl, rfl, .inr ⟨he, hf⟩⟩⟩
    · exact .inl rfl

/-- The parts of a call of `handleConnections`. -/
theorem handleA_cases (P : Plat) (b : Bool) (start : Nat) (t : Int) (rounds : List RoundA) (ticks : Nat → TickEnvA)
    (s s' : Mgr) (evs : List MEv) (ret : MRet) (h : s.handleA P b start t rounds ticks = .ok s' evs ret) :
    (s' = s ∧ evs = [] ∧ ret = .threw .badAlloc) ∨
    (∃ e, Mgr.selectLoopA P (start + t * 1000000) start rounds s = .threw s' evs e ∧ ret = .threw e) ∨
    ∃ s1 pre, Mgr.selectLoopA P (start + t * 1000000) start rounds s = .go s1 pre ∧
      evs = pre ++ (Mgr.tickAllA ticks s1.table s1.heap).2.1 ∧
      ((∃ e, ret = .threw e ∧ (Mgr.tickAllA ticks s1.table s1.heap).2.2.2 = some e ∧
          s' = { s1 with heap := (Mgr.tickAllA ticks s1.table s1.heap).1 }) ∨
        (ret = .unit ∧ (Mgr.tickAllA ticks s1.table s1.heap).2.2.2 = none ∧
          s' = { s1 with
                  heap := (Mgr.tickAllA ticks s1.table s1.heap).1
                  table := s1.table.filter fun e => !(Mgr.tickAllA ticks s1.table s1.heap).2.2.1.contains e.1 })) := by
  unfold Mgr.handleA at h
  split at h
  · cases h
  · split at h
    · cases h; exact .inl ⟨rfl, rfl, rfl⟩
    · split at h
      · cases h
      · rename_i s1 evs1 e hsel
        cases h
        exact .inr (.inl ⟨e, hsel, rfl⟩)
      · rename_i s1 pre hsel
        right; right
        refine ⟨s1, pre, hsel, ?_⟩
        split at h
        · rename_i hp ev ks hta
          cases h
          rw [hta]
          exact ⟨rfl, .inr ⟨rfl, rfl, rfl⟩⟩
        · rename_i hp ev ks ex hta
          cases h
          rw [hta]
          exact ⟨rfl, .inl ⟨_, rfl, rfl, rfl⟩⟩

/-- C121. Wherever memory is missing: the call is what it would have been with enough memory, or it ends
with `bad_alloc`. -/
theorem C121_or_same (P : Plat) (s : Mgr) (op : MOpA) :
    s.stepA P op = s.step P (MOpA.enough op) ∨ ∃ s' evs, s.stepA P op = .ok s' evs (.threw .badAlloc) := by
  cases op with
  | plain op => exact .inl rfl
  | forwardOpen host p large e place =>
    rcases openA_cases P host p large e place s with h | ⟨_, s', evs, h, _⟩
    · exact .inl h
    · exact .inr ⟨s', evs, h⟩
  | forwardClose ptr reply =>
    simp only [Mgr.stepA, Mgr.forwardCloseA, MOpA.enough, Mgr.step, Mgr.forwardClose]
    cases ptr with
    | none => exact .inl rfl
    | some id =>
      dsimp only
      split
      · cases s.heap[id]? with
        | none => exact .inl rfl
        | some c => exact .inr ⟨s, [], rfl⟩
      · exact .inl rfl
  | setData id data =>
    simp only [Mgr.stepA, Mgr.setDataA, MOpA.enough, Mgr.step]
    cases s.alive id with
    | false => exact .inl rfl
    | true =>
      cases s.heap[id]? with
      | none => exact .inl rfl
      | some c => exact .inr ⟨s, [], rfl⟩
  | handle b start t rounds ticks =>
    simp only [Mgr.stepA, Mgr.handleA, MOpA.enough, Mgr.step, Mgr.handle]
    cases s.sockets with
    | nil => exact .inl rfl
    | cons a as =>
      dsimp only
      split
      · exact .inr ⟨s, [], rfl⟩
      · rcases selectLoopA_enough P (start + t * 1000000) rounds start s with h | ⟨s', evs, h⟩
        · rw [h]
          cases Mgr.selectLoop P (start + t * 1000000) start (rounds.map RoundA.enough) s with
          | ub evs => exact .inl rfl
          | threw s' evs e => exact .inl rfl
          | go s1 evs =>
            dsimp only
            rcases tickAllA_enough ticks s1.table s1.heap with h | h
            · rw [h]; exact .inl rfl
            · right
              generalize Mgr.tickAllA ticks s1.table s1.heap = q at h
              obtain ⟨hp, ev, ks, ex⟩ := q
              simp only at h
              subst h
              exact ⟨_, _, rfl⟩
        · rw [h]; exact .inr ⟨_, _, rfl⟩

theorem sockFound (ep : EndPoint) (b : Option Int) (socks socks' : List EndPoint) (bs : List MEv)
    (h : Mgr.findOrCreateSocket ep b socks = .ok (socks', bs)) :
    (socks' = socks ∧ bs = []) ∨ (socks' = sockPut ep socks ∧ bs = [.bound ep]) := by
  unfold Mgr.findOrCreateSocket at h
  split at h
  · cases h; exact .inl ⟨rfl, rfl⟩
  · split at h
    · cases h
    · cases h; exact .inr ⟨rfl, rfl⟩

/-- C121. A forward open without memory at some place is the forward open, or ends with `bad_alloc`: no connection is
known or opened that was not before.  If the request could not be made nothing was sent; otherwise the device
was asked and has agreed.  At most a bound socket is new, and that only if nothing but the entry of the connection was missing. -/
theorem C121_open (P : Plat) (s : Mgr) (host : String) (p : ConnectionParameters) (large : Bool) (e : OpenEnv)
    (place : OpenPlace) :
    s.stepA P (.forwardOpen host p large e place) = s.step P (.forwardOpen host p large e) ∨
    ∃ s' evs, s.stepA P (.forwardOpen host p large e place) = .ok s' evs (.threw .badAlloc) ∧
      s'.table = s.table ∧ s'.heap = s.heap ∧ s'.held = s.held ∧ s'.incarnation = s.incarnation ∧
      (place = .request → evs = [] ∧ s'.sockets = s.sockets) ∧
      (place ≠ .request → ∃ resp code path data, e.reply = .ok resp ∧ resp.status = 0 ∧
        ((evs = [.request code path data] ∧ s'.sockets = s.sockets) ∨
         (place = .entry ∧ ∃ ep, ep = EndPoint.ofHost P.aton host 2222 ∧
           evs = [.request code path data, .bound ep] ∧ s'.sockets = sockPut ep s.sockets))) := by
  rcases openA_cases P host p large e place s with h | ⟨st, s', evs, h, hh⟩
  · exact .inl h
  · right
    refine ⟨s', evs, h, ?_⟩
    rcases hh with ⟨hp, rfl, rfl⟩ | ⟨hp, resp, code, path, data, socks, bs, b, h1, h2, rfl, rfl, h3⟩
    · exact ⟨rfl, rfl, rfl, rfl, fun _ => ⟨rfl, rfl⟩, fun hn => absurd hp hn⟩
    · refine ⟨rfl, rfl, rfl, rfl, fun hn => absurd hn hp, fun _ => ⟨resp, code, path, data, h1, h2, ?_⟩⟩
      rcases h3 with ⟨rfl, rfl⟩ | ⟨he, hf⟩
      · exact .inl ⟨rfl, rfl⟩
      · rcases sockFound _ _ _ _ _ hf with ⟨rfl, rfl⟩ | ⟨rfl, rfl⟩
        · exact .inl ⟨rfl, rfl⟩
        · exact .inr ⟨he, _, rfl, rfl, rfl⟩

/-- C121. A forward close, new output data or a call of `handleConnections` that ends for want of memory before it does
anything has done nothing: the call can be made again. -/
theorem C121_nothing (P : Plat) (s : Mgr) :
    (∀ ptr reply s' evs ret, s.stepA P (.forwardClose ptr reply) = .ok s' evs ret → s' = s ∧ evs = []) ∧
    (∀ id data s' evs ret, s.stepA P (.setData id data) = .ok s' evs ret → s' = s ∧ evs = []) ∧
    (∀ start t rounds ticks, s.sockets ≠ [] →
      s.stepA P (.handle true start t rounds ticks) = .ok s [] (.threw .badAlloc)) := by
  refine ⟨fun ptr reply s' evs ret h => ?_, fun id data s' evs ret h => ?_, fun start t rounds ticks hs => ?_⟩
  · simp only [Mgr.stepA, Mgr.forwardCloseA] at h
    repeat' split at h
    all_goals cases h; exact ⟨rfl, rfl⟩
  · simp only [Mgr.stepA, Mgr.setDataA] at h
    split at h <;> cases h <;> exact ⟨rfl, rfl⟩
  · simp only [Mgr.stepA, Mgr.handleA]
    split
    · contradiction
    · rfl

/-- C121. A datagram for which there is no memory is lost, as if the receive call had failed: the same state and the
same events, and the call ends with `bad_alloc` instead of the error. -/
theorem C121_lost (P : Plat) (s : Mgr) (start : Nat) (t : Int) (rounds : List RoundA) (ticks : Nat → TickEnv) (code : Int) :
    s.stepA P (.handle false start t rounds fun id => ⟨ticks id, none⟩) =
      s.step P (.handle start t (rounds.map (RoundA.lostAs code)) ticks) ∨
    ∃ s' evs, s.stepA P (.handle false start t rounds fun id => ⟨ticks id, none⟩) = .ok s' evs (.threw .badAlloc) ∧
      s.step P (.handle start t (rounds.map (RoundA.lostAs code)) ticks) = .ok s' evs (.threw (.system code)) := by
  have tk : ∀ (tb : List (BitVec 16 × Nat)) (heap : List Conn),
      Mgr.tickAllA (fun id => ⟨ticks id, none⟩) tb heap = Mgr.tickAll ticks tb heap := by
    intro tb
    induction tb with
    | nil => intro heap; rfl
    | cons a tb ih =>
      intro heap
      obtain ⟨k, id⟩ := a
      simp only [Mgr.tickAllA, Mgr.tickAll, ih, notifyTickA_none]
      cases heap[id]? with
      | none => rfl
      | some c =>
        dsimp only
        cases (c.notifyTick (ticks id).now (ticks id).hook (ticks id).count).2.2 <;> rfl
  simp only [Mgr.stepA, Mgr.handleA, Mgr.step, Mgr.handle]
  cases s.sockets with
  | nil => exact .inl rfl
  | cons a as =>
    simp only [Bool.false_eq_true, if_false]
    rcases selectLoopA_lost P code (start + t * 1000000) rounds start s with h | ⟨s', evs, h, h'⟩
    · rw [h]
      left
      cases Mgr.selectLoop P (start + t * 1000000) start (rounds.map (RoundA.lostAs code)) s with
      | ub evs => rfl
      | threw s' evs e => rfl
      | go s1 evs => dsimp only; rw [tk]; rcases Mgr.tickAll ticks s1.table s1.heap with ⟨_, _, _, _ | _⟩ <;> rfl
    · rw [h, h']; exact .inr ⟨_, _, rfl, rfl⟩

/-! ## What a call that throws keeps -/

/-- The replay of a call. -/
theorem stepA_replay (P : Plat) (s s' : Mgr) (op : MOpA) (evs : List MEv) (ret : MRet)
    (h : s.stepA P op = .ok s' evs ret) : applyEvsA P.mem s.heap (evs.map fun ev => (op, ev)) = some s'.heap := by
  cases op with
  | plain op =>
    rw [applyEvsA_plain _ _ _ _ (.inl fun _ => rfl)]
    exact step_replay P s s' op evs ret h
  | forwardOpen host p large e place =>
    rw [applyEvsA_plain _ _ _ _ (.inl fun _ => rfl)]
    rcases openA_cases P host p large e place s with h' | ⟨st, s1, evs1, h', hh⟩
    · exact step_replay P s s' (.forwardOpen host p large e) evs ret (h'.symm.trans h)
    · have := h'.symm.trans h
      cases this
      rcases hh with ⟨_, rfl, rfl⟩ | ⟨_, resp, code, path, data, socks, bs, b, _, _, rfl, rfl, h3⟩
      · rfl
      · have hb : ∀ x ∈ bs, ∃ y, x = MEv.bound y := by
          rcases h3 with ⟨_, rfl⟩ | ⟨_, hf⟩
          · simp
          · exact findOrCreate_events _ _ _ _ _ hf
        refine applyEvs_neutral _ _ _ fun x hx => ?_
        rw [List.mem_cons] at hx
        rcases hx with rfl | hx
        · rfl
        · obtain ⟨y, rfl⟩ := hb x hx; rfl
  | forwardClose ptr reply =>
    obtain ⟨rfl, rfl⟩ := (C121_nothing P s).1 ptr reply s' evs ret h
    rfl
  | setData id data =>
    obtain ⟨rfl, rfl⟩ := (C121_nothing P s).2.1 id data s' evs ret h
    rfl
  | handle b start t rounds ticks =>
    rcases handleA_cases P b start t rounds ticks s s' evs ret h with ⟨rfl, rfl, _⟩ | ⟨e, hs, _⟩ | ⟨s1, pre, hs, rfl, hh⟩
    · rfl
    · have q := (selectLoopA_quiet P _ rounds start s).2 _ _ _ hs
      rw [applyEvsA_plain _ _ _ _ (.inr q.noTick)]
      exact q.replay
    · have q := (selectLoopA_quiet P _ rounds start s).1 _ _ hs
      have tk := (tickAllA_spec P.mem (.handle b start t rounds ticks) ticks (fun _ => rfl) s1.table s1.heap).1
      rw [List.map_append, applyEvsA_append, applyEvsA_plain _ _ _ _ (.inr q.noTick), q.replay]
      rcases hh with ⟨_, _, _, rfl⟩ | ⟨_, _, rfl⟩ <;> exact tk

theorem replayA_project (m : Mem) (heap heap' : List Conn) (evs : List (MOpA × MEv)) (h : applyEvsA m heap evs = some heap')
    (id : Nat) (c : Conn) (hc : heap[id]? = some c) :
    ∃ c', heap'[id]? = some c' ∧ c.runA m ((connTraceA id evs).map Prod.fst) = some (c', connTraceA id evs) := by
  induction evs generalizing heap c with
  | nil => simp [applyEvsA] at h; rw [← h]; exact ⟨c, hc, rfl⟩
  | cons e es ih =>
    obtain ⟨call, e⟩ := e
    simp only [applyEvsA] at h
    split at h
    · cases h
    · rename_i h1 he
      cases e with
      | request a b d => simp [applyEvA] at he; subst he; exact ih _ h c hc
      | bound a => simp [applyEvA] at he; subst he; exact ih _ h c hc
      | waited a => simp [applyEvA] at he; subst he; exact ih _ h c hc
      | created i d =>
        simp only [applyEvA] at he
        split at he
        · injection he with he
          subst he
          refine ih _ h c ?_
          rw [List.getElem?_append_left (by have := List.getElem?_eq_some_iff.mp hc; exact this.1)]
          exact hc
        · cases he
      | conn i op ioevs =>
        simp only [applyEvA] at he
        split at he
        · cases he
        · rename_i ci hci
          split at he
          · cases he
          · rename_i ci' evs' hstep
            split at he
            · rename_i heq
              injection he with he
              subst he
              subst heq
              by_cases hi : i = id
              · subst hi
                rw [hc] at hci
                injection hci with hci
                subst hci
                have hlt := (List.getElem?_eq_some_iff.mp hc).1
                obtain ⟨c', hc', hrun⟩ := ih _ h ci' (by rw [List.getElem?_set_self hlt])
                refine ⟨c', hc', ?_⟩
                simp only [connTraceA, if_true, List.map_cons, Conn.runA, hstep, hrun]
              · obtain ⟨c', hc', hrun⟩ := ih _ h c (by rw [List.getElem?_set_ne hi]; exact hc)
                refine ⟨c', hc', ?_⟩
                simp only [connTraceA, if_neg hi]
                exact hrun
            · cases he

/-- The objects are only changed by ticks and receptions; a call adds one only with the event. -/
theorem replayA_length (m : Mem) (heap heap' : List Conn) (evs : List (MOpA × MEv)) (h : applyEvsA m heap evs = some heap') :
    heap.length ≤ heap'.length ∧ ((∀ call id c, (call, MEv.created id c) ∉ evs) → heap'.length = heap.length) := by
  induction evs generalizing heap with
  | nil => simp [applyEvsA] at h; rw [h]; exact ⟨Nat.le_refl _, fun _ => rfl⟩
  | cons e es ih =>
    obtain ⟨call, e⟩ := e
    simp only [applyEvsA] at h
    split at h
    · cases h
    · rename_i h1 he
      obtain ⟨i1, i2⟩ := ih h1 h
      have tail : (∀ call' id c, (call', MEv.created id c) ∉ (call, e) :: es) → heap'.length = h1.length :=
        fun hn => i2 fun call' id c hx => hn call' id c (List.mem_cons_of_mem _ hx)
      cases e with
      | request a b d => simp [applyEvA] at he; subst he; exact ⟨i1, tail⟩
      | bound a => simp [applyEvA] at he; subst he; exact ⟨i1, tail⟩
      | waited a => simp [applyEvA] at he; subst he; exact ⟨i1, tail⟩
      | created i d =>
        simp only [applyEvA] at he
        split at he
        · injection he with he
          subst he
          simp only [List.length_append, List.length_cons, List.length_nil] at i1
          exact ⟨by omega, fun hn => absurd List.mem_cons_self (hn call i d)⟩
        · cases he
      | conn i op ioevs =>
        simp only [applyEvA] at he
        split at he
        · cases he
        · split at he
          · cases he
          · split at he
            · injection he with he
              subst he
              simp only [List.length_set] at i1 tail
              exact ⟨i1, tail⟩
            · cases he

theorem replayA_config {m : Mem} {heap heap' : List Conn} {evs : List (MOpA × MEv)}
    (h : applyEvsA m heap evs = some heap') {id : Nat} {c : Conn} (hc : heap[id]? = some c) :
    ∃ c', heap'[id]? = some c' ∧ SameConfig c c' := by
  obtain ⟨c', h1, h2⟩ := replayA_project m heap heap' evs h id c hc
  exact ⟨c', h1, runA_config h2⟩

/-- A plain call that throws: connections, and what the user holds. -/
theorem step_threw_keeps (P : Plat) (s s' : Mgr) (op : MOp) (evs : List MEv) (x : Exn)
    (h : s.step P op = .ok s' evs (.threw x)) :
    s'.table = s.table ∧ s'.held = s.held ∧ s'.incarnation = s.incarnation ∧ s'.sockets = s.sockets ∧
      ∀ id c, MEv.created id c ∉ evs := by
  cases op with
  | forwardOpen host p large e =>
    obtain ⟨st, data, _, _, hh⟩ := forwardOpen_cases P host p large e s s' evs _ h
    rcases hh with ⟨rfl, rfl, _⟩ | ⟨resp, _, _, r, mult, ep, socks, bs, _, _, _, _, _, _, _, hret⟩
    · exact ⟨rfl, rfl, rfl, rfl, by simp⟩
    · cases hret
  | otherOpen inc mc p2p =>
    simp only [Mgr.step] at h
    split at h <;> cases h
  | forwardClose ptr reply =>
    simp only [Mgr.step, Mgr.forwardClose] at h
    repeat' split at h
    all_goals first | (cases h; exact ⟨rfl, rfl, rfl, rfl, by simp⟩) | cases h
  | handle start t rounds ticks =>
    have hc := handle_no_created h
    rcases handle_threw_parts P start t rounds ticks s s' evs x h with hs | ⟨s1, pre, hs, rfl, _, rfl⟩
    · have q := (selectLoop_quiet P _ rounds start s).2 _ _ _ hs
      exact ⟨q.table, q.held, q.incarnation, q.sockets, hc⟩
    · have q := (selectLoop_quiet P _ rounds start s).1 _ _ hs
      exact ⟨q.table, q.held, q.incarnation, q.sockets, hc⟩
  | hasOpen => simp only [Mgr.step] at h; cases h
  | setData id data => simp only [Mgr.step] at h; split at h <;> cases h
  | lock id => simp only [Mgr.step] at h; split at h <;> cases h
  | release id => simp only [Mgr.step] at h; cases h

/-- The events of a call of `handleConnections` make no connection. -/
theorem handleA_no_created {P : Plat} {b : Bool} {start : Nat} {t : Int} {rounds : List RoundA} {ticks : Nat → TickEnvA}
    {s s' : Mgr} {evs : List MEv} {ret : MRet} (h : s.handleA P b start t rounds ticks = .ok s' evs ret) (id : Nat)
    (c : Conn) : MEv.created id c ∉ evs := by
  intro hc
  rcases handleA_cases P b start t rounds ticks s s' evs ret h with ⟨rfl, rfl, _⟩ | ⟨e, hs, _⟩ | ⟨s1, pre, hs, rfl, hh⟩
  · simp at hc
  · rcases ((selectLoopA_quiet P _ rounds start s).2 _ _ _ hs).only _ hc with ⟨_, hx⟩ | ⟨_, _, _, hx, _⟩ <;> cases hx
  · rw [List.mem_append] at hc
    rcases hc with hc | hc
    · rcases ((selectLoopA_quiet P _ rounds start s).1 _ _ hs).only _ hc with ⟨_, hx⟩ | ⟨_, _, _, hx, _⟩ <;> cases hx
    · have := (tickAllA_spec P.mem (.handle b start t rounds ticks) ticks (fun _ => rfl) s1.table s1.heap).2 _ hc
      cases this

/-- C121. A call that ends with an exception, for want of memory or for another reason, has not opened, closed or
removed any connection: the connections the manager knows, the pointers of the user and the negotiated values of every connection are
as before.  At most one bound socket is new. -/
theorem C121_keeps (P : Plat) (s s' : Mgr) (op : MOpA) (evs : List MEv) (x : Exn)
    (h : s.stepA P op = .ok s' evs (.threw x)) :
    s'.table = s.table ∧ s'.held = s.held ∧ s'.incarnation = s.incarnation ∧ s'.heap.length = s.heap.length ∧
    (∀ (id : Nat) c, s.heap[id]? = some c → ∃ c', s'.heap[id]? = some c' ∧ SameConfig c c') ∧
    (s'.sockets = s.sockets ∨ ∃ ep, s'.sockets = sockPut ep s.sockets ∧ MEv.bound ep ∈ evs) := by
  have hrep := stepA_replay P s s' op evs _ h
  have hcfg : ∀ (id : Nat) c, s.heap[id]? = some c → ∃ c', s'.heap[id]? = some c' ∧ SameConfig c c' :=
    fun id c hc => replayA_config hrep hc
  have hlen : (∀ id c, MEv.created id c ∉ evs) → s'.heap.length = s.heap.length := by
    intro hn
    refine (replayA_length _ _ _ _ hrep).2 fun call id c hx => ?_
    rw [List.mem_map] at hx
    obtain ⟨ev, hev, he⟩ := hx
    injection he with _ he
    exact hn id c (by rw [← he]; exact hev)
  cases op with
  | plain op =>
    obtain ⟨h1, h2, h3, h4, h5⟩ := step_threw_keeps P s s' op evs x h
    exact ⟨h1, h2, h3, hlen h5, hcfg, .inl h4⟩
  | forwardOpen host p large e place =>
    rcases C121_open P s host p large e place with h' | ⟨s1, evs1, h', h1, h2, h3, h4, h5, h6⟩
    · obtain ⟨h1, h2, h3, h4, h5⟩ := step_threw_keeps P s s' _ evs x (h'.symm.trans h)
      exact ⟨h1, h2, h3, hlen h5, hcfg, .inl h4⟩
    · have := h'.symm.trans h
      cases this
      refine ⟨h1, h3, h4, by rw [h2], hcfg, ?_⟩
      by_cases hp : place = .request
      · exact .inl (h5 hp).2
      · obtain ⟨_, _, _, _, _, _, ⟨_, hs⟩ | ⟨_, ep, _, he, hs⟩⟩ := h6 hp
        · exact .inl hs
        · exact .inr ⟨ep, hs, by rw [he]; simp⟩
  | forwardClose ptr reply =>
    obtain ⟨rfl, rfl⟩ := (C121_nothing P s).1 ptr reply s' evs _ h
    exact ⟨rfl, rfl, rfl, rfl, hcfg, .inl rfl⟩
  | setData id data =>
    obtain ⟨rfl, rfl⟩ := (C121_nothing P s).2.1 id data s' evs _ h
    exact ⟨rfl, rfl, rfl, rfl, hcfg, .inl rfl⟩
  | handle b start t rounds ticks =>
    have hc := handleA_no_created h
    rcases handleA_cases P b start t rounds ticks s s' evs _ h with ⟨rfl, rfl, _⟩ | ⟨e, hs, _⟩ | ⟨s1, pre, hs, rfl, hh⟩
    · exact ⟨rfl, rfl, rfl, rfl, hcfg, .inl rfl⟩
    · have q := (selectLoopA_quiet P _ rounds start s).2 _ _ _ hs
      exact ⟨q.table, q.held, q.incarnation, hlen hc, hcfg, .inl q.sockets⟩
    · have q := (selectLoopA_quiet P _ rounds start s).1 _ _ hs
      rcases hh with ⟨_, _, _, rfl⟩ | ⟨hu, _⟩
      · exact ⟨q.table, q.held, q.incarnation, hlen hc, hcfg, .inl q.sockets⟩
      · cases hu

/-! ## Histories -/

theorem mrunA_cons {P : Plat} {s s' : Mgr} {op : MOpA} {ops : List MOpA} {tr : MTraceA}
    (h : s.runA P (op :: ops) = some (s', tr)) :
    ∃ s1 evs ret tr', s.stepA P op = .ok s1 evs ret ∧ s1.runA P ops = some (s', tr') ∧ tr = (op, evs, ret) :: tr' := by
  simp only [Mgr.runA] at h
  split at h
  · cases h
  · rename_i s1 evs ret hs
    split at h
    · cases h
    · rename_i s2 tr' hr
      injection h with h; injection h with h1 h2
      subst h1
      exact ⟨s1, evs, ret, tr', hs, hr, h2.symm⟩

theorem evsA_cons (op : MOpA) (evs : List MEv) (ret : MRet) (tr : MTraceA) :
    evsA ((op, evs, ret) :: tr) = evs.map (fun ev => (op, ev)) ++ evsA tr := by simp [evsA]

theorem runA_replay {P : Plat} {s s' : Mgr} {ops : List MOpA} {tr : MTraceA} (h : s.runA P ops = some (s', tr)) :
    applyEvsA P.mem s.heap (evsA tr) = some s'.heap := by
  induction ops generalizing s tr with
  | nil => simp [Mgr.runA] at h; simp [h.1, h.2, evsA, applyEvsA]
  | cons op ops ih =>
    obtain ⟨s1, evs, ret, tr', h1, h2, rfl⟩ := mrunA_cons h
    rw [evsA_cons, applyEvsA_append, stepA_replay P s s1 op evs ret h1]
    exact ih h2

/-- In a call that does not throw `bad_alloc`, as with enough memory. -/
theorem stepA_else {P : Plat} {s s' : Mgr} {op : MOpA} {evs : List MEv} {ret : MRet} (h : s.stepA P op = .ok s' evs ret) :
    s.step P (MOpA.enough op) = .ok s' evs ret ∨ ret = .threw .badAlloc := by
  rcases C121_or_same P s op with h' | ⟨_, _, h'⟩
  · exact .inl (h'.symm.trans h)
  · have := h'.symm.trans h
    cases this
    exact .inr rfl

theorem created_of_threw {P : Plat} {s s' : Mgr} {op : MOpA} {evs : List MEv} {x : Exn}
    (h : s.stepA P op = .ok s' evs (.threw x)) (id : Nat) (c : Conn) : MEv.created id c ∉ evs := by
  intro hc
  have hl := (C121_keeps P s s' op evs x h).2.2.2.1
  have hrep := stepA_replay P s s' op evs _ h
  cases op with
  | plain op => exact (step_threw_keeps P s s' op evs x h).2.2.2.2 id c hc
  | forwardOpen host p large e place =>
    rcases C121_open P s host p large e place with h' | ⟨s1, evs1, h', _, _, _, _, h5, h6⟩
    · exact (step_threw_keeps P s s' _ evs x (h'.symm.trans h)).2.2.2.2 id c hc
    · have := h'.symm.trans h
      cases this
      by_cases hp : place = .request
      · rw [(h5 hp).1] at hc; simp at hc
      · obtain ⟨_, _, _, _, _, _, ⟨he, _⟩ | ⟨_, ep, _, he, _⟩⟩ := h6 hp <;> rw [he] at hc <;> simp at hc
  | forwardClose ptr reply =>
    obtain ⟨rfl, rfl⟩ := (C121_nothing P s).1 ptr reply s' evs _ h
    simp at hc
  | setData i data =>
    obtain ⟨rfl, rfl⟩ := (C121_nothing P s).2.1 i data s' evs _ h
    simp at hc
  | handle b start t rounds ticks => exact handleA_no_created h id c hc

theorem createdA_fresh {P : Plat} {s s' : Mgr} {ops : List MOpA} {tr : MTraceA} (h : s.runA P ops = some (s', tr))
    {id : Nat} {c : Conn} {call : MOpA} (hc : (call, MEv.created id c) ∈ evsA tr) :
    c.o2tSequenceNumber = 0 ∧ c.sequenceValueCount = 0 := by
  induction ops generalizing s tr with
  | nil =>
    simp only [Mgr.runA, Option.some.injEq, Prod.mk.injEq] at h
    obtain ⟨rfl, rfl⟩ := h
    simp [evsA] at hc
  | cons op ops ih =>
    obtain ⟨s1, evs, ret, tr', h1, h2, rfl⟩ := mrunA_cons h
    rw [evsA_cons, List.mem_append] at hc
    rcases hc with hc | hc
    · rw [List.mem_map] at hc
      obtain ⟨ev, hev, he⟩ := hc
      injection he with _ he
      subst he
      rcases stepA_else h1 with h3 | rfl
      · have hr : s.run P [MOpA.enough op] = some (s1, [(MOpA.enough op, evs, ret)]) := by simp [Mgr.run, h3]
        have := created_fresh P s s1 _ _ hr id c (by simpa [allEvs] using hev)
        exact ⟨this.2.1, this.2.2.1⟩
      · exact absurd hev (created_of_threw h1 id c)
    · exact ih h2 hc

theorem replayA_created (m : Mem) (heap heap' : List Conn) (evs : List (MOpA × MEv)) (id : Nat) (c : Conn) (call : MOpA)
    (h : applyEvsA m heap evs = some heap') (hm : (call, MEv.created id c) ∈ evs) (hlen : heap.length ≤ id) :
    ∃ c', heap'[id]? = some c' ∧ c.runA m ((connTraceA id evs).map Prod.fst) = some (c', connTraceA id evs) := by
  induction evs generalizing heap with
  | nil => simp at hm
  | cons e es ih =>
    obtain ⟨call', e⟩ := e
    rw [List.mem_cons] at hm
    simp only [applyEvsA] at h
    split at h
    · cases h
    · rename_i h1 he
      cases e with
      | request a b d =>
        simp [applyEvA] at he; subst he
        exact ih _ h (hm.resolve_left (by simp)) hlen
      | bound a =>
        simp [applyEvA] at he; subst he
        exact ih _ h (hm.resolve_left (by simp)) hlen
      | waited a =>
        simp [applyEvA] at he; subst he
        exact ih _ h (hm.resolve_left (by simp)) hlen
      | created i d =>
        simp only [applyEvA] at he
        split at he
        · rename_i hi
          injection he with he
          subst he
          by_cases hid : id = heap.length
          · have hcd : c = d := by
              rcases hm with hm | hm
              · injection hm with _ hm; injection hm with _ hm
              · exfalso
                -- a second object of the same number
                have key : ∀ (es : List (MOpA × MEv)) (hp hp' : List Conn), applyEvsA m hp es = some hp' →
                    (call, MEv.created id c) ∈ es → hp.length ≤ id := by
                  intro es
                  induction es with
                  | nil => intro hp hp' _ hx; simp at hx
                  | cons e es ihe =>
                    intro hp hp' hh hx
                    simp only [applyEvsA] at hh
                    split at hh
                    · cases hh
                    · rename_i h2 he2
                      rw [List.mem_cons] at hx
                      rcases hx with hx | hx
                      · subst hx
                        simp only [applyEvA] at he2
                        split at he2
                        · omega
                        · cases he2
                      · have := ihe _ _ hh hx
                        have hl := (replayA_length m hp h2 [e] (by simp [applyEvsA, he2])).1
                        omega
                have := key _ _ _ h hm
                simp at this
                omega
            subst hcd
            have := replayA_project m _ heap' es h id c (by rw [hid]; simp)
            simpa only [connTraceA] using this
          · refine ih _ h ?_ (by simp; omega)
            rcases hm with hm | hm
            · injection hm with _ hm; injection hm with h1 _; omega
            · exact hm
        · cases he
      | conn i op io =>
        simp only [applyEvA] at he
        split at he
        · cases he
        · rename_i ci hci
          have hlt := (List.getElem?_eq_some_iff.mp hci).1
          split at he
          · cases he
          · split at he
            · injection he with he
              subst he
              have hne : i ≠ id := by omega
              simp only [connTraceA, if_neg hne]
              exact ih _ h (hm.resolve_left (by simp)) (by simpa using hlen)
            · cases he

/-- C121. In any history, whatever memory is missing, what happens to a connection is a history of that connection
alone. -/
theorem C121_isolated (P : Plat) (inc : BitVec 16) (st : Statics) (s' : Mgr) (ops : List MOpA) (tr : MTraceA)
    (h : (Mgr.new inc st).runA P ops = some (s', tr)) (id : Nat) (c : Conn) (call : MOpA)
    (hc : (call, MEv.created id c) ∈ evsA tr) :
    ∃ c', s'.heap[id]? = some c' ∧
      c.runA P.mem ((connTraceA id (evsA tr)).map Prod.fst) = some (c', connTraceA id (evsA tr)) :=
  replayA_created P.mem [] s'.heap (evsA tr) id c call (runA_replay h) hc (Nat.zero_le _)

theorem advance_toNat {x : BitVec 32} {n : Nat} : (x + BitVec.ofNat 32 n + 1).toNat = (x.toNat + n + 1) % 2 ^ 32 := by
  simp [BitVec.toNat_add]

theorem advance_toNat16 {x : BitVec 16} {n : Nat} : (x + BitVec.ofNat 16 n + 1).toNat = (x.toNat + n + 1) % 2 ^ 16 := by
  simp [BitVec.toNat_add]

/-- C121. The numbers in the datagrams of a connection, whatever memory is missing and when: the sequence number is
at least the number of calls of the send listener, and larger by at most the number of ticks in which memory was missing before
the listener is called; the sequence count is between the two. -/
theorem C121_numbers (P : Plat) (inc : BitVec 16) (st : Statics) (s' : Mgr) (ops : List MOpA) (tr : MTraceA)
    (h : (Mgr.new inc st).runA P ops = some (s', tr)) (id : Nat) (c : Conn) (call : MOpA)
    (hc : (call, MEv.created id c) ∈ evsA tr)
    (pre post : IoTraceA) (op : ConnOp × Option TickPlace) (evs : List IoEv) (to : Option EndPoint) (bytes : List Byte)
    (htr : connTraceA id (evsA tr) = pre ++ (op, evs) :: post) (hsent : IoEv.sent to bytes ∈ evs) :
    ∃ n k data, asksA pre + 1 ≤ k ∧ k ≤ n ∧ n ≤ asksA pre + 1 + early pre ∧
      evs = [.asked data, .sent to bytes] ∧ to = c.socket ∧ (c.o2tFixedSize = true → data.length = c.o2tDataSize) ∧
      (data.length + 6 < 65536 →
        bytes = ioFrame c.o2tNetworkConnectionId.toNat (n % 2 ^ 32)
          (ioPayload (if hasCount c.transportTypeTrigger then some (k % 2 ^ 16) else none)
            (if c.o2tRealTimeFormat then some 1 else none) data)) := by
  obtain ⟨c', _, hr⟩ := C121_isolated P inc st s' ops tr h id c call hc
  obtain ⟨z1, z2⟩ := createdA_fresh h hc
  rw [htr] at hr
  obtain ⟨o1, o2, d, d', h1, h2, h3⟩ := runA_split hr
  obtain ⟨n, k, ⟨a1, a2⟩, a3, a4, a5⟩ := runA_advance h1
  have cfg := runA_config h1
  obtain ⟨data, b1, b2, b3, b4, _⟩ := stepA_sent h2 hsent
  refine ⟨n + 1, k + 1, data, by omega, by omega, by omega, b1, by rw [b2, cfg.socket],
    by rw [← cfg.o2tFixed, ← cfg.o2tSize]; exact b3, fun hl => ?_⟩
  rw [b4 hl, cfg.o2tId, cfg.trigger, cfg.o2tRt, a1, z1, advance_toNat]
  rw [show BitVec.toNat (0 : BitVec 32) + n + 1 = n + 1 from by show 0 + n + 1 = n + 1; omega]
  congr 2
  cases hh : hasCount c.transportTypeTrigger with
  | false => rfl
  | true =>
    rw [a2 hh, z2]
    simp only [opt, if_true, advance_toNat16, Option.some.injEq]
    simp

/-- C121. From one datagram of a connection to a later one both numbers go forward, by the calls of the send
listener in between and this one, and by at most as many more as there were ticks in between in which memory was missing
before the listener is called. -/
theorem C121_forward (P : Plat) (inc : BitVec 16) (st : Statics) (s' : Mgr) (ops : List MOpA) (tr : MTraceA)
    (h : (Mgr.new inc st).runA P ops = some (s', tr)) (id : Nat) (c : Conn) (call : MOpA)
    (hc : (call, MEv.created id c) ∈ evsA tr)
    (pre mid post : IoTraceA) (op op' : ConnOp × Option TickPlace) (data data' : List Byte) (to to' : Option EndPoint)
    (bytes bytes' : List Byte)
    (htr : connTraceA id (evsA tr) =
      pre ++ (op, [.asked data, .sent to bytes]) :: (mid ++ (op', [.asked data', .sent to' bytes']) :: post))
    (hl : data.length + 6 < 65536) (hl' : data'.length + 6 < 65536) :
    ∃ x y n k, asksA mid + 1 ≤ k ∧ k ≤ n ∧ n ≤ asksA mid + 1 + early mid ∧
      bytes = ioFrame c.o2tNetworkConnectionId.toNat (x % 2 ^ 32)
        (ioPayload (if hasCount c.transportTypeTrigger then some (y % 2 ^ 16) else none)
          (if c.o2tRealTimeFormat then some 1 else none) data) ∧
      bytes' = ioFrame c.o2tNetworkConnectionId.toNat ((x + n) % 2 ^ 32)
        (ioPayload (if hasCount c.transportTypeTrigger then some ((y + k) % 2 ^ 16) else none)
          (if c.o2tRealTimeFormat then some 1 else none) data') := by
  obtain ⟨c', _, hr⟩ := C121_isolated P inc st s' ops tr h id c call hc
  rw [htr] at hr
  obtain ⟨o1, o2, d, e, h1, h2, h3⟩ := runA_split hr
  obtain ⟨o3, o4, f, g, h4, h5, h6⟩ := runA_split h3
  have cfg1 := runA_config h1
  have cfg2 := stepA_config h2
  have cfg3 := runA_config h4
  obtain ⟨_, e1, _, _, e4, e5⟩ := stepA_sent (to := to) (bytes := bytes) h2 (by simp)
  obtain ⟨_, f1, _, _, f4, _⟩ := stepA_sent (to := to') (bytes := bytes') h5 (by simp)
  injection e1 with e1 _; injection e1 with e1
  injection f1 with f1 _; injection f1 with f1
  subst e1 f1
  obtain ⟨n, k, a, a3, a4, a5⟩ := runA_advance h4
  obtain ⟨t1, t2⟩ := e5.trans a cfg2
  refine ⟨(d.o2tSequenceNumber + 1).toNat, (d.sequenceValueCount + 1).toNat, n + 1, k + 1, by omega, by omega, by omega, ?_, ?_⟩
  · rw [e4 hl, cfg1.o2tId, cfg1.trigger, cfg1.o2tRt, Nat.mod_eq_of_lt (BitVec.isLt _), Nat.mod_eq_of_lt (BitVec.isLt _)]
    rfl
  · have cfg := (cfg1.trans cfg2).trans cfg3
    rw [f4 hl', cfg.o2tId, cfg.trigger, cfg.o2tRt, t1, advance_toNat]
    congr 1
    · simp only [BitVec.toNat_add, show (1 : BitVec 32).toNat = 1 from rfl]; omega
    · congr 1
      cases hh : hasCount c.transportTypeTrigger with
      | false => rfl
      | true =>
        rw [t2 (by rw [cfg1.trigger]; exact hh)]
        simp only [opt, if_true, advance_toNat16, Option.some.injEq]
        simp only [BitVec.toNat_add, show (1 : BitVec 16).toNat = 1 from rfl]; omega

theorem inv_stepA {P : Plat} {s s' : Mgr} {op : MOpA} {evs : List MEv} {ret : MRet} (hi : Inv s)
    (h : s.stepA P op = .ok s' evs ret) : Inv s' := by
  rcases stepA_else h with h' | rfl
  · exact inv_step P s s' _ evs ret hi h'
  · obtain ⟨h1, h2, _, h4, h5, _⟩ := C121_keeps P s s' op evs _ h
    refine ⟨by rw [h1]; exact hi.sorted, fun k id hm => ?_, fun id hid => ?_⟩
    · rw [h1] at hm
      obtain ⟨c, hc, hk⟩ := hi.obj k id hm
      obtain ⟨c', hc', cfg⟩ := h5 id c hc
      exact ⟨c', hc', by rw [cfg.t2oId]; exact hk⟩
    · rw [h2] at hid
      rw [h4]
      exact hi.held id hid

theorem inv_runA {P : Plat} {s s' : Mgr} {ops : List MOpA} {tr : MTraceA} (hi : Inv s)
    (h : s.runA P ops = some (s', tr)) : Inv s' := by
  induction ops generalizing s tr with
  | nil => simp [Mgr.runA] at h; rw [← h.1]; exact hi
  | cons op ops ih =>
    obtain ⟨s1, evs, ret, tr', h1, h2, _⟩ := mrunA_cons h
    exact ih (inv_stepA hi h1) h2

/-- C121. The connections a manager knows after any history, whatever memory was missing: each is an
existing connection under the low 16 bits of its T→O identifier, can be reached by its weak pointer, and there are no two under the
same key. -/
theorem C121_table (P : Plat) (inc : BitVec 16) (st : Statics) (s : Mgr) (ops : List MOpA) (tr : MTraceA)
    (h : (Mgr.new inc st).runA P ops = some (s, tr)) :
    (∀ k id, (k, id) ∈ s.table → ∃ c, s.heap[id]? = some c ∧ k.toNat = c.t2oNetworkConnectionId.toNat % 65536 ∧
      s.alive id = true) ∧
    s.table.Pairwise (fun a b => a.1 ≠ b.1 ∧ a.2 ≠ b.2) := by
  have hi := inv_runA (inv_new inc st) h
  constructor
  · intro k id hm
    obtain ⟨c, hc, hk⟩ := hi.obj k id hm
    refine ⟨c, hc, by rw [hk]; simp, ?_⟩
    unfold Mgr.alive
    rw [Bool.or_eq_true, List.any_eq_true]
    exact .inl ⟨(k, id), hm, by simp⟩
  · refine hi.sorted.imp_of_mem fun {a b} ha hb hlt => ?_
    have hne : a.1 ≠ b.1 := fun he => by rw [he] at hlt; exact absurd hlt (BitVec.lt_irrefl _)
    refine ⟨hne, fun he => hne ?_⟩
    obtain ⟨c, hc, hk⟩ := hi.obj a.1 a.2 ha
    obtain ⟨d, hd, hk'⟩ := hi.obj b.1 b.2 hb
    rw [he, hd] at hc
    injection hc with hc
    rw [hk, hk', hc]

/-! ## Where memory is missing matters -/

/-- A call of `handleConnections` at this time, without memory at this place. -/
def scarceHandle (now : Nat) (place : Option TickPlace) : MOpA :=
  .handle false now 5 [] fun _ => ⟨⟨now, { left := some [1, 2] }, 22⟩, place⟩

/-- What was sent: sequence number and sequence count of each datagram; how the calls returned; whether connections are open;
how often connection 0 was told that it is closed; the number of bound sockets. -/
def scarceSummary (r : Option (Mgr × MTraceA)) :
    Option (List (Nat × Nat) × List MRet × Bool × Nat × Nat) :=
  r.map fun r =>
    (r.2.flatMap fun e => e.2.1.flatMap fun ev => match ev with
      | .conn _ _ io => io.filterMap fun x => match x with
        | .sent _ b => some (field b 10 4, field b 18 2)
        | _ => none
      | _ => [],
     r.2.map fun e => e.2.2, !r.1.table.isEmpty,
     (connTraceA 0 (evsA r.2)).countP fun d => decide (IoEv.closed ∈ d.2),
     r.1.sockets.length)

/-- One connection, and a datagram after each kind of failure. -/
def scarceHistory : List MOpA :=
  [.plain (sampleOpen 0xA 0x10001 1), scarceHandle 10000000 none, scarceHandle 20000000 (some .count),
   scarceHandle 21000000 none, scarceHandle 31000000 (some .frame), .setData 0 [1], .forwardClose (some 0) (.throw .badAlloc),
   .plain (.forwardClose (some 0) (.ok (sampleReply 0 0 0)))]

theorem scarceHistory_run : scarceSummary ((Mgr.new 1 {}).runA samplePlat scarceHistory) =
    some ([(1, 1), (3, 3)], [.ptr (some 0), .unit, .threw .badAlloc, .unit, .threw .badAlloc, .threw .badAlloc,
      .threw .badAlloc, .unit], false, 0, 1) := by
  decide +kernel

/-- C121 violated: when memory was missing for the address of a datagram, the sequence number and the
sequence count of a connection are no longer equal. -/
theorem C121_apart_violated :
    scarceSummary ((Mgr.new 1 {}).runA samplePlat [.plain (sampleOpen 0xA 0x10001 1), scarceHandle 10000000 none,
      scarceHandle 20000000 (some .address), scarceHandle 21000000 none]) =
    some ([(1, 1), (3, 2)], [.ptr (some 0), .unit, .threw .badAlloc, .unit], true, 0, 1) := by
  decide +kernel

/-- C121 violated: when memory is missing to note that a connection is to be removed, its close listener is called
again by the next call. -/
theorem C121_closed_twice_violated :
    scarceSummary ((Mgr.new 1 {}).runA samplePlat [.plain (sampleOpen 0xA 0x10001 1), scarceHandle 41000000 (some .record),
      scarceHandle 42000000 none]) =
    some ([], [.ptr (some 0), .threw .badAlloc, .unit], false, 2, 1) := by
  decide +kernel

/-- C121 violated: when memory is missing after the reply, the device has a connection that the manager does not know and that
the user has no pointer to. -/
theorem C121_orphan_violated (place : OpenPlace) (hp : place ≠ .request) :
    (scarceSummary ((Mgr.new 1 {}).runA samplePlat [.forwardOpen "192.168.1.10" sampleParams false
      { reply := .ok (sampleReply 0xA 0x10001 1) } place])).map (fun r => (r.2.1, r.2.2.1)) =
    some ([.threw .badAlloc], false) ∧
    ((Mgr.new 1 {}).runA samplePlat [.forwardOpen "192.168.1.10" sampleParams false
      { reply := .ok (sampleReply 0xA 0x10001 1) } place]).map (fun r => r.2.map fun e => e.2.1.length) =
    some [if place = .entry then 2 else 1] := by
  cases place
  · exact absurd rfl hp
  all_goals decide +kernel

/-- C121_numbers, C121_forward: in the sample two datagrams are sent, with a failure in between. -/
example : ((Mgr.new 1 {}).runA samplePlat scarceHistory).map (fun r =>
    ((connTraceA 0 (evsA r.2)).map fun e => (isEarly e.1, e.2.length),
      (evsA r.2).countP fun e => match e.2 with | .created 0 _ => true | _ => false)) =
    some ([(false, 2), (true, 0), (false, 2), (false, 1)], 1) := by
  decide +kernel

/-- C121_lost: a datagram is delivered, the next is lost, and the call ends. -/
example : ((Mgr.new 1 {}).runA samplePlat [.plain (sampleOpen 0xA 0x10001 1),
      .handle false 0 5 [.ready ⟨.dgram (sampleDgram 0x10001 [6, 6]), false⟩ [⟨.dgram (sampleDgram 0x10001 [7, 7]), true⟩] 1]
        fun _ => ⟨⟨10000000, { left := some [1, 2] }, 22⟩, none⟩]).map
      (fun r => (deliveries ((evsA r.2).map Prod.snd), r.2.map fun e => e.2.2)) =
    some ([(0, [1, 0, 6, 6])], [.ptr (some 0), .threw .badAlloc]) := by
  decide +kernel

/-- C121_nothing: after the first call there is a bound socket. -/
example : ((Mgr.new 1 {}).runA samplePlat [.plain (sampleOpen 0xA 0x10001 1)]).map (fun r => r.1.sockets.isEmpty) =
    some false := by
  decide +kernel

end Verif.Props
