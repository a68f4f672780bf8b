import Verif.Props.ManagerRecv
import Verif.Props.ManagerOpen

/-!
# Connections inside a manager

The theorems about the history of a single connection (C35, C37–C40, C50), restated
for any connection opened through any history of a manager.
-/

namespace Verif.Props

open Verif Verif.Spec

theorem handle_no_created {P : Plat} {start : Nat} {t : Int} {rounds : List Round} {ticks : Nat → TickEnv} {s s' : Mgr}
    {evs : List MEv} {ret : MRet} (h : s.step P (.handle start t rounds ticks) = .ok s' evs ret) (id : Nat) (c : Conn) :
    MEv.created id c ∉ evs := by
  intro hc
  simp only [Mgr.step, Mgr.handle] at h
  split at h
  · cases h
  · split at h
    · cases h
    · rename_i hsel
      cases h
      rcases ((selectLoop_quiet P _ rounds start s).2 _ _ _ hsel).only _ hc with ⟨_, hx⟩ | ⟨_, _, _, hx, _⟩ <;> cases hx
    · rename_i s1 evs1 hsel
      have q := (selectLoop_quiet P _ rounds start s).1 _ _ hsel
      have tk := (tickAll_spec P.mem ticks s1.table s1.heap).2
      split at h <;> rename_i ht <;> cases h <;> rw [ht] at tk <;> rw [List.mem_append] at hc <;>
        rcases hc with hc | hc
      · rcases q.only _ hc with ⟨_, hx⟩ | ⟨_, _, _, hx, _⟩ <;> cases hx
      · obtain ⟨_, _, _, _, _, hx, _⟩ := tk _ hc; cases hx
      · rcases q.only _ hc with ⟨_, hx⟩ | ⟨_, _, _, hx, _⟩ <;> cases hx
      · obtain ⟨_, _, _, _, _, hx, _⟩ := tk _ hc; cases hx

/-- Connections start with all counters at zero and no output data. -/
theorem created_fresh (P : Plat) (s s' : Mgr) (ops : List MOp) (tr : MTrace) (h : s.run P ops = some (s', tr))
    (id : Nat) (c : Conn) (hc : MEv.created id c ∈ allEvs tr) :
    c.o2tTimer = 0 ∧ c.o2tSequenceNumber = 0 ∧ c.sequenceValueCount = 0 ∧ c.connectionTimeoutCount = 0 ∧
      c.outputData = [] := by
  induction ops generalizing s tr with
  | nil =>
    simp only [Mgr.run, Option.some.injEq, Prod.mk.injEq] at h
    obtain ⟨rfl, rfl⟩ := h
    simp [allEvs] at hc
  | cons op ops ih =>
    obtain ⟨s1, evs, ret, tr', h1, h2, rfl⟩ := mrun_cons h
    rw [allEvs_cons, List.mem_append] at hc
    rcases hc with hc | hc
    · cases op with
      | forwardOpen host p large e =>
        obtain ⟨stt, data, _, _, hh⟩ := forwardOpen_cases P host p large e s s1 evs ret h1
        rcases hh with ⟨_, rfl, _⟩ | ⟨resp, _, _, r, mult, ep, socks, bs, _, _, _, _, hf, _, rfl, _⟩
        · simp at hc
        · simp only [List.cons_append, List.mem_cons, reduceCtorEq, List.mem_append, List.not_mem_nil, or_false,
            false_or] at hc
          rcases hc with hc | hc
          · obtain ⟨x, hx⟩ := findOrCreate_events _ _ _ _ _ hf _ hc
            cases hx
          · injection hc with _ hc
            rw [hc]
            exact ⟨rfl, rfl, rfl, rfl, rfl⟩
      | handle start t rounds ticks =>
        exact absurd hc (handle_no_created h1 id c)
      | otherOpen inc mc p2p =>
        simp only [Mgr.step] at h1
        split at h1 <;> cases h1
        simp at hc
      | forwardClose ptr reply =>
        simp only [Mgr.step, Mgr.forwardClose] at h1
        repeat' split at h1
        all_goals first | (cases h1; simp at hc) | cases h1
      | hasOpen => simp only [Mgr.step] at h1; cases h1; simp at hc
      | setData i d => simp only [Mgr.step] at h1; split at h1 <;> cases h1 <;> simp at hc
      | lock i => simp only [Mgr.step] at h1; split at h1 <;> cases h1 <;> simp at hc
      | release i => simp only [Mgr.step] at h1; cases h1; simp at hc
    · exact ih s1 tr' h2 hc

/-- C35 for a connection of a manager. -/
theorem C35_manager (P : Plat) (inc : BitVec 16) (st : Statics) (s' : Mgr) (ops : List MOp) (tr : MTrace)
    (h : (Mgr.new inc st).run P ops = some (s', tr)) (id : Nat) (c : Conn) (hc : MEv.created id c ∈ allEvs tr)
    (hf : c.t2oFixedSize = true) :
    ∀ e ∈ connTrace id (allEvs tr), ∀ header seq data, IoEv.received header seq data ∈ e.2 →
      data.length = c.t2oDataSize := by
  obtain ⟨c', _, hr⟩ := C51_isolated P inc st s' ops tr h id c hc
  exact C35_fixed_size P.mem c c' _ _ hr hf

/-- C37 and C50 for a connection of a manager: the frame, its numbers and its
destination. -/
theorem C37_C50_manager (P : Plat) (inc : BitVec 16) (st : Statics) (s' : Mgr) (ops : List MOp) (tr : MTrace)
    (h : (Mgr.new inc st).run P ops = some (s', tr)) (id : Nat) (c : Conn) (hc : MEv.created id c ∈ allEvs tr)
    (pre post : IoTrace) (op : ConnOp) (evs : List IoEv) (to : Option EndPoint) (bytes : List Byte)
    (htr : connTrace id (allEvs tr) = pre ++ (op, evs) :: post) (hsent : IoEv.sent to bytes ∈ evs) :
    ∃ now hook count data, op = .tick now hook count ∧ hook.throws = none ∧ data = hook.left.getD (lastWritten [] pre) ∧
      evs = [.asked data, .sent to bytes] ∧ to = c.socket ∧ (c.o2tFixedSize = true → data.length = c.o2tDataSize) ∧
      (data.length + 6 < 65536 →
        bytes = ioFrame c.o2tNetworkConnectionId.toNat ((asks pre + 1) % 2 ^ 32)
          (ioPayload (if hasCount c.transportTypeTrigger then some ((asks pre + 1) % 2 ^ 16) else none)
            (if c.o2tRealTimeFormat then some 1 else none) data)) := by
  obtain ⟨c', _, hr⟩ := C51_isolated P inc st s' ops tr h id c hc
  obtain ⟨_, h2, h3, _, h5⟩ := created_fresh P _ s' ops tr h id c hc
  rw [htr] at hr
  have := C37_C50_transmission P.mem c c' _ pre post op evs to bytes ⟨h2, h3⟩ hr hsent
  rw [h5] at this
  exact this

/-- C38 for a connection of a manager: it never sends faster than the interval the
target granted, counted from the call that opened it. -/
theorem C38_manager (P : Plat) (inc : BitVec 16) (st : Statics) (s' : Mgr) (ops : List MOp) (tr : MTrace)
    (h : (Mgr.new inc st).run P ops = some (s', tr)) (id : Nat) (c : Conn) (hc : MEv.created id c ∈ allEvs tr)
    (hclock : (c.lastHandleTime :: tickTimes ((connTrace id (allEvs tr)).map Prod.fst)).Pairwise (· ≤ ·)) :
    (c.lastHandleTime :: prodTimes (connTrace id (allEvs tr))).Pairwise (fun a b => a + c.o2tAPI.toNat * 1000 ≤ b) := by
  obtain ⟨c', _, hr⟩ := C51_isolated P inc st s' ops tr h id c hc
  obtain ⟨h1, _⟩ := created_fresh P _ s' ops tr h id c hc
  exact C38_never_faster P.mem c c' _ _ h1 hclock hr

/-- C39 for a connection of a manager. -/
theorem C39_manager (P : Plat) (inc : BitVec 16) (st : Statics) (s' : Mgr) (ops : List MOp) (tr : MTrace)
    (h : (Mgr.new inc st).run P ops = some (s', tr)) (id : Nat) (c : Conn) (hc : MEv.created id c ∈ allEvs tr)
    (hapi : c.o2tAPI ≠ 0)
    (hgaps : Steps (fun a b => b < a + 1000000) c.lastHandleTime (tickTimes ((connTrace id (allEvs tr)).map Prod.fst))) :
    ∀ e ∈ connTrace id (allEvs tr), ∀ ev ∈ e.2, IoEv.isReceived ev = true := by
  obtain ⟨c', _, hr⟩ := C51_isolated P inc st s' ops tr h id c hc
  obtain ⟨h1, _, _, h4, _⟩ := created_fresh P _ s' ops tr h id c hc
  exact C39_starved P.mem c c' _ _ ⟨h1, h4⟩ hapi hgaps hr

/-- C40 for a connection of a manager. -/
theorem C40_manager (P : Plat) (inc : BitVec 16) (st : Statics) (s' : Mgr) (ops : List MOp) (tr : MTrace)
    (h : (Mgr.new inc st).run P ops = some (s', tr)) (id : Nat) (c : Conn) (hc : MEv.created id c ∈ allEvs tr)
    (pre post : IoTrace) (now : Nat) (hook : Hook) (count : Int) (evs : List IoEv)
    (htr : connTrace id (allEvs tr) = pre ++ (.tick now hook count, evs) :: post)
    (hopen : ∀ e ∈ pre, IoEv.closed ∉ e.2)
    (hlim : c.connectionTimeoutMultiplier.toNat * c.t2oAPI.toNat < 2 ^ 32)
    (hgaps : Steps (fun a b => c.connectionTimeoutMultiplier.toNat * c.t2oAPI.toNat + (b - a) / 1000 < 2 ^ 32)
      c.lastHandleTime (tickTimes ((connTrace id (allEvs tr)).map Prod.fst))) :
    IoEv.closed ∈ evs ↔
      c.connectionTimeoutMultiplier.toNat * c.t2oAPI.toNat <
        1000 * silence c.lastHandleTime 0 (pre ++ [(.tick now hook count, evs)]) := by
  obtain ⟨c', _, hr⟩ := C51_isolated P inc st s' ops tr h id c hc
  obtain ⟨_, _, _, h4, _⟩ := created_fresh P _ s' ops tr h id c hc
  rw [htr] at hr hgaps
  exact C40_timeout P.mem c c' _ pre post now hook count evs h4 hr hopen hlim hgaps

end Verif.Props
