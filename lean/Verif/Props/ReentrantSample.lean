import Verif.Props.ReentrantSafe

/-!
# C78: concrete histories with listeners that make calls
-/

namespace Verif.Props

open Verif Verif.Spec

/-- Wait without arrivals and tick everything at this time; the listeners make these calls. -/
def sampleHandleR (now : Nat) (calls : Nat → List MOp) : Mgr.MOpR :=
  .handle now 5 [] fun id => { now := now, hook := { left := some [1, 2] }, count := 22, calls := calls id }

/-- Two connections are open: 0 with key 1 and 1 with key 2. -/
def sampleTwo : List Mgr.MOpR := [.plain (sampleOpen 0xA 0x10001 1), .plain (sampleOpen 0xB 0x10002 2)]

/-- What can be compared of a result: table, ids ticked in order, how often the first
three connections were closed, which of them can still be locked, and how the calls
returned. -/
structure SummaryR where
  table : List (BitVec 16 × Nat)
  ticks : List Nat
  closed : List Nat
  alive : List Bool
  rets : List MRet
deriving DecidableEq

def summaryR (r : Option (Mgr × RTrace)) : Option SummaryR :=
  r.map fun r => ⟨r.1.table, ticked (allEvsR r.2),
    [0, 1, 2].map fun i => (connTrace i (allEvsR r.2)).countP fun d => decide (IoEv.closed ∈ d.2),
    [0, 1, 2].map r.1.alive, r.2.map fun e => e.2.2⟩

/-- Did the operation stop, and why? -/
def stops (P : Plat) (ops : List Mgr.MOpR) (op : Mgr.MOpR) : Option Stop :=
  match (Mgr.new 1 {}).runR P ops with
  | none => none
  | some (s, _) => match s.stepR P op with
    | .stop _ why => some why
    | .ok _ _ _ => none

theorem stops_spec {P : Plat} {ops : List Mgr.MOpR} {op : Mgr.MOpR} {why : Stop} (h : stops P ops op = some why) :
    ∃ s tr, (Mgr.new 1 {}).runR P ops = some (s, tr) ∧ ∃ evs, s.stepR P op = .stop evs why := by
  unfold stops at h
  split at h
  · cases h
  · rename_i s tr hr
    split at h
    · rename_i evs w hs
      injection h with h
      subst h
      exact ⟨s, tr, hr, evs, hs⟩
    · cases h

/-- A history: the send listener of connection 0 opens a third connection, which is
ticked in the same call; the send listener of connection 1 writes data; then the
close listener of connection 0 closes connection 1, which is not ticked any more. -/
def sampleHistoryR : List Mgr.MOpR :=
  sampleTwo ++
  [sampleHandleR 11000000 fun id => if id = 0 then [sampleOpen 0xC 0x10003 3] else if id = 1 then [.setData 1 [5, 6]] else [],
   sampleHandleR 52000000 fun id => if id = 0 then [.forwardClose (some 1) (.ok (sampleReply 0 0 0))] else []]

theorem sampleHistoryR_flat : ∀ op ∈ sampleHistoryR, opFlat op := by
  intro op hop
  simp only [sampleHistoryR, sampleTwo, List.cons_append, List.nil_append, List.mem_cons, List.not_mem_nil, or_false] at hop
  rcases hop with rfl | rfl | rfl | rfl
  · trivial
  · trivial
  · refine ⟨by intro r hr; simp at hr, fun id o ho => ?_⟩
    simp only at ho
    split at ho
    · simp only [List.mem_singleton] at ho; rw [ho]; rfl
    · split at ho
      · simp only [List.mem_singleton] at ho; rw [ho]; rfl
      · simp at ho
  · refine ⟨by intro r hr; simp at hr, fun id o ho => ?_⟩
    simp only at ho
    split at ho
    · simp only [List.mem_singleton] at ho; rw [ho]; rfl
    · simp at ho

theorem sampleHistoryR_run : summaryR ((Mgr.new 1 {}).runR samplePlat sampleHistoryR) =
    some ⟨[], [0, 1, 2, 0, 2], [1, 0, 1], [false, false, false], [.ptr (some 0), .ptr (some 1), .unit, .unit]⟩ := by
  decide +kernel

/-- The sample meets the hypotheses of the theorems of C78. -/
example : ∃ s tr, (Mgr.new 1 {}).runR samplePlat sampleHistoryR = some (s, tr) ∧ (∀ op ∈ sampleHistoryR, opFlat op) ∧
    ∀ e ∈ tr, (∃ id cop io, MEv.conn id cop io ∈ evsOf e.2.1 ∧ IoEv.closed ∈ io) → e.2.2 = .unit := by
  have h := sampleHistoryR_run
  have h2 : ((Mgr.new 1 {}).runR samplePlat sampleHistoryR).map (fun r =>
      r.2.all fun e => decide (e.2.2 = .unit) || (evsOf e.2.1).all fun ev => match ev with
        | .conn _ _ io => decide (IoEv.closed ∉ io)
        | _ => true) = some true := by decide +kernel
  cases hr : (Mgr.new 1 {}).runR samplePlat sampleHistoryR with
  | none => rw [hr] at h; cases h
  | some r =>
    refine ⟨r.1, r.2, rfl, sampleHistoryR_flat, fun e he => ?_⟩
    rw [hr] at h2
    simp only [Option.map_some, Option.some.injEq] at h2
    have h3 := List.all_eq_true.mp h2 e he
    rw [Bool.or_eq_true] at h3
    rintro ⟨id, cop, io, hm, hcl⟩
    rcases h3 with h3 | h3
    · simpa using h3
    · have := List.all_eq_true.mp h3 _ hm
      simp at this
      exact absurd hcl this

/-- C78_harmless: the calls of a listener that writes data and closes another
connection are harmless in a state that is reached. -/
example : ∃ s tr, (Mgr.new 1 {}).runR samplePlat sampleTwo = some (s, tr) ∧ s.sockets ≠ [] ∧
    ∀ id c, s.heap[id]? = some c → ∀ op ∈ (if id = 0 then [MOp.setData 0 [1], .lock 1, .forwardClose (some 1) (.ok (sampleReply 0 0 0))] else []),
      Harmless s.heap (c.t2oNetworkConnectionId.setWidth 16) op := by
  have h : ((Mgr.new 1 {}).runR samplePlat sampleTwo).map (fun r =>
      (r.1.heap.map fun c => c.t2oNetworkConnectionId, decide (r.1.sockets ≠ []))) = some ([0x10001, 0x10002], true) := by
    decide +kernel
  cases hr : (Mgr.new 1 {}).runR samplePlat sampleTwo with
  | none => rw [hr] at h; cases h
  | some r =>
    rw [hr] at h
    simp only [Option.map_some, Option.some.injEq, Prod.mk.injEq, decide_eq_true_eq] at h
    have hget : ∀ (i : Nat) (c : Conn), r.1.heap[i]? = some c → ([0x10001, 0x10002] : List (BitVec 32))[i]? = some c.t2oNetworkConnectionId := by
      intro i c hc
      rw [← h.1, List.getElem?_map, hc]
      rfl
    refine ⟨r.1, r.2, rfl, h.2, fun id c hc op hop => ?_⟩
    split at hop
    · rename_i hid
      subst hid
      have h0 := hget 0 c hc
      simp only [List.mem_cons, List.not_mem_nil, or_false] at hop
      rcases hop with rfl | rfl | rfl
      · trivial
      · trivial
      · refine ⟨by simp, fun i d hi hd => ?_⟩
        injection hi with hi
        subst hi
        have h1 := hget 1 d hd
        simp only [List.getElem?_cons_zero, List.getElem?_cons_succ, Option.some.injEq] at h0 h1
        rw [← h0, ← h1]
        decide
    · simp at hop

/-- C78 violated: a close listener that calls `forwardClose` for its own connection,
as a user would to tell the target. -/
theorem C78_close_in_close_listener_violated :
    ∃ s tr, (Mgr.new 1 {}).runR samplePlat sampleTwo = some (s, tr) ∧
      ∃ evs, s.stepR samplePlat (sampleHandleR 52000000 fun id =>
        if id = 0 then [.forwardClose (some 0) (.ok (sampleReply 0 0 0))] else []) = .stop evs .ub :=
  stops_spec (by decide +kernel)

/-- C78 violated: a send listener that calls `forwardClose` for its own connection. -/
theorem C78_close_in_send_listener_violated :
    ∃ s tr, (Mgr.new 1 {}).runR samplePlat sampleTwo = some (s, tr) ∧
      ∃ evs, s.stepR samplePlat (sampleHandleR 11000000 fun id =>
        if id = 0 then [.forwardClose (some 0) (.ok (sampleReply 0 0 0))] else []) = .stop evs .ub :=
  stops_spec (by decide +kernel)

/-- C78 violated: a close listener that calls `handleConnections`; the nested call
removes the entry the outer one is at. -/
theorem C78_handle_in_close_listener_violated :
    ∃ s tr, (Mgr.new 1 {}).runR samplePlat sampleTwo = some (s, tr) ∧
      ∃ evs, s.stepR samplePlat (sampleHandleR 52000000 fun id =>
        if id = 0 then [sampleHandle 53000000] else []) = .stop evs .ub :=
  stops_spec (by decide +kernel)

/-- C78 violated: a close listener that opens the connection again; the target gives
the same T→O identifier, whose key is still taken, and the pointer returned is
expired from the start. -/
theorem C78_reopen_in_close_listener_violated :
    summaryR ((Mgr.new 1 {}).runR samplePlat [.plain (sampleOpen 0xA 0x10001 1),
      sampleHandleR 52000000 fun id => if id = 0 then [sampleOpen 0xB 0x10001 2] else []]) =
    some ⟨[], [0], [1, 0, 0], [false, false, false], [.ptr (some 0), .unit]⟩ := by
  decide +kernel

/-- C78 violated: connection 0 has timed out; the send listener of connection 1 closes
0 and opens it again with the same T→O identifier; the new connection, 2, is open
and is then removed with the key of 0, without its close listener having run. -/
theorem C78_new_connection_removed_violated :
    summaryR ((Mgr.new 1 {}).runR samplePlat (sampleTwo ++
      [.handle 0 5 [] fun id => ⟨⟨if id = 0 then 41000000 else 11000000, { left := some [1, 2] }, 22⟩,
        if id = 1 then [.forwardClose (some 0) (.ok (sampleReply 0 0 0)), sampleOpen 0xC 0x10001 3] else []⟩])) =
    some ⟨[(2, 1)], [0, 1], [1, 0, 0], [false, true, false], [.ptr (some 0), .ptr (some 1), .unit]⟩ := by
  decide +kernel

/-- The O→T sequence numbers transmitted, in order of transmission: the sequenced
address item of an I/O frame has the number at offset 10. -/
def sentNumbers (evs : List MEv) : List Nat :=
  evs.flatMap fun e => match e with
    | .conn _ _ io => io.flatMap fun v => match v with
      | .sent _ bytes => [(bytes.drop 10).take 4 |>.foldr (fun b n => b.toNat + 256 * n) 0]
      | _ => []
    | _ => []

/-- C78 violated: a send listener that calls `handleConnections` makes its own
connection transmit number 2 before number 1. -/
theorem C78_out_of_order_violated :
    ((Mgr.new 1 {}).runR samplePlat [.plain (sampleOpen 0xA 0x10001 1),
      sampleHandleR 11000000 fun id => if id = 0 then [sampleHandle 22000000] else []]).map
      (fun r => sentNumbers (allEvsR r.2)) = some [2, 1] := by
  decide +kernel

/-- Without the nested call the numbers are in order. -/
example : ((Mgr.new 1 {}).runR samplePlat [.plain (sampleOpen 0xA 0x10001 1), sampleHandleR 11000000 fun _ => [],
      sampleHandleR 22000000 fun _ => []]).map (fun r => sentNumbers (allEvsR r.2)) = some [1, 2] := by
  decide +kernel

end Verif.Props
