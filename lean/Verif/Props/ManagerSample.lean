import Verif.Props.ManagerConn
import Verif.Spec.ConnMgr

/-!
# Concrete histories of a manager

They meet the hypotheses of the theorems about managers, and show what the code does
where a natural claim fails.
-/

namespace Verif.Props

open Verif Verif.Spec

/-- A platform without stray reads, with assertions. -/
def samplePlat : Plat := { mem := Mem.strict, aton := fun _ => some 0x0A01A8C0, ndebug := false }

/-- Class 1, two bytes each way, fixed size, multicast O→T, point-to-point T→O, timeout code 0. -/
def sampleParams : ConnectionParameters :=
  { o2tNetworkConnectionParams := 0x2002, t2oNetworkConnectionParams := 0x4002, transportTypeTrigger := 1,
    o2tRPI := 10000, t2oRPI := 10000, originatorVendorId := 0x1234, originatorSerialNumber := 7,
    connectionPath := [0x20, 0x04, 0x24, 0x97] }

/-- An accepting reply: 10 ms both ways. -/
def sampleReply (o2t t2o serial : Nat) : MessageRouterResponse :=
  { service := 0xD4, status := 0, additionalStatus := [], data := openReply o2t t2o serial 0x1234 7 10000 10000 0 [],
    additionalItems := [] }

/-- Open a connection with these identifiers at time 0. -/
def sampleOpen (o2t t2o serial : Nat) : MOp :=
  .forwardOpen "192.168.1.10" sampleParams false { reply := .ok (sampleReply o2t t2o serial) }

/-- A datagram with this identifier carrying sequence count 1 and these bytes. -/
def sampleDgram (id : Nat) (data : List Byte) : List Byte := ioFrame id 1 (ioPayload (some 1) none data)

/-- Wait without arrivals and tick everything at this time. -/
def sampleHandle (now : Nat) : MOp := .handle now 5 [] fun _ => ⟨now, { left := some [1, 2] }, 22⟩

/-- Two connections, a datagram for each, production, closing one, timing out the other. -/
def sampleHistory : List MOp :=
  [sampleOpen 0xA 0x10001 1, sampleOpen 0xB 0x10002 2, .lock 1, .hasOpen,
   .handle 1000000 5 [.ready (.dgram (sampleDgram 0x10002 [7, 8])) [] 2000000,
      .ready (.dgram (sampleDgram 0x10001 [9, 9])) [.dgram (sampleDgram 0x77 [1, 1])] 3000000]
      (fun _ => ⟨12000000, { left := some [1, 2] }, 22⟩),
   .setData 0 [5, 6], .forwardClose (some 0) (.ok (sampleReply 0 0 0)), sampleHandle 90000000, .hasOpen]

/-- What can be compared of a result: table, kept objects, deliveries, how often each of
the first three connections was closed, and how the calls returned. -/
structure Summary where
  table : List (BitVec 16 × Nat)
  held : List Nat
  got : List (Nat × List Byte)
  closed : List Nat
  rets : List MRet
deriving DecidableEq

def closings (id : Nat) (tr : MTrace) : Nat :=
  (connTrace id (allEvs tr)).countP fun d => decide (IoEv.closed ∈ d.2)

def summary (r : Option (Mgr × MTrace)) : Option Summary :=
  r.map fun r => ⟨r.1.table, r.1.held, deliveries (allEvs r.2), [closings 0 r.2, closings 1 r.2, closings 2 r.2],
    r.2.map fun e => e.2.2⟩

theorem sampleHistory_run : summary ((Mgr.new 1 {}).run samplePlat sampleHistory) =
    some ⟨[], [1], [(1, [1, 0, 7, 8]), (0, [1, 0, 9, 9])], [0, 1, 0],
      [.ptr (some 0), .ptr (some 1), .unit, .bool true, .unit, .unit, .unit, .unit, .bool false]⟩ := by
  decide +kernel

/-- The sample meets the hypotheses of the theorems about runs of a new manager. -/
theorem sample_reachable : ∃ s tr, (Mgr.new 1 {}).run samplePlat sampleHistory = some (s, tr) := by
  have h := sampleHistory_run
  cases hr : (Mgr.new 1 {}).run samplePlat sampleHistory with
  | none => rw [hr] at h; cases h
  | some r => exact ⟨r.1, r.2, rfl⟩

/-- C33 violated: the target accepts a second connection whose identifier has the
same low 16 bits; the caller gets a pointer that is already expired. -/
theorem C33_collision_violated :
    ((Mgr.new 1 {}).run samplePlat [sampleOpen 0xA 0x10001 1, sampleOpen 0xB 0x20001 2]).map
      (fun r => (r.1.table, r.2.map fun e => e.2.2)) = some ([(1, 0)], [.ptr (some 0), .ptr (some 1)]) ∧
    ((Mgr.new 1 {}).run samplePlat [sampleOpen 0xA 0x10001 1, sampleOpen 0xB 0x20001 2]).map
      (fun r => (r.1.alive 0, r.1.alive 1)) = some (true, false) := by
  decide +kernel

/-- C34 violated: data for identifier 0x990001 is delivered to connection 0x10001. -/
theorem C34_misdelivered_violated :
    summary ((Mgr.new 1 {}).run samplePlat [sampleOpen 0xA 0x10001 1,
      .handle 0 5 [.ready (.dgram (sampleDgram 0x990001 [6, 6])) [] 1] fun _ => ⟨0, {}, 22⟩]) =
    some ⟨[(1, 0)], [], [(0, [1, 0, 6, 6])], [0, 0, 0], [.ptr (some 0), .unit]⟩ := by
  decide +kernel

/-- C47: only the first of two bytes of data arrives (and the datagram ends there);
the connection is given a zero for the other. -/
theorem C47_invented_violated :
    summary ((Mgr.new 1 {}).run samplePlat [sampleOpen 0xA 0x10001 1,
      .handle 0 5 [.ready (.dgram ((sampleDgram 0x10001 [6, 6]).take 21)) [] 1] fun _ => ⟨0, {}, 22⟩]) =
    some ⟨[(1, 0)], [], [(0, [1, 0, 6, 0])], [0, 0, 0], [.ptr (some 0), .unit]⟩ := by
  decide +kernel

/-- C41 violated without the assumption on `sendto`: connection 0 times out and is
told so; connection 1 transmits only part of its datagram, which throws, so
connection 0 stays in the table and is told again by the next call. -/
theorem C41_closed_twice_violated :
    summary ((Mgr.new 1 {}).run samplePlat [sampleOpen 0xA 0x10001 1, sampleOpen 0xB 0x10002 2,
      .handle 0 5 [.ready (.dgram (sampleDgram 0x10002 [6, 6])) [] 1]
        (fun id => ⟨if id = 0 then 41000000 else 11000000, { left := some [1, 2] }, 5⟩),
      .handle 0 5 [] (fun id => ⟨if id = 0 then 42000000 else 12000000, { left := some [1, 2] }, 22⟩)]) =
    some ⟨[(2, 1)], [], [(1, [1, 0, 6, 6])], [2, 0, 0],
      [.ptr (some 0), .ptr (some 1), .threw (.system 0), .unit]⟩ := by
  decide +kernel

/-- C42 violated for a stale pointer: connection 0 times out while the user keeps it;
connection 1 is opened with the same low 16 bits; closing 0 removes 1. -/
theorem C42_removes_other_violated :
    summary ((Mgr.new 1 {}).run samplePlat [sampleOpen 0xA 0x10001 1, .lock 0, sampleHandle 41000000,
      sampleOpen 0xB 0x20001 2, .hasOpen, .forwardClose (some 0) (.ok (sampleReply 0 0 0)), .hasOpen]) =
    some ⟨[], [0], [], [1, 0, 0],
      [.ptr (some 0), .unit, .unit, .ptr (some 1), .bool true, .unit, .bool false]⟩ := by
  decide +kernel

/-- C42 violated for a stale pointer: closing a connection that timed out aborts. -/
theorem C42_aborts_violated :
    ∃ s tr, (Mgr.new 1 {}).run samplePlat [sampleOpen 0xA 0x10001 1, .lock 0, sampleHandle 41000000] = some (s, tr) ∧
      ∃ evs, s.step samplePlat (.forwardClose (some 0) (.ok (sampleReply 0 0 0))) = .stop evs .aborted := by
  have h : (((Mgr.new 1 {}).run samplePlat [sampleOpen 0xA 0x10001 1, .lock 0, sampleHandle 41000000]).map fun r =>
      match r.1.step samplePlat (.forwardClose (some 0) (.ok (sampleReply 0 0 0))) with
      | .stop _ .aborted => true
      | _ => false) = some true := by decide +kernel
  cases hr : (Mgr.new 1 {}).run samplePlat [sampleOpen 0xA 0x10001 1, .lock 0, sampleHandle 41000000] with
  | none => rw [hr] at h; cases h
  | some r =>
    refine ⟨r.1, r.2, rfl, ?_⟩
    rw [hr] at h
    simp only [Option.map_some, Option.some.injEq] at h
    split at h
    · exact ⟨_, by assumption⟩
    · cases h

/-- C49 non-vacuity: datagrams that are dropped keep the loop going. -/
example : ∃ s tr, (Mgr.new 1 {}).run samplePlat [sampleOpen 0xA 0x10001 1] = some (s, tr) ∧ s.sockets ≠ [] ∧
    s.deliver samplePlat (.dgram (sampleDgram 0x77 [1, 1])) = .ok (s, []) := by
  have h : ((Mgr.new 1 {}).run samplePlat [sampleOpen 0xA 0x10001 1]).map (fun r =>
      decide (r.1.sockets ≠ []) && decide (r.1.deliver samplePlat (.dgram (sampleDgram 0x77 [1, 1])) = .ok (r.1, []))) =
      some true := by decide +kernel
  cases hr : (Mgr.new 1 {}).run samplePlat [sampleOpen 0xA 0x10001 1] with
  | none => rw [hr] at h; cases h
  | some r =>
    rw [hr] at h
    simp only [Option.map_some, Option.some.injEq, Bool.and_eq_true, decide_eq_true_eq] at h
    exact ⟨r.1, r.2, rfl, h.1, h.2⟩

/-- Every datagram sent in this trace was sent whole (a test of `SendsWhole`). -/
def sendsWholeB (tr : MTrace) : Bool :=
  (allEvs tr).all fun e => match e with
    | .conn _ (.tick _ _ count) io => io.all fun ev => match ev with
      | .sent _ bytes => decide (count = -1 ∨ count = bytes.length) && decide (bytes.length < 2 ^ 63)
      | _ => true
    | _ => true

theorem sendsWholeB_spec (tr : MTrace) (h : sendsWholeB tr = true) : SendsWhole tr := by
  intro id now hook count evs hm to bytes hs
  have h1 := List.all_eq_true.mp h _ hm
  have h2 := List.all_eq_true.mp h1 _ hs
  simpa using h2

/-- No listener of a tick threw in this trace (a test of `ListenersReturn`). -/
def listenersReturnB (tr : MTrace) : Bool :=
  (allEvs tr).all fun e => match e with
    | .conn _ (.tick _ hook _) io => io.isEmpty || decide (hook.throws = none)
    | _ => true

theorem listenersReturnB_spec (tr : MTrace) (h : listenersReturnB tr = true) : ListenersReturn tr := by
  intro id now hook count evs hm hne
  have h1 := List.all_eq_true.mp h _ hm
  simpa [hne] using h1

/-- C41: the sample history satisfies the assumptions on `sendto` and on the listeners. -/
example : ∃ s tr, (Mgr.new 1 {}).run samplePlat sampleHistory = some (s, tr) ∧ SendsWhole tr ∧ ListenersReturn tr := by
  have h : ((Mgr.new 1 {}).run samplePlat sampleHistory).map (fun r => sendsWholeB r.2 && listenersReturnB r.2) =
    some true := by decide +kernel
  cases hr : (Mgr.new 1 {}).run samplePlat sampleHistory with
  | none => rw [hr] at h; cases h
  | some r =>
    rw [hr] at h
    simp only [Option.map_some, Option.some.injEq, Bool.and_eq_true] at h
    exact ⟨r.1, r.2, rfl, sendsWholeB_spec _ h.1, listenersReturnB_spec _ h.2⟩

/-- C29, C30, C31: two opens of the sample with their requests. -/
example : ((Mgr.new 3 {}).run samplePlat [sampleOpen 0xA 0x10001 1, .otherOpen 9 true true, sampleOpen 0xB 0x10002 2]).map
    (fun r => (allEvs r.2).filterMap fun e => match e with
      | .request _ _ d => some (field d 10 2, field d 2 4, field d 6 4, field d 26 2, field d 32 2)
      | _ => none) = some [(1, 1, 0x30001, 0x2004, 0x4004), (3, 3, 0x30003, 0x2004, 0x4004)] := by
  decide +kernel

end Verif.Props
