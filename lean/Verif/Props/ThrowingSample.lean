import Verif.Props.Throwing
import Verif.Props.ManagerSample

/-!
# C84: concrete histories with listeners that throw
-/

namespace Verif.Props

open Verif Verif.Spec

/-- The exception of the sample listeners. -/
def sampleExn : Exn := .runtime "listener"

/-- As `sampleHandle`; the listeners of the connections in the list throw. -/
def sampleThrow (now : Nat) (ids : List Nat) : MOp :=
  .handle now 5 [] fun id => ⟨now, { left := some [1, 2], throws := if id ∈ ids then some sampleExn else none }, 22⟩

/-- Datagrams sent by a connection. -/
def datagrams (id : Nat) (tr : MTrace) : Nat :=
  (connTrace id (allEvs tr)).countP fun d => d.2.any fun e => match e with
    | .sent _ _ => true
    | _ => false

/-- C84, C41 violated: a close listener that throws leaves the connection open; at the next call it
runs again.  If it then returns the connection is removed. -/
theorem C84_closed_twice_violated :
    summary ((Mgr.new 1 {}).run samplePlat [sampleOpen 0xA 0x10001 1, sampleThrow 41000000 [0], .hasOpen,
      sampleThrow 42000000 []]) =
    some ⟨[], [], [], [2, 0, 0], [.ptr (some 0), .threw sampleExn, .bool true, .unit]⟩ := by
  decide +kernel

/-- C84 violated: the exception of the send listener of connection 1 makes the manager forget that
it has closed connection 0, whose close listener returned; it runs again at the next call. -/
theorem C84_removal_lost_violated :
    summary ((Mgr.new 1 {}).run samplePlat [sampleOpen 0xA 0x10001 1, sampleOpen 0xB 0x10002 2,
      .handle 0 5 [.ready (.dgram (sampleDgram 0x10002 [6, 6])) [] 1]
        (fun id => ⟨if id = 0 then 41000000 else 11000000, { throws := if id = 1 then some sampleExn else none }, 22⟩),
      .hasOpen, .handle 0 5 [] (fun id => ⟨if id = 0 then 42000000 else 12000000, {}, 22⟩)]) =
    some ⟨[(2, 1)], [], [(1, [1, 0, 6, 6])], [2, 0, 0],
      [.ptr (some 0), .ptr (some 1), .threw sampleExn, .bool true, .unit]⟩ := by
  decide +kernel

/-- A connection whose close listener threw at 41 ms; then a datagram arrives. -/
def sampleRevived : List MOp :=
  [sampleOpen 0xA 0x10001 1, sampleThrow 30000000 [], sampleThrow 41000000 [0],
    .handle 41000000 5 [.ready (.dgram (sampleDgram 0x10001 [6, 6])) [] 41500000]
      (fun _ => ⟨42000000, { left := some [1, 2] }, 22⟩)]

/-- C84 violated: a connection whose close listener has run receives again, sends again and stays
open. -/
theorem C84_revived_violated :
    summary ((Mgr.new 1 {}).run samplePlat sampleRevived) =
      some ⟨[(1, 0)], [], [(0, [1, 0, 6, 6])], [1, 0, 0], [.ptr (some 0), .unit, .threw sampleExn, .unit]⟩ ∧
    ((Mgr.new 1 {}).run samplePlat sampleRevived).map (fun r => datagrams 0 r.2) = some 2 := by
  constructor <;> decide +kernel

/-- Calls in which the close listener of connection 0 always throws. -/
def sampleStarve : List MOp := [sampleThrow 41000000 [0], sampleThrow 42000000 [0], sampleThrow 900000000 [0]]

/-- C84 violated: while the close listener of connection 0 throws, connection 1, which should send
every 10 ms and has had no data for 900 ms, neither sends nor is closed. -/
theorem C84_starved_violated :
    summary ((Mgr.new 1 {}).run samplePlat ([sampleOpen 0xA 0x10001 1, sampleOpen 0xB 0x10002 2] ++ sampleStarve)) =
      some ⟨[(1, 0), (2, 1)], [], [], [3, 0, 0],
        [.ptr (some 0), .ptr (some 1), .threw sampleExn, .threw sampleExn, .threw sampleExn]⟩ ∧
    ((Mgr.new 1 {}).run samplePlat ([sampleOpen 0xA 0x10001 1, sampleOpen 0xB 0x10002 2] ++ sampleStarve)).map
      (fun r => (datagrams 1 r.2, (connTrace 1 (allEvs r.2)).length)) = some (0, 0) := by
  constructor <;> decide +kernel

/-- A listener of the connection threw in this call. -/
def throwsIn (id : Nat) (evs : List MEv) : Bool :=
  evs.any fun e => match e with
    | .conn i (.tick _ hook _) io => decide (i = id) && !io.isEmpty && hook.throws.isSome
    | _ => false

theorem throwsIn_spec (id : Nat) (evs : List MEv) (h : throwsIn id evs = true) :
    ∃ now hook count io x, MEv.conn id (.tick now hook count) io ∈ evs ∧ io ≠ [] ∧ hook.throws = some x := by
  obtain ⟨e, hm, he⟩ := List.any_eq_true.mp h
  cases e with
  | conn i op io =>
    cases op with
    | tick now hook count =>
      simp only [Bool.and_eq_true, decide_eq_true_eq, Bool.not_eq_true', List.isEmpty_eq_false_iff,
        Option.isSome_iff_exists] at he
      obtain ⟨⟨rfl, hne⟩, x, hx⟩ := he
      exact ⟨now, hook, count, io, x, hm, hne, hx⟩
    | _ => simp at he
  | _ => simp at he

/-- The hypotheses of `C84_starves` hold of the sample. -/
example : ∃ s tr s' tr', (Mgr.new 1 {}).run samplePlat [sampleOpen 0xA 0x10001 1, sampleOpen 0xB 0x10002 2] = some (s, tr) ∧
    s.run samplePlat sampleStarve = some (s', tr') ∧ (∀ op ∈ sampleStarve, isHandle op = true) ∧ (1, 0) ∈ s.table ∧
    (2, 1) ∈ s.table ∧ tr'.length = 3 ∧
    ∀ e ∈ tr', ∃ now hook count io x, MEv.conn 0 (.tick now hook count) io ∈ e.2.1 ∧ io ≠ [] ∧ hook.throws = some x := by
  have h : ((Mgr.new 1 {}).run samplePlat [sampleOpen 0xA 0x10001 1, sampleOpen 0xB 0x10002 2]).map (fun r =>
      (decide ((1, 0) ∈ r.1.table ∧ (2, 1) ∈ r.1.table), (r.1.run samplePlat sampleStarve).map fun q =>
        (q.2.length, q.2.all fun e => throwsIn 0 e.2.1))) = some (true, some (3, true)) := by decide +kernel
  cases hr : (Mgr.new 1 {}).run samplePlat [sampleOpen 0xA 0x10001 1, sampleOpen 0xB 0x10002 2] with
  | none => rw [hr] at h; cases h
  | some r =>
    rw [hr] at h
    simp only [Option.map_some, Option.some.injEq, Prod.mk.injEq, decide_eq_true_eq] at h
    cases hq : r.1.run samplePlat sampleStarve with
    | none => rw [hq] at h; cases h.2
    | some q =>
      rw [hq] at h
      simp only [Option.map_some, Option.some.injEq, Prod.mk.injEq] at h
      exact ⟨r.1, r.2, q.1, q.2, rfl, hq, by simp [sampleStarve, sampleThrow, isHandle], h.1.1, h.1.2, h.2.1,
        fun e he => throwsIn_spec 0 _ (List.all_eq_true.mp h.2.2 e he)⟩

/-- The hypothesis of `C84_receive` holds of the sample: the datagram runs the listener. -/
example : ((Mgr.new 1 {}).run samplePlat [sampleOpen 0xA 0x10001 1]).map (fun r => (decide (r.1.sockets ≠ []),
    match r.1.deliver samplePlat (.dgram (sampleDgram 0x10001 [6, 6])) with
    | .ok (_, evs) => evs
    | _ => [])) = some (true, [.conn 0 (.recv [1, 0, 6, 6]) [.received 0 1 [6, 6]]]) := by decide +kernel

/-- The hypotheses of `C84_dead_again` hold of a new connection without data for 41 ms. -/
example : IoEv.closed ∈ (({ t2oAPI := 10000, connectionTimeoutMultiplier := 4 } : Conn).notifyTick 41000000 {} 0).2.1 ∧
    (({ t2oAPI := 10000, connectionTimeoutMultiplier := 4 } : Conn).notifyTick 41000000 {} 0).1.connectionTimeoutCount.toNat +
      (90000000 - 0) / 1000 < 2 ^ 32 := by decide +kernel

/-- The hypotheses of `C37_sends` hold: a fixed-size connection whose listener leaves two bytes. -/
example : (({ o2tFixedSize := true, o2tDataSize := 2, t2oAPI := 10000, connectionTimeoutMultiplier := 4, o2tAPI := 1 } :
    Conn).run Mem.strict [.tick 5000000 { left := some [1, 2] } 0]).map Prod.snd =
      some [(.tick 5000000 { left := some [1, 2] } 0, [.asked [1, 2], .sent none (ioFrame 0 1 [1, 2])])] := by
  decide +kernel

end Verif.Props
