import Verif.Props.ProcessOrder
import Verif.Props.ProcessSample

/-!
# C101: concrete processes
-/

namespace Verif.Props

open Verif Verif.Spec

/-- Two managers. -/
def twoManagers : Proc := { mgrs := [Mgr.new 5 {}, Mgr.new 9 {}] }

/-- Calls of two managers, one after the other; -/
def calmCalls : Calls :=
  [(0, sampleOpen 0xA 0x50001 1), (1, sampleOpen 0xB 0x50002 2), (1, .lock 0), (1, .setData 0 [4, 4]),
   (1, sampleHandle 1000000), (0, .setData 0 [7, 7]), (0, sampleHandle 9000000),
   (0, .forwardClose (some 0) (.ok (sampleReply 0 0 0))), (1, .hasOpen)]

/-- and the same calls mixed. -/
def mixedCalls : Calls :=
  [(0, sampleOpen 0xA 0x50001 1), (0, .setData 0 [7, 7]), (1, sampleOpen 0xB 0x50002 2), (0, sampleHandle 9000000),
   (1, .lock 0), (0, .forwardClose (some 0) (.ok (sampleReply 0 0 0))), (1, .setData 0 [4, 4]),
   (1, sampleHandle 1000000), (1, .hasOpen)]

theorem calm_mixed : Reordering calmCalls mixedCalls := by
  refine ⟨fun i => ?_, rfl⟩
  by_cases h0 : 0 = i
  · subst h0; rfl
  · by_cases h1 : 1 = i
    · subst h1; rfl
    · simp [callsOf, calmCalls, mixedCalls, h0, h1]

/-- C101 non-vacuity: the hypotheses of `C101_order` are met by a history in which both managers open a connection,
store data and are serviced, and one closes its connection. -/
theorem calm_run :
    (twoManagers.run samplePlat (calmCalls.map fun c => .call c.1 c.2)).map (fun r => r.1.mgrs.map (·.table)) =
      some [[], [(2, 0)]] ∧
    (twoManagers.run samplePlat (calmCalls.map fun c => .call c.1 c.2)).map (fun r => openNumbers r.2) =
      some [(1, 0x50001), (2, 0x50002)] ∧
    (twoManagers.run samplePlat (calmCalls.map fun c => .call c.1 c.2)).map (fun r =>
      [0, 1].map fun i => (doneBy i r.2).map fun e => (e.2.1.length, e.2.2)) =
        some [[(3, .ptr (some 0)), (1, .unit), (2, .unit), (1, .unit)],
          [(3, .ptr (some 0)), (0, .unit), (1, .unit), (2, .unit), (0, .bool true)]] := by
  decide +kernel

/-- C101 violated: if two managers open connections in the other order, their connections have other numbers.  So what
a manager sends depends on the opens of other managers. -/
theorem C101_opens_violated :
    ((twoManagers.run samplePlat [.call 0 (sampleOpen 0xA 0x50001 1), .call 1 (sampleOpen 0xB 0x50002 2)]).map
      fun r => openNumbers (r.2.filter fun e => match e.1 with | .call 0 _ => true | _ => false)) = some [(1, 0x50001)] ∧
    ((twoManagers.run samplePlat [.call 1 (sampleOpen 0xB 0x50002 2), .call 0 (sampleOpen 0xA 0x50001 1)]).map
      fun r => openNumbers (r.2.filter fun e => match e.1 with | .call 0 _ => true | _ => false)) = some [(2, 0x90002)] := by
  decide +kernel

end Verif.Props
