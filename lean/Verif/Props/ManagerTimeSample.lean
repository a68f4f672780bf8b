import Verif.Props.ManagerTime
import Verif.Props.ManagerWireSample

/-!
# C93: a concrete late reply to a forward open
-/

namespace Verif.Props

open Verif Verif.Spec

def lateOpen1 : ExplicitReply := wireReply (openReply 0xA 0x10001 1 0x1234 7 10000 10000 0 [])
def lateOpen2 : ExplicitReply := wireReply (openReply 0xB 0x10002 2 0x1234 7 10000 10000 0 [])

/-- Both replies come, the first 100 microseconds after the timeout of one second. -/
def lateTcp : TTcp := ⟨repliesAt 0x1234 [(1000100, lateOpen1), (1500000, lateOpen2)], [], [], 0⟩

/-- The hypotheses of `C93_own_connection_violated` are met. -/
example : ∃ (s2 : Mgr) (t2 t3 : TTcp) (x2 : MOp × List MEv × MRet) (c : Conn), s2.heap[0]? = some c ∧ asTarget c = ⟨1, 0x1234, 7, 0x10001⟩ ∧
    ∃ s1, Mgr.stepOn samplePlat (Device.timed (fun _ => none) 1000 0x1234)
      (.forwardOpen "192.168.1.10" sampleParams true { reply := .ub, now := 5 }) s1 t2 =
        some ((s2, t3), x2) := by
  obtain ⟨s1, s2, s3, r1, r2, r3, x1, x2, x3, c, t1, t2, t3, h⟩ := C93_own_connection_violated samplePlat 1 {} (Mgr.new 1 {}) [] [] rfl
    (fun _ => none) 1000 (by decide) 0x1234 "192.168.1.10" sampleParams sampleParams false true { reply := .ub } 5 .ub
    (by decide) (by decide) (by decide) (by decide) ⟨rfl, rfl⟩ ⟨1, 0x1234, 7, 0x10001⟩ ⟨2, 0x1234, 7, 0x10002⟩
    (by decide) (by decide) lateOpen1 lateOpen2 ⟨rfl, by decide, by decide +kernel⟩ ⟨rfl, by decide, by decide +kernel⟩
    ⟨by decide +kernel, by decide +kernel, by decide +kernel, by decide +kernel, by decide +kernel⟩
    _ rfl (by decide) 1000100 1500000 1200000 1600000 [] lateTcp rfl rfl (by decide) (by decide) (by decide)
  exact ⟨s2, _, _, _, c, h.2.2.2.2.2.2.2.2.1, h.2.2.2.2.2.2.2.2.2.1, s1, h.2.2.2.2.1⟩

/-- A manager whose replies come in time. -/
example : Prompt 1000000 0 (repliesAt 0x1234 [(900000, lateOpen1), (1500000, lateOpen2)]) ∧
    ((Mgr.runOn samplePlat (Device.timed (fun _ => none) 1000 0x1234)
      [.forwardOpen "192.168.1.10" sampleParams false { reply := .ub }, .forwardOpen "192.168.1.10" sampleParams true { reply := .ub }]
      (Mgr.new 1 {}) ⟨repliesAt 0x1234 [(900000, lateOpen1), (1500000, lateOpen2)], [], [], 0⟩).map fun q =>
        (q.1.1.table, q.1.2.now, q.2.map (·.2.2))) = some ([(1, 0), (2, 1)], 1500000, [.ptr (some 0), .ptr (some 1)]) := by
  refine ⟨⟨by decide, by decide, trivial⟩, ?_⟩
  decide +kernel

end Verif.Props
