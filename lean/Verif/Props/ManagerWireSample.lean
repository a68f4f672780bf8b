import Verif.Props.ManagerWire
import Verif.Props.AgreementSample

/-!
# C83: a concrete history over a session
-/

namespace Verif.Props

open Verif Verif.Spec

/-- The reply frames for two forward opens and a forward close. -/
def managerReplies : List ExplicitReply :=
  [wireReply (openReply 0xA 0x10001 1 0x1234 7 10000 10000 0 []), wireReply (openReply 0xB 0x10002 2 0x1234 7 10000 10000 0 []),
   wireReply []]
/-- The socket after the session was granted, with one byte too many for the replies. -/
def managerTcp : Tcp := ⟨bytewise (replyStream 0x1234 managerReplies ++ [0xEE]), [], []⟩
/-- The answers given here are not used. -/
def managerOps : List MOp :=
  [.forwardOpen "192.168.1.10" sampleParams false { reply := .ub }, sampleHandle 1000,
   .forwardOpen "192.168.1.10" sampleParams true { reply := .ub }, .forwardClose (some 0) .ub, .hasOpen]

theorem managerOps_run : ((Mgr.runOn samplePlat (Device.tcp (fun _ => none) 0x1234) managerOps (Mgr.new 1 {}) managerTcp).map fun q =>
    (q.1.1.table, (stream q.1.2.net).1, q.2.map (·.2.2))) =
    some ([(2, 1)], [0xEE], [.ptr (some 0), .unit, .ptr (some 1), .unit, .bool true]) := by
  decide +kernel

/-- What the target reads. -/
theorem managerOps_read : ((Mgr.runOn samplePlat (Device.tcp (fun _ => none) 0x1234) managerOps (Mgr.new 1 {}) managerTcp).map fun q =>
    q.1.2.sent.map (fun f => (readRequest f).map fun x => (x.1, x.2.1))) =
    some [some (0x54, [0x21, 0, 6, 0, 0x25, 0, 1, 0]), some (0x5B, [0x21, 0, 6, 0, 0x25, 0, 1, 0]),
      some (0x4E, [0x21, 0, 6, 0, 0x25, 0, 1, 0])] := by
  decide +kernel

/-- The hypotheses of `C83_bytes` and `C83_replies` are met by this history. -/
example : ∃ q, Mgr.runOn samplePlat (Device.tcp (fun _ => none) 0x1234) managerOps (Mgr.new 1 {}) managerTcp = some q ∧
    (∀ r ∈ requests (allEvs q.2), Sendable r) ∧ managerReplies.length = (requests (allEvs q.2)).length ∧
    (∀ a ∈ managerReplies, a.Fits) ∧ (stream managerTcp.net).1 = replyStream 0x1234 managerReplies ++ [0xEE] := by
  have h : ((Mgr.runOn samplePlat (Device.tcp (fun _ => none) 0x1234) managerOps (Mgr.new 1 {}) managerTcp).map fun q =>
      (requests (allEvs q.2)).map fun r => (r.path, decide (r.data.length ≤ 65000))) =
      some [(EPath.mk2 6 1, true), (EPath.mk2 6 1, true), (EPath.mk2 6 1, true)] := by decide +kernel
  cases hr : Mgr.runOn samplePlat (Device.tcp (fun _ => none) 0x1234) managerOps (Mgr.new 1 {}) managerTcp with
  | none => rw [hr] at h; cases h
  | some q =>
    rw [hr] at h
    simp only [Option.map_some, Option.some.injEq] at h
    refine ⟨q, rfl, fun r hm => ?_, ?_, ?_, by decide +kernel⟩
    · have : (r.path, decide (r.data.length ≤ 65000)) ∈ (requests (allEvs q.2)).map fun r => (r.path, decide (r.data.length ≤ 65000)) :=
        List.mem_map.mpr ⟨r, hm, rfl⟩
      rw [h] at this
      have h2 : r.path = EPath.mk2 6 1 ∧ r.data.length ≤ 65000 := by simpa using this
      exact sendable_small (by rw [h2.1]; exact .inr (.inl ⟨rfl, rfl⟩)) h2.2
    · have := congrArg List.length h
      rw [List.length_map] at this
      rw [this]; rfl
    · intro a ha
      simp only [managerReplies, List.mem_cons, List.not_mem_nil, or_false] at ha
      rcases ha with rfl | rfl | rfl <;> exact ⟨rfl, by decide, by decide +kernel⟩

end Verif.Props
