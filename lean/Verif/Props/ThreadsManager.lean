import Verif.Props.ManagerCore

/-!
# C100: which calls of a connection manager use the session
-/

namespace Verif.Props

open Verif Verif.Spec

/-- C100. `handleConnections` never touches the session, so a thread can call it while another makes calls over the
session: of the calls of a manager only `forwardOpen`, `largeForwardOpen` and `forwardClose` send requests. -/
theorem C100_handle (P : Plat) (s s' : Mgr) (op : MOp) (evs : List MEv) (ret : MRet)
    (h : s.step P op = .ok s' evs ret) (a : BitVec 8) (b : EPath) (c : List Byte) (hr : MEv.request a b c ∈ evs) :
    (∃ host p large e, op = .forwardOpen host p large e) ∨ ∃ ptr reply, op = .forwardClose ptr reply := by
  cases op with
  | forwardOpen host p large e => exact .inl ⟨_, _, _, _, rfl⟩
  | forwardClose ptr reply => exact .inr ⟨_, _, rfl⟩
  | otherOpen x y z =>
    simp only [Mgr.step] at h
    split at h <;> cases h
    cases hr
  | hasOpen => cases h; cases hr
  | setData id data =>
    simp only [Mgr.step] at h
    split at h <;> cases h
    · exact absurd (List.mem_singleton.mp hr) (by simp)
    · cases hr
  | lock id =>
    simp only [Mgr.step] at h
    split at h <;> cases h <;> cases hr
  | release id => cases h; cases hr
  | handle start t rounds ticks =>
    exfalso
    simp only [Mgr.step, Mgr.handle] at h
    split at h
    · cases h
    · split at h
      · cases h
      · rename_i s1 evs1 e hsel
        cases h
        obtain ⟨tv, hx⟩ | ⟨id, d, io, hx, _⟩ := ((selectLoop_quiet P _ rounds start s).2 _ _ _ hsel).only _ hr
        · cases hx
        · cases hx
      · rename_i s1 evs1 hsel
        have hq := ((selectLoop_quiet P _ rounds start s).1 _ _ hsel).only
        have tk := (tickAll_spec P.mem ticks s1.table s1.heap).2
        have hno : MEv.request a b c ∉ evs1 ++ (Mgr.tickAll ticks s1.table s1.heap).2.1 := by
          intro he
          rw [List.mem_append] at he
          rcases he with he | he
          · obtain ⟨tv, hx⟩ | ⟨id, d, io, hx, _⟩ := hq _ he
            · cases hx
            · cases hx
          · obtain ⟨_, _, _, _, _, hx, _⟩ := tk _ he
            cases hx
        split at h
        · rename_i heap evs2 keys hta
          cases h
          rw [hta] at hno
          exact hno hr
        · rename_i heap evs2 keys e hta
          cases h
          rw [hta] at hno
          exact hno hr

end Verif.Props
