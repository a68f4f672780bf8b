import Verif.Props.ProcessNumbers
import Verif.Props.ManagerSample

/-!
# C98: concrete processes
-/

namespace Verif.Props

open Verif Verif.Spec

/-- Two managers; three opens; a wait; the second manager is destroyed while the program keeps one of its connections. -/
def sampleProc : List POp :=
  [.create 5, .create 9, .call 0 (sampleOpen 0xA 0x50001 1), .call 1 (sampleOpen 0xB 0x50002 2),
   .call 1 (sampleOpen 0xC 0x50003 3), .call 1 (.lock 0), .call 0 (sampleHandle 1000000), .call 1 (.setData 0 [4, 4]),
   .destroy 1, .call 1 (.setData 0 [5, 5]), .create 7, .call 0 (.forwardClose (some 0) (.ok (sampleReply 0 0 0)))]

/-- The serial number and T→O identifier of every open request, in order. -/
def openNumbers (tr : PTrace) : List (Nat × Nat) :=
  tr.flatMap fun e => e.2.1.filterMap fun
    | .request 0x54#8 _ d => some (field d 10 2, field d 6 4)
    | _ => none

/-- C98 non-vacuity: the process runs; its first manager exists, closed nothing of others, and has a history that is
not trivial; all opens are numbered through, and all T→O identifiers are above the number of the first manager. -/
theorem sampleProc_run :
    (({} : Proc).run samplePlat sampleProc).map (fun r => r.1.mgrs.map (·.incarnation)) = some [5, 9, 7] ∧
    (({} : Proc).run samplePlat sampleProc).map (fun r => r.1.mgrs.map (·.table)) = some [[], [], []] ∧
    (({} : Proc).run samplePlat sampleProc).map (fun r => r.1.mgrs.map (·.held)) = some [[], [0], []] ∧
    (({} : Proc).run samplePlat sampleProc).map (fun r => r.1.gone) = some [1] ∧
    (({} : Proc).run samplePlat sampleProc).map (fun r => openNumbers r.2) =
      some [(1, 0x50001), (2, 0x50002), (3, 0x50003)] := by
  decide +kernel

def isCloseOf : POp → Bool
  | .closeOf _ _ _ _ => true
  | _ => false

/-- C98 non-vacuity: the hypotheses of `C98_refines` are met by managers 0 and 2. -/
example : ∃ p tr, ({} : Proc).run samplePlat sampleProc = some (p, tr) ∧ p.mgrs.length = 3 ∧ 0 ∉ p.gone ∧ 2 ∉ p.gone ∧
    NoForeignClose 0 tr ∧ NoForeignClose 2 tr ∧ openCalls tr ≠ [] := by
  have h : (({} : Proc).run samplePlat sampleProc).map (fun r =>
      (r.1.mgrs.length, r.1.gone, r.2.all (fun e => !isCloseOf e.1), (openCalls r.2).length)) = some (3, [1], true, 3) := by
    decide +kernel
  cases hr : ({} : Proc).run samplePlat sampleProc with
  | none => rw [hr] at h; cases h
  | some r =>
    rw [hr] at h
    simp only [Option.map_some, Option.some.injEq, Prod.mk.injEq, List.all_eq_true, Bool.not_eq_true'] at h
    obtain ⟨h1, h2, h3, h4⟩ := h
    have hno : ∀ i, NoForeignClose i r.2 := fun i e he j id reply hop => by
      have := h3 e he
      rw [hop] at this
      cases this
    exact ⟨r.1, r.2, rfl, h1, by rw [h2]; decide, by rw [h2]; decide, hno 0, hno 2, fun h => by rw [h] at h4; cases h4⟩

/-- C98 violated: the random number does not tell managers apart.  The second manager drew 9, but its connections are
numbered above the 5 that the first one drew. -/
theorem C98_incarnation_violated : (({} : Proc).run samplePlat (sampleProc.take 4)).map (fun r =>
      (r.1.mgrs.map (·.incarnation), openNumbers r.2)) = some ([5, 9], [(1, 5 * 65536 + 1), (2, 5 * 65536 + 2)]) := by
  decide +kernel

/-- What a process has after a history: the table of every manager; or why it stopped. -/
inductive After where
  | tables (t : List (List (BitVec 16 × Nat)))
  | stopped (why : Stop)
deriving DecidableEq

def afterProc (P : Plat) (ops : List POp) (op : POp) : Option After :=
  match ({} : Proc).run P ops with
  | none => none
  | some (p, _) =>
    match p.step P op with
    | .ok p' _ _ => some (.tables (p'.mgrs.map (·.table)))
    | .stop _ why => some (.stopped why)
    | .noSuch => none

/-- C98 violated: the program closes the connection of the second manager through the first.  The process is aborted;
without assertions nothing is removed; and if the target of the second connection chose an identifier with the same
low 16 bits, the connection of the first manager is removed and the one to be closed stays open. -/
theorem C98_foreign_close_violated :
    afterProc samplePlat (sampleProc.take 4) (.closeOf 0 1 0 (.ok (sampleReply 0 0 0))) = some (.stopped .aborted) ∧
    afterProc { samplePlat with ndebug := true } (sampleProc.take 4) (.closeOf 0 1 0 (.ok (sampleReply 0 0 0))) =
      some (.tables [[(1, 0)], [(2, 0)]]) ∧
    afterProc samplePlat [.create 5, .create 9, .call 0 (sampleOpen 0xA 0x50001 1), .call 1 (sampleOpen 0xB 0x70001 2)]
      (.closeOf 0 1 0 (.ok (sampleReply 0 0 0))) = some (.tables [[], [(1, 0)]]) := by
  decide +kernel

end Verif.Props
