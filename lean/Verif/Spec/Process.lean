import Verif.Model.Process
import Verif.Spec.Manager

/-!
# Specification vocabulary for processes with several connection managers
-/

namespace Verif.Spec

open Verif

/-- A history of a process. -/
abbrev PTrace := List (POp × List MEv × MRet)

/-- The random numbers of the managers made in a history, in order. -/
def incarnations : PTrace → List (BitVec 16)
  | [] => []
  | (.create inc, _, _) :: tr => inc :: incarnations tr
  | _ :: tr => incarnations tr

/-- The forward opens of a history, in order: by which manager, and the call. -/
def openCalls : PTrace → List (Nat × MOp)
  | [] => []
  | (.call i op, _, _) :: tr => if MOp.isOpen op then (i, op) :: openCalls tr else openCalls tr
  | _ :: tr => openCalls tr

/-- The number of forward opens of a kind in a history, by any manager. -/
def countCalls (f : MOp → Bool) (tr : PTrace) : Nat := (openCalls tr).countP fun c => f c.2

/-- The random number of the manager that made the first forward open for a point-to-point T→O connection. -/
def firstP2P (tr : PTrace) : Option (BitVec 16) :=
  ((openCalls tr).find? fun c => MOp.isP2P c.2).bind fun c => (incarnations tr)[c.1]?

/-- What a history of the process is for manager `i`: its own calls, and the opens of the others, of which only their
effect on the shared counters matters.  `incs`: the numbers of the managers there are. -/
def viewOf (i : Nat) (incs : List (BitVec 16)) : PTrace → MTrace
  | [] => []
  | (.create inc, _, _) :: tr => viewOf i (incs ++ [inc]) tr
  | (.call j op, evs, ret) :: tr =>
    if j = i then (op, evs, ret) :: viewOf i incs tr
    else if MOp.isOpen op then
      (.otherOpen (incs[j]?.getD 0) (MOp.isMulticast op) (MOp.isP2P op), [], .unit) :: viewOf i incs tr
    else viewOf i incs tr
  | _ :: tr => viewOf i incs tr

/-- No connection of another manager is closed through manager `i`. -/
def NoForeignClose (i : Nat) (tr : PTrace) : Prop := ∀ e ∈ tr, ∀ j id reply, e.1 ≠ .closeOf i j id reply

end Verif.Spec
