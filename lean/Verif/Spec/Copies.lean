import Verif.Model.Copies
import Verif.Spec.Manager

/-!
# Who made the socket of a manager
-/

namespace Verif.Spec

/-- A history. -/
abbrev CopyTrace := List (CopyOp × List MEv × MRet)

/-- For each manager in the order in which they were made, the one that made the bound socket it uses: itself, when it made
one; that of the manager it was copied or last assigned from, if this used one at that time. -/
def makersFrom (ms : List (Option Nat)) : CopyTrace → List (Option Nat)
  | [] => ms
  | (.create _, _, _) :: tr => makersFrom (ms ++ [none]) tr
  | (.copy i, _, _) :: tr => makersFrom (ms ++ [(ms[i]?).join]) tr
  | (.assign i j, _, _) :: tr => makersFrom (ms.set i (ms[j]?).join) tr
  | (.destroy _, _, _) :: tr => makersFrom ms tr
  | (.call i _, evs, _) :: tr => makersFrom (if evs.any MEv.isBound then ms.set i (some i) else ms) tr

/-- The manager that made the bound socket that manager `i` uses. -/
def makerOf (i : Nat) (tr : CopyTrace) : Option Nat := ((makersFrom [] tr)[i]?).join

/-- Did manager `i` ever make a bound socket? -/
def madeSocket (i : Nat) (tr : CopyTrace) : Prop :=
  ∃ e ∈ tr, ∃ op evs ret, e = (.call i op, evs, ret) ∧ evs.any MEv.isBound = true

/-- The events of a history. -/
def copyEvs (tr : CopyTrace) : List MEv := tr.flatMap fun e => e.2.1

/-- Was manager `i` destroyed? -/
def destroyedIn (i : Nat) (tr : CopyTrace) : Prop := ∃ e ∈ tr, ∃ evs ret, e = (.destroy i, evs, ret)

/-- A connection object exists as long as the program keeps a strong pointer to it or a manager has it. -/
def Lives (p : Copies) (id : Nat) : Prop := id ∈ p.held ∨ ∃ f ∈ p.faces, ∃ k, (k, id) ∈ f.table

/-- What `std::swap` of managers `a` and `b` does when `n` managers have been made: a copy, two assignments, and the copy is
destroyed. -/
def swapOps (a b n : Nat) : List CopyOp := [.copy a, .assign a b, .assign b n, .destroy n]

end Verif.Spec
