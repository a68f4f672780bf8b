import Verif.Spec.Process

/-!
# Specification vocabulary for the order in which calls of several managers are made
-/

namespace Verif.Spec

open Verif

/-- Calls of several managers, in the order in which they are made: the manager, and the call. -/
abbrev Calls := List (Nat × MOp)

/-- The calls of manager `i`, in order. -/
def callsOf (i : Nat) (cs : Calls) : List MOp := cs.filterMap fun c => if c.1 = i then some c.2 else none

/-- The forward opens, in order. -/
def opensAmong (cs : Calls) : Calls := cs.filter fun c => MOp.isOpen c.2

/-- The same calls in another order: every manager is called as before, and the forward opens come in the same order.
Nothing is said about how calls of different managers lie to each other otherwise. -/
def Reordering (cs cs' : Calls) : Prop := (∀ i, callsOf i cs = callsOf i cs') ∧ opensAmong cs = opensAmong cs'

/-- What the calls of manager `i` did and returned, in order. -/
def doneBy (i : Nat) (tr : PTrace) : MTrace := tr.filterMap fun
  | (.call j op, evs, ret) => if j = i then some (op, evs, ret) else none
  | _ => none

/-- Two states of a process that differ at most in the unused `statics` fields of the managers. -/
def SameState (p q : Proc) : Prop :=
  p.statics = q.statics ∧ p.gone = q.gone ∧
    p.mgrs.map (fun m => { m with statics := {} }) = q.mgrs.map (fun m => { m with statics := {} })

end Verif.Spec
