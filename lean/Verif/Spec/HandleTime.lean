import Verif.Model.HandleTime
import Verif.Spec.Manager

/-!
# Specification: datagrams and times of `handleConnections`
-/

namespace Verif.Spec

/-- What was received in a round of waiting. -/
def received : Round → List Arrival
  | .ready r rs _ => r :: rs
  | .fail _ => []

/-- The datagrams come in the order of their times. -/
def InOrder (q : Queue) : Prop := q.Pairwise fun a b => a.1 ≤ b.1

/-- The time when the last of some calls returned. -/
def endTime : Nat → List (Nat × List MEv) → Nat
  | now, [] => now
  | _, (t, _) :: rest => endTime t rest

/-- The events of some calls. -/
def loopEvs (outs : List (Nat × List MEv)) : List MEv := outs.flatMap (·.2)

end Verif.Spec
