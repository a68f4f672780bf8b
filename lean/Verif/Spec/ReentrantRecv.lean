import Verif.Spec.Reentrant
import Verif.Spec.Defined

/-!
# Receive listeners that make harmless calls
-/

namespace Verif.Spec

/-- Calls that a receive listener can make without harm: it writes output data, takes or gives up pointers, asks for open connections, or
closes connections, its own included. -/
def HarmlessReceive : MOp → Prop
  | .setData _ _ => True
  | .lock _ => True
  | .release _ => True
  | .hasOpen => True
  | .forwardClose _ reply => reply ≠ .ub
  | _ => False

/-- Every datagram is one as targets send it, with room for headers of `n` bytes, and every receive listener makes harmless calls only. -/
def RoundsHarmless (n : Nat) (rounds : List RoundR) : Prop :=
  ∀ r ∈ rounds, match r with
    | .fail _ => True
    | .ready f m _ => ∀ x ∈ f :: m, (∀ d, x.recv = .dgram d → Proper n d) ∧ ∀ op ∈ x.calls, HarmlessReceive op

end Verif.Spec
