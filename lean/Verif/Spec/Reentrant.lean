import Verif.Model.Reentrant
import Verif.Spec.Manager

/-!
# Specification vocabulary for histories with listeners that make calls
-/

namespace Verif.Spec

open Verif

/-- The events proper: without the bounds of the listeners' runs. -/
def evsOf (evs : List REv) : List MEv :=
  evs.filterMap fun e => match e with
    | .ev e => some e
    | _ => none

/-- Is the call a nested `handleConnections`? -/
def MOp.isHandle : MOp → Bool
  | .handle _ _ _ _ => true
  | _ => false

/-- No nested `handleConnections`. -/
def noHandle (ops : List MOp) : Prop := ∀ op ∈ ops, MOp.isHandle op = false

/-- No receive listener of a wait nests `handleConnections`. -/
def roundsNoHandle (rounds : List RoundR) : Prop :=
  ∀ r ∈ rounds, match r with
    | .fail _ => True
    | .ready f m _ => ∀ x ∈ f :: m, noHandle x.calls

/-- A history. -/
abbrev RTrace := List (Mgr.MOpR × List REv × MRet)

/-- All events of a history, in order. -/
def allEvsR (tr : RTrace) : List MEv := tr.flatMap fun e => evsOf e.2.1

/-- No listener nests `handleConnections`. -/
def opFlat : Mgr.MOpR → Prop
  | .plain _ => True
  | .handle _ _ rounds ticks => roundsNoHandle rounds ∧ ∀ id, noHandle (ticks id).calls

/-- The connection an event ticks. -/
def tickedId : MEv → Option Nat
  | .conn id (.tick _ _ _) _ => some id
  | _ => none

/-- Ids ticked by some events, in order. -/
def ticked (evs : List MEv) : List Nat := evs.filterMap tickedId

/-- A result without the bounds of the listeners' runs. -/
def forget : Mgr.StepResR → StepRes
  | .ok s evs ret => .ok s (evsOf evs) ret
  | .stop evs why => .stop (evsOf evs) why

/-- A wait whose receive listeners make no calls. -/
def Round.quiet : Round → RoundR
  | .fail code => .fail code
  | .ready r rs now => .ready { r with } (rs.map fun r => { r with }) now

/-- Calls that a listener of the connection with this key can make without harm: it
writes output data, takes or gives up pointers, asks for open connections, or closes
connections with other keys. -/
def Harmless (heap : List Conn) (own : BitVec 16) : MOp → Prop
  | .setData _ _ => True
  | .lock _ => True
  | .release _ => True
  | .hasOpen => True
  | .forwardClose ptr reply => reply ≠ .ub ∧
      ∀ id c, ptr = some id → heap[id]? = some c → c.t2oNetworkConnectionId.setWidth 16 ≠ own
  | _ => False

end Verif.Spec
