import Verif.Model.AllocManager
import Verif.Spec.Manager

/-!
# Vocabulary for histories of a manager in which memory runs out
-/

namespace Verif.Spec

open Verif

/-- A history. -/
abbrev MTraceA := List (MOpA × List MEv × MRet)

/-- A history of a connection: the operations, where memory was missing, and the events. -/
abbrev IoTraceA := List ((ConnOp × Option TickPlace) × List IoEv)

/-- The same calls of `::select` when there is memory for everything received. -/
def RoundA.enough : RoundA → Round
  | .fail code => .fail code
  | .ready first more now => .ready first.arrival (more.map (·.arrival)) now

/-- The same calls of `::select`, where a datagram without memory for it is an error of the receive call instead. -/
def RoundA.lostAs (code : Int) : RoundA → Round
  | .fail c => .fail c
  | .ready first more now =>
    .ready (if first.lost then .err code else first.arrival) (more.map fun r => if r.lost then .err code else r.arrival) now

/-- The same call with enough memory. -/
def MOpA.enough : MOpA → MOp
  | .plain op => op
  | .forwardOpen host p large e _ => .forwardOpen host p large e
  | .forwardClose ptr reply => .forwardClose ptr reply
  | .setData id data => .setData id data
  | .handle _ start timeoutMs rounds ticks => .handle start timeoutMs (rounds.map RoundA.enough) fun id => (ticks id).env

/-- Where memory is missing in a tick that is part of this call. -/
def MOpA.place (op : MOpA) (id : Nat) : Option TickPlace :=
  match op with
  | .handle _ _ _ _ ticks => (ticks id).place
  | _ => none

/-- The events of a history, each with the call it is part of. -/
def evsA (tr : MTraceA) : List (MOpA × MEv) := tr.flatMap fun e => e.2.1.map fun ev => (e.1, ev)

/-- What happened to one connection. -/
def connTraceA (id : Nat) : List (MOpA × MEv) → IoTraceA
  | [] => []
  | (call, .conn i op evs) :: rest =>
    if i = id then ((op, MOpA.place call i), evs) :: connTraceA id rest else connTraceA id rest
  | _ :: rest => connTraceA id rest

/-- Calls of the send listener. -/
def asksA (tr : IoTraceA) : Nat := asks (tr.map fun e => (e.1.1, e.2))

/-- Is this a tick in which memory is missing before the send listener is called? -/
def isEarly : ConnOp × Option TickPlace → Bool
  | (.tick _ _ _, some .address) => true
  | (.tick _ _ _, some .count) => true
  | _ => false

/-- The number of such ticks. -/
def early (tr : IoTraceA) : Nat := tr.countP fun e => isEarly e.1

end Verif.Spec
