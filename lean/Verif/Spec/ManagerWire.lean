import Verif.Spec.EndToEnd
import Verif.Spec.Target

/-!
# Specification: the requests and answers of a history, and frames in a stream
-/

namespace Verif.Spec

open Verif

/-- The requests among events, in order. -/
def requests : List MEv → List Req
  | [] => []
  | .request svc path data :: es => ⟨svc, path, data⟩ :: requests es
  | _ :: es => requests es

/-- The answers a history got, in order, from the calls that sent a request. -/
def answersOf : MTrace → List (Outcome MessageRouterResponse)
  | [] => []
  | (op, evs, _) :: tr =>
    match requests evs, replyTo op with
    | _ :: _, some r => r :: answersOf tr
    | _, _ => answersOf tr

/-- Cut bytes into encapsulation frames: a header of 24 bytes with the length of the rest at
offset 2 (Vol. 2, 2-3.1).  `none` if something is left over. -/
def cutFrames : Nat → List (BitVec 8) → Option (List (List (BitVec 8)))
  | _, [] => some []
  | 0, _ :: _ => none
  | n + 1, b :: bs =>
    let len := 24 + field (b :: bs) 2 2
    if len ≤ (b :: bs).length then (cutFrames n ((b :: bs).drop len)).map fun fs => (b :: bs).take len :: fs else none

/-- What a target reads in a SendRRData frame with a null address item and one data item: service,
path and data of the request, which starts after the encapsulation header (24), the interface
and timeout (6), the item count (2), the address item (4) and the head of the data item (4). -/
def readRequest (frame : List (BitVec 8)) : Option (Nat × List (BitVec 8) × List (BitVec 8)) := mrDecode (frame.drop 40)

end Verif.Spec
