import Verif.Model.ConnManager
import Verif.Model.Link

/-!
# A connection manager that talks to a target through a message router

`Model/ConnManager.lean` takes the answer of the target as an input of each call.  Here
the answer comes from a responder, for instance from `MessageRouter::sendRequest` over a
TCP session, as in the program (ConnectionManager.cpp:90-101, 187-189).
-/

namespace Verif

/-- The call with this answer of the target. -/
def MOp.withReply (reply : Outcome MessageRouterResponse) : MOp → MOp
  | .forwardOpen host p large e => .forwardOpen host p large { e with reply := reply }
  | .forwardClose ptr _ => .forwardClose ptr reply
  | op => op

namespace Mgr

/-- The arguments of `_messageRouter->sendRequest` in `forwardOpen`
(ConnectionManager.cpp:53-101) and `forwardClose` (ConnectionManager.cpp:176-189), if the
call gets that far. -/
def reqOf (s : Mgr) : MOp → Option Req
  | .forwardOpen _ p large _ =>
    match bumpStatics s.incarnation (o2tMulticast p large) (t2oP2P p large) s.statics with
    | none => none
    | some st =>
      match (if large then largeForwardOpenPack (sentParams p large st) else forwardOpenPack (sentParams p large st)) with
      | .ok data => some ⟨if large then 0x5B#8 else 0x54#8, EPath.mk2 6 1, data⟩
      | _ => none
  | .forwardClose (some id) _ =>
    if s.alive id then
      match s.heap[id]? with
      | some c => some ⟨0x4E#8, EPath.mk2 6 1, (closeRequest c).pack⟩
      | none => none
    else none
  | _ => none

/-- A call with its answer. -/
def finish {δ : Type} (P : Plat) (op : MOp) (s : Mgr) (d : δ) : Option ((Mgr × δ) × (MOp × List MEv × MRet)) :=
  match s.step P op with
  | .ok s' evs ret => some ((s', d), (op, evs, ret))
  | .stop _ _ => none

/-- One call, where `D` answers the request: new states, and the entry for the history. `none`: undefined or aborted. -/
def stepOn {δ : Type} (P : Plat) (D : Device δ) (op : MOp) (s : Mgr) (d : δ) : Option ((Mgr × δ) × (MOp × List MEv × MRet)) :=
  match s.reqOf op with
  | none => s.finish P op d
  | some r =>
    match D.answer r d with
    | .ok d' resp => s.finish P (op.withReply (.ok resp)) d'
    | .throw d' e => s.finish P (op.withReply (.throw e)) d'
    | .ub => none

/-- A history of calls. -/
def runOn {δ : Type} (P : Plat) (D : Device δ) : List MOp → Mgr → δ → Option ((Mgr × δ) × List (MOp × List MEv × MRet))
  | [], s, d => some ((s, d), [])
  | op :: ops, s, d =>
    match s.stepOn P D op d with
    | none => none
    | some ((s', d'), e) =>
      match runOn P D ops s' d' with
      | none => none
      | some (q, tr) => some (q, e :: tr)

end Mgr

end Verif
