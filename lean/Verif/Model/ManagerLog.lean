import Verif.Model.LogText

/-!
# The messages of a connection manager in its histories

Source: `src/ConnectionManager.cpp`, `src/IOConnection.cpp`, `src/sockets/BaseSocket.cpp`.

The messages of sockets are below the default level and are left out, as in `Model/LogText`.
-/

namespace Verif

namespace Mgr

/-- What the handlers of the ready sockets of one round log (BaseSocket.cpp:141-146). -/
def deliverAllLines (P : Plat) : List Arrival → Mgr → List LogLine
  | [], _ => []
  | r :: rs, s =>
    s.deliverLines P r.recv ++
    match s.deliver P r.recv with
    | .ub => []
    | .throw _ => []
    | .ok (s', evs) =>
      match raised r.throws evs with
      | some _ => []
      | none => deliverAllLines P rs s'

/-- What the loop of `BaseSocket::select` logs (BaseSocket.cpp:128-150). -/
def selectLines (P : Plat) : List Round → Mgr → List LogLine
  | [], _ => []
  | .fail _ :: _, _ => []
  | .ready r rs _ :: rest, s =>
    s.deliverAllLines P (r :: rs) ++
    match deliverAll P (r :: rs) s with
    | .go s' _ => selectLines P rest s'
    | _ => []

/-- What the loop over the connections logs (ConnectionManager.cpp:217-222). -/
def tickAllLines (ticks : Nat → TickEnv) : List (BitVec 16 × Nat) → List Conn → List LogLine
  | [], _ => []
  | (_, id) :: rest, heap =>
    match heap[id]? with
    | none => tickAllLines ticks rest heap
    | some c =>
      let t := ticks id
      let r := c.notifyTick t.now t.hook t.count
      c.tickLines t.now t.hook ++
      match r.2.2 with
      | .threw _ => []
      | _ => tickAllLines ticks rest (heap.set id r.1)

/-- What `handleConnections` logs (ConnectionManager.cpp:207-227). -/
def handleLines (P : Plat) (start : Nat) (timeoutMs : Int) (rounds : List Round) (ticks : Nat → TickEnv) (s : Mgr) : List LogLine :=
  match s.sockets with
  | [] => []
  | _ :: _ =>
    s.selectLines P rounds ++
    match selectLoop P (start + timeoutMs * 1000000) start rounds s with
    | .go s' _ => tickAllLines ticks s'.table s'.heap
    | _ => []

/-- What a call logs.  Other managers of the process are not listened to; `setDataToSend` (IOConnection.cpp:59-61), `hasOpenConnections`
(ConnectionManager.cpp:260-262) and pointers log nothing. -/
def stepLines (P : Plat) (s : Mgr) : MOp → List LogLine
  | .forwardOpen host p large e => s.openLines P host p large e
  | .forwardClose ptr reply => s.closeLines ptr reply
  | .handle start timeoutMs rounds ticks => s.handleLines P start timeoutMs rounds ticks
  | _ => []

/-- What a history logs, call by call. -/
def runLines (P : Plat) (s : Mgr) : List MOp → List (List LogLine)
  | [] => []
  | op :: ops =>
    match s.step P op with
    | .stop _ _ => [s.stepLines P op]
    | .ok s' _ _ => s.stepLines P op :: s'.runLines P ops

end Mgr

end Verif
