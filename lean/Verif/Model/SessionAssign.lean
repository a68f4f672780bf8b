import Verif.Model.SessionCopies

/-!
# Model of the assignment of sessions

Source: `src/SessionInfo.h`, `src/sockets/TCPSocket.h`, `src/sockets/BaseSocket.h`.

`SessionInfo`, `TCPSocket` and `BaseSocket` declare no assignment, so that the implicit one copies the members: the
descriptor (BaseSocket.h:51), the address of the device (BaseSocket.h:52, not in the model), the time to wait for data
(BaseSocket.h:54, part of the connection in the model, as the option of the socket) and the handle (SessionInfo.h:71).
Nothing is closed or unregistered.  As a destructor is declared (SessionInfo.h:48), an assignment from a temporary copies as
well.
-/

namespace Verif

/-- What a program does, with assignments. -/
inductive SessAct where
  /-- an operation without assignment -/
  | op (o : SessOp)
  /-- assign session `j` to session `i` -/
  | assign (i j : Nat)
deriving Repr, DecidableEq

namespace SessProc

/-- One operation; an assignment copies descriptor and handle (SessionInfo.h:70-71, BaseSocket.h:51). -/
def act (m : Mem) (p : SessProc) : SessAct → SessRes
  | .op o => p.step m o
  | .assign i j =>
    match p.objs[i]?, p.objs[j]? with
    | some _, some o =>
      if p.gone.contains i || p.gone.contains j then .noSuch else .ok { p with objs := p.objs.set i o } .unit
    | _, _ => .noSuch

/-- A history of a process that goes on. -/
def runActs (m : Mem) (p : SessProc) : List SessAct → Option (SessProc × List (SessAct × SessRet))
  | [] => some (p, [])
  | a :: as =>
    match p.act m a with
    | .ok p' ret => (p'.runActs m as).map fun r => (r.1, (a, ret) :: r.2)
    | _ => none

end SessProc

end Verif
