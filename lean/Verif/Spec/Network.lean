import Verif.Model.Network
import Verif.Spec.Manager

/-!
# Specification vocabulary for datagrams that wait in sockets
-/

namespace Verif.Spec

open Verif

/-- The datagrams that the system gave to the socket of manager `i`. -/
def given (i : Nat) : List NetOp → List Datagram
  | [] => []
  | .arrive j p :: ops => if j = i then p :: given i ops else given i ops
  | _ :: ops => given i ops

/-- The datagrams that manager `i` read. -/
def readBy (i : Nat) : List NetDone → List Datagram
  | [] => []
  | ⟨.handle j _ _ _ _, read, _, _⟩ :: tr => if j = i then read ++ readBy i tr else readBy i tr
  | _ :: tr => readBy i tr

/-- The same datagram from another sender. -/
def Datagram.sentBy (f : Datagram → SockAddr) (p : Datagram) : Datagram := { p with source := f p }

/-- The same happens, but the datagrams have other senders. -/
def NetOp.sentBy (f : Datagram → SockAddr) : NetOp → NetOp
  | .arrive i p => .arrive i (Datagram.sentBy f p)
  | op => op

end Verif.Spec
