import Verif.Model.IoConn
import Verif.Model.Inet

/-!
# Model of a program that uses `sockets::UDPSocket` itself

Source: `src/sockets/UDPSocket.cpp`.

The socket has a queue of the datagrams that wait in the system, each with its sender, or an error that the next call
reports.  `recvfrom` on an empty queue waits; here the program makes no further step then.
-/

namespace Verif.UdpUser

/-- What the next `recvfrom` finds. -/
inductive Arrival where
  | dgram (bytes : List Byte) (sender : SockAddr)
  | err (code : Int)
deriving Repr, DecidableEq

/-- What a program does with a socket and a variable of type `EndPoint`. -/
inductive Op where
  /-- `Receive(size)` -/
  | receive (size : Nat)
  /-- `ReceiveFrom(size, endPoint)` -/
  | receiveFrom (size : Nat)
  /-- `UDPSocket(endPoint).Send(data)` -/
  | reply (data : List Byte)
  /-- `UDPSocket(endPoint.getHost(), endPoint.getPort()).Send(data)` -/
  | replyByName (data : List Byte)
deriving Repr, DecidableEq

/-- What it sees, and what goes out. -/
inductive Seen where
  | got (bytes : List Byte)
  | threw (code : Int)
  | sent (to : SockAddr) (bytes : List Byte)
deriving Repr, DecidableEq

/-- The datagrams that wait and the variable. -/
structure St where
  queue : List Arrival
  ep : EndPoint
deriving Repr, DecidableEq

/-- The buffer that is returned: `size` bytes, of which `recvfrom` overwrites the first (UDPSocket.cpp:70-72, 82-85). -/
def filled (size : Nat) (bytes : List Byte) : List Byte :=
  bytes.take size ++ List.replicate (size - (bytes.take size).length) 0#8

/-- `UDPSocket::Receive` (UDPSocket.cpp:69-79). -/
def receive (s : St) (size : Nat) : Option (St × Seen) :=
  match s.queue with
  | [] => none
  | .err code :: q => some ({ s with queue := q }, .threw code)
  | .dgram bytes _ :: q => some ({ s with queue := q }, .got (filled size bytes))

/-- `UDPSocket::ReceiveFrom` (UDPSocket.cpp:81-93). -/
def receiveFrom (s : St) (size : Nat) : Option (St × Seen) :=
  match s.queue with
  | [] => none
  | .err code :: q => some ({ s with queue := q }, .threw code)
  | .dgram bytes sender :: q => some ({ queue := q, ep := EndPoint.ofSockAddr sender }, .got (filled size bytes))

/-- One step.  The sockets made for a reply (UDPSocket.cpp:24-45) send to their end point (UDPSocket.cpp:61-63); the
system takes the datagram. -/
def step (s : St) : Op → Option (St × Seen)
  | .receive size => receive s size
  | .receiveFrom size => receiveFrom s size
  | .reply data => some (s, .sent s.ep.addr data)
  | .replyByName data => some (s, .sent (EndPoint.ofHost Inet.host s.ep.host s.ep.port).addr data)

/-- A program: what it sees at each step. -/
def run (s : St) : List Op → Option (St × List Seen)
  | [] => some (s, [])
  | op :: ops =>
    match step s op with
    | none => none
    | some (s', e) => (run s' ops).map fun r => (r.1, e :: r.2)

end Verif.UdpUser
