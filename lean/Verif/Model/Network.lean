import Verif.Model.Process

/-!
# Model of the bound sockets of the managers of a process, with the datagrams that wait in them

Source: `src/ConnectionManager.cpp`, `src/sockets/UDPBoundSocket.cpp`, `src/sockets/UDPSocket.cpp`,
`src/sockets/BaseSocket.cpp`.

Every manager has at most one bound socket (C43), and all of them are bound to port 2222 of every address of the host
(UDPBoundSocket.cpp:21-31: `INADDR_ANY`, after `SO_REUSEADDR`, so that the second one can be bound at all).  To which
of these sockets the system gives a datagram is not said by the library: here it is part of the history.  A datagram
carries the address of its sender.  `UDPSocket::Receive` passes `NULL` for it (UDPSocket.cpp:72).

Simplified: reading a datagram does not fail; a datagram that arrives while `handleConnections` waits is there before
the call; the system loses no datagram that it has queued, except with the socket.
-/

namespace Verif

/-- A datagram to port 2222, with the address of the sender. -/
structure Datagram where
  source : SockAddr
  data : List Byte
deriving Repr, DecidableEq

/-- While the handler reads the next datagram: what the receive listener throws, if it is called and throws, and the
clock afterwards. -/
structure ReadEnv where
  throws : Option Exn := none
  now : Nat := 0
deriving Repr, DecidableEq

/-- A process, and for every manager what waits in its bound socket. -/
structure Net where
  proc : Proc := {}
  queues : Nat → List Datagram := fun _ => []

/-- What happens. -/
inductive NetOp where
  /-- a datagram arrives and the system gives it to the socket of manager `i` -/
  | arrive (i : Nat) (p : Datagram)
  /-- `handleConnections(timeoutMs)` of manager `i` -/
  | handle (i : Nat) (start : Nat) (timeoutMs : Int) (reads : Nat → ReadEnv) (ticks : Nat → TickEnv)
  /-- anything else that the program does -/
  | prog (op : POp)

/-- What came of it: the datagrams read, what was seen, how the call returned. -/
structure NetDone where
  op : NetOp
  read : List Datagram
  evs : List MEv
  ret : MRet

/-- The result of an operation; `noSuch`: this does not happen. -/
inductive NetRes where
  | ok (n : Net) (read : List Datagram) (evs : List MEv) (ret : MRet)
  | stop (evs : List MEv) (why : Stop)
  | noSuch

namespace Net

/-- Replace what waits in the socket of manager `i`. -/
def setQueue (n : Net) (i : Nat) (q : List Datagram) : Nat → List Datagram := fun j => if j = i then q else n.queues j

/-- The rounds of `BaseSocket::select` (BaseSocket.cpp:128-150): as long as a datagram waits `::select` reports the
socket and the handler reads one (ConnectionManager.cpp:239-241), however much time has passed. -/
def rounds (reads : Nat → ReadEnv) (k : Nat) : List Datagram → List Round
  | [] => []
  | p :: q => .ready ⟨.dgram p.data, (reads k).throws⟩ [] (reads k).now :: rounds reads (k + 1) q

/-- How often `::select` was called. -/
def selects : List MEv → Nat
  | [] => 0
  | .waited _ :: es => selects es + 1
  | _ :: es => selects es

/-- The handling of manager `i` (ConnectionManager.cpp:207-227). Each call of `::select` that found the socket ready took
one datagram from the queue; if a call throws, the others stay. -/
def handle (P : Plat) (n : Net) (i : Nat) (start : Nat) (timeoutMs : Int) (reads : Nat → ReadEnv) (ticks : Nat → TickEnv) : NetRes :=
  match n.proc.call P i (.handle start timeoutMs (rounds reads 0 (n.queues i)) ticks) with
  | .noSuch => .noSuch
  | .stop evs why => .stop evs why
  | .ok p evs ret =>
    .ok { n with proc := p, queues := n.setQueue i ((n.queues i).drop (selects evs)) } ((n.queues i).take (selects evs)) evs ret

/-- Calls of `handleConnections` are given above. -/
def isHandle : POp → Bool
  | .call _ (.handle _ _ _ _) => true
  | _ => false

/-- Anything else: the queue of a manager goes with its socket when it is destroyed (ConnectionManager.cpp:49). -/
def prog (P : Plat) (n : Net) (op : POp) : NetRes :=
  if isHandle op then .noSuch
  else match n.proc.step P op with
  | .noSuch => .noSuch
  | .stop evs why => .stop evs why
  | .ok p evs ret =>
    .ok { n with proc := p, queues := match op with | .destroy i => n.setQueue i [] | _ => n.queues } [] evs ret

/-- A datagram is given to a socket that is bound (UDPBoundSocket.cpp:19-32). -/
def arrive (n : Net) (i : Nat) (p : Datagram) : NetRes :=
  match n.proc.mgrs[i]? with
  | none => .noSuch
  | some m =>
    if m.sockets.isEmpty then .noSuch
    else .ok { n with queues := n.setQueue i (n.queues i ++ [p]) } [] [] .unit

/-- One operation. -/
def step (P : Plat) (n : Net) : NetOp → NetRes
  | .arrive i p => n.arrive i p
  | .handle i start timeoutMs reads ticks => n.handle P i start timeoutMs reads ticks
  | .prog op => n.prog P op

/-- A history that is not stopped. -/
def run (P : Plat) (n : Net) : List NetOp → Option (Net × List NetDone)
  | [] => some (n, [])
  | op :: ops =>
    match n.step P op with
    | .ok n' read evs ret =>
      match n'.run P ops with
      | none => none
      | some (n'', tr) => some (n'', ⟨op, read, evs, ret⟩ :: tr)
    | _ => none

end Net

end Verif
