import Verif.Model.ConnManager
import Verif.Spec.IoTrace

/-!
# Specification vocabulary for histories of a connection manager

A history lists the operations with the events each caused and how it returned.
These functions only look at what a user or the network can see.
-/

namespace Verif.Spec

open Verif

/-- A history. -/
abbrev MTrace := List (MOp × List MEv × MRet)

/-- All events of a history, in order. -/
def allEvs (tr : MTrace) : List MEv := tr.flatMap fun e => e.2.1

/-- What happened to one connection. -/
def connTrace (id : Nat) : List MEv → IoTrace
  | [] => []
  | .conn i op evs :: rest => if i = id then (op, evs) :: connTrace id rest else connTrace id rest
  | _ :: rest => connTrace id rest

/-- Is the event the creation of a bound UDP socket? -/
def MEv.isBound : MEv → Bool
  | .bound _ => true
  | _ => false

/-- Is the event a call of `::select`? -/
def MEv.isWait : MEv → Bool
  | .waited _ => true
  | _ => false

/-- Is the event a tick of a connection? -/
def MEv.isTick : MEv → Bool
  | .conn _ (.tick _ _ _) _ => true
  | _ => false

/-- Is the operation a forward open by any manager of the process? -/
def MOp.isOpen : MOp → Bool
  | .forwardOpen _ _ _ _ => true
  | .otherOpen _ _ _ => true
  | _ => false

/-- Connection type field of a parameter word: bits 13-14, or 29-30 of a large one. -/
def typeField (large : Bool) (word : Nat) : Nat := if large then word / 2 ^ 29 % 4 else word / 2 ^ 13 % 4

/-- The size in a network connection parameter word (Vol. 1, 3-5.5.1.1): the low 9
or 16 bits. -/
def sizeField (large : Bool) (word : Nat) : Nat := if large then word % 65536 else word % 512

/-- Is the connection of this parameter word of fixed size: bit 9 or 25 clear? -/
def isFixed (large : Bool) (word : Nat) : Bool := if large then word / 2 ^ 25 % 2 == 0 else word / 2 ^ 9 % 2 == 0

/-- The first eight bytes of a `sockaddr_in` in the memory of a little-endian host, as the
system sees it: family, port, address. -/
def sockaddrImage (a : SockAddr) : List (BitVec 8) := le 2 a.family.toNat ++ le 2 a.port.toNat ++ le 4 a.addr.toNat

/-- What the system must see for IPv4, a port, and an address as `inet_aton` gives it:
family 2, then the port with the most significant octet first. -/
def ipv4 (port : Nat) (addr : BitVec 32) : List (BitVec 8) := le 2 2 ++ be 2 port ++ le 4 addr.toNat

/-- The dotted decimal text of the four address octets of a socket address item
(Vol. 2, 2-6.3.3), which are at offset 4. -/
def dotted (item : List (BitVec 8)) : String :=
  String.intercalate "." (((item.drop 4).take 4).map fun o => toString o.toNat)

/-- The port of a socket address item: at offset 2, most significant octet first. -/
def itemPort (item : List (BitVec 8)) : Nat := field item 2 1 * 256 + field item 3 1

/-- Is the operation a forward open (by any manager) that asks for a point-to-point
T→O connection (type 2)? -/
def MOp.isP2P : MOp → Bool
  | .forwardOpen _ p large _ => typeField large p.t2oNetworkConnectionParams.toNat == 2
  | .otherOpen _ _ p2p => p2p
  | _ => false

/-- Is the operation a forward open (by any manager) that asks for a multicast O→T
connection (type 1)? -/
def MOp.isMulticast : MOp → Bool
  | .forwardOpen _ p large _ => typeField large p.o2tNetworkConnectionParams.toNat == 1
  | .otherOpen _ mc _ => mc
  | _ => false

/-- Number of operations of a kind in a history. -/
def countOps (f : MOp → Bool) (tr : MTrace) : Nat := tr.countP fun e => f e.1

/-- Every datagram handed to the operating system was sent whole or not at all
(`sendto` on a UDP socket never sends a part), and no vector is longer than the
address space. -/
def SendsWhole (tr : MTrace) : Prop :=
  ∀ id now hook count evs, MEv.conn id (.tick now hook count) evs ∈ allEvs tr →
    ∀ to bytes, IoEv.sent to bytes ∈ evs → (count = -1 ∨ count = bytes.length) ∧ bytes.length < 2 ^ 63

/-- No send listener and no close listener that was run threw. -/
def ListenersReturn (tr : MTrace) : Prop :=
  ∀ id now hook count evs, MEv.conn id (.tick now hook count) evs ∈ allEvs tr → evs ≠ [] → hook.throws = none

/-- What a receive of up to 8192 bytes into a zeroed buffer that is returned whole
makes of a datagram. -/
def asReceived (d : List (BitVec 8)) : List (BitVec 8) := (d ++ List.replicate 8192 0#8).take 8192

/-- The bytes before the data in what a connection receives: a run/idle header and a sequence count, if it has them. -/
def headLen (c : Conn) : Nat := (if c.t2oRealTimeFormat then 4 else 0) + (if hasCount c.transportTypeTrigger then 2 else 0)

/-- The datagrams and errors of the ready rounds of a wait, in order. -/
def arrivals : List Round → List Recv
  | [] => []
  | .fail _ :: rest => arrivals rest
  | .ready r rs _ :: rest => r.recv :: rs.map (·.recv) ++ arrivals rest

/-- Everything received in a wait, with what the receive listener does if it is run. -/
def receivedIn : List Round → List Arrival
  | [] => []
  | .fail _ :: rest => receivedIn rest
  | .ready r rs _ :: rest => r :: rs ++ receivedIn rest

/-- The deliveries among events: connection and payload. -/
def deliveries : List MEv → List (Nat × List (BitVec 8))
  | [] => []
  | .conn id (.recv payload) _ :: es => (id, payload) :: deliveries es
  | _ :: es => deliveries es

/-- Which deliveries a list of arrivals must cause, given the open connections: every
datagram is a common packet whose first item begins with an identifier; it goes to the
connection registered for the identifier's low 16 bits, and nowhere if there is none. -/
inductive Routes (table : List (BitVec 16 × Nat)) : List Recv → List (Nat × List (BitVec 8)) → Prop
  | nil : Routes table [] []
  | hit {d t0 addr t1 payload rest k id rs out} :
      CpfAccepts (asReceived d) ((t0, addr) :: (t1, payload) :: rest) → 4 ≤ addr.length → (k, id) ∈ table →
      k.toNat = field addr 0 4 % 65536 → Routes table rs out → Routes table (.dgram d :: rs) ((id, payload) :: out)
  | unknown {d t0 addr rest rs out} :
      CpfAccepts (asReceived d) ((t0, addr) :: rest) → 4 ≤ addr.length →
      (∀ e ∈ table, e.1.toNat ≠ field addr 0 4 % 65536) → Routes table rs out → Routes table (.dgram d :: rs) out

/-- Is the operation a call of `handleConnections`? -/
def isHandle : MOp → Bool
  | .handle _ _ _ _ => true
  | _ => false

/-- A call that concerns no socket and no list of connections: asking for open connections, writing output data,
keeping or giving up a pointer; or an open by another manager of the process. -/
def isIdle : MOp → Bool
  | .hasOpen | .setData _ _ | .lock _ | .release _ | .otherOpen _ _ _ => true
  | _ => false

/-- A stretch of a history in which connections are only served: no connection of the manager is opened or closed
by the program, and each call of `handleConnections` returns normally. -/
def Serves (tr : MTrace) : Prop := ∀ e ∈ tr, isHandle e.1 = true ∧ e.2.2 = .unit ∨ isIdle e.1 = true

/-- The time without data after which a connection is closed (C40), in microseconds. -/
def timeoutMicros (c : Conn) : Nat := c.connectionTimeoutMultiplier.toNat * c.t2oAPI.toNat

/-- What is assumed of a connection `id`, created as `c`, that is open after the history `tr`, while the
calls of `tr'` run: it has not been closed yet, its limit is below 2^32 µs, no two of its ticks are so far apart
that the 32-bit counter wraps, nothing is accepted for it, and its ticks are at least a millisecond apart. -/
structure Silent (id : Nat) (c : Conn) (tr tr' : MTrace) : Prop where
  isOpen : ∀ e ∈ connTrace id (allEvs tr), IoEv.closed ∉ e.2
  limit : timeoutMicros c < 2 ^ 32
  gaps : Steps (fun a b => timeoutMicros c + (b - a) / 1000 < 2 ^ 32) c.lastHandleTime
    (tickTimes ((connTrace id (allEvs (tr ++ tr'))).map Prod.fst))
  silent : ∀ e ∈ connTrace id (allEvs tr'), ∀ ev ∈ e.2, IoEv.isReceived ev = false
  spaced : Steps (fun a b => a + 1000000 ≤ b) (lastTick c.lastHandleTime (connTrace id (allEvs tr)))
    (tickTimes ((connTrace id (allEvs tr')).map Prod.fst))

end Verif.Spec
