import Verif.Model.ConnManager
import Verif.Model.Connect
import Verif.Model.Identity

/-!
# Model of UDP sockets as descriptors of the process

Source: `src/sockets/UDPSocket.cpp`, `src/sockets/UDPBoundSocket.cpp`,
`src/sockets/BaseSocket.cpp`, and the owners of such sockets: `src/IOConnection.h`
(`_socket`), `src/ConnectionManager.{h,cpp}` (`_socketMap`, `_connectionMap`) and
`DiscoveryManager::makeSocket`; on unix without `SO_NOSIGPIPE`.

The operating system is: the set of open descriptors, the calls made so far, and a
function that chooses the next descriptor.  The rest of the process opens and closes
descriptors of its own.
-/

namespace Verif

/-- The system calls on descriptors, with the arguments that matter. -/
inductive FdCall where
  /-- `socket` returned this descriptor -/
  | socket (fd : Nat)
  /-- `socket` failed -/
  | socketFailed
  | reuseAddr (fd : Nat)
  | broadcast (fd : Nat)
  | rcvTimeout (fd : Nat) (tv : Int × Int)
  | bind (fd : Nat) (addr : SockAddr)
  /-- `::select(nfds, fds)` -/
  | select (nfds : Nat) (fds : List Nat)
  | sendto (fd : Nat) (addr : SockAddr) (bytes : List Byte)
  | shutdown (fd : Nat)
  | close (fd : Nat)
  /-- the rest of the process opens and closes a descriptor -/
  | otherOpened (fd : Nat)
  | otherClosed (fd : Nat)
deriving Repr, DecidableEq

/-- The open descriptors and the calls made so far. -/
structure Fds where
  opened : List Nat
  calls : List FdCall := []
deriving Repr, DecidableEq

namespace Fds

/-- A call that leaves the open descriptors as they are. -/
def note (cs : List FdCall) (s : Fds) : Fds := { s with calls := s.calls ++ cs }

/-- A new descriptor. -/
def add (c : FdCall) (fd : Nat) (s : Fds) : Fds := { opened := fd :: s.opened, calls := s.calls ++ [c] }

/-- A descriptor is given back. -/
def remove (c : FdCall) (fd : Nat) (s : Fds) : Fds := { opened := s.opened.erase fd, calls := s.calls ++ [c] }

end Fds

/-- How the system chooses a new descriptor, given those that are open. -/
abbrev Alloc := List Nat → Nat

/-- `UDPSocket(EndPoint)` (UDPSocket.cpp:24-45, BaseSocket.cpp:23-33); the result is `_sockedFd`. -/
def udpOpen (alloc : Alloc) (err : Option Int) : Prog Fds Nat := fun s =>
  match err with
  | some e => .throw (s.note [.socketFailed]) (.system e)
  | none => .ok (s.add (.socket (alloc s.opened)) (alloc s.opened)) (alloc s.opened)

/-- `~UDPSocket` (UDPSocket.cpp:47-51, BaseSocket.cpp:37-51). -/
def udpClose (fd : Nat) (s : Fds) : Fds := (s.note [.shutdown fd]).remove (.close fd) fd

/-- What the three calls of `UDPBoundSocket(EndPoint)` return: `some errno` is a failure. -/
structure BoundEnv where
  sockErr : Option Int := none
  reuseErr : Option Int := none
  bindErr : Option Int := none
deriving Repr, DecidableEq

/-- `UDPBoundSocket(EndPoint)` (UDPBoundSocket.cpp:16-34).  When the body throws, the base
`UDPSocket` is complete and is destroyed. -/
def udpBoundOpen (alloc : Alloc) (e : BoundEnv) (ep : EndPoint) : Prog Fds Nat := fun s =>
  match udpOpen alloc e.sockErr s with
  | .ub => .ub
  | .throw s1 x => .throw s1 x
  | .ok s1 fd =>
    let s2 := s1.note [.reuseAddr fd]
    match e.reuseErr with
    | some code => .throw (udpClose fd s2) (.system code)
    | none =>
      let s3 := s2.note [.bind fd { ep.addr with addr := 0 }]
      match e.bindErr with
      | some code => .throw (udpClose fd s3) (.system code)
      | none => .ok s3 fd

/-- `*std::max_element(sockets)` by descriptor (BaseSocket.cpp:121-123): the first largest;
of an empty range it is undefined. -/
def maxFd : List Nat → Option Nat
  | [] => none
  | fd :: fds => some (fds.foldl (fun m x => if m < x then x else m) fd)

/-! ## The connection manager -/

/-- `ConnectionManager` with the descriptors its sockets stand for: `bound` is `_socketMap`,
`send` has the descriptor of `_socket` of every connection object ever made, `others` are the
open descriptors of the rest of the process, `gone`: the manager has been destroyed. -/
structure DMgr where
  mgr : Mgr
  fds : Fds
  bound : List (EndPoint × Nat) := []
  send : List Nat := []
  others : List Nat := []
  gone : Bool := false
deriving Repr, DecidableEq

/-- The environment of a `forwardOpen` call. -/
structure DOpenEnv where
  reply : Outcome MessageRouterResponse
  sockErr : Option Int := none
  bound : BoundEnv := {}
  now : Nat := 0
deriving Repr, DecidableEq

/-- The first of the three calls of the constructor of a bound socket that fails. -/
def BoundEnv.err (e : BoundEnv) : Option Int :=
  match e.sockErr, e.reuseErr with
  | some x, _ => some x
  | none, some x => some x
  | none, none => e.bindErr

/-- The same environment without descriptors. -/
def DOpenEnv.plain (e : DOpenEnv) : OpenEnv :=
  { reply := e.reply, udpErr := e.sockErr, bindErr := e.bound.err, now := e.now }

/-- Operations. -/
inductive DOp where
  | forwardOpen (host : String) (p : ConnectionParameters) (large : Bool) (e : DOpenEnv)
  /-- any other operation of the manager, its connections or its pointers -/
  | call (op : MOp)
  /-- the rest of the process opens a descriptor, or closes one of its own -/
  | otherOpens
  | otherCloses (fd : Nat)
  /-- the manager is destroyed -/
  | destroy

/-- The result of an operation. -/
inductive DRes where
  | ok (s : DMgr) (evs : List MEv) (ret : MRet)
  | stop (evs : List MEv) (why : Stop)
deriving Repr, DecidableEq

namespace DMgr

/-- `_socketMap.find` (ConnectionManager.cpp:230); as `sockFind`. -/
def find (key : EndPoint) : List (EndPoint × Nat) → Option Nat
  | [] => none
  | e :: es => if e.1.lt key then find key es else if key.lt e.1 then none else some e.2

/-- `_socketMap[key] = socket` (ConnectionManager.cpp:233); as `sockPut`. -/
def put (key : EndPoint) (fd : Nat) : List (EndPoint × Nat) → List (EndPoint × Nat)
  | [] => [(key, fd)]
  | e :: es => if e.1.lt key then e :: put key fd es else (key, fd) :: e :: es

/-- `findOrCreateSocket` (ConnectionManager.cpp:229-262). -/
def findOrCreate (alloc : Alloc) (ep : EndPoint) (e : BoundEnv) (bound : List (EndPoint × Nat)) :
    Prog Fds (List (EndPoint × Nat) × List MEv) := fun s =>
  match find ep bound with
  | some _ => .ok s (bound, [])
  | none =>
    match udpBoundOpen alloc e ep s with
    | .ub => .ub
    | .throw s1 x => .throw s1 x
    | .ok s1 fd => .ok s1 (put ep fd bound, [.bound ep])

/-- The new connection is put into the table and a weak pointer to it is returned
(ConnectionManager.cpp:155-167).  If the table already has its key nothing else owns the
object, and it is destroyed with its socket when the function returns. -/
def keep (c : Conn) (fd : Nat) (s : DMgr) : DMgr :=
  let m := Mgr.register c s.mgr
  { s with mgr := m, send := s.send ++ [fd],
           fds := if m.alive s.mgr.heap.length then s.fds else udpClose fd s.fds }

/-- The part of `forwardOpen` after a successful reply (ConnectionManager.cpp:105-167).  An
exception after `_socket` was made destroys the connection object and the socket. -/
def accept (P : Plat) (alloc : Alloc) (host : String) (p : ConnectionParameters) (large : Bool) (e : DOpenEnv)
    (resp : MessageRouterResponse) (ev : MEv) (s : DMgr) : DRes :=
  match ForwardOpenResponse.expand P.mem resp.data with
  | .ub => .stop [ev] .ub
  | .throw x => .ok s [ev] (.threw x)
  | .ok r =>
    match Mgr.timeoutMultiplier p.connectionTimeoutMultiplier with
    | .ub => .stop [ev] .ub
    | .throw x => .ok s [ev] (.threw x)
    | .ok mult =>
      match Mgr.sendEndPoint P host resp.additionalItems with
      | .ub => .stop [ev] .ub
      | .throw x => .ok s [ev] (.threw x)
      | .ok ep =>
        match udpOpen alloc e.sockErr s.fds with
        | .ub => .stop [ev] .ub
        | .throw f x => .ok { s with fds := f } [ev] (.threw x)
        | .ok f fd =>
          match findOrCreate alloc (EndPoint.ofHost P.aton host Mgr.implicitPort) e.bound s.bound f with
          | .ub => .stop [ev] .ub
          | .throw f' x => .ok { s with fds := udpClose fd f' } [ev] (.threw x)
          | .ok f' (bound, evs) =>
            let c := Mgr.newConn p large r mult ep e.now
            .ok (keep c fd { s with fds := f', bound := bound, mgr := { s.mgr with sockets := bound.map (·.1) } })
              (ev :: evs ++ [.created s.mgr.heap.length c]) (.ptr (some s.mgr.heap.length))

/-- `ConnectionManager::forwardOpen` (ConnectionManager.cpp:52-168). -/
def forwardOpen (P : Plat) (alloc : Alloc) (host : String) (p : ConnectionParameters) (large : Bool) (e : DOpenEnv)
    (s : DMgr) : DRes :=
  match Mgr.bumpStatics s.mgr.incarnation (Mgr.o2tMulticast p large) (Mgr.t2oP2P p large) s.mgr.statics with
  | none => .stop [] .ub
  | some st =>
    let s1 : DMgr := { s with mgr := { s.mgr with statics := st } }
    let sp := Mgr.sentParams p large st
    match (if large then largeForwardOpenPack sp else forwardOpenPack sp) with
    | .ub => .stop [] .ub
    | .throw _ => .stop [] .aborted
    | .ok data =>
      let ev := MEv.request (if large then 0x5B#8 else 0x54#8) (EPath.mk2 6 1) data
      match e.reply with
      | .ub => .stop [ev] .ub
      | .throw x => .ok s1 [ev] (.threw x)
      | .ok resp =>
        if resp.status = GeneralStatus.success then accept P alloc host p large e resp ev s1
        else .ok s1 [ev] (.ptr none)

/-- The connection objects that lose their last owner when `before` becomes `after`.
Simplification: in the order in which they were made. -/
def died (before after : Mgr) : List Nat :=
  (List.range before.heap.length).filter fun id => before.alive id && !after.alive id

/-- `~IOConnection` of the objects (IOConnection.cpp:50, IOConnection.h:103): `_socket` is
destroyed. -/
def drop (send : List Nat) (ids : List Nat) (f : Fds) : Fds :=
  ids.foldl (fun f id => match send[id]? with | some fd => udpClose fd f | none => f) f

/-- What an operation that makes no socket does to the descriptors: sockets of objects without
owner are closed. -/
def collect (s : DMgr) (m : Mgr) : DMgr := { s with mgr := m, fds := drop s.send (died s.mgr m) s.fds }

/-- The calls that the events of `handleConnections` stand for: `::select` with every bound
socket (BaseSocket.cpp:131-137), and `sendto` on the socket of the connection
(UDPSocket.cpp:61-63).  Not recorded: `recvfrom`. -/
def callsOf (s : DMgr) : MEv → List FdCall
  | .waited _ => (maxFd (s.bound.map (·.2))).toList.map fun m => .select (m + 1) (s.bound.map (·.2))
  | .conn id _ evs => evs.filterMap fun ev =>
      match ev, s.send[id]? with
      | .sent (some ep) bytes, some fd => some (.sendto fd ep.addr bytes)
      | _, _ => none
  | _ => []

/-- `handleConnections` (ConnectionManager.cpp:207-227, BaseSocket.cpp:120-151): `FD_SET` of a
descriptor that does not fit an `fd_set` is undefined (BaseSocket.cpp:133-135). -/
def handle (P : Plat) (start : Nat) (timeoutMs : Int) (rounds : List Round) (ticks : Nat → TickEnv) (s : DMgr) :
    DRes :=
  if s.bound.any fun e => decide (fdSetSize ≤ e.2) then .stop [] .ub
  else
    match s.mgr.handle P start timeoutMs rounds ticks with
    | .stop evs why => .stop evs why
    | .ok m evs ret => .ok ({ s with fds := s.fds.note (evs.flatMap s.callsOf) }.collect m) evs ret

/-- May the operation be used after the manager was destroyed?  Only pointers and connection
objects may. -/
def usesManager : MOp → Bool
  | .setData _ _ => false
  | .lock _ => false
  | .release _ => false
  | .otherOpen _ _ _ => false
  | _ => true

/-- An operation of the manager that makes no socket. -/
def call (P : Plat) (op : MOp) (s : DMgr) : DRes :=
  match s.mgr.step P op with
  | .stop evs why => .stop evs why
  | .ok m evs ret => .ok (s.collect m) evs ret

/-- `~ConnectionManager` (ConnectionManager.cpp:50, ConnectionManager.h:77-83): the members are
destroyed, `_socketMap` before `_connectionMap`. -/
def destroy (s : DMgr) : DMgr :=
  let f := (s.bound.map (·.2)).foldl (fun f fd => udpClose fd f) s.fds
  { ({ s with fds := f, bound := [] } : DMgr).collect { s.mgr with sockets := [], table := [] } with gone := true }

/-- One operation.  Using a destroyed manager is undefined. -/
def step (P : Plat) (alloc : Alloc) (s : DMgr) : DOp → DRes
  | .forwardOpen host p large e => if s.gone then .stop [] .ub else s.forwardOpen P alloc host p large e
  | .call (.forwardOpen host p large e) =>
    if s.gone then .stop [] .ub
    else s.forwardOpen P alloc host p large ⟨e.reply, e.udpErr, { bindErr := e.bindErr }, e.now⟩
  | .call (.handle start timeoutMs rounds ticks) =>
    if s.gone then .stop [] .ub else s.handle P start timeoutMs rounds ticks
  | .call op => if s.gone && usesManager op then .stop [] .ub else s.call P op
  | .otherOpens =>
    .ok { s with others := alloc s.fds.opened :: s.others,
                 fds := s.fds.add (.otherOpened (alloc s.fds.opened)) (alloc s.fds.opened) } [] .unit
  | .otherCloses fd =>
    if s.others.contains fd then
      .ok { s with others := s.others.erase fd, fds := s.fds.remove (.otherClosed fd) fd } [] .unit
    else .ok s [] .unit
  | .destroy => if s.gone then .stop [] .ub else .ok s.destroy [] .unit

/-- A new manager in a process with these open descriptors. -/
def new (incarnation : BitVec 16) (statics : Statics) (others : List Nat) : DMgr :=
  { mgr := Mgr.new incarnation statics, fds := { opened := others }, others }

/-- A history without undefined behaviour and without abort. -/
def run (P : Plat) (alloc : Alloc) (s : DMgr) : List DOp → Option (DMgr × List (DOp × List MEv × MRet))
  | [] => some (s, [])
  | op :: ops =>
    match s.step P alloc op with
    | .stop _ _ => none
    | .ok s' evs ret =>
      match s'.run P alloc ops with
      | none => none
      | some (s'', tr) => some (s'', (op, evs, ret) :: tr)

end DMgr

/-! ## Discovery -/

namespace Discovery

/-- `DiscoveryManager::makeSocket` (DiscoveryManager.cpp:89-99, BaseSocket.cpp:78-89).  When it
throws, the shared pointer destroys the socket.  The result of `setsockopt(SO_RCVTIMEO)` is
ignored. -/
def makeSocket (alloc : Alloc) (timeoutMs : Int) (e : Env) : Prog Fds Nat := fun s =>
  match udpOpen alloc e.sockErr s with
  | .ub => .ub
  | .throw s1 x => .throw s1 x
  | .ok s1 fd =>
    let s2 := s1.note [.rcvTimeout fd (makePortableInterval timeoutMs), .broadcast fd]
    match e.broadcastErr with
    | some code => .throw (udpClose fd s2) (.system code)
    | none => .ok s2 fd

/-- `discover` with its descriptor (DiscoveryManager.cpp:37-87): the datagram is sent to the
broadcast address, and the socket is destroyed when the function is left.  While it waits, and
after undefined behaviour, it is still open. -/
def discoverFd (m : Mem) (alloc : Alloc) (broadCast : EndPoint) (timeoutMs : Int) (e : Env) (s : Fds) :
    Fds × DiscRes :=
  match makeSocket alloc timeoutMs e s with
  | .ub => (s, .ub)
  | .throw s1 x => (s1, .threw x)
  | .ok s1 fd =>
    let packet := EncapsPacketFactory.listIdentity.pack
    let s2 := s1.note [.sendto fd broadCast.addr packet]
    if udpSendThrows packet e.sendCount then (udpClose fd s2, .threw (.system 0))
    else
      match loop m [] e.recvs with
      | .done ds => (udpClose fd s2, .done ds)
      | .threw x => (udpClose fd s2, .threw x)
      | .ub => (s2, .ub)
      | .waiting => (s2, .waiting)

end Discovery

end Verif
