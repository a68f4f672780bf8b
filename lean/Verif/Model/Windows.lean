import Verif.Model.Connect
import Verif.Model.RecvTime
import Verif.Model.ConnManager

/-!
# Model of the Windows branches

Source: the parts of `src/sockets/*.cpp` and `src/DiscoveryManager.h` between `#if defined(_WIN32)` and `#endif`, and what remains of the
functions around them when the unix parts are left out.

Winsock itself is not in the repository; what is taken from its documentation: `SOCKET` is an unsigned integer of 64 bits and
`INVALID_SOCKET` has all bits set; a new socket is blocking; the value of `SO_RCVTIMEO` is a `DWORD` of milliseconds, and zero means no
limit; a `recv` that waited so long fails with `WSAETIMEDOUT`; `recvfrom` fails with `WSAEMSGSIZE` if the datagram does not fit the buffer.
-/

namespace Verif

namespace Win

/-- `EIPSCANNER_SOCKET_ERROR(EINTR)` (Platform.h:12) and so on. -/
def wsaEintr : Int := 10004
def wsaEinprogress : Int := 10036
def wsaEmsgsize : Int := 10040
def wsaEtimedout : Int := 10060

/-! ## Sockets -/

/-- `_sockedFd = socket(...)` (TCPSocket.cpp:34): a `SOCKET` is put into an `int`. -/
def sockedFd (h : BitVec 64) : Int := (h.setWidth 32).toInt

/-- The `SOCKET` that a call with `_sockedFd` as argument gets. -/
def handle (fd : Int) : BitVec 64 := BitVec.ofInt 64 fd

/-- The calls of Winsock. -/
inductive WSys where
  | socket
  | connect (h : BitVec 64)
  | select (h : BitVec 64) (sec usec : Int)
  | getsockopt (h : BitVec 64)
  | setsockopt (h : BitVec 64)
  | bind (h : BitVec 64)
  | shutdown (h : BitVec 64)
  | closesocket (h : BitVec 64)
deriving Repr, DecidableEq

/-- The open sockets, and the calls made so far. -/
structure WOs where
  opened : List (BitVec 64)
  trace : List WSys
deriving Repr, DecidableEq

/-- What Winsock will return: the result of `socket` and the error it leaves, the error of `connect`, if any, the results of
`select` and of `getsockopt`. -/
structure WEnv where
  socket : BitVec 64
  socketErr : Int
  connect : Option Int
  selects : List SelectResult
  sockopt : Except Int Int

/-- Record a call. -/
def note (c : WSys) : Prog WOs Unit := Prog.modify fun s => { s with trace := s.trace ++ [c] }

/-- `BaseSocket::Close` (BaseSocket.cpp:45-51). -/
def close (fd : Int) : Prog WOs Unit := do
  note (.closesocket (handle fd))
  Prog.modify fun s => { s with opened := s.opened.filter (· ≠ handle fd) }

/-- `BaseSocket::Shutdown` (BaseSocket.cpp:37-43). -/
def shutdown (fd : Int) : Prog WOs Unit := note (.shutdown (handle fd))

/-- `BaseSocket::makePortableInterval` (BaseSocket.cpp:91-110): a `long int` has 32 bits, so the cast keeps the seconds modulo 2^32.
The branch for Apple does the same: `__darwin_suseconds_t` has 32 bits. -/
def interval (ms : Int) : Int × Int := (max (BitVec.ofInt 32 (ms.tdiv 1000)).toInt 0, max (ms.tmod 1000 * 1000) 0)

/-- The loop that waits for the connection (TCPSocket.cpp:67-92).  One socket fits every `fd_set`. -/
def waitConnected (env : WEnv) (fd : Int) (timeoutMs : Int) : Prog WOs Unit := do
  let tv := interval timeoutMs
  note (.select (handle fd) tv.1 tv.2)
  match env.selects.headD .timeout with
  | .error e => if e ≠ wsaEintr then Prog.throw (.system e) else Prog.throw (.system wsaEtimedout)
  | .ready => do
    note (.getsockopt (handle fd))
    match env.sockopt with
    | .error e => Prog.throw (.system e)
    | .ok err => if err ≠ 0 then Prog.throw (.system err) else pure ()
  | .timeout => Prog.throw (.system wsaEtimedout)

/-- `connect` and what is done about its result (TCPSocket.cpp:63-96). -/
def startConnect (env : WEnv) (fd : Int) (timeoutMs : Int) : Prog WOs Unit := do
  note (.connect (handle fd))
  match env.connect with
  | none => pure ()
  | some e => if e = wsaEinprogress then waitConnected env fd timeoutMs else Prog.throw (.system e)

/-- `catch (...) { Close(); throw; }` (TCPSocket.cpp:108-111). -/
def closeOnThrow (fd : Int) (x : Prog WOs Unit) : Prog WOs Unit := fun s =>
  match x s with
  | .throw s' e => (do close fd; Prog.throw e : Prog WOs Unit) s'
  | r => r

/-- `TCPSocket(endPoint, connTimeout)` (TCPSocket.cpp:31-113) without the unix parts: the socket stays blocking. -/
def tcpConnect (env : WEnv) (timeoutMs : Int) : Prog WOs Int := do
  note .socket
  if env.socket ≠ BitVec.allOnes 64 then Prog.modify fun s => { s with opened := env.socket :: s.opened }
  if sockedFd env.socket < 0 then Prog.throw (.system env.socketErr)
  else do
    closeOnThrow (sockedFd env.socket) (startConnect env (sockedFd env.socket) timeoutMs)
    pure (sockedFd env.socket)

/-- `~TCPSocket` (TCPSocket.cpp:121-125). -/
def tcpDestroy (fd : Int) : Prog WOs Unit := do
  shutdown fd
  close fd

/-- What Winsock will return to the constructor of a bound UDP socket: the result of `socket` and the error it leaves, the errors of
`setsockopt` and of `bind`, if any. -/
structure BEnv where
  socket : BitVec 64
  socketErr : Int
  reuse : Option Int
  bind : Option Int

/-- `UDPBoundSocket(endPoint)` (UDPBoundSocket.cpp:20-32): if it throws, the destructor of `UDPSocket` runs (UDPSocket.cpp:46-50). -/
def bindSocket (env : BEnv) (fd : Int) : Prog WOs Unit := do
  note (.setsockopt (handle fd))
  match env.reuse with
  | some e => do
    shutdown fd
    close fd
    Prog.throw (.system e)
  | none => do
    note (.bind (handle fd))
    match env.bind with
    | some e => do
      shutdown fd
      close fd
      Prog.throw (.system e)
    | none => pure ()

/-- `UDPSocket(endPoint)` (UDPSocket.cpp:29-34) and `UDPBoundSocket(endPoint)`; Windows has no `SO_NOSIGPIPE`. -/
def udpBound (env : BEnv) : Prog WOs Int := do
  note .socket
  if env.socket ≠ BitVec.allOnes 64 then Prog.modify fun s => { s with opened := env.socket :: s.opened }
  if sockedFd env.socket < 0 then Prog.throw (.system env.socketErr)
  else do
    bindSocket env (sockedFd env.socket)
    pure (sockedFd env.socket)

/-! ## Receiving -/

/-- `uint32_t ms = recvTimeout.count()` (BaseSocket.cpp:82). -/
def rcvTimeout (ms : Int) : BitVec 32 := BitVec.ofInt 32 ms

/-- The limit that `SO_RCVTIMEO` with this value puts on one call, in microseconds, if any. -/
def rcvLimit (v : BitVec 32) : Option Nat := if v = 0 then none else some (v.toNat * 1000)

/-- What `recvfrom` with a buffer of `size` bytes gives. -/
def recvfrom (size : Nat) : Recv → Recv
  | .err code => .err code
  | .dgram bytes => if bytes.length ≤ size then .dgram bytes else .err wsaEmsgsize

/-! ## Discovery -/

open Discovery in
/-- The receive loop (DiscoveryManager.cpp:43-84); the error that ends it is `WSAETIMEDOUT` (DiscoveryManager.h:13-14). -/
def loop (m : Mem) (devices : List IdentityItem) : List Recv → DiscRes
  | [] => .waiting
  | r :: rs =>
    match udpReceive 504 (recvfrom 504 r) with
    | .ub => .ub
    | .throw (.system code) => if code ≠ wsaEtimedout then .threw (.system code) else .done devices
    | .throw e => .threw e
    | .ok data =>
      match answer m data with
      | .ub => .ub
      | .throw (.system code) => if code ≠ wsaEtimedout then .threw (.system code) else .done devices
      | .throw e => .threw e
      | .ok ds => loop m (devices ++ ds) rs

open Discovery in
/-- `DiscoveryManager::discover` and `makeSocket` (DiscoveryManager.cpp:37-99). -/
def discover (m : Mem) (e : Env) : Option (List Byte) × DiscRes :=
  match e.sockErr, e.broadcastErr with
  | some code, _ => (none, .threw (.system code))
  | none, some code => (none, .threw (.system code))
  | none, none =>
    let packet := EncapsPacketFactory.listIdentity.pack
    if udpSendThrows packet e.sendCount then (some packet, .threw (.system 0))
    else (some packet, loop m [] e.recvs)

/-- The results of the calls of `recvfrom` when datagrams arrive at these times, as in `Discovery.timedRecvs`, and the time at which
the last of them returned. -/
def timedRecvs (limit : Option Nat) (busy : Nat → Nat) : Nat → Nat → List (Nat × List Byte) → List Recv × Option Nat
  | _, now, [] =>
    match limit with
    | none => ([], none)
    | some t => ([.err wsaEtimedout], some (now + t))
  | i, now, (a, d) :: rest =>
    match limit with
    | none =>
      let r := timedRecvs limit busy (i + 1) (max now a + busy i) rest
      (.dgram d :: r.1, r.2)
    | some t =>
      if a ≤ now + t then
        let r := timedRecvs limit busy (i + 1) (max now a + busy i) rest
        (.dgram d :: r.1, r.2)
      else ([.err wsaEtimedout], some (now + t))

/-! ## Connections -/

/-- What a handler of a bound socket gets (ConnectionManager.cpp:240). -/
def arrival (a : Arrival) : Arrival := { a with recv := recvfrom 8192 a.recv }

/-- `FD_SET` of `winsock2.h`: an `fd_set` is an array of at most `FD_SETSIZE` = 64 sockets, and there is no error if it is full. -/
def fdSet (set : List (BitVec 64)) (h : BitVec 64) : List (BitVec 64) :=
  if h ∈ set then set else if set.length < 64 then set ++ [h] else set

/-- The sockets of which `BaseSocket::select` calls the handlers in one round (BaseSocket.cpp:132-147) if these are ready: `::select`
leaves in the set those that are. -/
def served (fds : List Int) (ready : BitVec 64 → Bool) : List Int :=
  let recvSet := (fds.map handle).foldl fdSet []
  fds.filter fun fd => decide (handle fd ∈ recvSet.filter ready)

/-- The rounds of `BaseSocket::select` (BaseSocket.cpp:119-151). Simplified: there are at most 64 sockets, so all that are ready are
served (`C128_served`). -/
def round : Round → Round
  | .fail code => .fail code
  | .ready first more now => .ready (arrival first) (more.map arrival) now

/-- `ConnectionManager::handleConnections` (ConnectionManager.cpp:207-227). Simplified: the times to wait are those of unix, which they are
if they are less than 2^31 s (`C128_interval`). -/
def handleConnections (P : Plat) (start : Nat) (timeoutMs : Int) (rounds : List Round) (ticks : Nat → TickEnv) (s : Mgr) : StepRes :=
  s.handle P start timeoutMs (rounds.map round) ticks

/-! ## Messages of errors -/

/-- The loop that drops line ends (Platform.cpp:23-25), on the text in reverse. -/
def trim : List Char → List Char
  | [] => []
  | c :: cs => if c = '\r' ∨ c = '\n' then trim cs else c :: cs

/-- `win32ErrorCategory::message` (Platform.cpp:16-27) if the text of the system for the code is `text`, if any; `FormatMessage` fails
if the text and a zero do not fit the 255 characters of the buffer. -/
def message (text : Option (List Char)) : List Char :=
  match text with
  | none => ['N', '/', 'A']
  | some t => if t.length = 0 ∨ 255 ≤ t.length then ['N', '/', 'A'] else (trim t.reverse).reverse

end Win

end Verif
