import Verif.Base.Prog
import Verif.Model.Tcp

/-!
# Model of the connecting constructor and the destructor of `sockets::TCPSocket`

Source: `src/sockets/TCPSocket.cpp:31-125`, `src/sockets/BaseSocket.cpp:37-51`, on unix
(without `SO_NOSIGPIPE`, which Linux does not have).

The operating system is an explicit environment: what each system call will return.
-/

namespace Verif

/-- `EINPROGRESS`, `EINTR`, `ETIMEDOUT`, `O_NONBLOCK` and `FD_SETSIZE` of Linux. -/
def einprogress : Int := 115
def eintrCode : Int := 4
def etimedout : Int := 110
def oNonblock : BitVec 32 := 0x800
def fdSetSize : Nat := 1024

/-- What `::select` with one descriptor returns. -/
inductive SelectResult where
  | ready
  | timeout
  | error (errno : Int)
deriving Repr, DecidableEq

/-- The system calls made, with the arguments that matter. -/
inductive Sys where
  | socket
  | getfl (fd : Nat)
  | setfl (fd : Nat) (flags : BitVec 32)
  | connect (fd : Nat)
  | select (fd : Nat) (sec usec : Int)
  | getsockopt (fd : Nat)
  | shutdown (fd : Nat)
  | close (fd : Nat)
deriving Repr, DecidableEq

/-- What the operating system will return.  `some errno` is a failure.  `getfl` and `setfl`
have one entry for each of the two calls. -/
structure ConnectEnv where
  socket : Except Int Nat
  getfl1 : Option Int
  setfl1 : Option Int
  connect : Option Int
  selects : List SelectResult
  sockopt : Except Int Int
  getfl2 : Option Int
  setfl2 : Option Int

/-- The open descriptors with their flags, and the system calls made so far. -/
structure Os where
  files : List (Nat × BitVec 32)
  trace : List Sys
deriving Repr, DecidableEq

namespace Os

/-- The flags of a descriptor. -/
def flags (s : Os) (fd : Nat) : BitVec 32 := ((s.files.find? (·.1 = fd)).map (·.2)).getD 0

/-- Record a system call. -/
def note (c : Sys) : Prog Os Unit := Prog.modify fun s => { s with trace := s.trace ++ [c] }

/-- A system call that succeeds or throws its `errno` (the pattern `if (... < 0) throw`). -/
def call (c : Sys) (fail : Option Int) : Prog Os Unit := do
  note c
  match fail with
  | some e => Prog.throw (.system e)
  | none => pure ()

/-- `fcntl(fd, F_GETFL)` (TCPSocket.cpp:48-51, 100-102). -/
def getfl (fd : Nat) (fail : Option Int) : Prog Os (BitVec 32) := do
  call (.getfl fd) fail
  let s ← Prog.get
  pure (s.flags fd)

/-- `fcntl(fd, F_SETFL, v)` (TCPSocket.cpp:54-56, 104-106). -/
def setfl (fd : Nat) (v : BitVec 32) (fail : Option Int) : Prog Os Unit := do
  call (.setfl fd v) fail
  Prog.modify fun s => { s with files := s.files.map fun p => if p.1 = fd then (fd, v) else p }

/-- `BaseSocket::Close` (BaseSocket.cpp:45-51). -/
def close (fd : Nat) : Prog Os Unit := do
  note (.close fd)
  Prog.modify fun s => { s with files := s.files.filter (·.1 ≠ fd) }

/-- `BaseSocket::Shutdown` (BaseSocket.cpp:37-43); its result is ignored. -/
def shutdown (fd : Nat) : Prog Os Unit := note (.shutdown fd)

end Os

/-- The loop that waits for the connection (TCPSocket.cpp:67-92).  No branch of the body goes
round again, so one result of `::select` is used.  `FD_SET` of a descriptor that does not
fit an `fd_set` is undefined behaviour.  When the environment has no result left the wait
times out. -/
def waitConnected (env : ConnectEnv) (fd : Nat) (timeoutMs : Int) : Prog Os Unit := do
  let tv := makePortableInterval timeoutMs
  if fdSetSize ≤ fd then Prog.undefined
  else do
    Os.note (.select fd tv.1 tv.2)
    match env.selects.headD .timeout with
    | .error e => if e ≠ eintrCode then Prog.throw (.system e) else Prog.throw (.system etimedout)
    | .ready => do
      Os.note (.getsockopt fd)
      match env.sockopt with
      | .error e => Prog.throw (.system e)
      | .ok err => if err ≠ 0 then Prog.throw (.system err) else pure ()
    | .timeout => Prog.throw (.system etimedout)

/-- `connect` and what is done about its result (TCPSocket.cpp:63-96). -/
def startConnect (env : ConnectEnv) (fd : Nat) (timeoutMs : Int) : Prog Os Unit := do
  Os.note (.connect fd)
  match env.connect with
  | none => pure ()
  | some e => if e = einprogress then waitConnected env fd timeoutMs else Prog.throw (.system e)

/-- The guarded part of the constructor (TCPSocket.cpp:62-107). -/
def connectGuarded (env : ConnectEnv) (fd : Nat) (timeoutMs : Int) : Prog Os Unit := do
  startConnect env fd timeoutMs
  let arg ← Os.getfl fd env.getfl2
  Os.setfl fd (arg &&& ~~~oNonblock) env.setfl2

/-- `catch (...) { Close(); throw; }` (TCPSocket.cpp:108-111). -/
def closeOnThrow (fd : Nat) (x : Prog Os Unit) : Prog Os Unit := fun s =>
  match x s with
  | .throw s' e => (do Os.close fd; Prog.throw e : Prog Os Unit) s'
  | r => r

/-- `TCPSocket(endPoint, connTimeout)` (TCPSocket.cpp:31-113); the result is `_sockedFd`.
`f0` are the flags of a new socket. -/
def tcpConnect (env : ConnectEnv) (f0 : BitVec 32) (timeoutMs : Int) : Prog Os Nat := do
  Os.note .socket
  match env.socket with
  | .error e => Prog.throw (.system e)
  | .ok fd => do
    Prog.modify fun s => { s with files := (fd, f0) :: s.files }
    let arg ← Os.getfl fd env.getfl1
    Os.setfl fd (arg ||| oNonblock) env.setfl1
    closeOnThrow fd (connectGuarded env fd timeoutMs)
    pure fd

/-- `~TCPSocket` (TCPSocket.cpp:121-125). -/
def tcpDestroy (fd : Nat) : Prog Os Unit := do
  Os.shutdown fd
  Os.close fd

/-! ## The lifetime of a session -/

/-- The constructor of `SessionInfo` (SessionInfo.cpp:20-35): connect, set the receive timeout
(its result is ignored, so it is left out), register.  When registering throws, the member
`_socket` is complete and is destroyed. -/
def sessionOpen (m : Mem) (env : ConnectEnv) (f0 : BitVec 32) (timeoutMs : Int) : Prog (Os × Tcp) (Nat × BitVec 32) := fun s =>
  match tcpConnect env f0 timeoutMs s.1 with
  | .ub => .ub
  | .throw o e => .throw (o, s.2) e
  | .ok o fd =>
    match registerSession m s.2 with
    | .ub => .ub
    | .ok t handle => .ok (o, t) (fd, handle)
    | .throw t e =>
      match tcpDestroy fd o with
      | .ok o' _ => .throw (o', t) e
      | .throw o' e' => .throw (o', t) e'
      | .ub => .ub

/-- The destructor of `SessionInfo` (SessionInfo.cpp:41-45) and of its member `_socket`. -/
def sessionClose (fd : Nat) (handle : BitVec 32) : Prog (Os × Tcp) Unit := fun s =>
  match unregisterSession handle s.2 with
  | .ub => .ub
  | .throw t e => .throw (s.1, t) e
  | .ok t _ =>
    match tcpDestroy fd s.1 with
    | .ok o _ => .ok (o, t) ()
    | .throw o e => .throw (o, t) e
    | .ub => .ub

end Verif
