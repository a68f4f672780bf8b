import Verif.Model.Tcp

/-!
# Model of copies of sessions, with the descriptors of the process

Source: `src/SessionInfo.{h,cpp}`, `src/sockets/TCPSocket.{h,cpp}`, `src/sockets/BaseSocket.{h,cpp}`.

`SessionInfo`, `TCPSocket` and `BaseSocket` have a destructor and no other special member function (SessionInfo.h:48,
TCPSocket.h:19, BaseSocket.h:29): they can be copied, and a move copies them.  The copy has the same descriptor
(BaseSocket.h:51) and session handle (SessionInfo.h:71); each destructor unregisters the session (SessionInfo.cpp:41-45) and
closes the descriptor (TCPSocket.cpp:121-125).

The descriptors are those of a POSIX system: a number, meaning a connection or something else of the process; a new one is
the lowest that is free.  That `socket` or `connect` fails is left out (C25); assignment of sessions is in
`SessionAssign.lean`.
-/

namespace Verif

/-- What a descriptor stands for: a connection, by its number, or something else, as a file. -/
inductive Opened where
  | conn (n : Nat)
  | file (k : Nat)
deriving Repr, DecidableEq

/-- A `SessionInfo`: the descriptor of its socket and its handle (BaseSocket.h:51, SessionInfo.h:71). -/
structure SessObj where
  fd : Nat
  handle : BitVec 32
deriving Repr, DecidableEq

/-- A process: all connections ever made, with what was sent on each and what will arrive; the descriptors; the session
objects made and those destroyed; the descriptors that the rest of the process has got, and which of them it has closed. -/
structure SessProc where
  conns : List Tcp := []
  fds : List (Option Opened) := []
  objs : List SessObj := []
  gone : List Nat := []
  files : List Nat := []
  shut : List Nat := []
deriving Repr, DecidableEq

/-- What a program does. -/
inductive SessOp where
  /-- construct a session; the argument is the connection as it is once connected -/
  | connect (t : Tcp)
  /-- construct a session as a copy of session `i` -/
  | copy (i : Nat)
  /-- destroy session `i` -/
  | destroy (i : Nat)
  /-- `sendAndReceive` of session `i` -/
  | request (i : Nat) (packet : EncapsPacket)
  /-- the rest of the process opens a descriptor -/
  | openFile
  /-- the rest of the process closes the `k`-th that it has opened, once -/
  | closeFile (k : Nat)
deriving Repr, DecidableEq

/-- How an operation returns. -/
inductive SessRet where
  | unit
  | packet (p : EncapsPacket)
  | threw (e : Exn)
deriving Repr, DecidableEq

/-- The result of an operation; `aborted`: an exception has left a destructor; `noSuch`: no program does this. -/
inductive SessRes where
  | ok (p : SessProc) (ret : SessRet)
  | aborted (p : SessProc)
  | ub
  | noSuch
deriving Repr, DecidableEq

namespace SessProc

/-- `EBADF` and `ENOTSOCK` of Linux. -/
def ebadf : Int := 9
def enotsock : Int := 88

/-- The lowest free descriptor. -/
def lowest : List (Option Opened) → Nat
  | [] => 0
  | none :: _ => 0
  | some _ :: r => lowest r + 1

/-- The table with the lowest free descriptor given out. -/
def give (x : Opened) : List (Option Opened) → List (Option Opened)
  | [] => [some x]
  | none :: r => some x :: r
  | some y :: r => some y :: give x r

/-- The stream of system calls on a descriptor that is no socket: each fails with this code. -/
def noSocket (code : Int) : Tcp := { net := [.err code], sends := [-1], sent := [] }

/-- What a descriptor means now. -/
def look (p : SessProc) (fd : Nat) : Option Opened := (p.fds[fd]?).join

/-- Run a program of the session over the descriptor: system calls on one that is not open fail, and so do those for
sockets on one that is something else. -/
def over {α : Type} (p : SessProc) (fd : Nat) (x : Prog Tcp α) : Res SessProc α :=
  match p.look fd with
  | none =>
    match x (noSocket ebadf) with
    | .ok _ a => .ok p a
    | .throw _ e => .throw p e
    | .ub => .ub
  | some (.file _) =>
    match x (noSocket enotsock) with
    | .ok _ a => .ok p a
    | .throw _ e => .throw p e
    | .ub => .ub
  | some (.conn n) =>
    match p.conns[n]? with
    | none => .ub
    | some t =>
      match x t with
      | .ok t' a => .ok { p with conns := p.conns.set n t' } a
      | .throw t' e => .throw { p with conns := p.conns.set n t' } e
      | .ub => .ub

/-- `Shutdown` and `Close` (BaseSocket.cpp:37-51): the descriptor is free, whatever it stood for; the results of both calls
are ignored. -/
def close (p : SessProc) (fd : Nat) : SessProc := { p with fds := p.fds.set fd none }

/-- One operation.  Constructor: SessionInfo.cpp:20-35, `TCPSocket` (TCPSocket.cpp:33-113) got the lowest free descriptor,
and is destroyed if the registration throws; destructor: SessionInfo.cpp:41-45, then TCPSocket.cpp:121-125;
`sendAndReceive`: SessionInfo.cpp:47-69. -/
def step (m : Mem) (p : SessProc) : SessOp → SessRes
  | .connect t =>
    let fd := lowest p.fds
    let p1 := { p with conns := p.conns ++ [t], fds := give (.conn p.conns.length) p.fds }
    match p1.over fd (registerSession m) with
    | .ok p2 handle => .ok { p2 with objs := p2.objs ++ [⟨fd, handle⟩] } .unit
    | .throw p2 e => .ok (p2.close fd) (.threw e)
    | .ub => .ub
  | .copy i =>
    match p.objs[i]? with
    | none => .noSuch
    | some o => if p.gone.contains i then .noSuch else .ok { p with objs := p.objs ++ [o] } .unit
  | .destroy i =>
    match p.objs[i]? with
    | none => .noSuch
    | some o =>
      if p.gone.contains i then .noSuch
      else
        match p.over o.fd (unregisterSession o.handle) with
        | .ok p1 _ => .ok { p1.close o.fd with gone := i :: p1.gone } .unit
        | .throw p1 _ => .aborted p1
        | .ub => .ub
  | .request i packet =>
    match p.objs[i]? with
    | none => .noSuch
    | some o =>
      if p.gone.contains i then .noSuch
      else
        match p.over o.fd (sendAndReceive m o.handle packet) with
        | .ok p1 r => .ok p1 (.packet r)
        | .throw p1 e => .ok p1 (.threw e)
        | .ub => .ub
  | .openFile =>
    .ok { p with fds := give (.file p.files.length) p.fds, files := p.files ++ [lowest p.fds] } .unit
  | .closeFile k =>
    match p.files[k]? with
    | none => .noSuch
    | some fd =>
      if p.shut.contains k then .noSuch else .ok { p.close fd with shut := k :: p.shut } .unit

/-- A history of a process that goes on. -/
def run (m : Mem) (p : SessProc) : List SessOp → Option (SessProc × List (SessOp × SessRet))
  | [] => some (p, [])
  | op :: ops =>
    match p.step m op with
    | .ok p' ret => (p'.run m ops).map fun r => (r.1, (op, ret) :: r.2)
    | _ => none

end SessProc

end Verif
