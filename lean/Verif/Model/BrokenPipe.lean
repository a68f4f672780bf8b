import Verif.Base.Prog

/-!
# Model of sending to a peer that is gone, on all unix systems

Source: `src/sockets/TCPSocket.cpp`, `src/sockets/UDPSocket.cpp`: the parts between `#ifdef SO_NOSIGPIPE`, `#ifdef MSG_NOSIGNAL` and `#endif`.

What is taken from the documentation of the systems: `send` on a stream socket of which the peer takes no more data fails with `EPIPE`, and the
process gets `SIGPIPE`, which ends it, unless the call has the flag `MSG_NOSIGNAL` or the socket has the option `SO_NOSIGPIPE`.
-/

namespace Verif

namespace Pipe

/-- What the headers of the system define. -/
structure Build where
  msgNoSignal : Bool
  soNoSigpipe : Bool
deriving Repr, DecidableEq

/-- An open socket as the system has it: whether it is a stream socket, whether it has the option, and whether the peer is gone. -/
structure Sock where
  stream : Bool
  quiet : Bool
  gone : Bool
deriving Repr, DecidableEq

/-- The process: the sockets by descriptor (none after `close`), and the descriptors of the socket objects. Simplified: descriptors are not used again. -/
structure Proc where
  socks : List (Option Sock)
  objects : List Nat
deriving Repr, DecidableEq

/-- What happens: the constructors, with the errors of `socket`, of `setsockopt` and of the part of the constructor that is guarded;
the peer of a socket goes; an object sends, and `send` would return `count` if the peer is there; an object is destroyed. -/
inductive Op where
  | openTcp (socketErr optErr connectErr : Option Int)
  | openUdp (socketErr optErr : Option Int)
  | goes (fd : Nat)
  | send (fd : Nat) (data : List Byte) (count : Int)
  | destroy (fd : Nat)
deriving Repr, DecidableEq

/-- What a call ends with: `SIGPIPE` ends the process. -/
inductive Res where
  | ok (s : Proc)
  | threw (s : Proc) (code : Int)
  | killed
deriving Repr, DecidableEq

/-- `TCPSocket(endPoint, connTimeout)` (TCPSocket.cpp:31-113).  Simplified: the calls of `fcntl` before the `try` succeed (C68 has their
failures); an error within the `try` block closes the socket. -/
def openTcp (B : Build) (socketErr optErr connectErr : Option Int) (s : Proc) : Res :=
  match socketErr with
  | some e => .threw s e
  | none =>
    match B.soNoSigpipe, optErr with
    | true, some e => .threw { s with socks := s.socks ++ [some ⟨true, false, false⟩] } e
    | _, _ =>
      match connectErr with
      | some e => .threw { s with socks := s.socks ++ [none] } e
      | none => .ok ⟨s.socks ++ [some ⟨true, B.soNoSigpipe, false⟩], s.objects ++ [s.socks.length]⟩

/-- `UDPSocket(endPoint)` (UDPSocket.cpp:29-44). -/
def openUdp (B : Build) (socketErr optErr : Option Int) (s : Proc) : Res :=
  match socketErr with
  | some e => .threw s e
  | none =>
    match B.soNoSigpipe, optErr with
    | true, some e => .threw { s with socks := s.socks ++ [some ⟨false, false, false⟩] } e
    | _, _ => .ok ⟨s.socks ++ [some ⟨false, B.soNoSigpipe, false⟩], s.objects ++ [s.socks.length]⟩

/-- What `send` and `sendto` return, if they do, for a call with or without `MSG_NOSIGNAL`. -/
def sysSend (noSignal : Bool) (sock : Option Sock) (count : Int) : Option Int :=
  match sock with
  | none => some (-1)
  | some k => if k.stream ∧ k.gone then if noSignal ∨ k.quiet then some (-1) else none else some count

/-- `TCPSocket::Send` (TCPSocket.cpp:127-139) and `UDPSocket::Send` (UDPSocket.cpp:52-66): the count is compared as a `size_t`.
Simplified: the error thrown, which an earlier call left, is 0. -/
def send (B : Build) (fd : Nat) (data : List Byte) (count : Int) (s : Proc) : Res :=
  match sysSend B.msgNoSignal ((s.socks[fd]?).join) count with
  | none => .killed
  | some n => if (BitVec.ofInt 64 n).toNat < data.length then .threw s 0 else .ok s

/-- `~TCPSocket` (TCPSocket.cpp:121-125), `~UDPSocket` (UDPSocket.cpp:46-50). -/
def destroy (fd : Nat) (s : Proc) : Proc := ⟨s.socks.set fd none, s.objects.erase fd⟩

/-- One event; a program sends and destroys by objects that exist. -/
def step (B : Build) (s : Proc) : Op → Res
  | .openTcp a b c => openTcp B a b c s
  | .openUdp a b => openUdp B a b s
  | .goes fd => .ok { s with socks := s.socks.modify fd (·.map fun k => { k with gone := true }) }
  | .send fd data count => if fd ∈ s.objects then send B fd data count s else .ok s
  | .destroy fd => if fd ∈ s.objects then .ok (destroy fd s) else .ok s

/-- A history; the program goes on after an exception. None if the process has been killed. -/
def run (B : Build) : Proc → List Op → Option Proc
  | s, [] => some s
  | s, op :: ops =>
    match step B s op with
    | .ok s' => run B s' ops
    | .threw s' _ => run B s' ops
    | .killed => none

end Pipe

end Verif
