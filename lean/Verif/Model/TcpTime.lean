import Verif.Model.Link
import Verif.Model.RecvTime

/-!
# A TCP session whose bytes arrive at times

`TCPSocket::Receive` and `SessionInfo::sendAndReceive` (`Model/Tcp.lean`) when what arrives has
arrival times and the socket has the receive timeout that the constructor of the session set
(SessionInfo.cpp:23, BaseSocket.cpp:78-89).  As in `Model/RecvTime.lean`, `SO_RCVTIMEO` is a part
of the system: every `recv` waits at most that long and then fails with `EAGAIN`; a timeval of
zero means no limit.  Times are microseconds.  Simplifications: sending takes no time, and neither
does anything else but waiting.
-/

namespace Verif

/-- A connected TCP socket: as `Tcp`, with the arrival times and the current time. -/
structure TTcp where
  net : List (Nat × NetEv)
  sends : List Int
  sent : List (List Byte)
  now : Nat
deriving Repr, DecidableEq

/-- Without times. -/
def TTcp.plain (s : TTcp) : Tcp := ⟨s.net.map (·.2), s.sends, s.sent⟩

/-- The result of a call: `hangs` when it never returns. -/
inductive TRes (α : Type) where
  | ok (s : TTcp) (a : α)
  | throw (s : TTcp) (e : Exn)
  | ub
  | hangs
deriving Repr, DecidableEq

/-- Continue with the result. -/
def TRes.andThen {α β : Type} (x : TRes α) (f : TTcp → α → TRes β) : TRes β :=
  match x with
  | .ok s a => f s a
  | .throw s e => .throw s e
  | .ub => .ub
  | .hangs => .hangs

/-- A computation that takes no time and uses no socket. -/
def TRes.lift {α : Type} (s : TTcp) : Outcome α → TRes α
  | .ok a => .ok s a
  | .throw e => .throw s e
  | .ub => .ub

namespace TTcp

/-- How the loop of `Receive` ends, and when. -/
inductive End where
  | done (got : List Byte) (net : List (Nat × NetEv)) (now : Nat)
  | failed (code : Int) (net : List (Nat × NetEv)) (now : Nat)
  | hangs
deriving Repr, DecidableEq

/-- The loop of `TCPSocket::Receive` (TCPSocket.cpp:144-161), as `Tcp.recvLoop`; `now` is the time
at which `recv` is called.  What arrives later than the limit after that is not waited for. -/
def recvLoop (limit : Option Nat) (k : Nat) (got : List Byte) (now : Nat) : List (Nat × NetEv) → End
  | [] =>
    if k = 0 then .done got [] now
    else
      match limit with
      | none => .hangs
      | some t => .failed eagain [] (now + t)
  | (a, ev) :: net =>
    if k = 0 then .done got ((a, ev) :: net) now
    else if limit.any fun t => decide (now + t < a) then
      .failed eagain ((a, ev) :: net) (now + limit.getD 0)
    else
      match ev with
      | .eintr => recvLoop limit k got (max now a) net
      | .err code => .failed code net (max now a)
      | .eof => .done got ((a, .eof) :: net) (max now a)
      | .seg b bs =>
        if k < (b :: bs).length then
          match (b :: bs).drop k with
          | [] => .done (got ++ (b :: bs).take k) net (max now a)
          | c :: cs => .done (got ++ (b :: bs).take k) ((a, .seg c cs) :: net) (max now a)
        else recvLoop limit (k - (b :: bs).length) (got ++ (b :: bs)) (max now a) net

/-- `TCPSocket::Receive` (TCPSocket.cpp:141-169), as `Tcp.receive`. -/
def receive (limit : Option Nat) (size : Nat) (s : TTcp) : TRes (List Byte) :=
  match recvLoop limit size [] s.now s.net with
  | .done got net now => .ok { s with net, now } (got ++ List.replicate (size - got.length) 0#8)
  | .failed code net now => .throw { s with net, now } (.system code)
  | .hangs => .hangs

/-- `TCPSocket::Send` (TCPSocket.cpp:127-139), as `Tcp.send`. -/
def send (data : List Byte) (s : TTcp) : TRes Unit :=
  match Tcp.send data s.plain with
  | .ok t _ => .ok { s with sends := t.sends, sent := t.sent } ()
  | .throw t e => .throw { s with sends := t.sends, sent := t.sent } e
  | .ub => .ub

/-- The checks of a received packet (SessionInfo.cpp:57-66). -/
def check (handle : BitVec 32) (p : EncapsPacket) : Outcome EncapsPacket :=
  if p.status ≠ encapsSuccess then .throw (.runtime "Bad encaps packet code")
  else if handle ≠ 0#32 ∧ p.sessionHandle ≠ handle then .throw (.runtime "Wrong session handle received")
  else .ok p

/-- `SessionInfo::sendAndReceive` (SessionInfo.cpp:47-69), as `Verif.sendAndReceive`. -/
def sendAndReceive (m : Mem) (limit : Option Nat) (handle : BitVec 32) (packet : EncapsPacket) (s : TTcp) : TRes EncapsPacket :=
  (send packet.pack s).andThen fun s _ =>
  (receive limit EncapsPacket.headerSize s).andThen fun s header =>
  (TRes.lift s (EncapsPacket.getLengthFromHeader header)).andThen fun s length =>
  (receive limit length s).andThen fun s data =>
  (TRes.lift s (EncapsPacket.parse m (header ++ data))).andThen fun s p =>
  TRes.lift s (check handle p)

/-- A session with a timeout of so many milliseconds (SessionInfo.cpp:20-23). -/
def exchange (m : Mem) (timeoutMs : Int) (handle : BitVec 32) (packet : EncapsPacket) (s : TTcp) : TRes EncapsPacket :=
  sendAndReceive m (Discovery.rcvLimit (makePortableInterval timeoutMs)) handle packet s

end TTcp

/-- A call as seen by the classes that use the session.  A call that hangs does not return to them; with a positive
timeout there is none (C88_bounded), and `ub` stands for it here. -/
def TRes.toRes {α : Type} : TRes α → Res TTcp α
  | .ok s a => .ok s a
  | .throw s e => .throw s e
  | .ub => .ub
  | .hangs => .ub

/-- The session (SessionInfo.cpp:47-73) with a timeout, as `SessionIf.tcp`. -/
def SessionIf.timed (m : Mem) (timeoutMs : Int) (handle : BitVec 32) : SessionIf TTcp :=
  ⟨handle, fun packet s => (TTcp.exchange m timeoutMs handle packet s).toRes⟩

/-- `MessageRouter::sendRequest` (MessageRouter.cpp:31-35) over that session, as `Device.tcp`. -/
def Device.timed (m : Mem) (timeoutMs : Int) (handle : BitVec 32) : Device TTcp :=
  ⟨fun r => sendRequest m (SessionIf.timed m timeoutMs handle) false r.service r.path r.data []⟩

end Verif
