import Verif.Model.LogText
import Verif.Model.Identity
import Verif.Model.Tcp

/-!
# The log and the errors of sockets

Source: `src/sockets/UDPSocket.cpp`, `src/sockets/TCPSocket.cpp`, `src/DiscoveryManager.cpp`, `src/utils/Logger.cpp`.

An error of a socket is told by `errno`, which any later call may change.  `after c v` is the value that `errno` has after the appender was called with
`c`, if it was `v` before.  The appender is the one in force, and `fails` tells when it throws, as in `Model/Log`.
-/

namespace Verif

/-- The appender: when it throws, and what it leaves in `errno` (Logger.h:33-50). -/
structure AppenderEnv where
  fails : LogCall → Bool
  after : LogCall → Int → Int

/-- The log and `errno` (`BaseSocket::getLastError`, BaseSocket.cpp:53-59). -/
structure LogErr where
  logs : Logs
  errno : Int
deriving Repr, DecidableEq

namespace LogErr

/-- A statement with a `Logger` (Logger.cpp:18-22). -/
def line (A : AppenderEnv) (l : LogLine) : Prog LogErr Unit := fun s =>
  match s.logs.finish A.fails l.level (String.ofList l.text) with
  | .ub => .ub
  | .throw logs x => .throw { s with logs } x
  | .ok logs _ =>
    .ok ⟨logs, if s.logs.level ≠ .off ∧ l.level.toNat ≤ s.logs.level.toNat then
        match s.logs.appender with
        | some a => A.after ⟨a, l.level, String.ofList l.text⟩ s.errno
        | none => s.errno
      else s.errno⟩ ()

/-- `UDPSocket::Receive` (UDPSocket.cpp:69-79) with its message, which is written between `recvfrom` and the reading of `errno`. -/
def udpReceive (A : AppenderEnv) (fd size : Nat) : Recv → Prog LogErr (List Byte)
  | .err code => do
    Prog.modify fun s => { s with errno := code }
    line A (.udpReceived (-1) fd)
    let s ← Prog.get
    Prog.throw (.system s.errno)
  | .dgram bytes => do
    line A (.udpReceived (bytes.take size).length fd)
    pure (bytes.take size ++ List.replicate (size - (bytes.take size).length) 0#8)

/-- The receive loop of `discover` (DiscoveryManager.cpp:43-84); `none` while `recvfrom` has not returned. -/
def loop (A : AppenderEnv) (m : Mem) (fd : Nat) (devices : List IdentityItem) : List Recv → Prog LogErr (Option (List IdentityItem))
  | [] => pure none
  | r :: rs => fun s =>
    match udpReceive A fd 504 r s with
    | .ub => .ub
    | .throw s' (.system code) => if code ≠ Discovery.endError then .throw s' (.system code) else .ok s' (some devices)
    | .throw s' e => .throw s' e
    | .ok s' data =>
      match Discovery.answer m data with
      | .ub => .ub
      | .throw (.system code) => if code ≠ Discovery.endError then .throw s' (.system code) else .ok s' (some devices)
      | .throw e => .throw s' e
      | .ok ds => loop A m fd (devices ++ ds) rs s'

/-- A block with a socket object: `UDPSocket::~UDPSocket` (UDPSocket.cpp:47-51) writes its message when the block is left, in a destructor, which is `noexcept`; while
the block waits (`none`) it is not left. -/
def udpScope (A : AppenderEnv) (fd : Nat) (p : Prog LogErr (Option (List IdentityItem))) : Prog LogErr (Option (List IdentityItem)) := fun s =>
  match p s with
  | .ub => .ub
  | .ok s' none => .ok s' none
  | .throw s' .abort => .throw s' .abort
  | .throw s' x => (do line A (.udpClosed fd); Prog.throw x : Prog LogErr (Option (List IdentityItem))) s'
  | .ok s' (some devices) => (do line A (.udpClosed fd); pure (some devices) : Prog LogErr (Option (List IdentityItem))) s'

/-- `discover` (DiscoveryManager.cpp:37-99) with the messages of its socket (UDPSocket.cpp:29-67); `fd` is its descriptor.  After a short count of
`sendto`, `errno` is what an earlier call left. -/
def discover (A : AppenderEnv) (m : Mem) (fd : Nat) (e : Discovery.Env) : Prog LogErr (Option (List IdentityItem)) :=
  match e.sockErr with
  | some code => Prog.throw (.system code)
  | none => do
    line A (.udpOpened fd)
    udpScope A fd (match e.broadcastErr with
      | some code => Prog.throw (.system code)
      | none => do
        let packet := EncapsPacketFactory.listIdentity.pack
        line A (.udpSent packet.length fd)
        let s ← Prog.get
        if udpSendThrows packet e.sendCount then Prog.throw (.system s.errno) else loop A m fd [] e.recvs)

/-- The loop of `TCPSocket::Receive` (TCPSocket.cpp:144-161) with its messages: `errno` is read directly after `recv`. -/
def tcpLoop (A : AppenderEnv) (fd k : Nat) (got : List Byte) : List NetEv → Prog LogErr Tcp.RecvEnd
  | [] => if k = 0 then pure (.done got []) else do
    Prog.modify fun s => { s with errno := eagain }
    let s ← Prog.get
    pure (.failed s.errno [])
  | ev :: net =>
    if k = 0 then pure (.done got (ev :: net))
    else
      match ev with
      | .eintr => do
        Prog.modify fun s => { s with errno := 4 }
        tcpLoop A fd k got net
      | .err code => do
        Prog.modify fun s => { s with errno := code }
        let s ← Prog.get
        pure (.failed s.errno net)
      | .eof => do
        line A (.tcpReceived 0 fd)
        pure (.done got (.eof :: net))
      | .seg b bs =>
        if k < (b :: bs).length then do
          line A (.tcpReceived k fd)
          match (b :: bs).drop k with
          | [] => pure (.done (got ++ (b :: bs).take k) net)
          | c :: cs => pure (.done (got ++ (b :: bs).take k) (.seg c cs :: net))
        else do
          line A (.tcpReceived (b :: bs).length fd)
          tcpLoop A fd (k - (b :: bs).length) (got ++ (b :: bs)) net

/-- `TCPSocket::Receive` (TCPSocket.cpp:141-169) with its messages, one of which is a warning if the peer closed the connection before all bytes were there. -/
def tcpReceive (A : AppenderEnv) (ep : EndPoint) (fd size : Nat) (net : List NetEv) : Prog LogErr (Outcome (List Byte) × List NetEv) := do
  match ← tcpLoop A fd size [] net with
  | .failed code net => pure (.throw (.system code), net)
  | .done got net =>
    if size ≠ got.length then line A (.tcpShort ep got.length size)
    pure (.ok (got ++ List.replicate (size - got.length) 0#8), net)

end LogErr

end Verif
