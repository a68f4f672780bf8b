import Verif.Base.Prog
import Verif.Base.Net
import Verif.Model.Cip

/-!
# Model of `sockets::TCPSocket`, `SessionInfo` and `MessageRouter`

Source: `src/sockets/TCPSocket.cpp`, `src/sockets/BaseSocket.cpp`,
`src/SessionInfo.cpp`, `src/MessageRouter.cpp`.

The operating system is an explicit environment: the future of the incoming
stream is a list of events and the results of `send` are a list of return values.
-/

namespace Verif

/-- A connected TCP socket: what will arrive, what `send` will return (when the
list is used up every `send` accepts all bytes), and the bytes handed to the
operating system so far, one entry per `Send` call. -/
structure Tcp where
  net : List NetEv
  sends : List Int
  sent : List (List Byte)
deriving Repr, DecidableEq

namespace Tcp

/-- `TCPSocket::Send` (TCPSocket.cpp:127-139).  `count` is an `int`;
the comparison `count < data.size()` is done in `size_t` (64 bits).  Up to
`count` bytes are handed over when `count` is not negative.  Simplification: the
`errno` reported after a short count is whatever an earlier call left; it is 0 here. -/
def send (data : List Byte) : Prog Tcp Unit := fun s =>
  let count : Int := s.sends.headD data.length
  let s' := { s with sends := s.sends.tail, sent := s.sent ++ [data.take count.toNat] }
  if (BitVec.ofInt 64 count).toNat < data.length then .throw s' (.system 0) else .ok s' ()

/-- What the loop of `Receive` ends with: the bytes stored in order, the rest of
the stream, and whether it threw. -/
inductive RecvEnd where
  | done (got : List Byte) (net : List NetEv)
  | failed (code : Int) (net : List NetEv)
deriving Repr, DecidableEq

/-- The loop of `TCPSocket::Receive` (TCPSocket.cpp:144-161): `k` is `size - count`
and `got` the first `count` bytes of the buffer.  `recv` with room for `k` bytes
returns at most `k` bytes of the next segment, 0 at the end of the stream. -/
def recvLoop (k : Nat) (got : List Byte) : List NetEv → RecvEnd
  | [] => if k = 0 then .done got [] else .failed eagain []
  | ev :: net =>
    if k = 0 then .done got (ev :: net)
    else
      match ev with
      | .eintr => recvLoop k got net
      | .err code => .failed code net
      | .eof => .done got (.eof :: net)
      | .seg b bs =>
        if k < (b :: bs).length then
          match (b :: bs).drop k with
          | [] => .done (got ++ (b :: bs).take k) net
          | c :: cs => .done (got ++ (b :: bs).take k) (.seg c cs :: net)
        else recvLoop (k - (b :: bs).length) (got ++ (b :: bs)) net

/-- `TCPSocket::Receive` (TCPSocket.cpp:141-169): the buffer is made with `size`
zero bytes and returned whole.  Simplification: `count` is an `int` in the code;
all callers ask for at most 65535 bytes. -/
def receive (size : Nat) : Prog Tcp (List Byte) := fun s =>
  match recvLoop size [] s.net with
  | .done got net => .ok { s with net } (got ++ List.replicate (size - got.length) 0#8)
  | .failed code net => .throw { s with net } (.system code)

end Tcp

/-! ## SessionInfo -/

/-- `SessionInfo::sendAndReceive` (SessionInfo.cpp:47-69). -/
def sendAndReceive (m : Mem) (handle : BitVec 32) (packet : EncapsPacket) : Prog Tcp EncapsPacket := do
  Tcp.send packet.pack
  let header ← Tcp.receive EncapsPacket.headerSize
  let length ← Prog.lift (EncapsPacket.getLengthFromHeader header)
  let data ← Tcp.receive length
  let recvPacket ← Prog.lift (EncapsPacket.parse m (header ++ data))
  if recvPacket.status ≠ encapsSuccess then
    Prog.throw (.runtime "Bad encaps packet code")
  else if handle ≠ 0#32 ∧ recvPacket.sessionHandle ≠ handle then
    Prog.throw (.runtime "Wrong session handle received")
  else pure recvPacket

/-- `SessionInfo::SessionInfo` (SessionInfo.cpp:20-35) over a connected socket:
returns `_sessionHandle`. -/
def registerSession (m : Mem) : Prog Tcp (BitVec 32) := do
  let packet ← sendAndReceive m 0#32 EncapsPacketFactory.registerSession
  if packet.status ≠ encapsSuccess then
    Prog.throw (.runtime "Failed to register session")
  else pure packet.sessionHandle

/-- `SessionInfo::~SessionInfo` (SessionInfo.cpp:41-45).  A destructor is
`noexcept`, so an exception that leaves it terminates the process. -/
def unregisterSession (handle : BitVec 32) : Prog Tcp Unit := fun s =>
  match Tcp.send (EncapsPacketFactory.unRegisterSession handle).pack s with
  | .ok s' _ => .ok s' ()
  | .throw s' _ => .throw s' .abort
  | .ub => .ub

/-! ## MessageRouter -/

/-- `SessionInfoIf` (SessionInfoIf.h:18-42): any implementation. -/
structure SessionIf (σ : Type) where
  handle : BitVec 32
  sendAndReceive : EncapsPacket → Prog σ EncapsPacket

/-- The `SessionInfo` implementation (SessionInfo.cpp:47-73). -/
def SessionIf.tcp (m : Mem) (handle : BitVec 32) : SessionIf Tcp :=
  ⟨handle, Verif.sendAndReceive m handle⟩

/-- The packet built by `MessageRouter::sendRequest` (MessageRouter.cpp:46-58). -/
def routerPacket (handle : BitVec 32) (request : MessageRouterRequest) (extra : List CommonPacketItem) :
    EncapsPacket :=
  EncapsPacketFactory.sendRRData handle 0#16
    (CommonPacket.pack ([CommonPacketItemFactory.nullAddress,
      CommonPacketItemFactory.unconnectedData request.pack] ++ extra))

/-- The decoding of the reply in `MessageRouter::sendRequest`
(MessageRouter.cpp:62-80).  `getData().size() - 6` wraps around for fewer than 6
bytes and the vector constructor throws `length_error`.  The decoded items
replace the ones of the request. -/
def routerReply (m : Mem) (data : List Byte) : Outcome MessageRouterResponse :=
  if data.length < 6 then .throw .lengthError
  else
    match (do
      let _ ← Rd.u32
      let _ ← Rd.u16
      Rd.bytes (data.length - 6) : Rd (List Byte)) m (Buffer.ofData data) with
    | .ub => .ub
    | .throw e => .throw e
    | .ok (receivedData, _) =>
      match CommonPacket.expand m receivedData with
      | .ub => .ub
      | .throw e => .throw e
      | .ok items =>
        match items[1]? with
        | none => .throw .outOfRange
        | some item =>
          match MessageRouterResponse.parse m item.data with
          | .ub => .ub
          | .throw e => .throw e
          | .ok response =>
            if items.length > 2 then .ok { response with additionalItems := items.drop 2 } else .ok response

/-- `MessageRouter::sendRequest` (MessageRouter.cpp:37-81) over any session. -/
def sendRequest {σ : Type} (m : Mem) (si : SessionIf σ) (use8 : Bool) (service : BitVec 8) (path : EPath)
    (data : List Byte) (extra : List CommonPacketItem) : Prog σ MessageRouterResponse := do
  let receivedPacket ← si.sendAndReceive (routerPacket si.handle ⟨service, path, data, use8⟩ extra)
  Prog.lift (routerReply m receivedPacket.data)

/-! ## BaseSocket::makePortableInterval -/

/-- `BaseSocket::makePortableInterval` (BaseSocket.cpp:91-110) on unix: seconds
and microseconds.  Integer division and remainder truncate towards zero. -/
def makePortableInterval (ms : Int) : Int × Int :=
  (max (ms.tdiv 1000) 0, max (ms.tmod 1000 * 1000) 0)

end Verif
