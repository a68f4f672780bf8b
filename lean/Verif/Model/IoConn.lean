import Verif.Model.Tcp
import Verif.Model.EndPoint
import Verif.Model.ConnParams

/-!
# Model of `IOConnection` and of `sockets::UDPSocket`

Source: `src/IOConnection.{h,cpp}`, `src/sockets/UDPSocket.cpp`.

The user's callbacks are part of the environment: what the send callback leaves
in the output vector is an input of the tick, and every callback invocation is an
event.  Callbacks that call the manager are in `Verif.Model.Reentrant`.  The clock is
in nanoseconds and does not run backwards (`std::chrono::steady_clock`).
-/

namespace Verif

/-! ## UDPSocket -/

/-- `UDPSocket::Send` (UDPSocket.cpp:53-67): whether it throws, given the result
`count` of `sendto`.  The comparison is done in `size_t` as in `TCPSocket::Send`. -/
def udpSendThrows (data : List Byte) (count : Int) : Bool :=
  decide ((BitVec.ofInt 64 count).toNat < data.length)

/-- The result of `recvfrom`: a datagram or an `errno`. -/
inductive Recv where
  | dgram (bytes : List Byte)
  | err (code : Int)
deriving Repr, DecidableEq

/-- `UDPSocket::Receive` (UDPSocket.cpp:69-79): the datagram cut to `size` bytes in
a buffer of `size` zero bytes; the buffer is returned whole. -/
def udpReceive (size : Nat) : Recv → Outcome (List Byte)
  | .err code => .throw (.system code)
  | .dgram bytes => .ok (bytes.take size ++ List.replicate (size - (bytes.take size).length) 0#8)

/-! ## IOConnection -/

/-- `IOConnection` (IOConnection.h:24-110); the defaults are those of the constructor
(IOConnection.cpp:20-47).  `socket` is the remote end point of
`_socket`.  Not modelled: `_t2o_timer`, `_t2oSequenceNumber` (never used) and the
callbacks themselves. -/
structure Conn where
  o2tNetworkConnectionId : BitVec 32 := 0
  t2oNetworkConnectionId : BitVec 32 := 0
  o2tAPI : BitVec 32 := 0
  t2oAPI : BitVec 32 := 0
  o2tDataSize : Nat := 0
  t2oDataSize : Nat := 0
  o2tFixedSize : Bool := true
  t2oFixedSize : Bool := true
  o2tTimer : BitVec 32 := 0
  connectionTimeoutMultiplier : BitVec 8 := 0
  connectionTimeoutCount : BitVec 32 := 0
  o2tSequenceNumber : BitVec 32 := 0
  serialNumber : BitVec 32 := 0
  transportTypeTrigger : BitVec 8 := 0
  o2tRealTimeFormat : Bool := false
  t2oRealTimeFormat : Bool := false
  sequenceValueCount : BitVec 16 := 0
  connectionPath : List Byte := []
  originatorVendorId : BitVec 16 := 0
  originatorSerialNumber : BitVec 32 := 0
  outputData : List Byte := []
  socket : Option EndPoint := none
  lastHandleTime : Nat := 0
deriving Repr, DecidableEq

/-- What a connection does that can be seen from outside. -/
inductive IoEv where
  /-- `_receiveDataHandle(header, sequence, data)` is called. -/
  | received (header : BitVec 32) (sequence : BitVec 16) (data : List Byte)
  /-- `_sendDataHandle(_outputData)` is called and leaves these data. -/
  | asked (data : List Byte)
  /-- a datagram is handed to the operating system -/
  | sent (to : Option EndPoint) (bytes : List Byte)
  /-- `_closeHandle()` is called. -/
  | closed
deriving Repr, DecidableEq

/-- How `notifyTick` ends. -/
inductive TickRet where
  | alive
  | dead
  | threw (e : Exn)
deriving Repr, DecidableEq

/-- What the listener that a tick runs does, the send listener or the close listener: the data it
leaves in `_outputData` (`none`: it does not touch them; only the send listener gets them), and the
exception it throws, if any. -/
structure Hook where
  left : Option (List Byte) := none
  throws : Option Exn := none
deriving Repr, DecidableEq

namespace Conn

/-- The test of the transport class (IOConnection.cpp:77-78, 117-118;
ConnectionManager.cpp:76-77). -/
def classHasSequence (trigger : BitVec 8) : Bool :=
  decide (trigger.setWidth 16 &&& NetworkConnectionParams.class1 > 0#16)
    || decide (trigger.setWidth 16 &&& NetworkConnectionParams.class3 > 0#16)

/-- `if (_t2oRealTimeFormat) buffer >> runtimeHeader` (IOConnection.cpp:70-75). -/
def recvHeader (c : Conn) : Rd (BitVec 32) := if c.t2oRealTimeFormat then Rd.u32 else pure 0#32

/-- `if (...) buffer >> sequenceValueCount` (IOConnection.cpp:71,77-80). -/
def recvCount (c : Conn) : Rd (BitVec 16) :=
  if classHasSequence c.transportTypeTrigger then Rd.u16 else pure 0#16

/-- The reads of `notifyReceiveData` (IOConnection.cpp:69-80). -/
def recvHead (c : Conn) : Rd (BitVec 32 × BitVec 16) := do
  let header ← c.recvHeader
  let seq ← c.recvCount
  pure (header, seq)

/-- `IOConnection::notifyReceiveData` (IOConnection.cpp:68-92).  Making a vector
from a range that ends before it begins is undefined. -/
def notifyReceiveData (m : Mem) (data : List Byte) (c : Conn) : Outcome (Conn × List IoEv) :=
  match recvHead c m (Buffer.ofData data) with
  | .ub => .ub
  | .throw e => .throw e
  | .ok ((header, seq), b) =>
    if data.length < b.pos then .ub
    else
      let ioData := data.drop b.pos
      if c.t2oFixedSize && ioData.length != c.t2oDataSize then .ok (c, [])
      else .ok ({ c with connectionTimeoutCount := 0 }, [.received header seq ioData])

/-- The part of `notifyTick` that produces data (IOConnection.cpp:110-139). `hook`
is what the send callback does, `count` the result of `sendto`.  If the callback throws
nothing is sent; the counters have been changed by then. -/
def produce (hook : Hook) (count : Int) (c : Conn) : Conn × List IoEv × TickRet :=
  let seqNum := c.o2tSequenceNumber + 1
  let addrItem := CommonPacketItemFactory.sequenceAddress c.o2tNetworkConnectionId seqNum
  let seqCount := if classHasSequence c.transportTypeTrigger then c.sequenceValueCount + 1
    else c.sequenceValueCount
  let b0 := if classHasSequence c.transportTypeTrigger then Buffer.empty.putU16 seqCount else Buffer.empty
  let b1 := if c.o2tRealTimeFormat then b0.putU32 1#32 else b0
  let out := hook.left.getD c.outputData
  let c' := { c with o2tSequenceNumber := seqNum, sequenceValueCount := seqCount, o2tTimer := 0, outputData := out }
  match hook.throws with
  | some e => (c', [.asked out], .threw e)
  | none =>
    if c.o2tFixedSize && out.length != c.o2tDataSize then (c', [.asked out], .alive)
    else
      let bytes := CommonPacket.pack [addrItem, CommonPacketItemFactory.connectedData (b1.putBytes out).bytes]
      (c', [.asked out, .sent c.socket bytes],
        if udpSendThrows bytes count then .threw (.system 0) else .alive)

/-- How `notifyTick` ends after `_closeHandle()` (IOConnection.cpp:104-105). -/
def closeRet (hook : Hook) : TickRet :=
  match hook.throws with
  | some e => .threw e
  | none => .dead

/-- `IOConnection::notifyTick` (IOConnection.cpp:94-142) at time `now`.  The
counters are `CipUdint`: additions and the product wrap at 2^32. -/
def notifyTick (now : Nat) (hook : Hook) (count : Int) (c : Conn) : Conn × List IoEv × TickRet :=
  let periodInMicroS := (now - c.lastHandleTime) / 1000000 * 1000
  let c1 := { c with connectionTimeoutCount := c.connectionTimeoutCount + BitVec.ofNat 32 periodInMicroS }
  if c1.connectionTimeoutCount > c1.connectionTimeoutMultiplier.setWidth 32 * c1.t2oAPI then
    (c1, [.closed], closeRet hook)
  else
    let c2 := { c1 with lastHandleTime := now, o2tTimer := c1.o2tTimer + BitVec.ofNat 32 periodInMicroS }
    if c2.o2tTimer ≥ c2.o2tAPI then produce hook count c2 else (c2, [], .alive)

/-- `IOConnection::setDataToSend` (IOConnection.cpp:52-54). -/
def setDataToSend (data : List Byte) (c : Conn) : Conn := { c with outputData := data }

end Conn

/-- Everything that can happen to a connection object. -/
inductive ConnOp where
  | tick (now : Nat) (hook : Hook) (count : Int)
  | recv (data : List Byte)
  | setData (data : List Byte)
deriving Repr, DecidableEq

/-- One step of a connection object: new object and events.  An undefined
reception has no successor. -/
def Conn.step (m : Mem) (c : Conn) : ConnOp → Option (Conn × List IoEv)
  | .tick now hook count => let r := c.notifyTick now hook count; some (r.1, r.2.1)
  | .recv data =>
    match c.notifyReceiveData m data with
    | .ok r => some r
    | _ => none
  | .setData data => some (c.setDataToSend data, [])

/-- A history of a connection object: the events with the operation that caused
them.  `none` when some reception was undefined. -/
def Conn.run (m : Mem) (c : Conn) : List ConnOp → Option (Conn × List (ConnOp × List IoEv))
  | [] => some (c, [])
  | op :: ops =>
    match c.step m op with
    | none => none
    | some (c', evs) =>
      match c'.run m ops with
      | none => none
      | some (c'', tr) => some (c'', (op, evs) :: tr)

end Verif
