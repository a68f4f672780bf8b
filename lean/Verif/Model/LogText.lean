import Verif.Model.ConnManager
import Verif.Model.Log

/-!
# Model of the texts that the library logs

Source: all statements with a `Logger` in `src`.

A text is a sequence of bytes, written as characters with codes below 256 (names of devices are taken as given).  The
insertions `<<` go to a `std::ostringstream` with the default flags (Logger.h:83-87,101): `std::hex` stays in force for
the rest of the statement, numbers are written in lower case without leading zeros, `bool` as 0 or 1.  An operand of an
enumeration type whose underlying type is `CipUsint`, as `GeneralStatusCodes` (GeneralStatusCodes.h:13), is converted to
`unsigned char`, the overload for characters: it is written as one byte, not as a number ([over.ics.rank]; g++ does so).
-/

namespace Verif

/-- What is inserted into a stream. -/
inductive Inserted where
  | str (s : List Char)
  /-- an unsigned integer wider than a byte, or a non-negative `int` -/
  | num (n : Nat)
  /-- a signed integer of 64 bits, or of 32 bits that fits -/
  | int (i : Int)
  | bool (b : Bool)
  /-- a byte as a character -/
  | char (b : Byte)
  /-- `std::hex` -/
  | hex
deriving Repr, DecidableEq

/-- `std::ostringstream`: is `std::hex` in force, and the text. -/
structure OStream where
  hex : Bool := false
  text : List Char := []
deriving Repr, DecidableEq

namespace OStream

/-- The digits of a number. -/
def digits (hex : Bool) (n : Nat) : List Char := Nat.toDigits (if hex then 16 else 10) n

/-- `_stream << x` (Logger.h:84). -/
def put (o : OStream) : Inserted → OStream
  | .str s => { o with text := o.text ++ s }
  | .num n => { o with text := o.text ++ digits o.hex n }
  | .int i =>
    if o.hex then { o with text := o.text ++ digits true (BitVec.ofInt 64 i).toNat }
    else { o with text := o.text ++ ((if i < 0 then ['-'] else []) ++ digits false i.natAbs) }
  | .bool b => { o with text := o.text ++ (if b then ['1'] else ['0']) }
  | .char b => { o with text := o.text ++ [Char.ofNat b.toNat] }
  | .hex => { o with hex := true }

/-- The text of a statement. -/
def render (xs : List Inserted) : List Char := (xs.foldl put {}).text

end OStream

/-- The messages of the library. -/
inductive LogLine where
  /-- SessionInfo.cpp:34 -/
  | registered (handle : BitVec 32)
  /-- SessionInfo.cpp:44 -/
  | unregistered (handle : BitVec 32)
  /-- `logGeneralAndAdditionalStatus` (MessageRouterResponse.cpp:81-91) -/
  | status (r : MessageRouterResponse)
  /-- TCPSocket.cpp:164-165 -/
  | tcpShort (ep : EndPoint) (count size : Nat)
  /-- ParameterObject.cpp:84 -/
  | paramRead (id : BitVec 16)
  /-- ParameterObject.cpp:125-128 -/
  | paramDescriptor (id descriptor : BitVec 16) (scalable readOnly : Bool)
  /-- ParameterObject.cpp:173-177 -/
  | paramDone (id : BitVec 16) (size : Nat) (type : BitVec 8) (name : List Char)
  /-- MessageRouter.cpp:43-44, Yaskawa_MessageRouter.cpp:38-39 -/
  | request (service : BitVec 8) (path : EPath)
  /-- ConnectionManager.cpp:108-110 -/
  | ioOpen (o2t t2o : BitVec 32) (serial : BitVec 16)
  /-- ConnectionManager.cpp:151-152 -/
  | sendsTo (ep : EndPoint)
  /-- ConnectionManager.cpp:159-161 -/
  | exists_ (t2o : BitVec 32)
  /-- ConnectionManager.cpp:184-185 -/
  | close (t2o : BitVec 32)
  /-- ConnectionManager.cpp:192-196 -/
  | closeFailed (status : GeneralStatus)
  /-- ConnectionManager.cpp:203 -/
  | alreadyClosed
  /-- ConnectionManager.cpp:248 -/
  | dataFrom (t2o : BitVec 32)
  /-- ConnectionManager.cpp:254 -/
  | unknownFrom (t2o : BitVec 32)
  /-- IOConnection.cpp:84-86 -/
  | wrongSizeIn (t2o : BitVec 32) (expected got : Nat)
  /-- IOConnection.cpp:102 -/
  | timedOut (serial : BitVec 32)
  /-- IOConnection.cpp:130-132 -/
  | wrongSizeOut (o2t : BitVec 32) (expected got : Nat)
  /-- DPIFaultManager.cpp:74 -/
  | faults (n : BitVec 16)
  /-- `FileObjectState::logWithStateName` (FileObjectState.cpp:37-39) -/
  | file (level : LogLevel) (id : BitVec 16) (state message : List Char)
  /-- UDPSocket.cpp:44 -/
  | udpOpened (fd : Nat)
  /-- UDPSocket.cpp:48 -/
  | udpClosed (fd : Nat)
  /-- UDPSocket.cpp:54 -/
  | udpSent (size fd : Nat)
  /-- UDPSocket.cpp:73,86 -/
  | udpReceived (len : Int) (fd : Nat)
  /-- TCPSocket.cpp:59 -/
  | tcpOpened (fd : Nat)
  /-- TCPSocket.cpp:61 -/
  | tcpConnecting (ep : EndPoint)
  /-- TCPSocket.cpp:122 -/
  | tcpClosed (fd : Nat)
  /-- TCPSocket.cpp:128 -/
  | tcpSent (size fd : Nat)
  /-- TCPSocket.cpp:155 -/
  | tcpReceived (len : Nat) (fd : Nat)
deriving Repr, DecidableEq

namespace LogLine

/-- The levels of the messages. -/
def level : LogLine → LogLevel
  | .registered _ => .info
  | .unregistered _ => .info
  | .status _ => .error
  | .tcpShort _ _ _ => .warning
  | .paramRead _ => .debug
  | .paramDescriptor _ _ _ _ => .debug
  | .paramDone _ _ _ _ => .debug
  | .request _ _ => .info
  | .ioOpen _ _ _ => .info
  | .sendsTo _ => .info
  | .exists_ _ => .error
  | .close _ => .info
  | .closeFailed _ => .warning
  | .alreadyClosed => .warning
  | .dataFrom _ => .debug
  | .unknownFrom _ => .error
  | .wrongSizeIn _ _ _ => .warning
  | .timedOut _ => .warning
  | .wrongSizeOut _ _ _ => .warning
  | .faults _ => .info
  | .file l _ _ _ => l
  | .udpOpened _ => .debug
  | .udpClosed _ => .debug
  | .udpSent _ _ => .trace
  | .udpReceived _ _ => .trace
  | .tcpOpened _ => .debug
  | .tcpConnecting _ => .debug
  | .tcpClosed _ => .debug
  | .tcpSent _ _ => .trace
  | .tcpReceived _ _ => .trace

/-- What is inserted, in order; the lines are given with the constructors. -/
def inserted : LogLine → List Inserted
  | .registered h => [.str "Registered session ".toList, .num h.toNat]
  | .unregistered h => [.str "Unregistered session ".toList, .num h.toNat]
  | .status r =>
    [.str "Message Router error=0x".toList, .hex, .char r.status, .str " additional statuses ".toList] ++
      r.additionalStatus.flatMap fun a => [.str "[0x".toList, .num a.toNat, .str "]".toList]
  | .tcpShort ep count size =>
    [.str "Received from ".toList, .str ep.toStr.toList, .str " ".toList, .num count, .str " of ".toList, .num size]
  | .paramRead id => [.str "Read data from parameter ID=".toList, .num id.toNat]
  | .paramDescriptor id d s ro =>
    [.str "Parameter object ID=".toList, .num id.toNat, .str " has descriptor=0x".toList, .hex, .num d.toNat,
     .str " scalable=".toList, .bool s, .str " readonly=".toList, .bool ro]
  | .paramDone id size type name =>
    [.str "Read Parameter Object".toList, .str " ID=".toList, .num id.toNat, .str " ValueSize=".toList, .num size,
     .str " ValueType=0x".toList, .hex, .num type.toNat, .str " Name=".toList, .str name]
  | .request service path =>
    [.str "Send request: service=0x".toList, .hex, .num service.toNat, .str " epath=".toList, .str path.toStr.toList]
  | .ioOpen o2t t2o serial =>
    [.str "Open IO connection O2T_ID=".toList, .num o2t.toNat, .str " T2O_ID=".toList, .num t2o.toNat,
     .str " SerialNumber ".toList, .num serial.toNat]
  | .sendsTo ep => [.str "Open UDP socket to send data to ".toList, .str ep.toStr.toList]
  | .exists_ t2o => [.str "Connection with T2O_ID=".toList, .num t2o.toNat, .str " already exists.".toList]
  | .close t2o => [.str "Close connection connection T2O_ID=".toList, .num t2o.toNat]
  | .closeFailed s =>
    [.str "Failed to close the connection in target with error=0x".toList, .hex, .char s,
     .str ". But the connection is removed from ConnectionManager anyway".toList]
  | .alreadyClosed => [.str "Attempt to close an already closed connection".toList]
  | .dataFrom t2o => [.str "Received data from connection T2O_ID=".toList, .num t2o.toNat]
  | .unknownFrom t2o => [.str "Received data from unknown connection T2O_ID=".toList, .num t2o.toNat]
  | .wrongSizeIn t2o expected got =>
    [.str "Connection T2O_ID=".toList, .num t2o.toNat, .str " has fixed size ".toList, .num expected,
     .str " bytes but ".toList, .num got, .str " bytes were received. Ignore this data.".toList]
  | .timedOut serial => [.str "Connection SeriaNumber=".toList, .num serial.toNat, .str " is closed by timeout".toList]
  | .wrongSizeOut o2t expected got =>
    [.str "Connection O2T_ID=".toList, .num o2t.toNat, .str " has fixed size ".toList, .num expected,
     .str " bytes but ".toList, .num got, .str " bytes are to send. Don't send this data.".toList]
  | .faults n => [.str "There read ".toList, .num n.toNat, .str " faults in the queue".toList]
  | .file _ id state message =>
    [.str "FileObject=".toList, .hex, .num id.toNat, .str " <".toList, .str state, .str "> ".toList, .str message]
  | .udpOpened fd => [.str "Opened UDP socket fd=".toList, .num fd]
  | .udpClosed fd => [.str "Close UDP socket fd=".toList, .num fd]
  | .udpSent size fd => [.str "Send ".toList, .num size, .str " bytes from UDP socket #".toList, .num fd, .str ".".toList]
  | .udpReceived len fd => [.str "Received ".toList, .int len, .str " bytes from UDP socket #".toList, .num fd, .str ".".toList]
  | .tcpOpened fd => [.str "Opened TCP socket fd=".toList, .num fd]
  | .tcpConnecting ep => [.str "Connecting to ".toList, .str ep.toStr.toList]
  | .tcpClosed fd => [.str "Close TCP socket fd=".toList, .num fd]
  | .tcpSent size fd => [.str "Send ".toList, .num size, .str " bytes from TCP socket #".toList, .num fd, .str ".".toList]
  | .tcpReceived len fd => [.str "Received ".toList, .num len, .str " bytes from TCP socket #".toList, .num fd, .str ".".toList]

/-- The text. -/
def text (l : LogLine) : List Char := OStream.render l.inserted

end LogLine

namespace Conn

/-- What `notifyTick` (IOConnection.cpp:94-142) logs. -/
def tickLines (now : Nat) (hook : Hook) (c : Conn) : List LogLine :=
  let periodInMicroS := (now - c.lastHandleTime) / 1000000 * 1000
  if c.connectionTimeoutCount + BitVec.ofNat 32 periodInMicroS > c.connectionTimeoutMultiplier.setWidth 32 * c.t2oAPI then
    [.timedOut c.serialNumber]
  else if c.o2tTimer + BitVec.ofNat 32 periodInMicroS ≥ c.o2tAPI then
    match hook.throws with
    | some _ => []
    | none =>
      let out := hook.left.getD c.outputData
      if c.o2tFixedSize && out.length != c.o2tDataSize then [.wrongSizeOut c.o2tNetworkConnectionId c.o2tDataSize out.length] else []
  else []

/-- What `notifyReceiveData` (IOConnection.cpp:68-92) logs. -/
def recvLines (m : Mem) (data : List Byte) (c : Conn) : List LogLine :=
  match recvHead c m (Buffer.ofData data) with
  | .ub => []
  | .throw _ => []
  | .ok (_, b) =>
    if data.length < b.pos then []
    else
      let ioData := data.drop b.pos
      if c.t2oFixedSize && ioData.length != c.t2oDataSize then [.wrongSizeIn c.t2oNetworkConnectionId c.t2oDataSize ioData.length] else []

end Conn

namespace Mgr

/-- What the handler of a bound socket (ConnectionManager.cpp:239-256) logs. -/
def deliverLines (P : Plat) (r : Recv) (s : Mgr) : List LogLine :=
  match udpReceive 8192 r with
  | .ub => []
  | .throw _ => []
  | .ok recvData =>
    match CommonPacket.expand P.mem recvData with
    | .ub => []
    | .throw _ => []
    | .ok items =>
      match items[0]? with
      | none => []
      | some address =>
        match Rd.u32 P.mem (Buffer.ofData address.data) with
        | .ub => []
        | .throw _ => []
        | .ok (connectionId, _) =>
          LogLine.dataFrom connectionId ::
          match tblFind (connectionId.setWidth 16) s.table with
          | none => [LogLine.unknownFrom connectionId]
          | some id =>
            match items[1]?, s.heap[id]? with
            | some item, some c => c.recvLines P.mem item.data
            | _, _ => []

/-- What `forwardOpen` (ConnectionManager.cpp:52-168) logs, with the request (MessageRouter.cpp:43-44) and without the
messages of sockets, which are below the default level. -/
def openLines (P : Plat) (host : String) (p : ConnectionParameters) (large : Bool) (e : OpenEnv) (s : Mgr) : List LogLine :=
  match bumpStatics s.incarnation (o2tMulticast p large) (t2oP2P p large) s.statics with
  | none => []
  | some st =>
    let sp := sentParams p large st
    match (if large then largeForwardOpenPack sp else forwardOpenPack sp) with
    | .ub => []
    | .throw _ => []
    | .ok _ =>
      LogLine.request (if large then 0x5B#8 else 0x54#8) (EPath.mk2 6 1) ::
      match e.reply with
      | .ub => []
      | .throw _ => []
      | .ok resp =>
        if resp.status = GeneralStatus.success then
          match ForwardOpenResponse.expand P.mem resp.data with
          | .ub => []
          | .throw _ => []
          | .ok r =>
            LogLine.ioOpen r.o2tNetworkConnectionId r.t2oNetworkConnectionId r.connectionSerialNumber ::
            match timeoutMultiplier p.connectionTimeoutMultiplier with
            | .ub => []
            | .throw _ => []
            | .ok _ =>
              match sendEndPoint P host resp.additionalItems with
              | .ub => []
              | .throw _ => []
              | .ok ep =>
                match e.udpErr with
                | some _ => []
                | none =>
                  LogLine.sendsTo ep ::
                  match findOrCreateSocket (EndPoint.ofHost P.aton host implicitPort) e.bindErr s.sockets with
                  | .ub => []
                  | .throw _ => []
                  | .ok _ =>
                    match tblFind (r.t2oNetworkConnectionId.setWidth 16) s.table with
                    | some _ => [LogLine.exists_ r.t2oNetworkConnectionId]
                    | none => []
        else [LogLine.status resp]

/-- What `forwardClose` (ConnectionManager.cpp:175-205) logs, with the request. -/
def closeLines (ptr : Option Nat) (reply : Outcome MessageRouterResponse) (s : Mgr) : List LogLine :=
  match ptr with
  | none => [LogLine.alreadyClosed]
  | some id =>
    if s.alive id then
      match s.heap[id]? with
      | none => [LogLine.alreadyClosed]
      | some c =>
        [LogLine.close c.t2oNetworkConnectionId, LogLine.request 0x4E#8 (EPath.mk2 6 1)] ++
        match reply with
        | .ok resp => if resp.status = GeneralStatus.success then [] else [LogLine.closeFailed resp.status]
        | _ => []
    else [LogLine.alreadyClosed]

end Mgr

end Verif
