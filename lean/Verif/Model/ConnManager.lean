import Verif.Model.IoConn

/-!
# Model of `ConnectionManager`

Source: `src/ConnectionManager.{h,cpp}`, `src/sockets/BaseSocket.cpp` (`select`),
`src/sockets/UDPBoundSocket.cpp`.

A manager is a transition system.  Everything the library does not decide is an
input of the operation: the reply of the message router, errors of socket calls,
what `::select` and `recvfrom` report, clock readings, what the send callback
leaves, the exceptions callbacks throw, the results of `sendto`.  Objects live in
`heap`; a weak pointer is an index into it.  A callback is one step here; callbacks that
call the manager are modelled in `Verif.Model.Reentrant`.
-/

namespace Verif

/-- The platform: stray reads, `inet_aton` and whether assertions are compiled out. -/
structure Plat where
  mem : Mem
  aton : String → Option (BitVec 32)
  ndebug : Bool

/-! ## `std::map` -/

/-- `std::map<CipUint, ...>::find`. -/
def tblFind (k : BitVec 16) : List (BitVec 16 × Nat) → Option Nat
  | [] => none
  | e :: es => if e.1 = k then some e.2 else tblFind k es

/-- `std::map<CipUint, ...>::insert` of a key that is not present: entries are kept
in the order of their keys. -/
def tblPut (k : BitVec 16) (id : Nat) : List (BitVec 16 × Nat) → List (BitVec 16 × Nat)
  | [] => [(k, id)]
  | e :: es => if e.1 < k then e :: tblPut k id es else (k, id) :: e :: es

/-- `std::map<CipUint, ...>::erase(key)`. -/
def tblErase (k : BitVec 16) (t : List (BitVec 16 × Nat)) : List (BitVec 16 × Nat) :=
  t.filter fun e => e.1 != k

/-- `std::map<EndPoint, ...>::find`: the first entry that is not less than the key
(`lower_bound`), if the key is not less than it. -/
def sockFind (key : EndPoint) : List EndPoint → Option EndPoint
  | [] => none
  | e :: es => if e.lt key then sockFind key es else if key.lt e then none else some e

/-- `_socketMap[key] = socket` for a key that was not found: inserted at `lower_bound`. -/
def sockPut (key : EndPoint) : List EndPoint → List EndPoint
  | [] => [key]
  | e :: es => if e.lt key then e :: sockPut key es else key :: e :: es

/-! ## State, operations, events -/

/-- The function-local statics of `forwardOpen` (ConnectionManager.cpp:54,61,66),
shared by all managers of the process; `none`: not yet initialised. -/
structure Statics where
  serial : Nat := 0
  o2tId : Option (BitVec 16) := none
  t2oId : Option (BitVec 32) := none
deriving Repr, DecidableEq

/-- `ConnectionManager` (ConnectionManager.h:77-83), the statics, the connection
objects ever made, and the objects the user keeps alive by a `shared_ptr`. -/
structure Mgr where
  incarnation : BitVec 16
  statics : Statics := {}
  table : List (BitVec 16 × Nat) := []
  sockets : List EndPoint := []
  heap : List Conn := []
  held : List Nat := []
deriving Repr, DecidableEq

/-- What can be seen of an operation. -/
inductive MEv where
  /-- `_messageRouter->sendRequest(si, service, path, data)` -/
  | request (service : BitVec 8) (path : EPath) (data : List Byte)
  /-- a bound UDP socket is created -/
  | bound (ep : EndPoint)
  /-- a connection object is made and returned -/
  | created (id : Nat) (c : Conn)
  /-- `::select` is called with this interval (seconds, microseconds) -/
  | waited (tv : Int × Int)
  /-- a connection is ticked, given data or new output data, and does this -/
  | conn (id : Nat) (op : ConnOp) (evs : List IoEv)
deriving Repr, DecidableEq

/-- How a call returns. -/
inductive MRet where
  | unit
  | ptr (p : Option Nat)
  | bool (b : Bool)
  | threw (e : Exn)
deriving Repr, DecidableEq

/-- Why the process has no defined continuation. -/
inductive Stop where
  | ub
  | aborted
deriving Repr, DecidableEq

/-- The result of an operation. -/
inductive StepRes where
  | ok (s : Mgr) (evs : List MEv) (ret : MRet)
  | stop (evs : List MEv) (why : Stop)
deriving Repr, DecidableEq

/-- The environment of a `forwardOpen` call: what `sendRequest` does, `errno` of a
failing UDP socket creation and of a failing `setsockopt`/`bind`, and the clock. -/
structure OpenEnv where
  reply : Outcome MessageRouterResponse
  udpErr : Option Int := none
  bindErr : Option Int := none
  now : Nat := 0
deriving Repr, DecidableEq

/-- Something received, and the exception the receive listener throws if it is run for it. -/
structure Arrival where
  recv : Recv
  throws : Option Exn := none
deriving Repr, DecidableEq

/-- A datagram or an error, and a listener that returns. -/
abbrev Arrival.dgram (bytes : List Byte) : Arrival := ⟨.dgram bytes, none⟩
abbrev Arrival.err (code : Int) : Arrival := ⟨.err code, none⟩

/-- One call of `::select`: it fails, or at least one socket is ready and the
handler of every ready socket receives something; `now` is the clock afterwards.
The end of a list of rounds is the call that reports a timeout. -/
inductive Round where
  | fail (code : Int)
  | ready (first : Arrival) (more : List Arrival) (now : Nat)
deriving Repr, DecidableEq

/-- The environment of a tick: clock, what the callback does, `sendto`. -/
structure TickEnv where
  now : Nat
  hook : Hook
  count : Int
deriving Repr, DecidableEq

/-- The operations of a history. -/
inductive MOp where
  | forwardOpen (host : String) (p : ConnectionParameters) (large : Bool) (e : OpenEnv)
  /-- `forwardOpen` of another manager in the process: only its effect on the statics -/
  | otherOpen (incarnation : BitVec 16) (multicast p2p : Bool)
  | forwardClose (ptr : Option Nat) (reply : Outcome MessageRouterResponse)
  | handle (start : Nat) (timeoutMs : Int) (rounds : List Round) (ticks : Nat → TickEnv)
  | hasOpen
  /-- `setDataToSend` through a pointer -/
  | setData (id : Nat) (data : List Byte)
  /-- the user turns a weak pointer into a strong one -/
  | lock (id : Nat)
  /-- the user gives the strong pointer up -/
  | release (id : Nat)

namespace Mgr

/-! ## forwardOpen -/

/-- `++serialNumberCount` (ConnectionManager.cpp:54-55): signed overflow is undefined. -/
def nextSerial (n : Nat) : Option Nat := if n = 2 ^ 31 - 1 then none else some (n + 1)

/-- `static CipUint idCount = _incarnationId << 16; ++idCount`
(ConnectionManager.cpp:61-62). -/
def nextO2T (inc : BitVec 16) (o : Option (BitVec 16)) : BitVec 16 :=
  o.getD ((inc.setWidth 32 <<< 16).setWidth 16) + 1

/-- `static CipUdint idCount = _incarnationId << 16; ++idCount`
(ConnectionManager.cpp:66-67). -/
def nextT2O (inc : BitVec 16) (o : Option (BitVec 32)) : BitVec 32 :=
  o.getD (inc.setWidth 32 <<< 16) + 1

/-- The effect of a `forwardOpen` call on the statics (ConnectionManager.cpp:54-68). -/
def bumpStatics (inc : BitVec 16) (multicast p2p : Bool) (st : Statics) : Option Statics :=
  match nextSerial st.serial with
  | none => none
  | some n => some
    { serial := n,
      o2tId := if multicast then some (nextO2T inc st.o2tId) else st.o2tId,
      t2oId := if p2p then some (nextT2O inc st.t2oId) else st.t2oId }

/-- `NetworkConnectionParametersBuilder::MULTICAST`, `P2P`
(NetworkConnectionParametersBuilder.h). -/
def o2tMulticast (p : ConnectionParameters) (large : Bool) : Bool :=
  (NcpBuilder.mk p.o2tNetworkConnectionParams large).getConnectionType == 1#2
def t2oP2P (p : ConnectionParameters) (large : Bool) : Bool :=
  (NcpBuilder.mk p.t2oNetworkConnectionParams large).getConnectionType == 2#2

/-- The parameters as sent (ConnectionManager.cpp:55-88), given the statics after
the increments. -/
def sentParams (p : ConnectionParameters) (large : Bool) (st : Statics) : ConnectionParameters :=
  let add : BitVec 32 := if Conn.classHasSequence p.transportTypeTrigger then 2 else 0
  { p with
    connectionSerialNumber := BitVec.ofNat 16 st.serial
    o2tNetworkConnectionId :=
      if o2tMulticast p large then (st.o2tId.getD 0).setWidth 32 else p.o2tNetworkConnectionId
    t2oNetworkConnectionId := if t2oP2P p large then st.t2oId.getD 0 else p.t2oNetworkConnectionId
    connectionPathSize := BitVec.ofNat 8 (p.connectionPath.length / 2 + p.connectionPath.length % 2)
    o2tNetworkConnectionParams :=
      p.o2tNetworkConnectionParams + add + (if p.o2tRealTimeFormat then 4 else 0)
    t2oNetworkConnectionParams :=
      p.t2oNetworkConnectionParams + add + (if p.t2oRealTimeFormat then 4 else 0) }

/-- `4 << connectionTimeoutMultiplier` stored in a `CipUsint`
(ConnectionManager.cpp:117).  Shifting an `int` by 32 or more is undefined. -/
def timeoutMultiplier (code : BitVec 8) : Outcome (BitVec 8) :=
  if 32 ≤ code.toNat then .ub else .ok ((4#32 <<< code.toNat).setWidth 8)

/-- `EIP_DEFAULT_IMPLICIT_PORT` (EndPoint.h / Types). -/
def implicitPort : Int := 2222

/-- The end point of the sending socket (ConnectionManager.cpp:131-148). -/
def sendEndPoint (P : Plat) (host : String) (items : List CommonPacketItem) : Outcome EndPoint :=
  match items.find? fun i => i.typeId == ItemId.o2tSockAddrInfo with
  | none => .ok (EndPoint.ofHost P.aton host implicitPort)
  | some i =>
    match Rd.endPoint P.mem (Buffer.ofData i.data) with
    | .ub => .ub
    | .throw e => .throw e
    | .ok (ep, _) => .ok (if ep.host == "0.0.0.0" then EndPoint.ofHost P.aton host ep.port else ep)

/-- The new object (ConnectionManager.cpp:112-129). -/
def newConn (p : ConnectionParameters) (large : Bool) (r : ForwardOpenResponse) (mult : BitVec 8)
    (ep : EndPoint) (now : Nat) : Conn :=
  let o2tNCP : NcpBuilder := ⟨p.o2tNetworkConnectionParams, large⟩
  let t2oNCP : NcpBuilder := ⟨p.t2oNetworkConnectionParams, large⟩
  { o2tNetworkConnectionId := r.o2tNetworkConnectionId
    t2oNetworkConnectionId := r.t2oNetworkConnectionId
    o2tAPI := r.o2tAPI
    t2oAPI := r.t2oAPI
    connectionTimeoutMultiplier := mult
    serialNumber := r.connectionSerialNumber.setWidth 32
    transportTypeTrigger := p.transportTypeTrigger
    o2tRealTimeFormat := p.o2tRealTimeFormat
    t2oRealTimeFormat := p.t2oRealTimeFormat
    connectionPath := p.connectionPath
    originatorVendorId := p.originatorVendorId
    originatorSerialNumber := p.originatorSerialNumber
    o2tDataSize := o2tNCP.getConnectionSize.toNat
    t2oDataSize := t2oNCP.getConnectionSize.toNat
    o2tFixedSize := o2tNCP.getType == 0#1
    t2oFixedSize := t2oNCP.getType == 0#1
    socket := some ep
    lastHandleTime := now }

/-- `_connectionMap.insert(make_pair(t2oId, connection))` (ConnectionManager.cpp:155-161):
the key is the identifier converted to `CipUint`; an existing entry wins. -/
def register (c : Conn) (s : Mgr) : Mgr :=
  let id := s.heap.length
  let key := c.t2oNetworkConnectionId.setWidth 16
  match tblFind key s.table with
  | some _ => { s with heap := s.heap ++ [c] }
  | none => { s with heap := s.heap ++ [c], table := tblPut key id s.table }

/-- `findOrCreateSocket` (ConnectionManager.cpp:229-262) with its result: the new
socket list, or the exception of the constructor of the bound socket. -/
def findOrCreateSocket (ep : EndPoint) (bindErr : Option Int) (socks : List EndPoint) :
    Outcome (List EndPoint × List MEv) :=
  match sockFind ep socks with
  | some _ => .ok (socks, [])
  | none =>
    match bindErr with
    | some code => .throw (.system code)
    | none => .ok (sockPut ep socks, [.bound ep])

/-- The part of `forwardOpen` after a successful reply (ConnectionManager.cpp:105-161). -/
def accept (P : Plat) (host : String) (p : ConnectionParameters) (large : Bool) (e : OpenEnv)
    (resp : MessageRouterResponse) (ev : MEv) (s : Mgr) : StepRes :=
  match ForwardOpenResponse.expand P.mem resp.data with
  | .ub => .stop [ev] .ub
  | .throw x => .ok s [ev] (.threw x)
  | .ok r =>
    match timeoutMultiplier p.connectionTimeoutMultiplier with
    | .ub => .stop [ev] .ub
    | .throw x => .ok s [ev] (.threw x)
    | .ok mult =>
      match sendEndPoint P host resp.additionalItems with
      | .ub => .stop [ev] .ub
      | .throw x => .ok s [ev] (.threw x)
      | .ok ep =>
        match e.udpErr with
        | some code => .ok s [ev] (.threw (.system code))
        | none =>
          match findOrCreateSocket (EndPoint.ofHost P.aton host implicitPort) e.bindErr s.sockets with
          | .ub => .stop [ev] .ub
          | .throw x => .ok s [ev] (.threw x)
          | .ok (socks, evs) =>
            let c := newConn p large r mult ep e.now
            .ok (register c { s with sockets := socks }) (ev :: evs ++ [.created s.heap.length c])
              (.ptr (some s.heap.length))

/-- `ConnectionManager::forwardOpen` (ConnectionManager.cpp:52-168). -/
def forwardOpen (P : Plat) (host : String) (p : ConnectionParameters) (large : Bool) (e : OpenEnv) (s : Mgr) :
    StepRes :=
  match bumpStatics s.incarnation (o2tMulticast p large) (t2oP2P p large) s.statics with
  | none => .stop [] .ub
  | some st =>
    let s1 := { s with statics := st }
    let sp := sentParams p large st
    match (if large then largeForwardOpenPack sp else forwardOpenPack sp) with
    | .ub => .stop [] .ub
    | .throw _ => .stop [] .aborted
    | .ok data =>
      let ev := MEv.request (if large then 0x5B#8 else 0x54#8) (EPath.mk2 6 1) data
      match e.reply with
      | .ub => .stop [ev] .ub
      | .throw x => .ok s1 [ev] (.threw x)
      | .ok resp =>
        if resp.status = GeneralStatus.success then accept P host p large e resp ev s1
        else .ok s1 [ev] (.ptr none)

/-! ## forwardClose -/

/-- Can a weak pointer to this object still be locked? -/
def alive (s : Mgr) (id : Nat) : Bool := s.table.any (fun e => e.2 == id) || s.held.contains id

/-- The request built from the connection (ConnectionManager.cpp:177-182). -/
def closeRequest (c : Conn) : ForwardCloseRequest :=
  { connectionSerialNumber := c.serialNumber.setWidth 16
    originatorVendorId := c.originatorVendorId
    originatorSerialNumber := c.originatorSerialNumber
    connectionPath := c.connectionPath }

/-- `ConnectionManager::forwardClose` (ConnectionManager.cpp:175-205). -/
def forwardClose (P : Plat) (ptr : Option Nat) (reply : Outcome MessageRouterResponse) (s : Mgr) : StepRes :=
  match ptr with
  | none => .ok s [] .unit
  | some id =>
    if s.alive id then
      match s.heap[id]? with
      | none => .ok s [] .unit
      | some c =>
        let ev := MEv.request 0x4E#8 (EPath.mk2 6 1) (closeRequest c).pack
        match reply with
        | .ub => .stop [ev] .ub
        | .throw x => .ok s [ev] (.threw x)
        | .ok _ =>
          let key := c.t2oNetworkConnectionId.setWidth 16
          match tblFind key s.table with
          | some _ => .ok { s with table := tblErase key s.table } [ev] .unit
          | none => if P.ndebug then .ok s [ev] .unit else .stop [ev] .aborted
    else .ok s [] .unit

/-! ## handleConnections -/

/-- The handler of a bound socket (ConnectionManager.cpp:240-257). -/
def deliver (P : Plat) (r : Recv) (s : Mgr) : Outcome (Mgr × List MEv) :=
  match udpReceive 8192 r with
  | .ub => .ub
  | .throw e => .throw e
  | .ok recvData =>
    match CommonPacket.expand P.mem recvData with
    | .ub => .ub
    | .throw e => .throw e
    | .ok items =>
      match items[0]? with
      | none => .throw .outOfRange
      | some address =>
        match Rd.u32 P.mem (Buffer.ofData address.data) with
        | .ub => .ub
        | .throw e => .throw e
        | .ok (connectionId, _) =>
          match tblFind (connectionId.setWidth 16) s.table with
          | none => .ok (s, [])
          | some id =>
            match items[1]?, s.heap[id]? with
            | none, _ => .throw .outOfRange
            | some _, none => .ok (s, [])
            | some item, some c =>
              match c.notifyReceiveData P.mem item.data with
              | .ub => .ub
              | .throw e => .throw e
              | .ok (c', evs) => .ok ({ s with heap := s.heap.set id c' }, [.conn id (.recv item.data) evs])

/-- A stage of `handleConnections`. -/
inductive Stage where
  | go (s : Mgr) (evs : List MEv)
  | threw (s : Mgr) (evs : List MEv) (e : Exn)
  | ub (evs : List MEv)
deriving Repr, DecidableEq

/-- `notifyReceiveData` ran the receive listener? -/
def ranReceive (evs : List MEv) : Option Nat :=
  match evs with
  | [.conn id _ [.received _ _ _]] => some id
  | _ => none

/-- The exception that leaves the handler from the receive listener. -/
def raised (throws : Option Exn) (evs : List MEv) : Option Exn :=
  match ranReceive evs with
  | some _ => throws
  | none => none

/-- The handlers of the ready sockets of one round (BaseSocket.cpp:141-146).  An exception of
a listener ends the round; what the listener was called for has been taken into account. -/
def deliverAll (P : Plat) : List Arrival → Mgr → Stage
  | [], s => .go s []
  | r :: rs, s =>
    match deliver P r.recv s with
    | .ub => .ub []
    | .throw e => .threw s [] e
    | .ok (s', evs) =>
      match raised r.throws evs with
      | some e => .threw s' evs e
      | none =>
        match deliverAll P rs s' with
        | .go s'' evs' => .go s'' (evs ++ evs')
        | .threw s'' evs' e => .threw s'' (evs ++ evs') e
        | .ub evs' => .ub (evs ++ evs')

/-- `duration_cast<milliseconds>(stopTime - startTime)` (BaseSocket.cpp:129): times in
nanoseconds, truncated towards zero. -/
def remainingMs (stop now : Int) : Int := (stop - now).tdiv 1000000

/-- The loop of `BaseSocket::select` (BaseSocket.cpp:128-150). -/
def selectLoop (P : Plat) (stop : Int) : Int → List Round → Mgr → Stage
  | now, [], s => .go s [.waited (makePortableInterval (remainingMs stop now))]
  | now, .fail code :: _, s => .threw s [.waited (makePortableInterval (remainingMs stop now))] (.system code)
  | now, .ready r rs now' :: rest, s =>
    let w := MEv.waited (makePortableInterval (remainingMs stop now))
    match deliverAll P (r :: rs) s with
    | .ub evs => .ub (w :: evs)
    | .threw s' evs e => .threw s' (w :: evs) e
    | .go s' evs =>
      match selectLoop P stop now' rest s' with
      | .ub evs' => .ub (w :: evs ++ evs')
      | .threw s'' evs' e => .threw s'' (w :: evs ++ evs') e
      | .go s'' evs' => .go s'' (w :: evs ++ evs')

/-- The loop over `_connectionMap` (ConnectionManager.cpp:217-222): new heap,
events, keys to erase, and the exception that ended it, if any. -/
def tickAll (ticks : Nat → TickEnv) : List (BitVec 16 × Nat) → List Conn →
    List Conn × List MEv × List (BitVec 16) × Option Exn
  | [], heap => (heap, [], [], none)
  | (k, id) :: rest, heap =>
    match heap[id]? with
    | none => tickAll ticks rest heap
    | some c =>
      let t := ticks id
      let r := c.notifyTick t.now t.hook t.count
      let ev := MEv.conn id (.tick t.now t.hook t.count) r.2.1
      let heap' := heap.set id r.1
      match r.2.2 with
      | .threw e => (heap', [ev], [], some e)
      | .alive => let q := tickAll ticks rest heap'; (q.1, ev :: q.2.1, q.2.2.1, q.2.2.2)
      | .dead => let q := tickAll ticks rest heap'; (q.1, ev :: q.2.1, k :: q.2.2.1, q.2.2.2)

/-- `ConnectionManager::handleConnections` (ConnectionManager.cpp:207-227).  With no
socket, `*std::max_element` of an empty range is undefined (BaseSocket.cpp:121). -/
def handle (P : Plat) (start : Nat) (timeoutMs : Int) (rounds : List Round) (ticks : Nat → TickEnv) (s : Mgr) :
    StepRes :=
  match s.sockets with
  | [] => .stop [] .ub
  | _ :: _ =>
    match selectLoop P (start + timeoutMs * 1000000) start rounds s with
    | .ub evs => .stop evs .ub
    | .threw s' evs e => .ok s' evs (.threw e)
    | .go s' evs =>
      match tickAll ticks s'.table s'.heap with
      | (heap, evs', keys, none) =>
        .ok { s' with heap := heap, table := s'.table.filter fun e => !keys.contains e.1 } (evs ++ evs') .unit
      | (heap, evs', _, some e) => .ok { s' with heap := heap } (evs ++ evs') (.threw e)

/-! ## Histories -/

/-- One operation. -/
def step (P : Plat) (s : Mgr) : MOp → StepRes
  | .forwardOpen host p large e => s.forwardOpen P host p large e
  | .otherOpen inc mc p2p =>
    match bumpStatics inc mc p2p s.statics with
    | none => .stop [] .ub
    | some st => .ok { s with statics := st } [] .unit
  | .forwardClose ptr reply => s.forwardClose P ptr reply
  | .handle start timeoutMs rounds ticks => s.handle P start timeoutMs rounds ticks
  | .hasOpen => .ok s [] (.bool (!s.table.isEmpty))
  | .setData id data =>
    match s.alive id, s.heap[id]? with
    | true, some c => .ok { s with heap := s.heap.set id (c.setDataToSend data) } [.conn id (.setData data) []] .unit
    | _, _ => .ok s [] .unit
  | .lock id => if s.alive id then .ok { s with held := id :: s.held } [] .unit else .ok s [] .unit
  | .release id => .ok { s with held := s.held.erase id } [] .unit

/-- A new manager. -/
def new (incarnation : BitVec 16) (statics : Statics) : Mgr := { incarnation, statics }

/-- A history without undefined behaviour and without abort: final state, and what
each operation did. -/
def run (P : Plat) (s : Mgr) : List MOp → Option (Mgr × List (MOp × List MEv × MRet))
  | [] => some (s, [])
  | op :: ops =>
    match s.step P op with
    | .stop _ _ => none
    | .ok s' evs ret =>
      match s'.run P ops with
      | none => none
      | some (s'', tr) => some (s'', (op, evs, ret) :: tr)

end Mgr

end Verif
