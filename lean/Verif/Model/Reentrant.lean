import Verif.Model.ConnManager

/-!
# Listeners that call back into the manager

Source: `src/ConnectionManager.cpp:207-258`, `src/IOConnection.cpp:68-142`.

`Model/ConnManager.lean` runs every listener as one atomic step.  Here a listener
may call the manager while `handleConnections` is inside it: the environment says
for every invocation which calls it makes.  The steps are in program order, so the
state a nested call sees is the state in the middle of `notifyTick` or of the loop
over `_connectionMap`.

A listener that throws does so after its calls.

Simplifications: calls made by listeners that run inside a nested `handleConnections` are
not modelled; exceptions of nested calls are caught by the listener, which may then throw
itself; a close or send listener that closes its own connection and then throws is taken
as undefined, as without the exception, since it may destroy itself; destroying a connection inside its own receive
listener is taken as defined, since nothing of the object is used afterwards.
-/

namespace Verif

/-- The environment of a tick with a listener that makes calls. -/
structure TickEnvR extends TickEnv where
  calls : List MOp := []

/-- A reception, and the calls the receive listener makes if it is run. -/
structure RecvR extends Arrival where
  calls : List MOp := []

/-- One call of `::select`, as `Round`. -/
inductive RoundR where
  | fail (code : Int)
  | ready (first : RecvR) (more : List RecvR) (now : Nat)

/-- An event, or the bounds of a listener's run for a connection. -/
inductive REv where
  | enter (id : Nat)
  | leave (id : Nat)
  | ev (e : MEv)
deriving Repr, DecidableEq

/-- The result of a part of `handleConnections`: state, events and keys collected for
closing; or the exception that ended it; or no defined continuation. -/
inductive RRes where
  | go (s : Mgr) (evs : List REv) (keys : List (BitVec 16))
  | threw (s : Mgr) (evs : List REv) (e : Exn)
  | stop (evs : List REv) (why : Stop)
deriving Repr, DecidableEq

/-- Events that happened before a result. -/
def RRes.after (evs : List REv) (keys : List (BitVec 16)) : RRes → RRes
  | .go s evs' keys' => .go s (evs ++ evs') (keys ++ keys')
  | .threw s evs' e => .threw s (evs ++ evs') e
  | .stop evs' why => .stop (evs ++ evs') why

/-- Statements in sequence. -/
def RRes.andThen (r : RRes) (f : Mgr → RRes) : RRes :=
  match r with
  | .go s evs keys => (f s).after evs keys
  | .threw s evs e => .threw s evs e
  | .stop evs why => .stop evs why

namespace Conn

/-- Where `notifyTick` is when it calls a listener, or that it calls none. -/
inductive TickHead where
  | quiet
  | closing
  /-- the address item and the beginning of the data item are made -/
  | sending (addr : CommonPacketItem) (head : Buffer)
deriving DecidableEq

/-- `notifyTick` up to the call of a listener (IOConnection.cpp:95-128). -/
def tickHead (now : Nat) (c : Conn) : Conn × TickHead :=
  let periodInMicroS := (now - c.lastHandleTime) / 1000000 * 1000
  let c1 := { c with connectionTimeoutCount := c.connectionTimeoutCount + BitVec.ofNat 32 periodInMicroS }
  if c1.connectionTimeoutCount > c1.connectionTimeoutMultiplier.setWidth 32 * c1.t2oAPI then (c1, .closing)
  else
    let c2 := { c1 with lastHandleTime := now, o2tTimer := c1.o2tTimer + BitVec.ofNat 32 periodInMicroS }
    if c2.o2tTimer ≥ c2.o2tAPI then
      let seqNum := c2.o2tSequenceNumber + 1
      let addrItem := CommonPacketItemFactory.sequenceAddress c2.o2tNetworkConnectionId seqNum
      let seqCount := if classHasSequence c2.transportTypeTrigger then c2.sequenceValueCount + 1
        else c2.sequenceValueCount
      let b0 := if classHasSequence c2.transportTypeTrigger then Buffer.empty.putU16 seqCount else Buffer.empty
      let b1 := if c2.o2tRealTimeFormat then b0.putU32 1#32 else b0
      ({ c2 with o2tSequenceNumber := seqNum, sequenceValueCount := seqCount, o2tTimer := 0 },
        .sending addrItem b1)
    else (c2, .quiet)

/-- `notifyTick` after the send listener has returned (IOConnection.cpp:129-138): the
object is read again. -/
def tickTail (addr : CommonPacketItem) (head : Buffer) (hook : Hook) (count : Int) (c : Conn) :
    Conn × List IoEv × TickRet :=
  let out := hook.left.getD c.outputData
  let c' := { c with outputData := out }
  match hook.throws with
  | some e => (c', [.asked out], .threw e)
  | none =>
    if c.o2tFixedSize && out.length != c.o2tDataSize then (c', [.asked out], .alive)
    else
      let bytes := CommonPacket.pack [addr, CommonPacketItemFactory.connectedData (head.putBytes out).bytes]
      (c', [.asked out, .sent c.socket bytes],
        if udpSendThrows bytes count then .threw (.system 0) else .alive)

end Conn

namespace Mgr

/-- A call made by a listener. -/
def ofStep : StepRes → RRes
  | .ok s evs _ => .go s (evs.map .ev) []
  | .stop evs why => .stop (evs.map .ev) why

/-- The calls made by a listener, one after the other. -/
def nested (P : Plat) : List MOp → Mgr → RRes
  | [], s => .go s [] []
  | op :: ops, s => (ofStep (s.step P op)).andThen (nested P ops)

/-- A run of a listener of the connection `id`. -/
def listener (P : Plat) (id : Nat) (calls : List MOp) (s : Mgr) : RRes :=
  ((RRes.go s [.enter id] []).andThen (nested P calls)).andThen fun s => .go s [.leave id] []

/-- The rest of a visit when the listener has returned: the loop's iterator, and
`entry.first`, may only be used if the entry has not been erased
(ConnectionManager.cpp:218-221). -/
def checkEntry (k : BitVec 16) (id : Nat) (rest : Mgr → RRes) (s : Mgr) : RRes :=
  if (k, id) ∈ s.table then rest s else .stop [] .ub

/-- The end of `notifyTick` after the send listener, with the new object. -/
def endSend (id : Nat) (op : ConnOp) (r : Conn × List IoEv × TickRet) (s : Mgr) : RRes :=
  match r.2.2 with
  | .threw e => .threw { s with heap := s.heap.set id r.1 } [.ev (.conn id op r.2.1)] e
  | _ => .go { s with heap := s.heap.set id r.1 } [.ev (.conn id op r.2.1)] []

/-- After the send listener: the object is looked at again. -/
def resumeSend (id : Nat) (t : TickEnvR) (addr : CommonPacketItem) (head : Buffer) (s : Mgr) : RRes :=
  match s.heap[id]? with
  | none => .stop [] .ub
  | some d => endSend id (.tick t.now t.hook t.count) (d.tickTail addr head t.hook t.count) s

/-- After the close listener: the key is collected, unless the listener threw. -/
def resumeClose (k : BitVec 16) (id : Nat) (t : TickEnvR) (s : Mgr) : RRes :=
  match t.hook.throws with
  | some e => .threw s [.ev (.conn id (.tick t.now t.hook t.count) [.closed])] e
  | none => .go s [.ev (.conn id (.tick t.now t.hook t.count) [.closed])] [k]

/-- One pass of the loop over `_connectionMap` (ConnectionManager.cpp:218-222). -/
def visit (P : Plat) (t : TickEnvR) (k : BitVec 16) (id : Nat) (s : Mgr) : RRes :=
  match s.heap[id]? with
  | none => .go s [] []
  | some c =>
    match c.tickHead t.now with
    | (c', .quiet) => .go { s with heap := s.heap.set id c' } [.ev (.conn id (.tick t.now t.hook t.count) [])] []
    | (c', .closing) =>
      (listener P id t.calls { s with heap := s.heap.set id c' }).andThen <|
        checkEntry k id (resumeClose k id t)
    | (c', .sending addr head) =>
      (listener P id t.calls { s with heap := s.heap.set id c' }).andThen <|
        checkEntry k id (resumeSend id t addr head)

/-- `++it` of a `std::map` iterator (ConnectionManager.cpp:218): the first entry, or
the first with a key greater than the current one, in the map as it is now. -/
def nextEntry (prev : Option (BitVec 16)) (t : List (BitVec 16 × Nat)) : Option (BitVec 16 × Nat) :=
  match prev with
  | none => t.head?
  | some p => t.find? fun e => p < e.1

/-- The loop over `_connectionMap` (ConnectionManager.cpp:217-222).  Keys increase,
so 65536 passes are enough (`Props.sweep_spec`: every entry is visited). -/
def sweep (P : Plat) (ticks : Nat → TickEnvR) : Nat → Option (BitVec 16) → Mgr → RRes
  | 0, _, s => .go s [] []
  | n + 1, prev, s =>
    match nextEntry prev s.table with
    | none => .go s [] []
    | some (k, id) => (visit P (ticks id) k id s).andThen (sweep P ticks n (some k))

/-- The exception of a receive listener, after its calls. -/
def raise (throws : Option Exn) (s : Mgr) : RRes :=
  match throws with
  | some e => .threw s [] e
  | none => .go s [] []

/-- The handler of a bound socket with a listener that makes calls
(ConnectionManager.cpp:240-257).  `io` is not used after the listener. -/
def deliverR (P : Plat) (r : RecvR) (s : Mgr) : RRes :=
  match s.deliver P r.recv with
  | .ub => .stop [] .ub
  | .throw e => .threw s [] e
  | .ok (s', evs) =>
    (RRes.go s' (evs.map .ev) []).andThen fun s =>
      match ranReceive evs with
      | some id => (listener P id r.calls s).andThen (raise r.throws)
      | none => .go s [] []

/-- The handlers of the ready sockets of one round (BaseSocket.cpp:141-146). -/
def deliverAllR (P : Plat) : List RecvR → Mgr → RRes
  | [], s => .go s [] []
  | r :: rs, s => (deliverR P r s).andThen (deliverAllR P rs)

/-- The loop of `BaseSocket::select` (BaseSocket.cpp:128-150). -/
def selectLoopR (P : Plat) (stop : Int) : Int → List RoundR → Mgr → RRes
  | now, [], s => .go s [.ev (.waited (makePortableInterval (remainingMs stop now)))] []
  | now, .fail code :: _, s => .threw s [.ev (.waited (makePortableInterval (remainingMs stop now)))] (.system code)
  | now, .ready r rs now' :: rest, s =>
    (RRes.go s [.ev (.waited (makePortableInterval (remainingMs stop now)))] []).andThen fun s =>
      (deliverAllR P (r :: rs) s).andThen (selectLoopR P stop now' rest)

/-- The result of an operation, with the bounds of the listeners' runs. -/
inductive StepResR where
  | ok (s : Mgr) (evs : List REv) (ret : MRet)
  | stop (evs : List REv) (why : Stop)
deriving Repr, DecidableEq

/-- `connectionsToClose` (ConnectionManager.cpp:224-226). -/
def eraseKeys : RRes → StepResR
  | .go s evs keys => .ok { s with table := s.table.filter fun e => !keys.contains e.1 } evs .unit
  | .threw s evs e => .ok s evs (.threw e)
  | .stop evs why => .stop evs why

/-- `ConnectionManager::handleConnections` (ConnectionManager.cpp:207-227). -/
def handleR (P : Plat) (start : Nat) (timeoutMs : Int) (rounds : List RoundR) (ticks : Nat → TickEnvR) (s : Mgr) :
    StepResR :=
  match s.sockets with
  | [] => .stop [] .ub
  | _ :: _ =>
    eraseKeys <|
      (selectLoopR P (start + timeoutMs * 1000000) start rounds s).andThen (sweep P ticks 65536 none)

/-- The operations of a history with listeners that make calls. -/
inductive MOpR where
  | plain (op : MOp)
  | handle (start : Nat) (timeoutMs : Int) (rounds : List RoundR) (ticks : Nat → TickEnvR)

/-- One operation. -/
def stepR (P : Plat) (s : Mgr) : MOpR → StepResR
  | .plain op =>
    match s.step P op with
    | .ok s' evs ret => .ok s' (evs.map .ev) ret
    | .stop evs why => .stop (evs.map .ev) why
  | .handle start timeoutMs rounds ticks => s.handleR P start timeoutMs rounds ticks

/-- A history without undefined behaviour and without abort. -/
def runR (P : Plat) (s : Mgr) : List MOpR → Option (Mgr × List (MOpR × List REv × MRet))
  | [] => some (s, [])
  | op :: ops =>
    match s.stepR P op with
    | .stop _ _ => none
    | .ok s' evs ret =>
      match s'.runR P ops with
      | none => none
      | some (s'', tr) => some (s'', (op, evs, ret) :: tr)

end Mgr

end Verif
