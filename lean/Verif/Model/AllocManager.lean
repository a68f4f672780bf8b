import Verif.Model.ConnManager

/-!
# Running out of memory in a connection manager

Source: `src/ConnectionManager.cpp`, `src/IOConnection.cpp`, `src/sockets/BaseSocket.cpp`.

The operations of `Model/ConnManager` again, with the places at which they allocate memory.  A call ends at the first
allocation that fails, so that for each call it is enough to know at which place that is, if any.  Allocations with no effect on
anything but local variables between them are one place.  The log is off.
-/

namespace Verif

/-- The allocations of `notifyTick` and of the loop that calls it: for the address item
(IOConnection.cpp:112-114); for the sequence count and the header (IOConnection.cpp:116-125); for the datagram
(IOConnection.cpp:134-137); for the entry in `connectionsToClose` (ConnectionManager.cpp:220). -/
inductive TickPlace where
  | address
  | count
  | frame
  | record
deriving Repr, DecidableEq

namespace Conn

/-- `produce` (IOConnection.cpp:110-139) when the allocation at this place fails.  The sequence number is counted before
the first place, the sequence count before the second, the timer is set to 0 and the listener called before the third.
Nothing is allocated for a header or a count that the connection does not have. -/
def produceA (place : Option TickPlace) (hook : Hook) (count : Int) (c : Conn) : Conn × List IoEv × TickRet :=
  match place with
  | some .address => ({ c with o2tSequenceNumber := c.o2tSequenceNumber + 1 }, [], .threw .badAlloc)
  | some .count =>
    if classHasSequence c.transportTypeTrigger || c.o2tRealTimeFormat then
      ({ c with
          o2tSequenceNumber := c.o2tSequenceNumber + 1
          sequenceValueCount :=
            if classHasSequence c.transportTypeTrigger then c.sequenceValueCount + 1 else c.sequenceValueCount },
        [], .threw .badAlloc)
    else produce hook count c
  | some .frame =>
    let r := produce hook count c
    match r.2.1 with
    | [.asked out, .sent _ _] => (r.1, [.asked out], .threw .badAlloc)
    | _ => r
  | _ => produce hook count c

/-- `IOConnection::notifyTick` (IOConnection.cpp:94-142) when the allocation at this place fails. -/
def notifyTickA (place : Option TickPlace) (now : Nat) (hook : Hook) (count : Int) (c : Conn) :
    Conn × List IoEv × TickRet :=
  let periodInMicroS := (now - c.lastHandleTime) / 1000000 * 1000
  let c1 := { c with connectionTimeoutCount := c.connectionTimeoutCount + BitVec.ofNat 32 periodInMicroS }
  if c1.connectionTimeoutCount > c1.connectionTimeoutMultiplier.setWidth 32 * c1.t2oAPI then
    (c1, [.closed], closeRet hook)
  else
    let c2 := { c1 with lastHandleTime := now, o2tTimer := c1.o2tTimer + BitVec.ofNat 32 periodInMicroS }
    if c2.o2tTimer ≥ c2.o2tAPI then produceA place hook count c2 else (c2, [], .alive)

/-- One step of a connection object, as `step`: a tick may lack memory at a place. -/
def stepA (m : Mem) (c : Conn) (op : ConnOp) (place : Option TickPlace) : Option (Conn × List IoEv) :=
  match op with
  | .tick now hook count => let r := c.notifyTickA place now hook count; some (r.1, r.2.1)
  | op => c.step m op

/-- A history of a connection object, as `run`. -/
def runA (m : Mem) (c : Conn) :
    List (ConnOp × Option TickPlace) → Option (Conn × List ((ConnOp × Option TickPlace) × List IoEv))
  | [] => some (c, [])
  | op :: ops =>
    match c.stepA m op.1 op.2 with
    | none => none
    | some (c', evs) =>
      match c'.runA m ops with
      | none => none
      | some (c'', tr) => some (c'', (op, evs) :: tr)

end Conn

/-- The allocations of `forwardOpen`: for the request (ConnectionManager.cpp:91-100); for what is read from the
reply (ConnectionManager.cpp:106); for the connection (ConnectionManager.cpp:112-123); for the items, the end point and the socket of
the connection (ConnectionManager.cpp:131-148); for texts and the end point of the bound socket (ConnectionManager.cpp:150-153); for the bound
socket and its entry (ConnectionManager.cpp:232-233), if there is none; for the entry of the connection
(ConnectionManager.cpp:155-156). -/
inductive OpenPlace where
  | request
  | reply
  | object
  | socket
  | endPoint
  | bound
  | entry
deriving Repr, DecidableEq

/-- Something received, and whether there is no memory for it. -/
structure ArrivalA where
  arrival : Arrival
  lost : Bool := false
deriving Repr, DecidableEq

/-- One call of `::select`, as `Round`. -/
inductive RoundA where
  | fail (code : Int)
  | ready (first : ArrivalA) (more : List ArrivalA) (now : Nat)
deriving Repr, DecidableEq

/-- The environment of a tick. -/
structure TickEnvA where
  env : TickEnv
  place : Option TickPlace := none
deriving Repr, DecidableEq

/-- The operations of a history: those of `MOp`, and calls with a failing allocation. -/
inductive MOpA where
  | plain (op : MOp)
  | forwardOpen (host : String) (p : ConnectionParameters) (large : Bool) (e : OpenEnv) (place : OpenPlace)
  /-- `forwardClose` without memory for the request; `reply`: what would have come back -/
  | forwardClose (ptr : Option Nat) (reply : Outcome MessageRouterResponse)
  /-- `setDataToSend` without memory for the copy -/
  | setData (id : Nat) (data : List Byte)
  /-- `handleConnections`; `sockets`: there is no memory for the list of sockets -/
  | handle (sockets : Bool) (start : Nat) (timeoutMs : Int) (rounds : List RoundA) (ticks : Nat → TickEnvA)

namespace Mgr

/-- The part of `forwardOpen` after a successful reply (ConnectionManager.cpp:105-161). -/
def acceptA (P : Plat) (host : String) (p : ConnectionParameters) (large : Bool) (e : OpenEnv) (place : OpenPlace)
    (resp : MessageRouterResponse) (ev : MEv) (s : Mgr) : StepRes :=
  if place = .reply then .ok s [ev] (.threw .badAlloc)
  else
  match ForwardOpenResponse.expand P.mem resp.data with
  | .ub => .stop [ev] .ub
  | .throw x => .ok s [ev] (.threw x)
  | .ok r =>
    if place = .object then .ok s [ev] (.threw .badAlloc)
    else
    match timeoutMultiplier p.connectionTimeoutMultiplier with
    | .ub => .stop [ev] .ub
    | .throw x => .ok s [ev] (.threw x)
    | .ok mult =>
      match sendEndPoint P host resp.additionalItems with
      | .ub => .stop [ev] .ub
      | .throw x => .ok s [ev] (.threw x)
      | .ok ep =>
        if place = .socket then .ok s [ev] (.threw .badAlloc)
        else
        match e.udpErr with
        | some code => .ok s [ev] (.threw (.system code))
        | none =>
          if place = .endPoint then .ok s [ev] (.threw .badAlloc)
          else
          if place = .bound ∧ sockFind (EndPoint.ofHost P.aton host implicitPort) s.sockets = none then
            .ok s [ev] (.threw .badAlloc)
          else
          match findOrCreateSocket (EndPoint.ofHost P.aton host implicitPort) e.bindErr s.sockets with
          | .ub => .stop [ev] .ub
          | .throw x => .ok s [ev] (.threw x)
          | .ok (socks, evs) =>
            if place = .entry then .ok { s with sockets := socks } (ev :: evs) (.threw .badAlloc)
            else
            let c := newConn p large r mult ep e.now
            .ok (register c { s with sockets := socks }) (ev :: evs ++ [.created s.heap.length c])
              (.ptr (some s.heap.length))

/-- `ConnectionManager::forwardOpen` (ConnectionManager.cpp:52-168). -/
def forwardOpenA (P : Plat) (host : String) (p : ConnectionParameters) (large : Bool) (e : OpenEnv) (place : OpenPlace)
    (s : Mgr) : StepRes :=
  match bumpStatics s.incarnation (o2tMulticast p large) (t2oP2P p large) s.statics with
  | none => .stop [] .ub
  | some st =>
    let s1 := { s with statics := st }
    let sp := sentParams p large st
    if place = .request then .ok s1 [] (.threw .badAlloc)
    else
    match (if large then largeForwardOpenPack sp else forwardOpenPack sp) with
    | .ub => .stop [] .ub
    | .throw _ => .stop [] .aborted
    | .ok data =>
      let ev := MEv.request (if large then 0x5B#8 else 0x54#8) (EPath.mk2 6 1) data
      match e.reply with
      | .ub => .stop [ev] .ub
      | .throw x => .ok s1 [ev] (.threw x)
      | .ok resp =>
        if resp.status = GeneralStatus.success then acceptA P host p large e place resp ev s1
        else .ok s1 [ev] (.ptr none)

/-- `ConnectionManager::forwardClose` (ConnectionManager.cpp:175-205) without memory for the request.  For a pointer to a
connection that is gone nothing is allocated. -/
def forwardCloseA (ptr : Option Nat) (s : Mgr) : StepRes :=
  match ptr with
  | none => .ok s [] .unit
  | some id =>
    if s.alive id then
      match s.heap[id]? with
      | none => .ok s [] .unit
      | some _ => .ok s [] (.threw .badAlloc)
    else .ok s [] .unit

/-- `IOConnection::setDataToSend` (IOConnection.cpp:52-54) without memory for the copy: the old data stay. -/
def setDataA (id : Nat) (s : Mgr) : StepRes :=
  match s.alive id, s.heap[id]? with
  | true, some _ => .ok s [] (.threw .badAlloc)
  | _, _ => .ok s [] .unit

/-- The handler of a bound socket (ConnectionManager.cpp:240-257): it allocates for the datagram, for its items and for
what is given to the listener, before the connection is changed (IOConnection.cpp:68-88). -/
def deliverA (P : Plat) (r : ArrivalA) (s : Mgr) : Outcome (Mgr × List MEv) :=
  if r.lost then .throw .badAlloc else deliver P r.arrival.recv s

/-- The handlers of the ready sockets of one round (BaseSocket.cpp:141-146), as `deliverAll`. -/
def deliverAllA (P : Plat) : List ArrivalA → Mgr → Stage
  | [], s => .go s []
  | r :: rs, s =>
    match deliverA P r s with
    | .ub => .ub []
    | .throw e => .threw s [] e
    | .ok (s', evs) =>
      match raised r.arrival.throws evs with
      | some e => .threw s' evs e
      | none =>
        match deliverAllA P rs s' with
        | .go s'' evs' => .go s'' (evs ++ evs')
        | .threw s'' evs' e => .threw s'' (evs ++ evs') e
        | .ub evs' => .ub (evs ++ evs')

/-- The loop of `BaseSocket::select` (BaseSocket.cpp:128-150), which does not allocate. -/
def selectLoopA (P : Plat) (stop : Int) : Int → List RoundA → Mgr → Stage
  | now, [], s => .go s [.waited (makePortableInterval (remainingMs stop now))]
  | now, .fail code :: _, s => .threw s [.waited (makePortableInterval (remainingMs stop now))] (.system code)
  | now, .ready r rs now' :: rest, s =>
    let w := MEv.waited (makePortableInterval (remainingMs stop now))
    match deliverAllA P (r :: rs) s with
    | .ub evs => .ub (w :: evs)
    | .threw s' evs e => .threw s' (w :: evs) e
    | .go s' evs =>
      match selectLoopA P stop now' rest s' with
      | .ub evs' => .ub (w :: evs ++ evs')
      | .threw s'' evs' e => .threw s'' (w :: evs ++ evs') e
      | .go s'' evs' => .go s'' (w :: evs ++ evs')

/-- The loop over `_connectionMap` (ConnectionManager.cpp:217-222), as `tickAll`. -/
def tickAllA (ticks : Nat → TickEnvA) : List (BitVec 16 × Nat) → List Conn →
    List Conn × List MEv × List (BitVec 16) × Option Exn
  | [], heap => (heap, [], [], none)
  | (k, id) :: rest, heap =>
    match heap[id]? with
    | none => tickAllA ticks rest heap
    | some c =>
      let t := (ticks id).env
      let r := c.notifyTickA (ticks id).place t.now t.hook t.count
      let ev := MEv.conn id (.tick t.now t.hook t.count) r.2.1
      let heap' := heap.set id r.1
      match r.2.2 with
      | .threw e => (heap', [ev], [], some e)
      | .alive => let q := tickAllA ticks rest heap'; (q.1, ev :: q.2.1, q.2.2.1, q.2.2.2)
      | .dead =>
        if (ticks id).place = some .record then (heap', [ev], [], some .badAlloc)
        else let q := tickAllA ticks rest heap'; (q.1, ev :: q.2.1, k :: q.2.2.1, q.2.2.2)

/-- `ConnectionManager::handleConnections` (ConnectionManager.cpp:207-227).  The list of sockets is made and copied
before anything else (ConnectionManager.cpp:208-215). -/
def handleA (P : Plat) (sockets : Bool) (start : Nat) (timeoutMs : Int) (rounds : List RoundA) (ticks : Nat → TickEnvA)
    (s : Mgr) : StepRes :=
  match s.sockets with
  | [] => .stop [] .ub
  | _ :: _ =>
    if sockets then .ok s [] (.threw .badAlloc)
    else
    match selectLoopA P (start + timeoutMs * 1000000) start rounds s with
    | .ub evs => .stop evs .ub
    | .threw s' evs e => .ok s' evs (.threw e)
    | .go s' evs =>
      match tickAllA ticks s'.table s'.heap with
      | (heap, evs', keys, none) =>
        .ok { s' with heap := heap, table := s'.table.filter fun e => !keys.contains e.1 } (evs ++ evs') .unit
      | (heap, evs', _, some e) => .ok { s' with heap := heap } (evs ++ evs') (.threw e)

/-- One operation. -/
def stepA (P : Plat) (s : Mgr) : MOpA → StepRes
  | .plain op => s.step P op
  | .forwardOpen host p large e place => s.forwardOpenA P host p large e place
  | .forwardClose ptr _ => s.forwardCloseA ptr
  | .setData id _ => s.setDataA id
  | .handle sockets start timeoutMs rounds ticks => s.handleA P sockets start timeoutMs rounds ticks

/-- A history without undefined behaviour and without abort, as `run`. -/
def runA (P : Plat) (s : Mgr) : List MOpA → Option (Mgr × List (MOpA × List MEv × MRet))
  | [] => some (s, [])
  | op :: ops =>
    match s.stepA P op with
    | .stop _ _ => none
    | .ok s' evs ret =>
      match s'.runA P ops with
      | none => none
      | some (s'', tr) => some (s'', (op, evs, ret) :: tr)

end Mgr

end Verif
