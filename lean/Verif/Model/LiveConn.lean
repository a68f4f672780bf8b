import Verif.Model.IoConn

/-!
# Model of a connection whose listeners are set and replaced

Source: `src/IOConnection.{h,cpp}`.

`Model/IoConn` says when listeners are called and takes what they leave in the output data as an input.  Here the three
listeners are members of the object: they can be set at any time, also by a listener that is running, which may then
replace itself.  Calls of the manager by listeners are in `Verif.Model.Reentrant`.
-/

namespace Verif

/-- The three listeners (IOConnection.h:104-106). -/
inductive Slot where
  | receive
  | send
  | close
deriving Repr, DecidableEq

/-- What is stored for a listener: the function of the constructor, which does nothing (IOConnection.cpp:43-45), an empty
`std::function`, or a function of the user. -/
inductive Listener where
  | initial
  | empty
  | user (n : Nat)
deriving Repr, DecidableEq

/-- What a function of the user does with the connection. -/
inductive LAct where
  /-- it uses a variable that it has captured -/
  | look
  /-- it assigns to its argument; only the send listener can (IOConnection.h:27-29) -/
  | assign (data : List Byte)
  /-- `setDataToSend(data)` -/
  | setData (data : List Byte)
  /-- `setReceiveDataListener`, `setSendDataListener` or `setCloseListener` -/
  | set (slot : Slot) (l : Listener)
  | raise (e : Exn)
deriving Repr, DecidableEq

/-- `std::bad_function_call`, thrown by the call of an empty `std::function`. -/
def badCall : Exn := .runtime "bad_function_call"

/-- A connection with its listeners, and how often each was replaced. -/
structure LiveConn where
  conn : Conn
  fn : Slot → Listener
  gen : Slot → Nat

namespace LiveConn

/-- `IOConnection::IOConnection` as far as listeners go (IOConnection.cpp:43-45). -/
def new (c : Conn) : LiveConn := ⟨c, fun _ => .initial, fun _ => 0⟩

/-- `setReceiveDataListener`, `setSendDataListener`, `setCloseListener` (IOConnection.cpp:56-66). -/
def setListener (s : LiveConn) (slot : Slot) (l : Listener) : LiveConn :=
  { s with fn := fun x => if x = slot then l else s.fn x, gen := fun x => if x = slot then s.gen x + 1 else s.gen x }

/-- A function of the user that was called from `slot` when this had been replaced `g` times: `none` if it uses captured
variables after it has been destroyed, and otherwise the exception it throws, if any. -/
def body (slot : Slot) (g : Nat) : List LAct → LiveConn → Option (LiveConn × Option Exn)
  | [], s => some (s, none)
  | .look :: as, s => if s.gen slot = g then body slot g as s else none
  | .assign d :: as, s =>
    body slot g as (if slot = .send then { s with conn := s.conn.setDataToSend d } else s)
  | .setData d :: as, s => body slot g as { s with conn := s.conn.setDataToSend d }
  | .set sl l :: as, s => body slot g as (s.setListener sl l)
  | .raise e :: _, s => some (s, some e)

/-- The call of a listener. -/
def call (slot : Slot) (acts : List LAct) (s : LiveConn) : Option (LiveConn × Option Exn) :=
  match s.fn slot with
  | .initial => some (s, none)
  | .empty => some (s, some badCall)
  | .user _ => body slot (s.gen slot) acts s

/-- What a step does: the new object, events, the listeners called, and how it ends. -/
structure Did where
  st : LiveConn
  evs : List IoEv := []
  calls : List (Slot × Listener) := []
  ret : TickRet := .alive

/-- `IOConnection::notifyReceiveData` (IOConnection.cpp:68-92). -/
def recv (m : Mem) (data : List Byte) (acts : List LAct) (s : LiveConn) : Option Did :=
  match s.conn.recvHead m (Buffer.ofData data) with
  | .ub => none
  | .throw e => some { st := s, ret := .threw e }
  | .ok ((header, seq), b) =>
    if data.length < b.pos then none
    else
      let ioData := data.drop b.pos
      if s.conn.t2oFixedSize && ioData.length != s.conn.t2oDataSize then some { st := s }
      else
        let s1 := { s with conn := { s.conn with connectionTimeoutCount := 0 } }
        match call .receive acts s1 with
        | none => none
        | some (s2, thrown) => some
          { st := s2, evs := [.received header seq ioData], calls := [(.receive, s.fn .receive)],
            ret := match thrown with | some e => .threw e | none => .alive }

/-- The part of `notifyTick` that produces data (IOConnection.cpp:110-139). -/
def produce (acts : List LAct) (count : Int) (s : LiveConn) : Option Did :=
  let c := s.conn
  let seqNum := c.o2tSequenceNumber + 1
  let addrItem := CommonPacketItemFactory.sequenceAddress c.o2tNetworkConnectionId seqNum
  let seqCount := if Conn.classHasSequence c.transportTypeTrigger then c.sequenceValueCount + 1 else c.sequenceValueCount
  let b0 := if Conn.classHasSequence c.transportTypeTrigger then Buffer.empty.putU16 seqCount else Buffer.empty
  let b1 := if c.o2tRealTimeFormat then b0.putU32 1#32 else b0
  let s1 := { s with conn := { c with o2tSequenceNumber := seqNum, sequenceValueCount := seqCount, o2tTimer := 0 } }
  match call .send acts s1 with
  | none => none
  | some (s2, some e) => some
    { st := s2, evs := [.asked s2.conn.outputData], calls := [(.send, s.fn .send)], ret := .threw e }
  | some (s2, none) =>
    let out := s2.conn.outputData
    if s2.conn.o2tFixedSize && out.length != s2.conn.o2tDataSize then
      some { st := s2, evs := [.asked out], calls := [(.send, s.fn .send)] }
    else
      let bytes := CommonPacket.pack [addrItem, CommonPacketItemFactory.connectedData (b1.putBytes out).bytes]
      some { st := s2, evs := [.asked out, .sent s2.conn.socket bytes], calls := [(.send, s.fn .send)],
             ret := if udpSendThrows bytes count then .threw (.system 0) else .alive }

/-- `IOConnection::notifyTick` (IOConnection.cpp:94-142). -/
def tick (now : Nat) (sendActs closeActs : List LAct) (count : Int) (s : LiveConn) : Option Did :=
  let periodInMicroS := (now - s.conn.lastHandleTime) / 1000000 * 1000
  let c1 : Conn := { s.conn with connectionTimeoutCount := s.conn.connectionTimeoutCount + BitVec.ofNat 32 periodInMicroS }
  if c1.connectionTimeoutCount > c1.connectionTimeoutMultiplier.setWidth 32 * c1.t2oAPI then
    match call .close closeActs { s with conn := c1 } with
    | none => none
    | some (s2, thrown) => some
      { st := s2, evs := [.closed], calls := [(.close, s.fn .close)],
        ret := match thrown with | some e => .threw e | none => .dead }
  else
    let c2 : Conn := { c1 with lastHandleTime := now, o2tTimer := c1.o2tTimer + BitVec.ofNat 32 periodInMicroS }
    if c2.o2tTimer ≥ c2.o2tAPI then produce sendActs count { s with conn := c2 }
    else some { st := { s with conn := c2 } }

/-- What can happen to the object. -/
inductive LOp where
  | tick (now : Nat) (sendActs closeActs : List LAct) (count : Int)
  | recv (data : List Byte) (acts : List LAct)
  | setData (data : List Byte)
  | setListener (slot : Slot) (l : Listener)
deriving Repr, DecidableEq

/-- One step; `none` is undefined behaviour. -/
def step (m : Mem) (s : LiveConn) : LOp → Option Did
  | .tick now sa ca count => tick now sa ca count s
  | .recv data acts => recv m data acts s
  | .setData d => some { st := { s with conn := s.conn.setDataToSend d } }
  | .setListener slot l => some { st := s.setListener slot l }

/-- A history. -/
def run (m : Mem) (s : LiveConn) : List LOp → Option (LiveConn × List (LOp × Did))
  | [] => some (s, [])
  | op :: ops =>
    match step m s op with
    | none => none
    | some d => (run m d.st ops).map fun r => (r.1, (op, d) :: r.2)

end LiveConn

end Verif
