import Verif.Model.Cip

/-!
# Model of the connection manager messages

Source: `src/cip/connectionManager/*`.
-/

namespace Verif

/-- `connectionManager::ConnectionParameters` (ConnectionParameters.h:14-32).
`CipBool` is an 8-bit unsigned integer that is only tested against zero, so it is a `Bool` here. -/
structure ConnectionParameters where
  priorityTimeTick : BitVec 8 := 0
  timeoutTicks : BitVec 8 := 0
  o2tNetworkConnectionId : BitVec 32 := 0
  t2oNetworkConnectionId : BitVec 32 := 0
  connectionSerialNumber : BitVec 16 := 0
  originatorVendorId : BitVec 16 := 0
  originatorSerialNumber : BitVec 32 := 0
  connectionTimeoutMultiplier : BitVec 8 := 0
  o2tRPI : BitVec 32 := 0
  o2tNetworkConnectionParams : BitVec 32 := 0
  t2oRPI : BitVec 32 := 0
  t2oNetworkConnectionParams : BitVec 32 := 0
  transportTypeTrigger : BitVec 8 := 0
  connectionPathSize : BitVec 8 := 0
  o2tRealTimeFormat : Bool := false
  t2oRealTimeFormat : Bool := false
  connectionPath : List Byte := []
deriving Repr, DecidableEq

/-- The stream expression up to the multiplier, common to both requests
(ForwardOpenRequest.cpp:31-39, LargeForwardOpenRequest.cpp:28-36). -/
def ConnectionParameters.packHead (p : ConnectionParameters) : Buffer :=
  ((((((((((Buffer.empty.putU8 p.priorityTimeTick).putU8 p.timeoutTicks).putU32 p.o2tNetworkConnectionId
    ).putU32 p.t2oNetworkConnectionId).putU16 p.connectionSerialNumber).putU16 p.originatorVendorId
    ).putU32 p.originatorSerialNumber).putU8 p.connectionTimeoutMultiplier).putU8 0#8).putU8 0#8).putU8 0#8

/-- `ForwardOpenRequest::pack` (ForwardOpenRequest.cpp:22-50).  The network
connection parameters are converted to `CipUint`; a failing `assert` aborts. -/
def forwardOpenPack (p : ConnectionParameters) : Outcome (List Byte) :=
  let b := (((((p.packHead.putU32 p.o2tRPI).putU16 (p.o2tNetworkConnectionParams.setWidth 16)).putU32 p.t2oRPI
    ).putU16 (p.t2oNetworkConnectionParams.setWidth 16)).putU8 p.transportTypeTrigger).putU8 p.connectionPathSize
  if b.bytes.length = 36 then .ok (b.putBytes p.connectionPath).bytes else .throw .abort

/-- `LargeForwardOpenRequest::pack` (LargeForwardOpenRequest.cpp:22-47). -/
def largeForwardOpenPack (p : ConnectionParameters) : Outcome (List Byte) :=
  let b := (((((p.packHead.putU32 p.o2tRPI).putU32 p.o2tNetworkConnectionParams).putU32 p.t2oRPI
    ).putU32 p.t2oNetworkConnectionParams).putU8 p.transportTypeTrigger).putU8 p.connectionPathSize
  if b.bytes.length = 40 then .ok (b.putBytes p.connectionPath).bytes else .throw .abort

/-- `ForwardCloseRequest` with its setters applied, and `ForwardCloseRequest::pack`
(ForwardCloseRequest.cpp:12-55). -/
structure ForwardCloseRequest where
  connectionSerialNumber : BitVec 16
  originatorVendorId : BitVec 16
  originatorSerialNumber : BitVec 32
  connectionPath : List Byte
deriving Repr, DecidableEq

def ForwardCloseRequest.pack (r : ForwardCloseRequest) : List Byte :=
  ((((((((Buffer.empty.putU8 0#8).putU8 0#8).putU16 r.connectionSerialNumber).putU16 r.originatorVendorId
    ).putU32 r.originatorSerialNumber).putU8 (BitVec.ofNat 8 (r.connectionPath.length / 2))).putU8 0#8
    ).putBytes r.connectionPath).bytes

/-- `ForwardOpenResponse` (ForwardOpenResponse.h:15-45; the constructor
ForwardOpenResponse.cpp:14-24 is followed by `expand` wherever it is used; the getters
ForwardOpenResponse.cpp:46-79 are the fields). -/
structure ForwardOpenResponse where
  o2tNetworkConnectionId : BitVec 32
  t2oNetworkConnectionId : BitVec 32
  connectionSerialNumber : BitVec 16
  originatorVendorId : BitVec 16
  originatorSerialNumber : BitVec 32
  o2tAPI : BitVec 32
  t2oAPI : BitVec 32
  applicationReplaySize : BitVec 8
  applicationReplay : List Byte
deriving Repr, DecidableEq

/-- `ForwardOpenResponse::expand` (ForwardOpenResponse.cpp:28-44) as a reader;
`_applicationReplay` is a `std::vector<uint8_t>`. -/
def ForwardOpenResponse.rd : Rd ForwardOpenResponse := do
  let o2tId ← Rd.u32
  let t2oId ← Rd.u32
  let serial ← Rd.u16
  let vendor ← Rd.u16
  let origSerial ← Rd.u32
  let o2tAPI ← Rd.u32
  let t2oAPI ← Rd.u32
  let size ← Rd.u8
  let _ ← Rd.u8
  let app ← Rd.bytes (size.toNat * 2)
  pure ⟨o2tId, t2oId, serial, vendor, origSerial, o2tAPI, t2oAPI, size, app⟩

/-- `ForwardOpenResponse r; r.expand(data);`. -/
def ForwardOpenResponse.expand (m : Mem) (data : List Byte) : Outcome ForwardOpenResponse :=
  match ForwardOpenResponse.rd m (Buffer.ofData data) with
  | .ok (r, _) => .ok r
  | .throw e => .throw e
  | .ub => .ub

/-! ## NetworkConnectionParametersBuilder -/

/-- The setters of `NetworkConnectionParametersBuilder` with their argument
(NetworkConnectionParametersBuilder.h:16-47).  Each enumeration has exactly the
values of the bit vector used here. -/
inductive NcpSetter where
  | redundantOwner (v : BitVec 1)
  | connectionType (v : BitVec 2)
  | priority (v : BitVec 2)
  | type (v : BitVec 1)
  | connectionSize (v : BitVec 16)
deriving Repr, DecidableEq

/-- `NetworkConnectionParametersBuilder` (NetworkConnectionParametersBuilder.h:54-56). -/
structure NcpBuilder where
  value : BitVec 32
  lfo : Bool
deriving Repr, DecidableEq

namespace NcpBuilder

/-- The word a setter ORs into `_value`
(NetworkConnectionParametersBuilder.cpp:22-64). -/
def contribution (lfo : Bool) : NcpSetter → BitVec 32
  | .redundantOwner v => if lfo then v.setWidth 32 <<< 31 else v.setWidth 32 <<< 15
  | .connectionType v => if lfo then v.setWidth 32 <<< 29 else v.setWidth 32 <<< 13
  | .priority v => if lfo then v.setWidth 32 <<< 26 else v.setWidth 32 <<< 10
  | .type v => if lfo then v.setWidth 32 <<< 25 else v.setWidth 32 <<< 9
  | .connectionSize v => v.setWidth 32 &&& (if lfo then 0x0000FFFF#32 else 0x000001FF#32)

/-- The effect of a setter on `*this`
(NetworkConnectionParametersBuilder.cpp:22-64). -/
def set (b : NcpBuilder) (s : NcpSetter) : NcpBuilder :=
  { b with value := b.value ||| contribution b.lfo s }

/-- `getRedundantOwner` (NetworkConnectionParametersBuilder.cpp:70-76). -/
def getRedundantOwner (b : NcpBuilder) : BitVec 1 :=
  (if b.lfo then (b.value &&& (1#32 <<< 31)) >>> 31 else (b.value &&& (1#32 <<< 15)) >>> 15).setWidth 1

/-- `getConnectionType` (NetworkConnectionParametersBuilder.cpp:78-84). -/
def getConnectionType (b : NcpBuilder) : BitVec 2 :=
  (if b.lfo then (b.value &&& (3#32 <<< 29)) >>> 29 else (b.value &&& (3#32 <<< 13)) >>> 13).setWidth 2

/-- `getPriority` (NetworkConnectionParametersBuilder.cpp:86-92). -/
def getPriority (b : NcpBuilder) : BitVec 2 :=
  (if b.lfo then (b.value &&& (3#32 <<< 26)) >>> 26 else (b.value &&& (3#32 <<< 10)) >>> 10).setWidth 2

/-- `getType` (NetworkConnectionParametersBuilder.cpp:94-100). -/
def getType (b : NcpBuilder) : BitVec 1 :=
  (if b.lfo then (b.value &&& (1#32 <<< 25)) >>> 25 else (b.value &&& (1#32 <<< 9)) >>> 9).setWidth 1

/-- `getConnectionSize` (NetworkConnectionParametersBuilder.cpp:102-108). -/
def getConnectionSize (b : NcpBuilder) : BitVec 16 :=
  (b.value &&& (if b.lfo then 0x0000FFFF#32 else 0x000001FF#32)).setWidth 16

/-- A builder expression: the object it was started on and the object the
expression denotes.  `none` means the expression still denotes the object itself;
`setRedundantOwner` returns a copy (NetworkConnectionParametersBuilder.cpp:22),
the other setters return a reference. -/
structure Chain where
  self : NcpBuilder
  copy : Option NcpBuilder
deriving Repr, DecidableEq

def Chain.start (b : NcpBuilder) : Chain := ⟨b, none⟩

/-- The object a chained expression denotes. -/
def Chain.cur (c : Chain) : NcpBuilder := c.copy.getD c.self

/-- `expr.setX(v)`. -/
def Chain.set (c : Chain) (s : NcpSetter) : Chain :=
  match c.copy, s with
  | none, .redundantOwner v => let b := c.self.set (.redundantOwner v); ⟨b, some b⟩
  | none, s => ⟨c.self.set s, none⟩
  | some d, s => ⟨c.self, some (d.set s)⟩

end NcpBuilder

/-! `connectionManager::NetworkConnectionParams` (NetworkConnectionParams.h:14-44). -/
namespace NetworkConnectionParams
def redundant : BitVec 16 := 1#16 <<< 15
def owned : BitVec 16 := 0#16
def multicast : BitVec 16 := 1#16 <<< 13
def p2p : BitVec 16 := 2#16 <<< 13
def lowPriority : BitVec 16 := 0#16
def highPriority : BitVec 16 := 1#16 <<< 10
def scheduledPriority : BitVec 16 := 2#16 <<< 10
def urgent : BitVec 16 := 3#16 <<< 10
def fixed : BitVec 16 := 0#16
def variable' : BitVec 16 := 1#16 <<< 9
def trigCyclic : BitVec 16 := 0#16
def trigChange : BitVec 16 := 1#16 <<< 4
def trigApp : BitVec 16 := 2#16 <<< 4
def class0 : BitVec 16 := 0#16
def class1 : BitVec 16 := 1#16
def class2 : BitVec 16 := 2#16
def class3 : BitVec 16 := 3#16
def transpServer : BitVec 16 := 0x80#16
end NetworkConnectionParams

end Verif
