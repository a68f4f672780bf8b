import Verif.Model.Link
import Verif.Model.EndPoint
import Verif.Model.IoConn

/-!
# Model of `IdentityObject` and `DiscoveryManager`

Source: `src/IdentityObject.cpp`, `src/BaseObject.cpp`, `src/DiscoveryManager.cpp`,
`src/sockets/UDPSocket.cpp`.
-/

namespace Verif

/-! ## IdentityObject -/

/-- `IdentityObject` (IdentityObject.h:135-142, BaseObject.h): `_productName` is kept
as the string object, as in the code. -/
structure IdentityObject where
  instanceId : BitVec 16
  vendorId : BitVec 16 := 0
  deviceType : BitVec 16 := 0
  productCode : BitVec 16 := 0
  revision : CipRevision := ⟨0, 0⟩
  status : BitVec 16 := 0
  serialNumber : BitVec 32 := 0
  productName : CipShortString := CipString.ofBytes 8 []
deriving Repr, DecidableEq

namespace IdentityObject

/-- `CLASS_ID` (IdentityObject.h:25). -/
def classId : BitVec 16 := 0x01

/-- `buffer >> _vendorId >> ... >> _productName` (IdentityObject.cpp:45-48), and the
same reads in DiscoveryManager.cpp:64-66. -/
def rd (instanceId : BitVec 16) : Rd IdentityObject := do
  let vendorId ← Rd.u16
  let deviceType ← Rd.u16
  let productCode ← Rd.u16
  let revision ← Rd.revision
  let status ← Rd.u16
  let serialNumber ← Rd.u32
  let productName ← Rd.shortString
  pure { instanceId, vendorId, deviceType, productCode, revision, status, serialNumber, productName }

/-- `IdentityObject(instanceId, si, messageRouter)` (IdentityObject.cpp:27-58).  The
request goes to instance 1.  The `runtime_error` at line 51 is made but not thrown. -/
def connect {δ : Type} (m : Mem) (D : Device δ) (instanceId : BitVec 16) : Prog (Link δ) IdentityObject := do
  let response ← ask D ⟨ServiceCode.getAttributeAll, EPath.mk2 classId 1, []⟩
  if response.status = GeneralStatus.success then
    Prog.lift ((rd instanceId).from m response.data)
  else Prog.throw (.runtime "Failed to read all attributes")

/-- `setProductName(productName.toStdString())` (IdentityObject.cpp:112-114,
CipString.h:32-34). -/
def setProductName (name : List Byte) (o : IdentityObject) : IdentityObject :=
  { o with productName := CipString.ofBytes 8 name }

end IdentityObject

/-! ## DiscoveryManager -/

/-- `IdentityItem` (DiscoveryManager.h:22-27). -/
structure IdentityItem where
  identityObject : IdentityObject
  socketAddress : EndPoint
deriving Repr, DecidableEq

namespace Discovery

/-- `EAGAIN` on Linux: `DISCOVERY_SOCKET_RECEIVE_END_ERROR_CODE` (DiscoveryManager.h:11-12). -/
def endError : Int := 11

/-- One identity item (DiscoveryManager.cpp:52-77). -/
def item (i : Nat) : Rd IdentityItem := do
  let _ ← Rd.u16
  let socketAddr ← Rd.endPoint
  let o ← IdentityObject.rd (BitVec.ofNat 16 i)
  pure ⟨o.setProductName o.productName.data, socketAddr⟩

/-- The loop over the items of an answer (DiscoveryManager.cpp:51-78). -/
def items (m : Mem) : Nat → List CommonPacketItem → Outcome (List IdentityItem)
  | _, [] => .ok []
  | i, it :: rest =>
    match (item i).from m it.data with
    | .ub => .ub
    | .throw e => .throw e
    | .ok d =>
      match items m (i + 1) rest with
      | .ub => .ub
      | .throw e => .throw e
      | .ok ds => .ok (d :: ds)

/-- The treatment of one received buffer (DiscoveryManager.cpp:46-78). -/
def answer (m : Mem) (data : List Byte) : Outcome (List IdentityItem) :=
  match CommonPacket.expand m (data.drop EncapsPacket.headerSize) with
  | .ub => .ub
  | .throw e => .throw e
  | .ok its => items m 0 its

/-- How `discover` ends; `waiting` when the list of receive results is used up and
`recvfrom` has not returned. -/
inductive DiscRes where
  | done (devices : List IdentityItem)
  | threw (e : Exn)
  | ub
  | waiting
deriving Repr, DecidableEq

/-- The receive loop (DiscoveryManager.cpp:43-84). -/
def loop (m : Mem) (devices : List IdentityItem) : List Recv → DiscRes
  | [] => .waiting
  | r :: rs =>
    match udpReceive 504 r with
    | .ub => .ub
    | .throw (.system code) => if code ≠ endError then .threw (.system code) else .done devices
    | .throw e => .threw e
    | .ok data =>
      match answer m data with
      | .ub => .ub
      | .throw (.system code) => if code ≠ endError then .threw (.system code) else .done devices
      | .throw e => .threw e
      | .ok ds => loop m (devices ++ ds) rs

/-- The environment of `discover`: `errno` of a failing `socket`, of a failing
`setsockopt(SO_BROADCAST)`, the result of `sendto`, and what `recvfrom` gives. -/
structure Env where
  sockErr : Option Int := none
  broadcastErr : Option Int := none
  sendCount : Int
  recvs : List Recv
deriving Repr, DecidableEq

/-- `DiscoveryManager::discover` and `makeSocket` (DiscoveryManager.cpp:37-99): the
datagram handed to `sendto`, if any, and the end.  Simplifications: the result of
`setsockopt(SO_RCVTIMEO)` is ignored by the code and here; `errno` after a short
`sendto` is 0. -/
def discover (m : Mem) (e : Env) : Option (List Byte) × DiscRes :=
  match e.sockErr, e.broadcastErr with
  | some code, _ => (none, .threw (.system code))
  | none, some code => (none, .threw (.system code))
  | none, none =>
    let packet := EncapsPacketFactory.listIdentity.pack
    if udpSendThrows packet e.sendCount then (some packet, .threw (.system 0))
    else (some packet, loop m [] e.recvs)

end Discovery

end Verif
