import Verif.Model.Alloc
import Verif.Model.PowerFlex
import Verif.Model.Descriptors
import Verif.Model.Yaskawa

/-!
# Running out of memory in discovery and in the objects

Source: `src/DiscoveryManager.cpp`, `src/IdentityObject.cpp`, `src/ParameterObject.cpp`,
`src/vendor/ra/powerFlex525/*.cpp`, `src/vendor/yaskawa/mp3300iec/Yaskawa_MessageRouter.cpp`.

The functions of `Model/Identity`, `Model/Descriptors`, `Model/Parameter`, `Model/PowerFlex` and `Model/Yaskawa` again, with the places at which
they allocate, under the conventions of `Model/Alloc`.  The device allocates for requests and replies itself
(`Device.tcpA`).
-/

namespace Verif

open FileObject (allocL allocF)

/-! ## Objects -/

/-- `IdentityObject(instanceId, si)` (IdentityObject.cpp:23-58): allocates for the router, for the buffer with the reply and the
name, and for the texts of exceptions. -/
def IdentityObject.connectA {δ : Type} (m : Mem) (D : Device (Scarce δ)) (instanceId : BitVec 16) :
    Prog (Link (Scarce δ)) IdentityObject := do
  allocL
  let response ← ask D ⟨ServiceCode.getAttributeAll, EPath.mk2 classId 1, []⟩
  allocL
  if response.status = GeneralStatus.success then
    Prog.lift ((rd instanceId).from m response.data)
  else Prog.throw (.runtime "Failed to read all attributes")

namespace ParameterObject

/-- The loop over the scaling attributes (ParameterObject.cpp:146-161): allocates for the text of an exception and for
`data.insert`. -/
def scalingDataA {δ : Type} (D : Device (Scarce δ)) (instanceId : BitVec 16) :
    List (BitVec 16) → Prog (Link (Scarce δ)) (List Byte)
  | [] => pure []
  | attrId :: rest => do
    let response ← ask D ⟨ServiceCode.getAttributeSingle, EPath.mk3 classId instanceId attrId, []⟩
    allocL
    if response.status ≠ GeneralStatus.success then
      Prog.throw (.runtime ("Failed to read value of attribute=" ++ toString attrId.toNat))
    else do
      let more ← scalingDataA D instanceId rest
      pure (response.data ++ more)

/-- `ParameterObject(instanceId, fullAttributes, si)` (ParameterObject.cpp:38-41,62-182): allocates for the router, the buffers with the
replies, the vectors and strings of the object, and the texts of exceptions. -/
def connectA {δ : Type} (m : Mem) (D : Device (Scarce δ)) (instanceId : BitVec 16) (full : Bool) :
    Prog (Link (Scarce δ)) ParameterObject := do
  allocL
  let response ← ask D ⟨ServiceCode.getAttributeSingle, EPath.mk3 classId instanceId 6, []⟩
  allocL
  if response.status = GeneralStatus.success then do
    let dataSize ← Prog.lift (Rd.u8.from m response.data)
    allocL
    let response ← ask D ⟨ServiceCode.getAttributeAll, EPath.mk2 classId instanceId, []⟩
    allocL
    if response.status = GeneralStatus.success then do
      let o ← Prog.lift ((attributes instanceId full dataSize.toNat).from m response.data)
      if full && o.isScalable then do
        let data ← scalingDataA D instanceId [13, 14, 15, 16]
        allocL
        Prog.lift ((scaling o).from m data)
      else pure o
    else Prog.throw (.runtime "Failed to read all attributes")
  else Prog.throw (.runtime "Failed to read data size of the parameter")

/-- `updateValue` (ParameterObject.cpp:184-197): allocates for the buffer with the reply and for the text of the exception; the
value is read into the vector that is there. -/
def updateValueA {δ : Type} (m : Mem) (D : Device (Scarce δ)) : Prog (ParameterObject × Link (Scarce δ)) Unit := do
  let (o, _) ← Prog.get
  if o.hasRouter then do
    let response ← onLink (ask D ⟨ServiceCode.getAttributeSingle, EPath.mk3 classId o.instanceId 1, []⟩)
    allocF
    if response.status = GeneralStatus.success then do
      let value ← Prog.lift ((Rd.bytes o.value.length).from m response.data)
      Prog.modify fun s => ({ s.1 with value }, s.2)
    else Prog.throw (.runtime "Failed to read value")
  else Prog.undefined

end ParameterObject

namespace PowerFlex

/-- `getFaultDetail` (DPIFaultParameter.cpp:159-178): allocates for the buffer with the reply and for the text of the exception. -/
def getFaultDetailA {δ : Type} (m : Mem) (D : Device (Scarce δ)) (param : BitVec 16) : Prog (Link (Scarce δ)) (BitVec 16) := do
  let response ← ask D ⟨ServiceCode.getAttributeSingle, EPath.mk3 0x0F param 1, []⟩
  allocL
  if response.status = GeneralStatus.success then
    Prog.lift (Rd.u16.from m response.data)
  else Prog.throw (.runtime "Failed to read Get fault attributes")

/-- `DPIFaultParameter(si, messageRouter, faultNumber, getFaultDetails)` (DPIFaultParameter.cpp:183-290): allocates for the text
of the exception, and for the three parameter objects of `processVolts`, `processCurrent` and `processFrequency`. -/
def faultParameterA {δ : Type} (rnd : Rat → Rat) (pow : Nat → Rat) (m : Mem) (D : Device (Scarce δ)) (faultNumber : Int)
    (getDetails : Bool) : Prog (Link (Scarce δ)) FaultDetails :=
  match faultParams faultNumber with
  | none => do allocL; Prog.throw (.runtime "Invalid fault code (Fault code must be 1-10)")
  | some (codeParam, voltsParam, currentParam, frequencyParam) => do
    let faultCode ← getFaultDetailA m D codeParam
    if faultCode ≠ 0 ∧ getDetails then do
      let volts ← getFaultDetailA m D voltsParam
      let current ← getFaultDetailA m D currentParam
      let frequency ← getFaultDetailA m D frequencyParam
      allocL
      pure { faultNumber, faultCode, busVoltage := processVolts rnd pow volts voltsParam,
             current := processCurrent rnd pow current currentParam,
             frequency := processFrequency rnd pow frequency frequencyParam }
    else pure { faultNumber, faultCode, busVoltage := 0, current := 0, frequency := 0 }

/-- `writeCommand` (DPIFaultManager.cpp:96-110): allocates for the buffer, and for the text of the exception. -/
def writeCommandA {δ : Type} (D : Device (Scarce δ)) (command : BitVec 8) : Prog (Link (Scarce δ)) Unit := do
  allocL
  let response ← ask D ⟨ServiceCode.setAttributeSingle, EPath.mk3 0x97 0 3, [command]⟩
  allocL
  if response.status ≠ GeneralStatus.success then Prog.throw (.runtime "Failed to send command") else pure ()

/-- The loop over the faults (DPIFaultManager.cpp:55-73): allocates for the table of descriptions, which is a member of each `DPIFaultCode`
(DPIFaultCode.h:42), and for the copies of the description, the last of which is the argument of the handler. -/
def listFaultsA {δ : Type} (rnd : Rat → Rat) (pow : Nat → Rat) (m : Mem) (D : Device (Scarce δ)) (getDetails : Bool) :
    Nat → Int → Prog (List FaultInformation × Link (Scarce δ)) Nat
  | 0, _ => pure 0
  | left + 1, faultNumber => do
    let faultDetails ← onLink (faultParameterA rnd pow m D faultNumber getDetails)
    if faultDetails.faultCode = 0 then pure 0
    else do
      allocF
      let faultDescription ← Prog.lift (getFaultDescription faultDetails.faultCode.toNat)
      allocF
      Prog.modify fun s => (s.1 ++ [⟨faultDetails, faultDescription⟩], s.2)
      let more ← listFaultsA rnd pow m D getDetails left (faultNumber + 1)
      pure (more + 1)

/-- `handleFaultParameters(si)` (DPIFaultManager.cpp:50-90): allocates for the router. -/
def handleFaultParametersA {δ : Type} (rnd : Rat → Rat) (pow : Nat → Rat) (m : Mem) (D : Device (Scarce δ)) (M : FaultManager) :
    Prog (List FaultInformation × Link (Scarce δ)) Unit := do
  allocF
  let faultCount ← listFaultsA rnd pow m D M.getFaultDetails 10 1
  if M.clearFaultsQueue ∧ faultCount > 0 then onLink (writeCommandA D clearFaultQueue) else pure ()

/-- `DPIFaultObject(instanceId, si)` (DPIFaultObject.cpp:27-63): allocates for the router, for the buffer with the reply, the text of the
fault and the text of the exception. -/
def faultObjectA {δ : Type} (m : Mem) (D : Device (Scarce δ)) (instanceId : BitVec 16) : Prog (Link (Scarce δ)) FaultObject := do
  allocL
  let response ← ask D ⟨ServiceCode.getAttributeSingle, EPath.mk3 0x97 instanceId 0, []⟩
  allocL
  if response.status = GeneralStatus.success then
    Prog.lift ((faultObjectRd instanceId).from m response.data)
  else Prog.throw (.runtime "Failed to read FULL_INFORMATION attribute")

end PowerFlex

/-- `Yaskawa_MessageRouter::sendRequest` (Yaskawa_MessageRouter.cpp:32-76): allocates as `MessageRouter::sendRequest` does. -/
def yaskawaSendA {σ : Type} (m : Mem) (si : SessionIf (Scarce σ)) (service : BitVec 8) (path : YEPath)
    (data : List Byte) (extra : List CommonPacketItem) : Prog (Scarce σ) MessageRouterResponse := do
  alloc
  let receivedPacket ← si.sendAndReceive (yaskawaPacket si.handle service path data extra)
  alloc
  Prog.lift (routerReply m receivedPacket.data)

/-! ## Discovery -/

namespace Discovery

/-- The receive loop (DiscoveryManager.cpp:43-84); the result is `none` while `recvfrom` has not returned.  Each round allocates for the buffer of
`Receive` (UDPSocket.cpp:73) before anything is received, and then for all that is made of the datagram or for the text of the
exception.  `std::bad_alloc` is not a `std::system_error`, so it is not caught. -/
def loopA {σ : Type} (m : Mem) (devices : List IdentityItem) : List Recv → Prog (Scarce σ) (Option (List IdentityItem))
  | [] => do alloc; pure none
  | r :: rs => do
    alloc
    alloc
    match udpReceive 504 r with
    | .ub => Prog.undefined
    | .throw (.system code) => if code ≠ endError then Prog.throw (.system code) else pure (some devices)
    | .throw e => Prog.throw e
    | .ok data =>
      match answer m data with
      | .ub => Prog.undefined
      | .throw (.system code) => if code ≠ endError then Prog.throw (.system code) else pure (some devices)
      | .throw e => Prog.throw e
      | .ok ds => loopA m (devices ++ ds) rs

/-- `DiscoveryManager::makeSocket` (DiscoveryManager.cpp:89-99): allocates for the socket object before the socket is
opened, and for the text of an exception when the object is gone. -/
def makeSocketA (descriptor : Alloc) (timeoutMs : Int) (e : Env) : Prog (Scarce Fds) Nat := do
  alloc
  fun s =>
    match makeSocket descriptor timeoutMs e s.st with
    | .ub => .ub
    | .throw s1 x => (do alloc; Prog.throw x : Prog (Scarce Fds) Nat) ⟨s1, s.fails⟩
    | .ok s1 fd => .ok ⟨s1, s.fails⟩ fd

/-- The rest of `discover` (DiscoveryManager.cpp:41-84): allocates for the packet, and for the text of an exception. -/
def exchangeA (m : Mem) (broadCast : EndPoint) (e : Env) (fd : Nat) : Prog (Scarce Fds) (Option (List IdentityItem)) := do
  alloc
  let packet := EncapsPacketFactory.listIdentity.pack
  noAlloc (Prog.modify fun s => s.note [.sendto fd broadCast.addr packet])
  if udpSendThrows packet e.sendCount then do alloc; Prog.throw (.system 0)
  else loopA m [] e.recvs

/-- `DiscoveryManager::discover` (DiscoveryManager.cpp:37-87): the socket is destroyed when the function is left. -/
def discoverA (m : Mem) (descriptor : Alloc) (broadCast : EndPoint) (timeoutMs : Int) (e : Env) :
    Prog (Scarce Fds) (Option (List IdentityItem)) := do
  let fd ← makeSocketA descriptor timeoutMs e
  fun s =>
    match exchangeA m broadCast e fd s with
    | .ub => .ub
    | .throw s' x => .throw { s' with st := udpClose fd s'.st } x
    | .ok s' (some devices) => .ok { s' with st := udpClose fd s'.st } (some devices)
    | .ok s' none => .ok s' none

end Discovery

end Verif
