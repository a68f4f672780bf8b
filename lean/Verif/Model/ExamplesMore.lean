import Verif.Model.Examples
import Verif.Model.Yaskawa
import Verif.Model.Identity

/-!
# The example programs for Yaskawa, identity and discovery

Source: `examples/vendors/yaskawa/mp3300iec/Yaskawa_AssemblyObjectExample.cpp`,
`examples/IdentityObjectExample.cpp`, `examples/DiscoveryManagerExample.cpp`.
-/

namespace Verif

namespace Examples

/-! ## Yaskawa_AssemblyObjectExample -/

/-- The arguments of `Yaskawa_MessageRouter::sendRequest` (Yaskawa_MessageRouter.cpp:32-40). -/
structure YReq where
  service : BitVec 8
  path : YEPath
  data : List Byte
deriving Repr, DecidableEq

/-- What `Yaskawa_MessageRouter::sendRequest` may do (Yaskawa_MessageRouter.cpp:32-76): return,
throw or be undefined, and change the state of whatever is behind it. -/
structure YDevice (δ : Type) where
  answer : YReq → Prog δ MessageRouterResponse

/-- The responder that is `Yaskawa_MessageRouter::sendRequest` over a TCP session
(Yaskawa_MessageRouter.cpp:78-88). -/
def YDevice.tcp (m : Mem) (handle : BitVec 32) : YDevice Tcp :=
  ⟨fun r => yaskawaSend m (SessionIf.tcp m handle) r.service r.path r.data []⟩

/-- The lines the program writes to the log (Yaskawa_AssemblyObjectExample.cpp:114,119,143,154). -/
inductive YLine where
  /-- "Failed to write assembly object" and the status -/
  | notWritten (status : BitVec 8)
  /-- "The device has written successfully." -/
  | written
  /-- "Failed to read parameters" and the status -/
  | notRead (status : BitVec 8)
  /-- "The device has n bytes. The first byte contains: b" -/
  | read (n : Nat) (first : Byte)
deriving Repr, DecidableEq

/-- What is behind the router, the requests made so far and the lines written so far. -/
structure YRun (δ : Type) where
  dev : δ
  sent : List YReq
  lines : List YLine
deriving Repr, DecidableEq

/-- `messageRouter.sendRequest(si, ...)` (Yaskawa_AssemblyObjectExample.cpp:108-111, 137-139). -/
def yask {δ : Type} (D : YDevice δ) (r : YReq) : Prog (YRun δ) MessageRouterResponse := fun s =>
  match D.answer r s.dev with
  | .ok d resp => .ok { s with dev := d, sent := s.sent ++ [r] } resp
  | .throw d e => .throw { s with dev := d, sent := s.sent ++ [r] } e
  | .ub => .ub

/-- Write a line to the log. -/
def ysay {δ : Type} (l : YLine) : Prog (YRun δ) Unit := Prog.modify fun s => { s with lines := s.lines ++ [l] }

/-- The loop of `fillVector` (Yaskawa_AssemblyObjectExample.cpp:64-70): from `i`, `k` times. -/
def fillLoop (dataOffset : Int) : Nat → Nat → List Byte → List Byte
  | _, 0, data => data
  | i, k + 1, data => fillLoop dataOffset (i + 1) k (data ++ [if (i : Int) < dataOffset then 0x00#8 else 0xDE#8])

/-- `fillVector` (Yaskawa_AssemblyObjectExample.cpp:60-73). -/
def fillVector (dataOffset assemblyInstanceSize : Int) : List Byte :=
  fillLoop dataOffset 0 assemblyInstanceSize.toNat []

/-- The loop of `readBuffer` (Yaskawa_AssemblyObjectExample.cpp:87-91). -/
def readLoop : Nat → List Byte → Rd (List Byte)
  | 0, data => pure data
  | k + 1, data => do
    let byte ← Rd.u8
    readLoop k (data ++ [byte])

/-- `readBuffer` (Yaskawa_AssemblyObjectExample.cpp:82-94). -/
def readBuffer (assemblyInstanceSize : Int) : Rd (List Byte) := readLoop assemblyInstanceSize.toNat []

/-- `writeAssemblyObject` (Yaskawa_AssemblyObjectExample.cpp:104-121). -/
def writeAssemblyObject {δ : Type} (D : YDevice δ) (assemblyInstance : Int) (data : List Byte) : Prog (YRun δ) Bool := do
  let response ← yask D ⟨ServiceCode.setAttributeSingle, YEPath.mk3 0x04 (BitVec.ofInt 8 assemblyInstance) 0x03, data⟩
  if response.status ≠ GeneralStatus.success then do
    ysay (.notWritten response.status)
    pure false
  else do
    ysay .written
    pure true

/-- `readAssemblyObject` (Yaskawa_AssemblyObjectExample.cpp:130-157).  `sizeOfBuffer` is
`sizeof (Buffer)` (line 149), the size of the C++ object, which depends on the platform. -/
def readAssemblyObject {δ : Type} (m : Mem) (sizeOfBuffer : Nat) (D : YDevice δ) (assemblyInstance : Int) :
    Prog (YRun δ) (List Byte) := do
  let response ← yask D ⟨ServiceCode.getAttributeSingle, YEPath.mk3 0x04 (BitVec.ofInt 8 assemblyInstance) 0x03, []⟩
  if response.status ≠ GeneralStatus.success then do
    ysay (.notRead response.status)
    pure []
  else do
    let numBytes := 4 * sizeOfBuffer
    let dataRead ← Prog.lift ((readBuffer (numBytes : Int)).from m response.data)
    match dataRead with
    | [] => Prog.lift .ub
    | firstByte :: _ => do
      ysay (.read numBytes firstByte)
      pure dataRead

/-- `main` (Yaskawa_AssemblyObjectExample.cpp:160-191) after the session is made. -/
def yaskawaMain {δ : Type} (m : Mem) (sizeOfBuffer : Nat) (D : YDevice δ) : Prog (YRun δ) Int := do
  let dataWrite := fillVector 0x00 128
  let _ ← readAssemblyObject m sizeOfBuffer D 0x65
  let _ ← readAssemblyObject m sizeOfBuffer D 0x6F
  let _ ← writeAssemblyObject D 0x6F dataWrite
  pure 0

/-! ## IdentityObjectExample -/

/-- The values the program streams to the log (IdentityObjectExample.cpp:33-39), in this order. -/
structure IdentityLine where
  vendorId : BitVec 16
  deviceType : BitVec 16
  productCode : BitVec 16
  revision : String
  status : BitVec 16
  serialNumber : BitVec 32
  productName : List Byte
deriving Repr, DecidableEq

/-- `main` (IdentityObjectExample.cpp:30-46) after the session is made: what it logs and
its exit code. -/
def identityMain {δ : Type} (m : Mem) (D : Device δ) : Prog (Link δ) (IdentityLine × Int) := do
  let o ← IdentityObject.connect m D 1
  pure (⟨o.vendorId, o.deviceType, o.productCode, o.revision.toStr, o.status, o.serialNumber, o.productName.data⟩, 0)

/-! ## DiscoveryManagerExample -/

/-- How the discovery example ends: the lines it has written (name of the product and
address), and its exit code; an exception; out-of-bounds; or still waiting for `recvfrom`. -/
inductive DiscoveryRan where
  | exited (lines : List (List Byte × String)) (code : Int)
  | uncaught (e : Exn)
  | ub
  | waiting
deriving Repr, DecidableEq

/-- `main` (DiscoveryManagerExample.cpp:30-43): the datagram sent, and the end. -/
def discoveryMain (m : Mem) (e : Discovery.Env) : Option (List Byte) × DiscoveryRan :=
  let r := Discovery.discover m e
  (r.1, match r.2 with
    | .done devices => .exited (devices.map fun d => (d.identityObject.productName.data, d.socketAddress.toStr)) 0
    | .threw e => .uncaught e
    | .ub => .ub
    | .waiting => .waiting)


end Examples

end Verif
