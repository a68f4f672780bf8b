import Verif.Model.Eip

/-!
# Model of `cip::EPath`, `cip::MessageRouterRequest`, `cip::MessageRouterResponse`

Source: `src/cip/EPath.{h,cpp}`, `src/cip/MessageRouterRequest.cpp`,
`src/cip/MessageRouterResponse.cpp`, `src/cip/Services.h`, `src/cip/GeneralStatusCodes.h`.
-/

namespace Verif

/-! ## EPath -/

/-- `cip::EPath` (EPath.h:15-43; the getters EPath.cpp:93-103 are the fields). -/
structure EPath where
  classId : BitVec 16
  objectId : BitVec 16
  attributeId : BitVec 16
  size : BitVec 8
deriving Repr, DecidableEq

namespace EPath

/-- `EPath::EPath()` (EPath.cpp:21-27). -/
def mk0 : EPath := ⟨0, 0, 0, 0⟩
/-- `EPath::EPath(CipUint)` (EPath.cpp:29-35). -/
def mk1 (c : BitVec 16) : EPath := ⟨c, 0, 0, 1⟩
/-- `EPath::EPath(CipUint, CipUint)` (EPath.cpp:37-43). -/
def mk2 (c o : BitVec 16) : EPath := ⟨c, o, 0, 2⟩
/-- `EPath::EPath(CipUint, CipUint, CipUint)` (EPath.cpp:45-50). -/
def mk3 (c o a : BitVec 16) : EPath := ⟨c, o, a, 3⟩

/-- `EPath::packPaddedPath` (EPath.cpp:52-91); `use8` is `use_8_bit_path_segments`. -/
def packPaddedPath (p : EPath) (use8 : Bool) : List Byte :=
  if use8 then
    let b := (Buffer.empty.putU8 0x20#8).putU8 (p.classId.setWidth 8)
    if p.size > 1#8 then
      let b := (b.putU8 0x24#8).putU8 (p.objectId.setWidth 8)
      if p.size > 2#8 then ((b.putU8 0x30#8).putU8 (p.attributeId.setWidth 8)).bytes
      else b.bytes
    else b.bytes
  else
    let b := (Buffer.empty.putU16 0x21#16).putU16 p.classId
    if p.size > 1#8 then
      let b := (b.putU16 0x25#16).putU16 p.objectId
      if p.size > 2#8 then ((b.putU16 0x31#16).putU16 p.attributeId).bytes
      else b.bytes
    else b.bytes

/-- `EPath::getSizeInWords` (EPath.cpp:105-112). -/
def getSizeInWords (p : EPath) (use8 : Bool) : BitVec 8 :=
  if use8 then p.size else p.size * 2#8

/-- The body of the loop of `EPath::expandPaddedPath` (EPath.cpp:136-168): read
one segment and update the identifiers. -/
def expandSegment (p : EPath) : Rd EPath := do
  let segmentType ← Rd.u8
  if segmentType = 0x20#8 then do
    let byte ← Rd.u8
    pure { p with classId := byte.setWidth 16 }
  else if segmentType = 0x21#8 then do
    let _ ← Rd.u8
    let word ← Rd.u16
    pure { p with classId := word }
  else if segmentType = 0x24#8 then do
    let byte ← Rd.u8
    pure { p with objectId := byte.setWidth 16 }
  else if segmentType = 0x25#8 then do
    let _ ← Rd.u8
    let word ← Rd.u16
    pure { p with objectId := word }
  else if segmentType = 0x30#8 then do
    let byte ← Rd.u8
    pure { p with attributeId := byte.setWidth 16 }
  else if segmentType = 0x31#8 then do
    let _ ← Rd.u8
    let word ← Rd.u16
    pure { p with attributeId := word }
  else Rd.throw (.runtime "Unknown EPATH segment")

/-- The loop of `EPath::expandPaddedPath` (EPath.cpp:135-169); the first argument
is `data.size() - i`. -/
def expandLoop : Nat → EPath → Rd EPath
  | 0, p => pure p
  | n + 1, p => do
    let b ← Rd.get
    if b.isEmpty then pure p
    else do
      let p' ← expandSegment p
      expandLoop n p'

/-- The recomputation of `_size` (EPath.cpp:175-185). -/
def countIds (p : EPath) : EPath :=
  { p with size :=
      if p.classId > 0#16 then
        if p.objectId > 0#16 then
          if p.attributeId > 0#16 then 3 else 2
        else 1
      else 0 }

/-- `EPath::expandPaddedPath` (EPath.cpp:127-186) as a reader. -/
def expandRd (n : Nat) : Rd EPath := do
  let p ← expandLoop n mk0
  let b ← Rd.get
  if b.isValid then pure (countIds p)
  else Rd.throw (.runtime "Wrong EPATH format")

/-- `EPath::expandPaddedPath` (EPath.cpp:127-186).  Simplification: the
identifiers reached when an exception leaves are not kept. -/
def expandPaddedPath (m : Mem) (data : List Byte) : Outcome EPath :=
  match expandRd data.length m (Buffer.ofData data) with
  | .ok (p, _) => .ok p
  | .throw e => .throw e
  | .ub => .ub

/-- `EPath::operator==` (EPath.cpp:188-193). -/
def eq (l r : EPath) : Bool :=
  l.size == r.size && l.classId == r.classId && l.objectId == r.objectId && l.attributeId == r.attributeId

/-- `EPath::toString` (EPath.cpp:114-125). -/
def toStr (p : EPath) : String :=
  "[classId=" ++ toString p.classId.toNat ++
    (if p.size > 1#8 then " objectId=" ++ toString p.objectId.toNat ++
      (if p.size > 2#8 then " attributeId=" ++ toString p.attributeId.toNat else "") else "") ++ "]"

end EPath

/-! ## Services and status codes -/

/-- `cip::ServiceCodes` (Services.h:13-40): underlying type `CipUsint`; the codes the library uses. -/
abbrev ServiceCode := BitVec 8

namespace ServiceCode
def getAttributeAll : ServiceCode := 0x01#8
def getAttributeSingle : ServiceCode := 0x0E#8
def setAttributeSingle : ServiceCode := 0x10#8
end ServiceCode

/-- `cip::GeneralStatusCodes` (GeneralStatusCodes.h:13-...): underlying type `CipUsint`. -/
abbrev GeneralStatus := BitVec 8

namespace GeneralStatus
def success : GeneralStatus := 0x00#8
def invalidParameter : GeneralStatus := 0x20#8
end GeneralStatus

/-! ## Message router request and response -/

/-- `cip::MessageRouterRequest` (MessageRouterRequest.h, MessageRouterRequest.cpp:13-19). -/
structure MessageRouterRequest where
  service : BitVec 8
  path : EPath
  data : List Byte
  use8 : Bool
deriving Repr, DecidableEq

/-- `MessageRouterRequest::pack` (MessageRouterRequest.cpp:23-31). -/
def MessageRouterRequest.pack (r : MessageRouterRequest) : List Byte :=
  ((((Buffer.empty.putU8 r.service).putU8 (r.path.getSizeInWords r.use8)).putBytes
    (r.path.packPaddedPath r.use8)).putBytes r.data).bytes

/-- `cip::MessageRouterResponse` (MessageRouterResponse.h:16-44; the getters and setters
MessageRouterResponse.cpp:48-79 are the fields and record updates). -/
structure MessageRouterResponse where
  service : ServiceCode
  status : GeneralStatus
  additionalStatus : List (BitVec 16)
  data : List Byte
  additionalItems : List CommonPacketItem
deriving Repr, DecidableEq

namespace MessageRouterResponse

/-- `MessageRouterResponse::MessageRouterResponse()` (MessageRouterResponse.cpp:15-21). -/
def default : MessageRouterResponse :=
  { service := ServiceCode.getAttributeAll, status := GeneralStatus.success,
    additionalStatus := [], data := [], additionalItems := [] }

/-- The four header reads (MessageRouterResponse.cpp:30-35). -/
def header : Rd (BitVec 8 × BitVec 8 × BitVec 8) := do
  let service ← Rd.u8
  let _ ← Rd.u8
  let status ← Rd.u8
  let additionalStatusSize ← Rd.u8
  pure (service, status, additionalStatusSize)

/-- `MessageRouterResponse::expand` (MessageRouterResponse.cpp:25-46) on an
existing object; the object reached when an exception leaves is kept. -/
def expand (m : Mem) (r : MessageRouterResponse) (data : List Byte) : Res MessageRouterResponse Unit :=
  if data.length < 4 then
    .throw r (.runtime "Message Router response must have at least 4 bytes")
  else
    match header m (Buffer.ofData data) with
    | .ub => .ub
    | .throw e => .throw r e
    | .ok ((service, status, additionalStatusSize), b) =>
      let r1 := { r with service, status }
      if additionalStatusSize.toNat * 2 > data.length - 4 then
        .throw r1 (.runtime "Additional status has wrong size")
      else
        match Rd.words additionalStatusSize.toNat m b with
        | .ub => .ub
        | .throw e => .throw r1 e
        | .ok (words, b) =>
          let r2 := { r1 with additionalStatus := words }
          match Rd.bytes (b.bytes.length - b.pos) m b with
          | .ub => .ub
          | .throw e => .throw r2 e
          | .ok (d, _) => .ok { r2 with data := d } ()

/-- `MessageRouterResponse response; response.expand(data);`. -/
def parse (m : Mem) (data : List Byte) : Outcome MessageRouterResponse :=
  match expand m default data with
  | .ok p _ => .ok p
  | .throw _ e => .throw e
  | .ub => .ub

end MessageRouterResponse

end Verif
