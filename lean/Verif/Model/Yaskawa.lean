import Verif.Model.Tcp

/-!
# Model of the Yaskawa MP3300iec classes

Source: `src/vendor/yaskawa/mp3300iec/Yaskawa_EPath.cpp`,
`Yaskawa_MessageRouterRequest.cpp`, `Yaskawa_MessageRouter.cpp`.
-/

namespace Verif

/-- `cip::Yaskawa_EPath` (Yaskawa_EPath.h:13-38): identifiers of eight bits. -/
structure YEPath where
  classId : BitVec 8
  objectId : BitVec 8
  attributeId : BitVec 8
  size : BitVec 8
deriving Repr, DecidableEq

namespace YEPath

/-- `Yaskawa_EPath()` (Yaskawa_EPath.cpp:18-24). -/
def mk0 : YEPath := ⟨0, 0, 0, 0⟩
/-- `Yaskawa_EPath(CipUsint)` (Yaskawa_EPath.cpp:25-31). -/
def mk1 (c : BitVec 8) : YEPath := ⟨c, 0, 0, 1⟩
/-- `Yaskawa_EPath(CipUsint, CipUsint)` (Yaskawa_EPath.cpp:33-39). -/
def mk2 (c o : BitVec 8) : YEPath := ⟨c, o, 0, 2⟩
/-- `Yaskawa_EPath(CipUsint, CipUsint, CipUsint)` (Yaskawa_EPath.cpp:41-46). -/
def mk3 (c o a : BitVec 8) : YEPath := ⟨c, o, a, 3⟩

/-- `Yaskawa_EPath::packPaddedPath` (Yaskawa_EPath.cpp:48-65). -/
def packPaddedPath (p : YEPath) : List Byte :=
  let b := (Buffer.empty.putU8 0x20#8).putU8 p.classId
  if p.size > 1#8 then
    let b := (b.putU8 0x24#8).putU8 p.objectId
    if p.size > 2#8 then ((b.putU8 0x30#8).putU8 p.attributeId).bytes
    else b.bytes
  else b.bytes

/-- `Yaskawa_EPath::getSizeInWords` (Yaskawa_EPath.cpp:80-82). -/
def getSizeInWords (p : YEPath) : BitVec 8 := p.size

/-- `Yaskawa_EPath::toString` (Yaskawa_EPath.cpp:84-95). -/
def toStr (p : YEPath) : String :=
  "[classId=" ++ toString p.classId.toNat ++
    (if p.size > 1#8 then " objectId=" ++ toString p.objectId.toNat ++
      (if p.size > 2#8 then " attributeId=" ++ toString p.attributeId.toNat else "") else "") ++ "]"

/-- The body of the loop of `expandPaddedPath` (Yaskawa_EPath.cpp:106-138).  A 16-bit
identifier is assigned to eight bits. -/
def expandSegment (p : YEPath) : Rd YEPath := do
  let segmentType ← Rd.u8
  if segmentType = 0x20#8 then do
    let byte ← Rd.u8
    pure { p with classId := byte }
  else if segmentType = 0x21#8 then do
    let _ ← Rd.u8
    let word ← Rd.u16
    pure { p with classId := word.setWidth 8 }
  else if segmentType = 0x24#8 then do
    let byte ← Rd.u8
    pure { p with objectId := byte }
  else if segmentType = 0x25#8 then do
    let _ ← Rd.u8
    let word ← Rd.u16
    pure { p with objectId := word.setWidth 8 }
  else if segmentType = 0x30#8 then do
    let byte ← Rd.u8
    pure { p with attributeId := byte }
  else if segmentType = 0x31#8 then do
    let _ ← Rd.u8
    let word ← Rd.u16
    pure { p with attributeId := word.setWidth 8 }
  else Rd.throw (.runtime "Unknown EPATH segment")

/-- The loop of `expandPaddedPath` (Yaskawa_EPath.cpp:105-139); the first argument is
`data.size() - i`. -/
def expandLoop : Nat → YEPath → Rd YEPath
  | 0, p => pure p
  | n + 1, p => do
    let b ← Rd.get
    if b.isEmpty then pure p
    else do
      let p' ← expandSegment p
      expandLoop n p'

/-- The recomputation of `_size` (Yaskawa_EPath.cpp:145-155). -/
def countIds (p : YEPath) : YEPath :=
  { p with size :=
      if p.classId > 0#8 then
        if p.objectId > 0#8 then
          if p.attributeId > 0#8 then 3 else 2
        else 1
      else 0 }

/-- `Yaskawa_EPath::expandPaddedPath` (Yaskawa_EPath.cpp:97-156) as a reader. -/
def expandRd (n : Nat) : Rd YEPath := do
  let p ← expandLoop n mk0
  let b ← Rd.get
  if b.isValid then pure (countIds p)
  else Rd.throw (.runtime "Wrong EPATH format")

/-- `Yaskawa_EPath::expandPaddedPath` (Yaskawa_EPath.cpp:97-156).  Simplification: the
identifiers reached when an exception leaves are not kept. -/
def expandPaddedPath (m : Mem) (data : List Byte) : Outcome YEPath :=
  match expandRd data.length m (Buffer.ofData data) with
  | .ok (p, _) => .ok p
  | .throw e => .throw e
  | .ub => .ub

/-- `Yaskawa_EPath::operator==` (Yaskawa_EPath.cpp:158-163). -/
def eq (l r : YEPath) : Bool :=
  l.size == r.size && l.classId == r.classId && l.objectId == r.objectId && l.attributeId == r.attributeId

end YEPath

/-- `Yaskawa_MessageRouterRequest::pack` (Yaskawa_MessageRouterRequest.cpp:18-26). -/
def yaskawaRequest (service : BitVec 8) (path : YEPath) (data : List Byte) : List Byte :=
  ((((Buffer.empty.putU8 service).putU8 path.getSizeInWords).putBytes path.packPaddedPath).putBytes data).bytes

/-- The packet `Yaskawa_MessageRouter::sendRequest` sends (Yaskawa_MessageRouter.cpp:41-53). -/
def yaskawaPacket (handle : BitVec 32) (service : BitVec 8) (path : YEPath) (data : List Byte)
    (extra : List CommonPacketItem) : EncapsPacket :=
  EncapsPacketFactory.sendRRData handle 0#16 (CommonPacket.pack
    ([CommonPacketItemFactory.nullAddress, CommonPacketItemFactory.unconnectedData (yaskawaRequest service path data)] ++ extra))

/-- `Yaskawa_MessageRouter::sendRequest` (Yaskawa_MessageRouter.cpp:32-76) over any session.
Lines 57-75 are those of `MessageRouter::sendRequest`. -/
def yaskawaSend {σ : Type} (m : Mem) (si : SessionIf σ) (service : BitVec 8) (path : YEPath)
    (data : List Byte) (extra : List CommonPacketItem) : Prog σ MessageRouterResponse := do
  let receivedPacket ← si.sendAndReceive (yaskawaPacket si.handle service path data extra)
  Prog.lift (routerReply m receivedPacket.data)

end Verif
