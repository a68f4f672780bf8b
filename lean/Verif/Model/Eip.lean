import Verif.Model.Buffer

/-!
# Model of the encapsulation layer: `eip::EncapsPacket`, `eip::CommonPacket` and factories

Source: `src/eip/*`.  Enumerations with a fixed underlying type are modelled by
that type, since `expand` stores whatever value arrives.
-/

namespace Verif

/-! ## `EncapsPacket` -/

/-- `eip::EncapsCommands` (EncapsPacket.h:16-27): underlying type `CipUint`; those the library uses. -/
abbrev EncapsCommand := BitVec 16

namespace EncapsCommand
def nop : EncapsCommand := 0#16
def listIdentity : EncapsCommand := 0x0063#16
def registerSession : EncapsCommand := 0x0065#16
def unRegisterSession : EncapsCommand := 0x0066#16
def sendRRData : EncapsCommand := 0x006F#16
end EncapsCommand

/-- `eip::EncapsStatusCodes::SUCCESS` (EncapsPacket.h:29-37). -/
def encapsSuccess : BitVec 32 := 0#32

/-- `eip::EncapsPacket` (EncapsPacket.h:39-75). -/
structure EncapsPacket where
  command : EncapsCommand
  length : BitVec 16
  sessionHandle : BitVec 32
  status : BitVec 32
  context : List Byte
  options : BitVec 32
  data : List Byte
deriving Repr, DecidableEq

namespace EncapsPacket

/-- `EncapsPacket::EncapsPacket()` (EncapsPacket.cpp:15-22). -/
def default : EncapsPacket :=
  { command := EncapsCommand.nop, length := 0, sessionHandle := 0, status := encapsSuccess,
    context := List.replicate 8 0#8, options := 0, data := [] }

/-- `EncapsPacket::HEADER_SIZE` (EncapsPacket.h:41). -/
def headerSize : Nat := 24

/-- `EncapsPacket::setData` (EncapsPacket.cpp:96-99): the size is converted to `CipUint`. -/
def setData (p : EncapsPacket) (data : List Byte) : EncapsPacket :=
  { p with data := data, length := BitVec.ofNat 16 data.length }

/-- `EncapsPacket::setCommand`, `setSessionHandle` and `setStatusCode`
(EncapsPacket.cpp:67-69, 79-81, 88-90). -/
def setCommand (p : EncapsPacket) (command : EncapsCommand) : EncapsPacket := { p with command }
def setSessionHandle (p : EncapsPacket) (sessionHandle : BitVec 32) : EncapsPacket := { p with sessionHandle }
def setStatusCode (p : EncapsPacket) (status : BitVec 32) : EncapsPacket := { p with status }

/-- `EncapsPacket::operator==` (EncapsPacket.cpp:110-118). -/
def eq (p rhs : EncapsPacket) : Bool :=
  p.command == rhs.command && p.length == rhs.length && p.sessionHandle == rhs.sessionHandle && p.status == rhs.status &&
  p.context == rhs.context && p.options == rhs.options && p.data == rhs.data

/-- `EncapsPacket::operator!=` (EncapsPacket.cpp:120-122). -/
def ne (p rhs : EncapsPacket) : Bool := !(rhs.eq p)

/-- `EncapsPacket::pack` (EncapsPacket.cpp:49-61). -/
def pack (p : EncapsPacket) : List Byte :=
  (((((((Buffer.empty.putU16 p.command).putU16 p.length).putU32 p.sessionHandle).putU32 p.status
    ).putBytes p.context).putU32 p.options).putBytes p.data).bytes

/-- The header reads of `EncapsPacket::expand` (EncapsPacket.cpp:31-37); `n` is
`_context.size()`. -/
def header (n : Nat) : Rd (BitVec 16 × BitVec 16 × BitVec 32 × BitVec 32 × List Byte × BitVec 32) := do
  let command ← Rd.u16
  let length ← Rd.u16
  let sessionHandle ← Rd.u32
  let status ← Rd.u32
  let context ← Rd.bytes n
  let options ← Rd.u32
  pure (command, length, sessionHandle, status, context, options)

/-- `EncapsPacket::expand` (EncapsPacket.cpp:26-47) on an existing object; the
object reached when an exception leaves is kept. -/
def expand (m : Mem) (p : EncapsPacket) (data : List Byte) : Res EncapsPacket Unit :=
  if data.length < headerSize then
    .throw p (.runtime "EncapsPacket header must be 24 bytes")
  else
    match header p.context.length m (Buffer.ofData data) with
    | .ub => .ub
    | .throw e => .throw p e
    | .ok ((command, length, sessionHandle, status, context, options), b) =>
      let p1 := { p with command, length, sessionHandle, status, context, options }
      if data.length - headerSize ≠ length.toNat then
        .throw p1 (.runtime "EncapsPacket data must be")
      else
        match Rd.bytes length.toNat m b with
        | .ub => .ub
        | .throw e => .throw p1 e
        | .ok (d, _) => .ok { p1 with data := d } ()

/-- `EncapsPacket packet; packet.expand(data);`: expanding into a fresh object. -/
def parse (m : Mem) (data : List Byte) : Outcome EncapsPacket :=
  match expand m default data with
  | .ok p _ => .ok p
  | .throw _ e => .throw e
  | .ub => .ub

/-- `EncapsPacket::getLengthFromHeader` (EncapsPacket.cpp:101-108).  Copying
`data[2..4)` out of a shorter vector is undefined. -/
def getLengthFromHeader (data : List Byte) : Outcome Nat :=
  match data with
  | _ :: _ :: b2 :: b3 :: _ =>
    match Rd.u16 Mem.strict (Buffer.ofData [b2, b3]) with
    | .ok (v, _) => .ok v.toNat
    | .throw e => .throw e
    | .ub => .ub
  | _ => .ub

end EncapsPacket

/-! ## `CommonPacketItem` and `CommonPacket` -/

/-- `eip::CommonPacketItemIds` (CommonPacketItem.h:15-24): underlying type `CipUint`; those the library uses. -/
abbrev ItemId := BitVec 16

namespace ItemId
def nullAddr : ItemId := 0x0000#16
def connectedTransportPacket : ItemId := 0x00B1#16
def unconnectedMessage : ItemId := 0x00B2#16
def o2tSockAddrInfo : ItemId := 0x8000#16
def sequencedAddressItem : ItemId := 0x8002#16
end ItemId

/-- `eip::CommonPacketItem` (CommonPacketItem.h:26-49; the getters CommonPacketItem.cpp:38-48
are the fields). -/
structure CommonPacketItem where
  typeId : ItemId
  length : BitVec 16
  data : List Byte
deriving Repr, DecidableEq

namespace CommonPacketItem

/-- `CommonPacketItem::CommonPacketItem()` (CommonPacketItem.cpp:12-17). -/
def default : CommonPacketItem := ⟨ItemId.nullAddr, 0, []⟩

/-- `CommonPacketItem(CommonPacketItemIds, const std::vector<uint8_t>&)`
(CommonPacketItem.cpp:19-24): the size is converted to `CipUint`. -/
def mk' (typeId : ItemId) (data : List Byte) : CommonPacketItem :=
  ⟨typeId, BitVec.ofNat 16 data.length, data⟩

/-- `CommonPacketItem::operator==` (CommonPacketItem.cpp:50-54). -/
def eq (i rhs : CommonPacketItem) : Bool := i.typeId == rhs.typeId && i.length == rhs.length && i.data == rhs.data

/-- `CommonPacketItem::operator!=` (CommonPacketItem.cpp:56-58). -/
def ne (i rhs : CommonPacketItem) : Bool := !(rhs.eq i)

/-- `CommonPacketItem::pack` (CommonPacketItem.cpp:28-36). -/
def pack (i : CommonPacketItem) : List Byte :=
  let b := (Buffer.empty.putU16 i.typeId).putU16 i.length
  if i.length > 0#16 then (b.putBytes i.data).bytes else b.bytes

end CommonPacketItem

namespace CommonPacket

/-- The loop of `CommonPacket::pack` (CommonPacket.cpp:28-30). -/
def packItems (b : Buffer) : List CommonPacketItem → Buffer
  | [] => b
  | i :: is => packItems (b.putBytes i.pack) is

/-- `CommonPacket::pack` (CommonPacket.cpp:24-33) of a packet with these `_items`. -/
def pack (items : List CommonPacketItem) : List Byte :=
  (packItems (Buffer.empty.putU16 (BitVec.ofNat 16 items.length)) items).bytes

/-- The loop body of `CommonPacket::expand` (CommonPacket.cpp:42-53). -/
def expandItem : Rd CommonPacketItem := do
  let typeId ← Rd.u16
  let length ← Rd.u16
  let itemData ← Rd.bytes length.toNat
  let b ← Rd.get
  if b.isValid then pure (CommonPacketItem.mk' typeId itemData)
  else Rd.throw (.runtime "Wrong Common Packet format")

/-- The loop of `CommonPacket::expand` (CommonPacket.cpp:41-54); the argument is
the number of iterations left (`count - i`). -/
def expandItems : Nat → Rd (List CommonPacketItem)
  | 0 => pure []
  | n + 1 => do
    let b ← Rd.get
    if b.isEmpty then pure []
    else do
      let i ← expandItem
      let is ← expandItems n
      pure (i :: is)

/-- `CommonPacket::expand` (CommonPacket.cpp:35-55) as a reader. -/
def expandRd : Rd (List CommonPacketItem) := do
  let count ← Rd.u16
  expandItems count.toNat

/-- `CommonPacket::expand` (CommonPacket.cpp:35-55): the resulting `_items`.
Simplification: the items collected before an exception are not kept (every
`CommonPacket` in the library is a local variable). -/
def expand (m : Mem) (data : List Byte) : Outcome (List CommonPacketItem) :=
  match expandRd m (Buffer.ofData data) with
  | .ok (is, _) => .ok is
  | .throw e => .throw e
  | .ub => .ub

end CommonPacket

/-! ## Factories -/

namespace CommonPacketItemFactory

/-- `createNullAddressItem` (CommonPacketItemFactory.cpp:12-14). -/
def nullAddress : CommonPacketItem := CommonPacketItem.default

/-- `createUnconnectedDataItem` (CommonPacketItemFactory.cpp:16-18). -/
def unconnectedData (data : List Byte) : CommonPacketItem :=
  CommonPacketItem.mk' ItemId.unconnectedMessage data

/-- `createConnectedDataItem` (CommonPacketItemFactory.cpp:20-22). -/
def connectedData (data : List Byte) : CommonPacketItem :=
  CommonPacketItem.mk' ItemId.connectedTransportPacket data

/-- `createSequenceAddressItem` (CommonPacketItemFactory.cpp:24-29). -/
def sequenceAddress (connectionId seqNumber : BitVec 32) : CommonPacketItem :=
  CommonPacketItem.mk' ItemId.sequencedAddressItem
    ((Buffer.empty.putU32 connectionId).putU32 seqNumber).bytes

end CommonPacketItemFactory

namespace EncapsPacketFactory

/-- `createRegisterSessionPacket` (EncapsPacketFactory.cpp:13-26). -/
def registerSession : EncapsPacket :=
  { EncapsPacket.default with command := EncapsCommand.registerSession }.setData
    ((Buffer.empty.putU16 1#16).putU16 0#16).bytes

/-- `createUnRegisterSessionPacket` (EncapsPacketFactory.cpp:28-33). -/
def unRegisterSession (sessionHandle : BitVec 32) : EncapsPacket :=
  { EncapsPacket.default with command := EncapsCommand.unRegisterSession, sessionHandle }

/-- `createSendRRDataPacket` (EncapsPacketFactory.cpp:35-48). -/
def sendRRData (sessionHandle : BitVec 32) (timeout : BitVec 16) (data : List Byte) : EncapsPacket :=
  { EncapsPacket.default with command := EncapsCommand.sendRRData, sessionHandle }.setData
    (((Buffer.empty.putU32 0#32).putU16 timeout).putBytes data).bytes

/-- `createListIdentityPacket` (EncapsPacketFactory.cpp:50-55). -/
def listIdentity : EncapsPacket :=
  { EncapsPacket.default with command := EncapsCommand.listIdentity, sessionHandle := 0 }

end EncapsPacketFactory

end Verif
