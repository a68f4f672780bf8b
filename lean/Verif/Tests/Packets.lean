import Verif.Model.Parameter
import Verif.Model.Identity

/-!
# The unit tests of the repository about the model: buffers, paths and packets

Each test of `test/utils`, `test/cip`, `test/eip` and `test/sockets` with its inputs and its
expectations, stated about the model.  These are tests of the model, not properties: they show that the
model does what the authors of the code expect of the code.  Reads behind the end of a vector are undefined
in the model; where a test relies on them not stopping the program, memory behind the vector is
taken to be zero.
-/

namespace Verif.Tests

open Verif

/-- Memory that can be read: the bytes behind the end are zero. -/
def zeros : Mem := fun _ => some 0

/-- A text as bytes. -/
def text (s : String) : List Byte := s.toList.map fun c => BitVec.ofNat 8 c.toNat

/-! ## test/utils/TestBuffer.cpp -/

/-- PushUint8, PushInt8 (6-25). -/
example : (((Buffer.empty.putU8 0).putU8 1).putU8 2).bytes = [0, 1, 2] := by decide
/-- PushUint16, PushInt16 (27-45). -/
example : ((Buffer.empty.putU16 0x100).putU16 0x0302).bytes = [0, 1, 2, 3] := by decide
/-- PushUint32, PushInt32 (47-65). -/
example : (Buffer.empty.putU32 0x03020100).bytes = [0, 1, 2, 3] := by decide
/-- PushUint64, PushInt64 (67-85). -/
example : (Buffer.empty.putU64 0x0706050403020100).bytes = [0, 1, 2, 3, 4, 5, 6, 7] := by decide
/-- PushVectorUint8 (87-94). -/
example : (Buffer.empty.putBytes [0, 1, 2, 3]).bytes = [0, 1, 2, 3] := by decide
/-- PushVectorUint16 (96-103). -/
example : (Buffer.empty.putWords [0x100, 0x0302]).bytes = [0, 1, 2, 3] := by decide
/-- PullUint8, PullInt8 (105-127). -/
example : (do let a ← Rd.u8; let b ← Rd.u8; let c ← Rd.u8; pure (a, b, c) : Rd _).from Mem.strict [0, 1, 2] = .ok (0, 1, 2) := by decide
/-- PullUint16, PullInt16 (129-149). -/
example : (do let a ← Rd.u16; let b ← Rd.u16; pure (a, b) : Rd _).from Mem.strict [0, 1, 2, 3] = .ok (0x100, 0x0302) := by decide
/-- PullUint32, PullInt32 (151-169). -/
example : Rd.u32.from Mem.strict [0, 1, 2, 3] = .ok 0x03020100 := by decide
/-- PullUint64, PullInt64 (171-189). -/
example : Rd.u64.from Mem.strict [0, 1, 2, 3, 4, 5, 6, 7] = .ok 0x0706050403020100 := by decide
/-- The signed ones, as values. -/
example : ParameterObject.encodeValue Mem.strict .i8 [1] = .ok 1 ∧ ParameterObject.encodeValue Mem.strict .i16 [0, 1] = .ok 0x100 ∧
    ParameterObject.encodeValue Mem.strict .i32 [0, 1, 2, 3] = .ok 0x03020100 ∧
    ParameterObject.encodeValue Mem.strict .i64 [0, 1, 2, 3, 4, 5, 6, 7] = .ok 0x0706050403020100 := by decide
/-- PullVectorUint8 (191-199). -/
example : (Rd.bytes 4).from Mem.strict [0, 1, 2, 3] = .ok [0, 1, 2, 3] := by decide
/-- PullVectorUint16 (201-210). -/
example : (Rd.words 2).from Mem.strict [0, 1, 2, 3] = .ok [0x100, 0x0302] := by decide
/-- ShouldDecodeRevision (212-219). -/
example : (Buffer.empty.putRevision ⟨1, 2⟩).bytes = [1, 2] := by decide
/-- ShouldEncodeRevision (221-229). -/
example : Rd.revision.from Mem.strict [1, 2] = .ok ⟨1, 2⟩ := by decide

/-- `inet_aton` on the hosts of the tests. -/
def aton (s : String) : Option (BitVec 32) := if s = "127.0.0.1" then some 0x0100007F else none

/-- ShouldDecodeEndPPoint (231-243). -/
example : (Buffer.empty.putSockAddr (EndPoint.ofHost aton "127.0.0.1" 2222).addr).bytes =
    [0x00, 0x02, 0x08, 0xae, 0x7f, 0x0, 0x0, 0x1, 0, 0, 0, 0, 0, 0, 0, 0] := by decide +kernel
/-- ShouldEncodeEndPPoint (245-261). -/
example : Rd.endPoint.from Mem.strict [0x00, 0x02, 0x08, 0xae, 0x7f, 0x0, 0x0, 0x1, 0, 0, 0, 0, 0, 0, 0, 0] =
    .ok { host := "127.0.0.1", port := 2222, addr := { family := 2, addr := 0x0100007f, port := 0xae08 } } := by decide +kernel
/-- ShouldDecodeFloat (263-271): 10.5 is 0x41280000. -/
example : (Buffer.empty.putU32 0x41280000).bytes = [0, 0, 0x28, 0x41] := by decide
/-- ShouldDecodeDouble (283-291): 10.5 is 0x4025000000000000.  (ShouldEncodeFloat and ShouldEncodeDouble only
write.) -/
example : (Buffer.empty.putU64 0x4025000000000000).bytes = [0, 0, 0, 0, 0, 0, 0x25, 0x40] := by decide

/-! ## test/cip -/

/-- TestCipRevision, ShouldConvertToString (16-22). -/
example : (⟨1, 2⟩ : CipRevision).major = 1 ∧ (⟨1, 2⟩ : CipRevision).minor = 2 ∧ (⟨1, 2⟩ : CipRevision).toStr = "1.2" := by decide +kernel
/-- TestCipString, ShuoldConvertToStdString (13-17). -/
example : (CipString.ofBytes 8 (text "Hello!")).data = text "Hello!" := by decide
/-- TestCipString, ShuoldDecodeAndEncodeByBuffer (19-27): written and read with one buffer. -/
example : (Rd.shortString Mem.strict (Buffer.empty.putShortString (CipString.ofBytes 8 (text "Hello!")))) =
    .ok (CipString.ofBytes 8 (text "Hello!"), ⟨6 :: text "Hello!", 7⟩) := by decide +kernel

/-- TestEPath, ShouldExpandPaddedPath8b (10-16). -/
example : EPath.expandPaddedPath Mem.strict [0x20, 0x05, 0x24, 0x02, 0x30, 0x01] = .ok (EPath.mk3 0x05 0x02 0x01) := by decide +kernel
/-- ShouldExpandPaddedPath16b (18-24). -/
example : EPath.expandPaddedPath Mem.strict [0x21, 0x00, 0x05, 0x00, 0x25, 0x00, 0x02, 0x00, 0x31, 0x00, 0x01, 0x00] =
    .ok (EPath.mk3 0x05 0x02 0x01) := by decide +kernel
/-- ShouldExpandPaddedPathCombo (26-32). -/
example : EPath.expandPaddedPath Mem.strict [0x21, 0x00, 0x05, 0x00, 0x24, 0x02, 0x31, 0x00, 0x01, 0x00] =
    .ok (EPath.mk3 0x05 0x02 0x01) := by decide +kernel
/-- ShouldExpandPaddedPathOnlyClass (34-40). -/
example : EPath.expandPaddedPath Mem.strict [0x21, 0x00, 0x05, 0x00] = .ok (EPath.mk1 0x05) := by decide +kernel
/-- ShouldExpandPaddedPathOnlyClassAndObject (42-48). -/
example : EPath.expandPaddedPath Mem.strict [0x21, 0x00, 0x05, 0x00, 0x24, 0x02] = .ok (EPath.mk2 0x05 0x02) := by decide +kernel
/-- ShouldThrowExceptionIfThePathHasWrongSegment (50-55). -/
example : EPath.expandPaddedPath Mem.strict [0x21, 0x00, 0x05, 0x00, 0xf4, 0x02] = .throw (.runtime "Unknown EPATH segment") := by decide +kernel
/-- ShouldThrowExceptionIfThePathNotComplited (57-61): the test reads behind the vector. -/
example : EPath.expandPaddedPath zeros [0x21, 0x00, 0x05, 0x00, 0x24] = .throw (.runtime "Wrong EPATH format") ∧
    EPath.expandPaddedPath Mem.strict [0x21, 0x00, 0x05, 0x00, 0x24] = .ub := by decide +kernel

/-- TestMessageRouterResponse, ShouldThrowErroIfDataTooShort (10-15). -/
example : (MessageRouterResponse.parse Mem.strict [0, 0, 0]).isThrow := by decide +kernel
/-- ShouldThrowErroIfAdditionalStatusHasWrongSize (18-23). -/
example : (MessageRouterResponse.parse Mem.strict [0, 0, 0, 2, 0, 1]).isThrow := by decide +kernel

/-! ## test/eip -/

/-- TestCommonPacket, ShouldExpandFromData (15-29). -/
example : CommonPacket.expand Mem.strict ([0x2, 0x0] ++ CommonPacketItemFactory.nullAddress.pack ++
      (CommonPacketItemFactory.unconnectedData [0x0, 0x2]).pack) =
    .ok [CommonPacketItemFactory.nullAddress, CommonPacketItemFactory.unconnectedData [0x0, 0x2]] ∧
    CommonPacketItemFactory.nullAddress.typeId = ItemId.nullAddr ∧
    (CommonPacketItemFactory.unconnectedData [0x0, 0x2]).typeId = ItemId.unconnectedMessage := by decide +kernel
/-- ShouldThrowErrorIfDataIsInvalid (31-42): the test reads behind the vector. -/
example : CommonPacket.expand zeros ([0x2, 0x0] ++ (CommonPacketItemFactory.unconnectedData []).pack ++
      (CommonPacketItemFactory.unconnectedData []).pack).dropLast = .throw (.runtime "Wrong Common Packet format") ∧
    CommonPacket.expand Mem.strict ([0x2, 0x0] ++ (CommonPacketItemFactory.unconnectedData []).pack ++
      (CommonPacketItemFactory.unconnectedData []).pack).dropLast = .ub := by decide +kernel
/-- TestCommonPacketItem, UnconnectedDataItem (12-19); TestCommonPacketItemFactory, ShouldCreateUnconnectedDataItem (11-20). -/
example : (CommonPacketItemFactory.unconnectedData [1, 2, 3, 4]).pack = [0xB2, 0, 4, 0, 1, 2, 3, 4] ∧
    (CommonPacketItemFactory.unconnectedData [1, 2, 3, 4]).typeId = ItemId.unconnectedMessage ∧
    (CommonPacketItemFactory.unconnectedData [1, 2, 3, 4]).length = 4 ∧
    (CommonPacketItemFactory.unconnectedData [1, 2, 3, 4]).data = [1, 2, 3, 4] := by decide +kernel
/-- TestCommonPacketItem, NullAddressItem (21-27); TestCommonPacketItemFactory, ShouldCreateNullAddressItem (22-27). -/
example : CommonPacketItemFactory.nullAddress.pack = [0, 0, 0, 0] ∧ CommonPacketItemFactory.nullAddress.typeId = ItemId.nullAddr ∧
    CommonPacketItemFactory.nullAddress.length = 0 := by decide +kernel
/-- TestEncapsPacket, ShouldExpandData (12-27). -/
example : EncapsPacket.parse Mem.strict [0x6F, 0, 0xB, 0, 0xDD, 0xCC, 0xBB, 0xAA, 0, 0, 0, 0, 0, 0, 0, 0, 0, 0, 0, 0,
      0, 0, 0, 0, 0, 0, 0, 0, 0x64, 0, 1, 2, 3, 4, 5] =
    .ok { command := EncapsCommand.sendRRData, length := 11, sessionHandle := 0xaabbccdd, status := encapsSuccess,
          context := [0, 0, 0, 0, 0, 0, 0, 0], options := 0, data := [0, 0, 0, 0, 0x64, 0, 1, 2, 3, 4, 5] } := by decide +kernel
/-- ShouldThrowErrorIfThePackageTooShort (29-35). -/
example : (EncapsPacket.parse Mem.strict [0x6F, 0, 0xB, 0, 0xDD, 0xCC, 0xBB, 0xAA, 0, 0, 0, 0, 0, 0, 0, 0, 0, 0, 0, 0,
      0, 0, 0]).isThrow := by decide +kernel
/-- ShouldThrowErrorIfThePackageHasWrongLenghtOfData (37-44). -/
example : (EncapsPacket.parse Mem.strict [0x6F, 0, 0xB, 0, 0xDD, 0xCC, 0xBB, 0xAA, 0, 0, 0, 0, 0, 0, 0, 0, 0, 0, 0, 0,
      0, 0, 0, 0, 0, 0, 0, 0, 0x64, 0, 1, 2, 3, 4, 5, 10]).isThrow := by decide +kernel
/-- TestEncapsPacketFactory, ShouldCreateRegisterSessionPacket (11-17). -/
example : EncapsPacketFactory.registerSession.pack =
    [0x65, 0, 4, 0, 0, 0, 0, 0, 0, 0, 0, 0, 0, 0, 0, 0, 0, 0, 0, 0, 0, 0, 0, 0, 1, 0, 0, 0] := by decide +kernel
/-- ShouldCreateUnRegisterSessionPacket (20-26). -/
example : (EncapsPacketFactory.unRegisterSession 0xaabbccdd).pack =
    [0x66, 0, 0, 0, 0xdd, 0xcc, 0xbb, 0xaa, 0, 0, 0, 0, 0, 0, 0, 0, 0, 0, 0, 0, 0, 0, 0, 0] := by decide +kernel
/-- ShouldCreateSendRRDataPacket (28-36). -/
example : (EncapsPacketFactory.sendRRData 0xaabbccdd 100 [1, 2, 3, 4, 5]).pack =
    [0x6F, 0, 0xB, 0, 0xDD, 0xCC, 0xBB, 0xAA, 0, 0, 0, 0, 0, 0, 0, 0, 0, 0, 0, 0, 0, 0, 0, 0, 0, 0, 0, 0, 0x64, 0, 1, 2, 3, 4, 5] := by
  decide +kernel
/-- ShouldCreateListIdentityPacket (38-44). -/
example : EncapsPacketFactory.listIdentity.pack =
    [0x63, 0, 0, 0, 0, 0, 0, 0, 0, 0, 0, 0, 0, 0, 0, 0, 0, 0, 0, 0, 0, 0, 0, 0] := by decide +kernel

/-! ## test/sockets/TestEndPoint.cpp -/

/-- ShouldConvertIpAndHostToAddr (10-19). -/
example : EndPoint.ofHost aton "127.0.0.1" 0xAA00 =
      { host := "127.0.0.1", port := 0xAA00, addr := { family := 2, addr := 0x0100007F, port := 0x00AA } } ∧
    (EndPoint.ofHost aton "127.0.0.1" 0xAA00).toStr = "127.0.0.1:43520" := by decide +kernel
/-- ShouldConvertAddrToIpAndHost (21-35). -/
example : EndPoint.ofSockAddr { family := 2, addr := 0x0100007F, port := 0x00AA } =
      { host := "127.0.0.1", port := 0xAA00, addr := { family := 2, addr := 0x0100007F, port := 0x00AA } } ∧
    (EndPoint.ofSockAddr { family := 2, addr := 0x0100007F, port := 0x00AA }).toStr = "127.0.0.1:43520" := by decide +kernel
/-- ShouldNotThrowExceptionIfCanNotParseIP (37-40). -/
example : (EndPoint.ofHost aton "XXXX" 0).addr.addr = 0 := by decide +kernel

end Verif.Tests
