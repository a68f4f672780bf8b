import Verif.Tests.Packets
import Verif.Model.Accessors
import Verif.Model.PowerFlex
import Verif.Model.File
import Verif.Model.Double

/-!
# The unit tests of the repository about the model: objects

Each test of `test/*.cpp`, `test/fileObject` and `test/vendor` with its inputs and its expectations (see
`Tests/Packets.lean`).  A mock router is a device that expects a list of requests and gives the answer
that goes with each; a call that is not expected is undefined, and each test states that none is left.
-/

namespace Verif.Tests

open Verif

/-- The expected calls and their answers. -/
abbrev Script := List (Req × MessageRouterResponse)

/-- `TMockMessageRouter` (test/Mocks.h:11-33) with `EXPECT_CALL(...).WillOnce(Return(...))`. -/
def mock : Device Script :=
  ⟨fun r s =>
    match s with
    | (q, a) :: rest => if r = q then .ok rest a else .ub
    | [] => .ub⟩

/-- `response.setData(data)` and `setGeneralStatusCode` of a new response. -/
def reply (data : List Byte) (status : BitVec 8 := 0) : MessageRouterResponse :=
  { MessageRouterResponse.default with data, status }

/-- What a program returned, if it returned and made all expected calls. -/
def result {σ α : Type} (left : σ → Script) : Res σ α → Option (σ × α)
  | .ok s a => if left s = [] then some (s, a) else none
  | _ => none

/-- It threw, after all expected calls. -/
def threw {σ α : Type} (left : σ → Script) : Res σ α → Bool
  | .throw s (.runtime _) => left s = []
  | _ => false

/-! ## test/TestDiscoveryManager.cpp -/

/-- LIST_IDENTITY_RESPONSE (38-57). -/
def listIdentityResponse : List Byte :=
  [0xc6, 0x63, 0x0, 0, 0x0, 0x0, 0x0,
   0x0, 0x0, 0x0, 0x0, 0x0, 0x0, 0x0, 0x0, 0x0,
   0x0, 0x0, 0x0, 0x0, 0x0, 0x0, 0x0, 0x0,
   0x2, 0x0,
   0xc, 0x0, 0x42, 0x0, 0x1, 0x0, 0x0, 0x2, 0xaf, 0x12, 0xc0, 0xa8,
   0x1, 0xf, 0x0, 0x0, 0x0, 0x0, 0x0, 0x0, 0x0, 0x0, 0x1, 0x0, 0x96, 0x0, 0x9, 0x0,
   0x5, 0x1, 0x30, 0x0, 0x92, 0xe1, 0x8d, 0x80, 0x1d, 0x50, 0x6f, 0x77, 0x65, 0x72, 0x46, 0x6c,
   0x65, 0x78, 0x20, 0x35, 0x32, 0x35, 0x20, 0x31, 0x50, 0x20, 0x31, 0x31, 0x30, 0x56, 0x20, 0x20,
   0x20, 0x2e, 0x35, 0x30, 0x48, 0x50, 0x0, 0x0, 0x0, 0xff,
   0xc, 0x0, 0x42, 0x0, 0x1, 0x0, 0x0, 0x2, 0xaf, 0x12, 0xc0, 0xa8,
   0x1, 0xf, 0x0, 0x0, 0x0, 0x0, 0x0, 0x0, 0x0, 0x0, 0x1, 0x0, 0x96, 0x0, 0x9, 0x0,
   0x5, 0x1, 0x30, 0x0, 0x92, 0xe1, 0x8d, 0x80, 0x1d, 0x50, 0x6f, 0x77, 0x65, 0x72, 0x46, 0x6c,
   0x65, 0x78, 0x20, 0x35, 0x32, 0x35, 0x20, 0x31, 0x50, 0x20, 0x31, 0x31, 0x30, 0x56, 0x20, 0x20,
   0x20, 0x2e, 0x35, 0x30, 0x48, 0x50, 0x0, 0x0, 0x0, 0xff]

/-- What the test asks of the devices: their number, the name of [3], the vendor of [1], the address of [0]. -/
def asExpected (ds : List IdentityItem) : Bool :=
  ds.length == 4 && ds[3]?.map (·.identityObject.getProductName) == some (text "PowerFlex 525 1P 110V   .50HP") &&
  ds[1]?.map (·.identityObject.vendorId) == some 1 && ds[0]?.map (·.socketAddress.toStr) == some "192.168.1.15:44818"

/-- ShouldSendBroadcastMessageAndGetResponses (65-80). -/
example : (match Discovery.discover Mem.strict ⟨none, none, 24, [.dgram listIdentityResponse, .dgram listIdentityResponse, .err 11]⟩ with
      | (sent, .done ds) => sent == some [0x63, 0x0, 0x0, 0x0, 0x0, 0x0, 0x0, 0x0, 0x0, 0x0, 0x0, 0x0, 0x0, 0x0, 0x0, 0x0, 0x0, 0x0, 0x0, 0x0, 0x0, 0x0, 0x0, 0x0] &&
          asExpected ds
      | _ => false) = true := by decide +kernel

/-! ## test/TestIdentityObject.cpp -/

/-- ShouldReadAllDataInConstructor (35-54). -/
example : (result (·.dev) (IdentityObject.connect Mem.strict mock 1
      ⟨[(⟨0x01, EPath.mk2 1 1, []⟩, reply ([0x01, 0x0, 0x02, 0x0, 0x03, 0x0, 0x03, 0x04, 0x05, 0x06, 0x07, 0x08, 0x09, 0x0A, 5] ++ text "DEV01"))], []⟩)).map (·.2) =
    some { instanceId := 1, vendorId := 1, deviceType := 2, productCode := 3, revision := ⟨3, 4⟩, status := 0x605,
           serialNumber := 0xA090807, productName := CipString.ofBytes 8 (text "DEV01") } := by decide +kernel

/-! ## test/TestMessageRouter.cpp -/

/-- `TMockSessionInfo` (test/Mocks.h:35-41): one exchange. -/
def mockSession : SessionIf (Option (EncapsPacket × EncapsPacket)) :=
  ⟨10, fun p s =>
    match s with
    | some (q, a) => if p = q then .ok none a else .ub
    | none => .ub⟩

/-- ShouldFormAndParseCommonPackets (18-60). -/
example : sendRequest Mem.strict mockSession false 0x10 (EPath.mk3 1 2 3) [0, 1, 2, 3] [CommonPacketItemFactory.nullAddress]
      (some (EncapsPacketFactory.sendRRData 10 0 (CommonPacket.pack [CommonPacketItemFactory.nullAddress,
          CommonPacketItemFactory.unconnectedData (MessageRouterRequest.pack ⟨0x10, EPath.mk3 1 2 3, [0, 1, 2, 3], false⟩),
          CommonPacketItemFactory.nullAddress]),
        EncapsPacketFactory.sendRRData 10 0 (CommonPacket.pack [CommonPacketItemFactory.nullAddress,
          CommonPacketItemFactory.unconnectedData [0x90, 0, 0, 0], CommonPacketItemFactory.nullAddress]))) =
    .ok none { service := 0x90, status := GeneralStatus.success, additionalStatus := [], data := [],
               additionalItems := [CommonPacketItemFactory.nullAddress] } := by decide +kernel

/-! ## test/TestParameterObject.cpp -/

/-- makeParamData (15-38). -/
def paramData (descriptor : Byte) : List Byte :=
  [0x01, 0x0, 0x0, 0x0, 0x6, 0x20, 0x05, 0x24, 0x02, 0x30, 0x01, descriptor, 0x0, 0xC8, 0x4, 5] ++ text "PARAM" ++ [3] ++ text "MPa" ++
  [4] ++ text "HELP" ++ [0x0, 0x0, 0x0, 0x0, 0x5, 0x0, 0x0, 0x0, 0x3, 0x0, 0x0, 0x0, 0x2, 0x0, 0x4, 0x0, 0x1, 0x0, 0x6, 0x0,
   0x00, 0x00, 0x00, 0x00, 0x00, 0x00, 0x00, 0x00, 0x1]

/-- mockReadingParamData (45-83). -/
def paramScript (full : Bool) (descriptor : Byte) : Script :=
  [(⟨0x0E, EPath.mk3 0x0f 1 6, []⟩, reply [4]), (⟨0x01, EPath.mk2 0x0f 1, []⟩, reply (paramData descriptor))] ++
  if descriptor &&& 4 ≠ 0 ∧ full then
    [(⟨0x0E, EPath.mk3 0x0f 1 13, []⟩, reply [2, 0]), (⟨0x0E, EPath.mk3 0x0f 1 14, []⟩, reply [4, 0]),
     (⟨0x0E, EPath.mk3 0x0f 1 15, []⟩, reply [1, 0]), (⟨0x0E, EPath.mk3 0x0f 1 16, []⟩, reply [6, 0])]
  else []

/-- The object of a test. -/
def param (full : Bool) (descriptor : Byte) : Option ParameterObject :=
  (result (·.dev) (ParameterObject.connect Mem.strict mock 1 full ⟨paramScript full descriptor, []⟩)).map (·.2)

/-- `EXPECT_DOUBLE_EQ`: at most 4 units in the last place apart; here in the units of the literal. -/
def doubleEq (literal : Rat) : Outcome Rat → Bool
  | .ok x => (x - Double.binary64 literal).abs ≤ 4 * Double.pow2 (Double.exponent literal - 52)
  | _ => false

/-- `std::pow(10, n)`. -/
def pow10 (n : Nat) : Rat := 10 ^ n

/-- ShouldReadAllStubDataInConstructor (90-100). -/
example : (param false 0x04).map (fun o => (o.hasFullAttributes, o.isScalable, o.isReadOnly)) = some (false, true, false) ∧
    (param false 0x04).map (fun o => (ParameterObject.encodeValue Mem.strict .u32 o.value, o.type, o.name)) =
      some (.ok 1, 0xC8, []) := by decide +kernel

/-- ShouldReadAllFullDataInConstructor (102-130). -/
example : (param true 0x04).map (fun o => (o.hasFullAttributes, o.isReadOnly, o.type)) = some (true, false, 0xC8) ∧
    (param true 0x04).map (fun o => (o.name, o.units, o.help)) = some (text "PARAM", text "MPa", text "HELP") ∧
    (param true 0x04).map (fun o => ParameterObject.encodeValue Mem.strict .u32 o.value) = some (.ok 1) ∧
    (param true 0x04).map (fun o => (ParameterObject.encodeValue Mem.strict .u32 o.minValue, ParameterObject.encodeValue Mem.strict .u32 o.maxValue,
      ParameterObject.encodeValue Mem.strict .u32 o.defaultValue)) = some (.ok 0, .ok 5, .ok 3) ∧
    (param true 0x04).map (fun o => (o.isScalable, o.scalingMultiplier, o.scalingDivisor)) = some (true, 2, 4) ∧
    (param true 0x04).map (fun o => (o.scalingBase, o.scalingOffset, o.precision)) = some (1, 6, 1) ∧
    (param true 0x04).map (fun o => (doubleEq (35 / 100) (o.engOf Mem.strict Double.binary64 pow10 .u32 o.value),
      doubleEq (3 / 10) (o.engOf Mem.strict Double.binary64 pow10 .u32 o.minValue),
      doubleEq (55 / 100) (o.engOf Mem.strict Double.binary64 pow10 .u32 o.maxValue),
      doubleEq (45 / 100) (o.engOf Mem.strict Double.binary64 pow10 .u32 o.defaultValue))) = some (true, true, true, true) := by decide +kernel

/-- ShouldUpdateValue (132-147). -/
example : ((param true 0x04).bind fun o => result (·.2.dev) (ParameterObject.updateValue Mem.strict mock
      (o, ⟨[(⟨0x0E, EPath.mk3 0x0f 1 1, []⟩, reply [4, 0, 0, 0])], []⟩))).map (fun r => ParameterObject.encodeValue Mem.strict .u32 r.1.1.value) =
    some (.ok 4) := by decide +kernel

/-- The object of the next test (149-159). -/
def settled : Outcome ParameterObject :=
  ParameterObject.sets Double.binary64 pow10 (ParameterObject.empty 1 true 4)
    [.readOnly true, .scalable true, .multiplier 2, .divisor 4, .base 1, .offset 6, .precision 1]

/-- ShouldProvideSettersAndConstructorWithoutNetworkCommunication (149-173). -/
example : (match settled with
    | .ok o => o.isReadOnly && doubleEq (3 / 10) (o.engOf Mem.strict Double.binary64 pow10 .u32 o.value) &&
      (match o.setEngMin Double.binary64 pow10 .u32 (Double.binary64 (3 / 10)) with
       | .ok o => doubleEq (3 / 10) (o.engOf Mem.strict Double.binary64 pow10 .u32 o.minValue) &&
          ParameterObject.encodeValue Mem.strict .u32 o.minValue == .ok 0 &&
          (match o.setEngMax Double.binary64 pow10 .u32 (Double.binary64 (55 / 100)) with
           | .ok o => doubleEq (55 / 100) (o.engOf Mem.strict Double.binary64 pow10 .u32 o.maxValue) &&
              ParameterObject.encodeValue Mem.strict .u32 o.maxValue == .ok 5 &&
              (match o.setEngDefault Double.binary64 pow10 .u32 (Double.binary64 (45 / 100)) with
               | .ok o => doubleEq (45 / 100) (o.engOf Mem.strict Double.binary64 pow10 .u32 o.defaultValue) &&
                  ParameterObject.encodeValue Mem.strict .u32 o.defaultValue == .ok 3
               | _ => false)
           | _ => false)
       | _ => false)
    | _ => false) = true := by decide +kernel

/-- ShouldReadFlagReadOnlyFromDescriptor (175-180). -/
example : (param false 0x10).map (·.isReadOnly) = some true := by decide +kernel

/-! ## test/fileObject -/

/-- SetUp of TestFileObjectLoadedState.cpp (24-30): the state is read. -/
def loadedFile : Option FileObject :=
  (result (·.dev) (FileObject.create Mem.strict mock 1 ⟨[(⟨0x0E, EPath.mk3 0x37 1 1, []⟩, reply [2])], []⟩)).map (·.2)

/-- makeResponse (32-42): FILE_SIZE 1000000, TRANSFER_SIZE 0xff. -/
def initiated (status : BitVec 8) : Script :=
  [(⟨0x4b, EPath.mk2 0x37 1, [0xff]⟩, reply ((Buffer.empty.putU32 1000000).putU8 0xff).bytes status)]

/-- ShouldInitiateUpload (49-59). -/
example : (loadedFile.bind fun f => result (·.2.dev) (FileObject.beginUpload Mem.strict mock 7 (f, ⟨initiated 0, []⟩))).map (fun r => r.1.1.stateCode) =
    some 5 := by decide +kernel
/-- ShouldCallHandlerIfItFailedToInitiateUpload (61-75). -/
example : (loadedFile.bind fun f => result (·.2.dev) (FileObject.beginUpload Mem.strict mock 7 (f, ⟨initiated 0x20, []⟩))).map (fun r => r.1.1.calls) =
    some [⟨7, 0x20, []⟩] := by decide +kernel

/-- The object of TestFileObjectUploadInProgressState.cpp (26-43). -/
def uploadingFile (size : BitVec 32) : FileObject := ⟨1, .uploading ⟨size, 255, [], 0, 7⟩, []⟩

/-- mockTransfer (45-66). -/
def transfer (number type : Byte) (fileData : List Byte) : Script :=
  [(⟨0x4f, EPath.mk2 0x37 1, [number]⟩, reply ([number, type] ++ (if type = 2 ∨ type = 4 then [0, 0] else []) ++ fileData))]

/-- `handleTransfers` for each script in turn: what it returned each time, and the calls of the handler. -/
def transfers : FileObject → List Script → Option (List Bool × List UploadCall)
  | f, [] => some ([], f.calls)
  | f, s :: rest =>
    match result (·.2.dev) (FileObject.handleTransfers Mem.strict mock (f, ⟨s, []⟩)) with
    | some ((f, _), b) => (transfers f rest).map fun r => (b :: r.1, r.2)
    | none => none

/-- ShouldUploadTransfer (76-88). -/
example : transfers (uploadingFile (255 * 2 + 10)) [transfer 0 0 (List.replicate 255 0), transfer 1 1 (List.replicate 255 0), transfer 2 2 (List.replicate 10 0)] =
    some ([true, true, false], [⟨7, 0, List.replicate (255 * 2 + 10) 0⟩]) := by decide +kernel
/-- ShouldUploadTransferFirstAndLastPackage (90-109). -/
example : transfers (uploadingFile 56) [transfer 0 4 (List.replicate 56 0)] = some ([false], [⟨7, 0, List.replicate 56 0⟩]) := by decide +kernel
/-- ShouldUploadTransferAndCheckSize (111-121). -/
example : transfers (uploadingFile (255 * 2 + 10)) [transfer 0 0 (List.replicate 255 0), transfer 1 2 (List.replicate 12 0)] =
    some ([true, false], [⟨7, 0x20, []⟩]) := by decide +kernel
/-- ShouldUploadTransferAndCheckTransferNumber (123-143). -/
example : transfers (uploadingFile (255 * 2 + 10)) [[(⟨0x4f, EPath.mk2 0x37 1, [0]⟩, reply ([255, 0] ++ List.replicate 255 0))]] =
    some ([false], [⟨7, 0x20, []⟩]) := by decide +kernel

/-! ## test/vendor/ra/powerFlex525 -/

open PowerFlex

/-- A read of a parameter. -/
def detail (param : BitVec 16) (value : Byte) : Req × MessageRouterResponse := (⟨0x0E, EPath.mk3 0x0F param 1, []⟩, reply [value, 0])

/-- TestDPIFaultParameter.cpp, ShouldReadAllDataInConstructor (25-66). -/
example : (result (·.dev) (faultParameter Double.binary64 pow10 Mem.strict mock 1 true
      ⟨[detail 7 4, detail 651 3, detail 641 200, detail 631 100], []⟩)).map (·.2) =
    some { faultNumber := 1, faultCode := 4, busVoltage := 3, current := 2, frequency := 1 } := by decide +kernel
/-- ShouldThrowExecptionIfFailedToGetData (68-80). -/
example : threw (·.dev) (faultParameter Double.binary64 pow10 Mem.strict mock 1 false
      ⟨[(⟨0x0E, EPath.mk3 0x0F 7 1, []⟩, reply [] 0x09)], []⟩) := by decide +kernel

/-- TestDPIFaultManager.cpp, ShouldWriteCommand (93-102). -/
example : (result (·.dev) (writeCommand mock clearFaultQueue ⟨[(⟨0x10, EPath.mk3 0x97 0 3, [2]⟩, reply [])], []⟩)).isSome := by decide +kernel
/-- ShouldGenerateEventForEachNewFaultAndWhenCleanTheQueue (104-145). -/
example : (result (·.2.dev) (handleFaultParameters Double.binary64 pow10 Mem.strict mock {}
      ([], ⟨[detail 7 4, detail 8 5, detail 9 0, (⟨0x10, EPath.mk3 0x97 0 3, [2]⟩, reply [0, 0])], []⟩))).map
        (fun r => r.1.1.map (·.faultDetails.faultCode)) = some [4, 5] := by decide +kernel
/-- ShouldStopReadingFaultsIfHasFaultCodeZero (147-165). -/
example : (result (·.2.dev) (handleFaultParameters Double.binary64 pow10 Mem.strict mock {} ([], ⟨[detail 7 0], []⟩))).map (fun r => r.1.1) =
    some [] := by decide +kernel
/-- ShouldGenerateEventForEachNewFaultAndNotCleanFaults (167-203). -/
example : (result (·.2.dev) (handleFaultParameters Double.binary64 pow10 Mem.strict mock ⟨false, false, false⟩
      ([], ⟨[detail 7 4, detail 8 5, detail 9 0], []⟩))).map (fun r => r.1.1.length) = some 2 := by decide +kernel

/-- FULL_INFORMATION_DATA (TestDPIFaultObject.cpp:16-23). -/
def fullInformation : List Byte :=
  [0x01, 0x0, 0x02, 0x03] ++ text "ERROR           " ++ [0x01, 0x02, 0x03, 0x4, 0x5, 0x6, 0x7, 0x8, 0x3, 0x0]

/-- ShouldReadAllDataInConstructor (34-53). -/
example : (result (·.dev) (faultObject Mem.strict mock 1 ⟨[(⟨0x0E, EPath.mk3 0x97 1 0, []⟩, reply fullInformation)], []⟩)).map (·.2) =
    some { instanceId := 1, faultCode := 1, dsiPort := 2, dsiDeviceObject := 3, faultText := CipString.ofBytes 16 (text "ERROR           "),
           timerValue := 0x0807060504030201, isValidData := true, isRealTime := true } := by decide +kernel
/-- ShouldThrowExecptionIfFailedToGetData (55-67). -/
example : threw (·.dev) (faultObject Mem.strict mock 1 ⟨[(⟨0x0E, EPath.mk3 0x97 1 0, []⟩, reply fullInformation 0x09)], []⟩) := by decide +kernel

end Verif.Tests
