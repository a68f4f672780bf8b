import Verif.Model.Parameter
import Verif.Model.FaultTable

/-!
# Model of the PowerFlex 525 classes

Source: `src/vendor/ra/powerFlex525/DPIFault{Code,Parameter,Manager,Object}.{h,cpp}`.
-/

namespace Verif

namespace PowerFlex

/-! ## DPIFaultCode -/

/-- `containsFaultCode` and `_faultMap.at` (DPIFaultCode.cpp:34, 44-51). -/
def lookup (faultCode : Int) : Option FaultDescription :=
  (faultTable.find? fun e => e.1 == faultCode).map (·.2)

/-- `DPIFaultCode(faultCode).getFaultDescription()` (DPIFaultCode.cpp:17-38). -/
def getFaultDescription (faultCode : Int) : Outcome FaultDescription :=
  match lookup faultCode with
  | some d => .ok d
  | none => .throw (.runtime "Fault code doesn't exist for Powerflex 525.")

/-! ## DPIFaultParameter -/

/-- `DPIFaultParameter::FaultDetails` (DPIFaultParameter.h:23-29). -/
structure FaultDetails where
  faultNumber : Int
  faultCode : BitVec 16
  busVoltage : Rat
  current : Rat
  frequency : Rat
deriving Repr, DecidableEq

/-- `DPIFaultParameter`, which is its `FullInformation` (DPIFaultParameter.h:31-34, 50). -/
structure FaultInformation where
  faultDetails : FaultDetails
  faultDescription : FaultDescription
deriving Repr, DecidableEq

/-- The parameter object of `processVolts`, `processCurrent` and `processFrequency`
(DPIFaultParameter.cpp:117-124, 130-137, 143-150). -/
def scaled (param : BitVec 16) (precision : BitVec 8) : ParameterObject :=
  { ParameterObject.empty param true 4 with
    isScalable := true, scalingMultiplier := 1, scalingDivisor := 1, scalingBase := 1, scalingOffset := 0, precision }

/-- `processVolts` (DPIFaultParameter.cpp:116-127). -/
def processVolts (rnd : Rat → Rat) (pow : Nat → Rat) (volts param : BitVec 16) : Rat :=
  (scaled param 0).actualToEng rnd pow volts.toNat
/-- `processCurrent` (DPIFaultParameter.cpp:129-140). -/
def processCurrent (rnd : Rat → Rat) (pow : Nat → Rat) (current param : BitVec 16) : Rat :=
  (scaled param 2).actualToEng rnd pow current.toNat
/-- `processFrequency` (DPIFaultParameter.cpp:142-153). -/
def processFrequency (rnd : Rat → Rat) (pow : Nat → Rat) (frequency param : BitVec 16) : Rat :=
  (scaled param 2).actualToEng rnd pow frequency.toNat

/-- `getFaultDetail` (DPIFaultParameter.cpp:159-178). -/
def getFaultDetail {δ : Type} (m : Mem) (D : Device δ) (param : BitVec 16) : Prog (Link δ) (BitVec 16) := do
  let response ← ask D ⟨ServiceCode.getAttributeSingle, EPath.mk3 0x0F param 1, []⟩
  if response.status = GeneralStatus.success then
    Prog.lift (Rd.u16.from m response.data)
  else Prog.throw (.runtime "Failed to read Get fault attributes")

/-- The parameter numbers of a fault: code, volts, current, frequency
(DPIFaultParameter.cpp:29-105, 192-256). -/
def faultParams : Int → Option (BitVec 16 × BitVec 16 × BitVec 16 × BitVec 16)
  | 1 => some (7, 651, 641, 631)
  | 2 => some (8, 652, 642, 632)
  | 3 => some (9, 653, 643, 633)
  | 4 => some (604, 654, 644, 634)
  | 5 => some (605, 655, 645, 635)
  | 6 => some (606, 656, 646, 636)
  | 7 => some (607, 657, 647, 637)
  | 8 => some (608, 658, 648, 638)
  | 9 => some (609, 659, 649, 639)
  | 10 => some (610, 660, 650, 640)
  | _ => none

/-- `DPIFaultParameter(si, messageRouter, faultNumber, getFaultDetails)`
(DPIFaultParameter.cpp:183-290): its fault details; the description stays empty. -/
def faultParameter {δ : Type} (rnd : Rat → Rat) (pow : Nat → Rat) (m : Mem) (D : Device δ) (faultNumber : Int)
    (getDetails : Bool) : Prog (Link δ) FaultDetails :=
  match faultParams faultNumber with
  | none => Prog.throw (.runtime "Invalid fault code (Fault code must be 1-10)")
  | some (codeParam, voltsParam, currentParam, frequencyParam) => do
    let faultCode ← getFaultDetail m D codeParam
    if faultCode ≠ 0 ∧ getDetails then do
      let volts ← getFaultDetail m D voltsParam
      let current ← getFaultDetail m D currentParam
      let frequency ← getFaultDetail m D frequencyParam
      pure { faultNumber, faultCode, busVoltage := processVolts rnd pow volts voltsParam,
             current := processCurrent rnd pow current currentParam,
             frequency := processFrequency rnd pow frequency frequencyParam }
    else pure { faultNumber, faultCode, busVoltage := 0, current := 0, frequency := 0 }

/-! ## DPIFaultManager -/

/-- `DPIFaultManager` (DPIFaultManager.h:92-97): the flags.  Not modelled: the tripped
device handler and state, which nothing reads. -/
structure FaultManager where
  clearFaultsQueue : Bool := true
  resetFault : Bool := false
  getFaultDetails : Bool := false
deriving Repr, DecidableEq

/-- `CLEAR_FAULT_QUEUE` (DPIFaultManager.h:25). -/
def clearFaultQueue : BitVec 8 := 2

/-- `writeCommand` (DPIFaultManager.cpp:96-110). -/
def writeCommand {δ : Type} (D : Device δ) (command : BitVec 8) : Prog (Link δ) Unit := do
  let response ← ask D ⟨ServiceCode.setAttributeSingle, EPath.mk3 0x97 0 3, [command]⟩
  if response.status ≠ GeneralStatus.success then Prog.throw (.runtime "Failed to send command") else pure ()

/-- The loop over the faults (DPIFaultManager.cpp:55-73) with `left` rounds to go.  The
state holds the calls of the handler; the result is `faultCount`, which is at most 10. -/
def listFaults {δ : Type} (rnd : Rat → Rat) (pow : Nat → Rat) (m : Mem) (D : Device δ) (getDetails : Bool) :
    Nat → Int → Prog (List FaultInformation × Link δ) Nat
  | 0, _ => pure 0
  | left + 1, faultNumber => do
    let faultDetails ← onLink (faultParameter rnd pow m D faultNumber getDetails)
    if faultDetails.faultCode = 0 then pure 0
    else do
      let faultDescription ← Prog.lift (getFaultDescription faultDetails.faultCode.toNat)
      Prog.modify fun s => (s.1 ++ [⟨faultDetails, faultDescription⟩], s.2)
      let more ← listFaults rnd pow m D getDetails left (faultNumber + 1)
      pure (more + 1)

/-- `handleFaultParameters` (DPIFaultManager.cpp:50-86).  The branch for `_resetFault` is
empty; the log is not modelled. -/
def handleFaultParameters {δ : Type} (rnd : Rat → Rat) (pow : Nat → Rat) (m : Mem) (D : Device δ) (M : FaultManager) :
    Prog (List FaultInformation × Link δ) Unit := do
  let faultCount ← listFaults rnd pow m D M.getFaultDetails 10 1
  if M.clearFaultsQueue ∧ faultCount > 0 then onLink (writeCommand D clearFaultQueue) else pure ()

/-! ## DPIFaultObject -/

/-- `DPIFaultObject` and its `FullInformation` (DPIFaultObject.h:31-39). -/
structure FaultObject where
  instanceId : BitVec 16
  faultCode : BitVec 16
  dsiPort : BitVec 8
  dsiDeviceObject : BitVec 8
  faultText : CipLongString
  timerValue : BitVec 64
  isValidData : Bool
  isRealTime : Bool
deriving Repr, DecidableEq

/-- The reads of DPIFaultObject.cpp:45-58. -/
def faultObjectRd (instanceId : BitVec 16) : Rd FaultObject := do
  let faultCode ← Rd.u16
  let dsiPort ← Rd.u8
  let dsiDeviceObject ← Rd.u8
  let faultText ← Rd.bytes 16
  let timerValue ← Rd.u64
  let flags ← Rd.u16
  pure { instanceId, faultCode, dsiPort, dsiDeviceObject, faultText := CipString.ofBytes 16 faultText, timerValue,
         isValidData := flags &&& 1#16 != 0#16, isRealTime := flags &&& 2#16 != 0#16 }

/-- `DPIFaultObject(instanceId, si, messageRouter)` (DPIFaultObject.cpp:36-63). -/
def faultObject {δ : Type} (m : Mem) (D : Device δ) (instanceId : BitVec 16) : Prog (Link δ) FaultObject := do
  let response ← ask D ⟨ServiceCode.getAttributeSingle, EPath.mk3 0x97 instanceId 0, []⟩
  if response.status = GeneralStatus.success then
    Prog.lift ((faultObjectRd instanceId).from m response.data)
  else Prog.throw (.runtime "Failed to read FULL_INFORMATION attribute")

end PowerFlex

end Verif
