import Verif.Spec.Object
import Verif.Model.FaultTable

/-!
# PowerFlex 525 faults (Rockwell 520-UM001, parameters 7-9, 604-610, 631-660)

The drive keeps its last ten faults in parameters.  No definition here refers to the
model of the PowerFlex classes; `faultTable` is the table of DPIFaultCode.h.
-/

namespace Verif.Spec

/-- The parameter with the code of fault `n`: P007 to P009 for the first three, then
P604 to P610. -/
def codeParam (n : Nat) : Nat := if n ≤ 3 then 6 + n else 600 + n
/-- Frequency, current and bus voltage at fault `n`: P631-P640, P641-P650, P651-P660. -/
def frequencyParam (n : Nat) : Nat := 630 + n
def currentParam (n : Nat) : Nat := 640 + n
def voltsParam (n : Nat) : Nat := 650 + n

/-- Read the value (attribute 1) of a parameter. -/
def driveGet (param : Nat) : Req := paramGet (BitVec.ofNat 16 param) 1
/-- Write a command to the fault class (class 0x97, instance 0, attribute 3). -/
def faultCommand (command : BitVec 8) : Req := ⟨0x10#8, ⟨0x97, 0, 3, 3⟩, [command]⟩
/-- Clear the fault queue. -/
def clearQueue : Req := faultCommand 2#8

/-- What a drive answers when asked for one of its faults. -/
structure FaultAnswer where
  code : List (BitVec 8)
  volts : List (BitVec 8)
  current : List (BitVec 8)
  frequency : List (BitVec 8)

/-- The unsigned 16-bit number an answer starts with. -/
def word (bs : List (BitVec 8)) : Nat := field bs 0 2

/-- The answers that are asked for have at least two bytes. -/
def FaultAnswer.Complete (a : FaultAnswer) (details : Bool) : Prop :=
  2 ≤ a.code.length ∧ (details = true → 2 ≤ a.volts.length ∧ 2 ≤ a.current.length ∧ 2 ≤ a.frequency.length)

/-- The requests about fault `n`, with the answers. -/
def faultExchange (details : Bool) (n : Nat) (a : FaultAnswer) : List (Req × List (BitVec 8)) :=
  (driveGet (codeParam n), a.code) ::
    if details then [(driveGet (voltsParam n), a.volts), (driveGet (currentParam n), a.current),
      (driveGet (frequencyParam n), a.frequency)] else []

/-- The requests about faults `n`, `n + 1`, ..., with the answers. -/
def faultExchanges (details : Bool) : Nat → List (FaultAnswer × FaultDescription) → List (Req × List (BitVec 8))
  | _, [] => []
  | n, p :: rest => faultExchange details n p.1 ++ faultExchanges details (n + 1) rest

/-- A fault as the listener sees it. -/
structure SeenFault where
  number : Int
  code : Nat
  volts : Rat
  current : Rat
  frequency : Rat
  description : FaultDescription
deriving Repr, DecidableEq

/-- What should be seen of a fault: its number, its code and the description of the
code; with details volts, and current and frequency in hundredths rounded once. -/
def seenFault (rnd : Rat → Rat) (details : Bool) (n : Nat) (a : FaultAnswer) (e : FaultDescription) : SeenFault :=
  { number := n
    code := word a.code
    volts := if details then (word a.volts : Rat) else 0
    current := if details then rnd ((word a.current : Rat) / 100) else 0
    frequency := if details then rnd ((word a.frequency : Rat) / 100) else 0
    description := e }

/-- Faults `n`, `n + 1`, ... -/
def seenFaults (rnd : Rat → Rat) (details : Bool) : Nat → List (FaultAnswer × FaultDescription) → List SeenFault
  | _, [] => []
  | n, p :: rest => seenFault rnd details n p.1 p.2 :: seenFaults rnd details (n + 1) rest

/-- A fault that can be reported: the answers are complete, the code is not 0 and is
described in the table. -/
def Reportable (details : Bool) (p : FaultAnswer × FaultDescription) : Prop :=
  p.1.Complete details ∧ word p.1.code ≠ 0 ∧ ((word p.1.code : Int), p.2) ∈ faultTable

/-- How the listing of `k` faults ends: all ten were listed, or the next code is 0. -/
def ListingEnds (k : Nat) (ending : List (Req × List (BitVec 8))) : Prop :=
  (k = 10 ∧ ending = []) ∨
  (k < 10 ∧ ∃ z, 2 ≤ z.length ∧ word z = 0 ∧ ending = [(driveGet (codeParam (k + 1)), z)])

/-- The clearing of the queue: only if wanted and something was listed. -/
def Clearing (clear : Bool) (k : Nat) (ending : List (Req × List (BitVec 8))) : Prop :=
  if clear = true ∧ 0 < k then ∃ ack, ending = [(clearQueue, ack)] else ending = []

/-- The fault codes with a description: code, type (1: the drive resets it, 2: it does not) and short text. -/
def describedFaults : List (Nat × Int × String) :=
  [(0, 0, "No Fault"), (2, 1, "Heatsink OvrTmp"), (3, 2, "Power Loss"), (4, 1, "UnderVoltage"), (5, 1, "OverVoltage"),
   (6, 1, "Motor Stalled"), (7, 1, "Motor Overload"), (8, 1, "Heatsink OvrTmp"), (9, 1, "CC OvrTmp"),
   (12, 2, "HW OverCurrent"), (13, 1, "Ground Fault"), (15, 2, "Load Loss"), (21, 1, "Output Ph Loss"),
   (29, 1, "Analog In Loss"), (33, 2, "Auto Rstrt Tries"), (38, 2, "Phase U to Gnd"), (39, 2, " Phase V to Gnd"),
   (40, 2, " Phase W to Gnd"), (41, 2, "Phase UV Short"), (42, 2, "Phase UW Short"), (43, 2, "Phase VW Short"),
   (48, 1, "Params Defaulted"), (59, 1, "Safety Open"), (63, 1, "SW OverCurrent"), (64, 2, "Drive Overload"),
   (70, 2, "Power Unit"), (71, 2, "DSI Net Loss"), (72, 2, "Opt Net Loss"), (73, 2, "EN Net Loss"),
   (80, 2, "Autotune Failure"), (81, 2, "DSI Comm Loss"), (82, 2, "Opt Comm Loss"), (83, 2, "EN Comm Loss"),
   (91, 2, "Encoder Loss"), (94, 2, "Function Loss"), (100, 2, "Parameter Chksum"), (101, 2, "External Storage"),
   (105, 2, "C Connect Err"), (106, 2, "Incompat C-P"), (107, 2, "Replaced C-P"), (109, 2, "Mismatch C-P"),
   (110, 2, "Keypad Membrane"), (111, 2, "Safety Hardware"), (114, 2, "uC Failure"), (122, 2, "I/O Board Fail"),
   (125, 2, "Flash Update Req"), (126, 2, "NonRecoverablErr"), (127, 2, "DSIFlashUpdatReq")]

/-- The codes of them. -/
def describedCodes : List Nat := describedFaults.map (·.1)

/-- A rounding that does not change whole numbers of 16 bits, and the powers of ten that
are used. -/
def SaneArithmetic (rnd : Rat → Rat) (pow : Nat → Rat) : Prop :=
  (∀ n : Nat, n < 65536 → rnd n = n) ∧ pow 0 = 1 ∧ pow 2 = 100

/-- The content of a fault instance (class 0x97): code (two bytes), port, device, text
(16 bytes), time (eight bytes), flags (two bytes; bit 0: the time is valid, bit 1: it is
real time). -/
structure DriveFault where
  code : Nat
  port : Nat
  device : Nat
  text : List (BitVec 8)
  time : Nat
  valid : Bool
  real : Bool
deriving Repr, DecidableEq

/-- The fault instance in an answer. -/
def driveFaultIn (bs : List (BitVec 8)) : DriveFault :=
  { code := field bs 0 2, port := field bs 2 1, device := field bs 3 1, text := (bs.drop 4).take 16
    time := field bs 20 8, valid := field bs 28 2 % 2 == 1, real := field bs 28 2 / 2 % 2 == 1 }

end Verif.Spec
