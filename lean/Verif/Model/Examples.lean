import Verif.Model.File
import Verif.Model.Parameter
import Verif.Model.ConnManager

/-!
# The example programs

Source: `examples/ExplicitMessagingExample.cpp`, `examples/FileObjectExample.cpp`,
`examples/ParameterObjectExample.cpp`, `examples/ImplicitMessagingExample.cpp`.

Each `main` is a program over a link (or a connection manager).  Its result is the exit
code; an exception that leaves it ends the process.  The session's registration before and
after are in `Verif.Model.Tcp`; logging and WinSock are not modelled.
-/

namespace Verif

namespace Examples

/-! ## ExplicitMessagingExample -/

/-- The lines the program writes to the log. -/
inductive Line where
  /-- "Vendor ID is ..." -/
  | vendor (v : BitVec 16)
  /-- "Writing is successful" -/
  | written
  /-- "We got error=0x..." -/
  | failed (status : BitVec 8)
deriving Repr, DecidableEq

/-- Write a line. -/
def say {δ : Type} (l : Line) : Prog (List Line × Link δ) Unit := Prog.modify fun s => (s.1 ++ [l], s.2)

/-- `assembly151` (ExplicitMessagingExample.cpp:61-71). -/
def assembly151 : Buffer :=
  (((((((((Buffer.empty.putU8 1).putU8 2).putU8 3).putU8 4).putU8 5).putU8 6).putU8 7).putU8 8).putU8 9).putU8 10

/-- The second half of `main` (ExplicitMessagingExample.cpp:59-88). -/
def explicitWrite {δ : Type} (D : Device δ) : Prog (List Line × Link δ) Int := do
  let response ← onLink (ask D ⟨ServiceCode.setAttributeSingle, EPath.mk3 0x04 151 3, assembly151.bytes⟩)
  if response.status = GeneralStatus.success then say .written else say (.failed response.status)
  pure 0

/-- `main` (ExplicitMessagingExample.cpp:44-88) after the session is made. -/
def explicitMain {δ : Type} (m : Mem) (D : Device δ) : Prog (List Line × Link δ) Int := do
  let response ← onLink (ask D ⟨ServiceCode.getAttributeSingle, EPath.mk3 0x01 1 1, []⟩)
  if response.status = GeneralStatus.success then do
    let vendorId ← Prog.lift (Rd.u16.from m response.data)
    say (.vendor vendorId)
    explicitWrite D
  else do
    say (.failed response.status)
    explicitWrite D

/-! ## FileObjectExample -/

/-- The handler (FileObjectExample.cpp:36-41): what is in `Device.eds` after a call.  Writing
is taken to succeed. -/
def edsHandler (disk : Option (List Byte)) (c : UploadCall) : Option (List Byte) :=
  if c.status = GeneralStatus.success then some c.content else disk

/-- `Device.eds` after these calls of the handler; `none`: as it was before. -/
def deviceEds (calls : List UploadCall) : Option (List Byte) := calls.foldl edsHandler none

/-- `while (edsFile.handleTransfers(si)) continue;` (FileObjectExample.cpp:43-45), observed
for at most `n` iterations; the result tells if the loop has ended. -/
def fileLoop {δ : Type} (m : Mem) (D : Device δ) : Nat → Prog (FileObject × Link δ) Bool
  | 0 => pure false
  | n + 1 => do
    let more ← FileObject.handleTransfers m D
    if more then fileLoop m D n else pure true

/-- How far a program is. -/
inductive How where
  | exited (code : Int)
  | uncaught (e : Exn)
  | running
deriving Repr, DecidableEq

/-- A program that has been observed: how far it is, the link, and `Device.eds`. -/
inductive Ran (δ : Type) where
  | ran (how : How) (L : Link δ) (disk : Option (List Byte))
  | ub

/-- `main` (FileObjectExample.cpp:35-51) after the session is made, observed for at most `n`
iterations of the loop. -/
def fileMain {δ : Type} (m : Mem) (D : Device δ) (n : Nat) (L : Link δ) : Ran δ :=
  match FileObject.create m D 0xC8 L with
  | .ub => .ub
  | .throw L1 e => .ran (.uncaught e) L1 none
  | .ok L1 f =>
    match (FileObject.beginUpload m D 0) (f, L1) with
    | .ub => .ub
    | .throw s e => .ran (.uncaught e) s.2 (deviceEds s.1.calls)
    | .ok s2 _ =>
      match fileLoop m D n s2 with
      | .ub => .ub
      | .throw s e => .ran (.uncaught e) s.2 (deviceEds s.1.calls)
      | .ok s true => .ran (.exited 0) s.2 (deviceEds s.1.calls)
      | .ok s false => .ran .running s.2 (deviceEds s.1.calls)

/-! ## ParameterObjectExample -/

/-- The loop over the parameters (ParameterObjectExample.cpp:79-81) from index `i`, `k`
times. -/
def readParameters {δ : Type} (m : Mem) (D : Device δ) (all : Bool) : Nat → Nat → Prog (Link δ) (List ParameterObject)
  | _, 0 => pure []
  | i, k + 1 => do
    let p ← ParameterObject.connect m D (BitVec.ofNat 16 (i + 1)) all
    let ps ← readParameters m D all (i + 1) k
    pure (p :: ps)

/-- `parameters[0].updateValue(si)` (ParameterObjectExample.cpp:91). -/
def updated {δ : Type} (m : Mem) (D : Device δ) (p : ParameterObject) : Prog (Link δ) ParameterObject := fun L =>
  match ParameterObject.updateValue m D (p, L) with
  | .ub => .ub
  | .throw s e => .throw s.2 e
  | .ok s _ => .ok s.2 s.1

/-- What is done with the first parameter (ParameterObjectExample.cpp:83-93): the values read
before and after, and the object.  The other getters only copy. -/
def firstParameter {δ : Type} (m : Mem) (rnd : Rat → Rat) (pow : Nat → Rat) (D : Device δ) (p : ParameterObject) :
    Prog (Link δ) (Int × Rat × Int × ParameterObject) := do
  let before ← Prog.lift (ParameterObject.encodeValue m .u16 p.value)
  let eng ← Prog.lift (ParameterObject.engOf m rnd pow .u16 p p.value)
  let q ← updated m D p
  let after ← Prog.lift (ParameterObject.encodeValue m .u16 q.value)
  pure (before, eng, after, q)

/-- What `main` of the parameter example ends with: exit code, the parameters as read, and
what was seen of the first one. -/
structure ParamRun where
  code : Int
  parameters : List ParameterObject := []
  first : Option (Int × Rat × Int × ParameterObject) := none

/-- `main` (ParameterObjectExample.cpp:40-99) after the session is made. -/
def parameterMain {δ : Type} (m : Mem) (rnd : Rat → Rat) (pow : Nat → Rat) (D : Device δ) : Prog (Link δ) ParamRun := do
  let response ← ask D ⟨ServiceCode.getAttributeSingle, EPath.mk3 ParameterObject.classId 0 2, []⟩
  if response.status = GeneralStatus.success then do
    let paramsCount ← Prog.lift (Rd.u16.from m response.data)
    let response ← ask D ⟨ServiceCode.getAttributeSingle, EPath.mk3 ParameterObject.classId 0 8, []⟩
    if response.status = GeneralStatus.success then do
      let descriptor ← Prog.lift (Rd.u16.from m response.data)
      let all := descriptor &&& 2#16 != 0#16
      let parameters ← readParameters m D all 0 paramsCount.toNat
      match parameters with
      | [] => pure ⟨0, [], none⟩
      | p :: ps => do
        let first ← firstParameter m rnd pow D p
        pure ⟨0, p :: ps, some first⟩
    else pure ⟨-1, [], none⟩
  else pure ⟨-1, [], none⟩

/-! ## ImplicitMessagingExample -/

/-- `parameters` (ImplicitMessagingExample.cpp:44-59).  `P2P` and `SCHEDULED_PRIORITY` are
`NetworkConnectionParams` converted to `CipUdint`. -/
def implicitParams : ConnectionParameters :=
  { connectionPath := [0x20, 0x04, 0x24, 151, 0x2C, 150, 0x2C, 100]
    o2tRealTimeFormat := true
    originatorVendorId := 342
    t2oNetworkConnectionParams :=
      NetworkConnectionParams.p2p.setWidth 32 ||| NetworkConnectionParams.scheduledPriority.setWidth 32 ||| 32
    o2tNetworkConnectionParams :=
      NetworkConnectionParams.p2p.setWidth 32 ||| NetworkConnectionParams.scheduledPriority.setWidth 32 ||| 32
    originatorSerialNumber := 0x12345
    o2tRPI := 1000000
    t2oRPI := 1000000
    transportTypeTrigger := NetworkConnectionParams.class1.setWidth 8 }

/-- The environment of the program: of `forwardOpen`, of each `handleConnections` (start,
rounds, and for each connection the clock of its tick and the result of `sendto`), and of
`forwardClose`. -/
structure ImplicitEnv where
  opened : OpenEnv
  start : Nat → Nat
  rounds : Nat → List Round
  ticks : Nat → Nat → Nat × Int
  closed : Outcome MessageRouterResponse

/-- The receive listener of the example (ImplicitMessagingExample.cpp:65-73) returns. -/
def listenerReturns : Round → Round
  | .fail code => .fail code
  | .ready r rs now => .ready { r with throws := none } (rs.map fun a => { a with throws := none }) now

/-- The `k`-th `handleConnections(100 ms)` (ImplicitMessagingExample.cpp:82).  There is no
send listener and the close listener returns (ImplicitMessagingExample.cpp:75-77). -/
def ImplicitEnv.wait (E : ImplicitEnv) (k : Nat) : MOp :=
  .handle (E.start k) 100 ((E.rounds k).map listenerReturns) fun id => ⟨(E.ticks k id).1, {}, (E.ticks k id).2⟩

/-- A call on the manager, recorded.  Undefined behaviour and a failing assertion have no
continuation. -/
def call (P : Plat) (op : MOp) : Prog (Mgr × List (MOp × List MEv × MRet)) MRet := fun s =>
  match s.1.step P op with
  | .stop _ _ => .ub
  | .ok s' evs (.threw e) => .throw (s', s.2 ++ [(op, evs, .threw e)]) e
  | .ok s' evs ret => .ok (s', s.2 ++ [(op, evs, ret)]) ret

/-- `while (connectionManager.hasOpenConnections() && count-- > 0)`
(ImplicitMessagingExample.cpp:80-83), with `count` to go, before the `k`-th wait. -/
def implicitLoop (P : Plat) (E : ImplicitEnv) : Nat → Nat → Prog (Mgr × List (MOp × List MEv × MRet)) Unit
  | count, k => do
    let hasOpen ← call P .hasOpen
    if hasOpen = .bool true then
      match count with
      | 0 => pure ()
      | count + 1 => do
        let _ ← call P (E.wait k)
        implicitLoop P E count (k + 1)
    else pure ()

/-- `if (auto ptr = io.lock()) ptr->setDataToSend(...)` (ImplicitMessagingExample.cpp:62-78). -/
def implicitSetUp (P : Plat) (id : Nat) : Prog (Mgr × List (MOp × List MEv × MRet)) Unit := do
  let _ ← call P (.lock id)
  let _ ← call P (.setData id (List.replicate 32 0))
  let _ ← call P (.release id)
  pure ()

/-- `main` (ImplicitMessagingExample.cpp:41-91) after the session is made, on a new manager. -/
def implicitMain (P : Plat) (E : ImplicitEnv) : Prog (Mgr × List (MOp × List MEv × MRet)) Int := do
  let io ← call P (.forwardOpen "172.28.1.3" implicitParams false E.opened)
  match io with
  | .ptr (some id) => do
    implicitSetUp P id
    implicitLoop P E 200 0
    let _ ← call P (.forwardClose (some id) E.closed)
    pure 0
  | _ => do
    implicitLoop P E 200 0
    let _ ← call P (.forwardClose none E.closed)
    pure 0

end Examples

end Verif
