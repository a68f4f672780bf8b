import Verif.Model.LogText
import Verif.Model.File

/-!
# The messages of file objects

Source: `src/FileObject.cpp`, `src/fileObject/*.{h,cpp}`, and the message of `src/MessageRouter.cpp`.

The functions of `Model/File` again, with the messages they write, in order.  The message router is the library's own.
-/

namespace Verif

namespace FileObject

/-- The object, what is behind the message router, and the messages so far. -/
abbrev Said (ο δ : Type) : Type := (ο × Link δ) × List LogLine

/-- A message. -/
def say {σ : Type} (l : LogLine) : Prog (σ × List LogLine) Unit := fun s => .ok (s.1, s.2 ++ [l]) ()

/-- Something that writes no message. -/
def quiet {σ α : Type} (p : Prog σ α) : Prog (σ × List LogLine) α := fun s =>
  match p s.1 with
  | .ok t a => .ok (t, s.2) a
  | .throw t e => .throw (t, s.2) e
  | .ub => .ub

/-- A message that is written when an exception goes by. -/
def sayIfThrown {σ α : Type} (l : LogLine) (p : Prog (σ × List LogLine) α) : Prog (σ × List LogLine) α := fun s =>
  match p s with
  | .throw t e => .throw (t.1, t.2 ++ [l]) e
  | r => r

/-- `getStateName` (FileObjectState.cpp:41-55). -/
def stateName : FileState → List Char
  | .nonexistent => "NONEXISTENT".toList
  | .empty => "FILE_EMPTY".toList
  | .loaded => "FILE_LOADED".toList
  | .uploading _ => "TRANSFER_UPLOAD_IN_PROGRESS".toList

/-- The name of the state during construction (FileObject.cpp:23, FileObjectState.cpp:51). -/
def unknownName : List Char := "UNKNOWN".toList

/-- A request (MessageRouter.cpp:37-81): its message comes first. -/
def askSaid {ο δ : Type} (D : Device δ) (r : Req) : Prog (Said ο δ) MessageRouterResponse := do
  say (.request r.service r.path)
  quiet (onLink (ask D r))

/-- `setState` (FileObjectState.h:54-57): the new state is made before the old one is destroyed (FileObjectState.cpp:26,30). -/
def replaceSaid {σ : Type} (id : BitVec 16) (old new : List Char) : Prog (σ × List LogLine) Unit := do
  say (.file .debug id new "Start".toList)
  say (.file .trace id old "Stop".toList)

/-- `SyncState` (FileObjectState.cpp:57-90) in a state with the name `old`. -/
def syncSaid {ο δ : Type} (m : Mem) (D : Device δ) (id : BitVec 16) (old : List Char) : Prog (Said ο δ) FileState := do
  let response ← askSaid D ⟨ServiceCode.getAttributeSingle, EPath.mk3 classId id 1, []⟩
  if response.status = GeneralStatus.success then do
    let stateCode ← Prog.lift (Rd.u8.from m response.data)
    if stateCode = 0 then do
      replaceSaid id old (stateName .nonexistent)
      pure .nonexistent
    else if stateCode = 1 then do
      replaceSaid id old (stateName .empty)
      pure .empty
    else if stateCode = 2 then do
      replaceSaid id old (stateName .loaded)
      pure .loaded
    else if stateCode = 3 ∨ stateCode = 5 then do
      say (.file .warning id old "File is uploading. We need to re-initialize the uploading".toList)
      replaceSaid id old (stateName .loaded)
      pure .loaded
    else Prog.throw (.runtime "Read unknown or unsupported state")
  else Prog.throw (.runtime "Failed load the state of File Object")

/-- The constructor (FileObject.cpp:21-25); if `SyncState` throws the first state is destroyed. -/
def createSaid {δ : Type} (m : Mem) (D : Device δ) (id : BitVec 16) : Prog (Said Unit δ) FileObject := do
  say (.file .debug id unknownName "Start".toList)
  let state ← sayIfThrown (.file .trace id unknownName "Stop".toList) (syncSaid m D id unknownName)
  pure ⟨id, state, []⟩

/-- `getState()->SyncState(si)` (FileObjectState.cpp:57-90). -/
def syncStateSaid {δ : Type} (m : Mem) (D : Device δ) : Prog (Said FileObject δ) Unit := do
  let ((f, _), _) ← Prog.get
  let state ← syncSaid m D f.instanceId (stateName f.state)
  quiet (Prog.modify fun s => ({ s.1 with state := state }, s.2))

/-- `beginUpload` (FileObject.cpp:33-35, FileObjectLoadedState.cpp:19-40, FileObjectEmptyState.cpp:15-19,
FileObjectNonExistentState.cpp:16-21, FileObjectUploadInProgressState.cpp:26-32). -/
def beginUploadSaid {δ : Type} (m : Mem) (D : Device δ) (handler : Nat) : Prog (Said FileObject δ) Unit := do
  let ((f, _), _) ← Prog.get
  match f.state with
  | .loaded => do
    say (.file .info f.instanceId (stateName .loaded) "Initiate upload".toList)
    let response ← askSaid D ⟨initiateUpload, EPath.mk2 classId f.instanceId, [maxTransferSize]⟩
    if response.status = GeneralStatus.success then do
      let (fileSize, transferSize) ← Prog.lift (announced.from m response.data)
      replaceSaid f.instanceId (stateName .loaded) (stateName (.uploading ⟨fileSize, transferSize, [], 0, handler⟩))
      quiet (Prog.modify fun s => ({ s.1 with state := .uploading ⟨fileSize, transferSize, [], 0, handler⟩ }, s.2))
    else do
      say (.status response)
      quiet (Prog.modify fun s => ({ s.1 with calls := s.1.calls ++ [⟨handler, response.status, []⟩] }, s.2))
  | .nonexistent => say (.file .warning f.instanceId (stateName .nonexistent) "File cannot be uploaded".toList)
  | .empty => say (.file .warning f.instanceId (stateName .empty) "File cannot be uploaded".toList)
  | .uploading u => say (.file .info f.instanceId (stateName (.uploading u)) "Initiate upload of file again".toList)

/-- `buffer >> transferNumber >> transferPacketType` (FileObjectUploadInProgressState.cpp:45-49). -/
def packetHead : Rd (BitVec 8 × BitVec 8) := do
  let transferNumber ← Rd.u8
  let type ← Rd.u8
  pure (transferNumber, type)

/-- `handleTransfers` (FileObject.cpp:37-39, FileObjectUploadInProgressState.cpp:34-100, FileObjectLoadedState.cpp:42-44,
FileObjectEmptyState.cpp:21-25, FileObjectNonExistentState.cpp:23-28).  The rest of a packet is read after the message about its type;
the model reads the packet again from its beginning. -/
def handleTransfersSaid {δ : Type} (m : Mem) (D : Device δ) : Prog (Said FileObject δ) Bool := do
  let ((f, _), _) ← Prog.get
  match f.state with
  | .nonexistent => do
    say (.file .warning f.instanceId (stateName .nonexistent) "Nothing to transfer".toList)
    pure false
  | .empty => do
    say (.file .warning f.instanceId (stateName .empty) "Nothing to transfer".toList)
    pure false
  | .loaded => pure false
  | .uploading u => do
    let name := stateName (.uploading u)
    let response ← askSaid D ⟨uploadTransfer, EPath.mk2 classId f.instanceId, [u.number]⟩
    if response.status = GeneralStatus.success then do
      let (_, type) ← Prog.lift (packetHead.from m response.data)
      say (.file .debug f.instanceId name ("Receive transfer packet type=".toList ++ Nat.toDigits 10 type.toNat))
      let p ← Prog.lift ((packet u.number u.transferSize response.data.length).from m response.data)
      match p with
      | .wrongNumber => do
        say (.file .error f.instanceId name "Wrong transfer number".toList)
        quiet (Prog.modify fun s =>
          ({ s.1 with calls := s.1.calls ++ [⟨u.handler, GeneralStatus.invalidParameter, []⟩] }, s.2))
        pure false
      | .more fileData => do
        quiet (Prog.modify fun s =>
          ({ s.1 with state := .uploading { u with content := u.content ++ fileData, number := u.number + 1 } }, s.2))
        pure true
      | .last fileData => do
        let content := u.content ++ fileData
        if content.length = u.fileSize.toNat then
          quiet (Prog.modify fun s =>
            ({ s.1 with state := .uploading { u with content := content }, calls := s.1.calls ++ [⟨u.handler, GeneralStatus.success, content⟩] }, s.2))
        else do
          say (.file .error f.instanceId name "Wrong size of the uploaded file".toList)
          quiet (Prog.modify fun s =>
            ({ s.1 with state := .uploading { u with content := content }, calls := s.1.calls ++ [⟨u.handler, GeneralStatus.invalidParameter, []⟩] }, s.2))
        pure false
    else do
      say (.status response)
      quiet (Prog.modify fun s => ({ s.1 with calls := s.1.calls ++ [⟨u.handler, response.status, []⟩] }, s.2))
      pure true

/-- The destructor (FileObject.cpp:27, FileObjectState.cpp:29-31). -/
def destroySaid (f : FileObject) : List LogLine := [.file .trace f.instanceId (stateName f.state) "Stop".toList]

/-- What a program does with a file object. -/
inductive FileOp where
  | begin (handler : Nat)
  | transfer
  | sync
deriving Repr, DecidableEq

/-- One call; the caller handles exceptions.  `none` is undefined behaviour. -/
def stepSaid {δ : Type} (m : Mem) (D : Device δ) (s : Said FileObject δ) (op : FileOp) : Option (Said FileObject δ) :=
  match (match op with
    | .begin h => beginUploadSaid m D h s
    | .transfer =>
      match handleTransfersSaid m D s with
      | .ok t _ => .ok t ()
      | .throw t e => .throw t e
      | .ub => .ub
    | .sync => syncStateSaid m D s : Res (Said FileObject δ) Unit) with
  | .ok t _ => some t
  | .throw t _ => some t
  | .ub => none

/-- A history of calls. -/
def runSaid {δ : Type} (m : Mem) (D : Device δ) (s : Said FileObject δ) : List FileOp → Option (Said FileObject δ)
  | [] => some s
  | op :: ops =>
    match stepSaid m D s op with
    | none => none
    | some t => runSaid m D t ops

end FileObject

end Verif
