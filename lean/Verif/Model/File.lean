import Verif.Model.Link

/-!
# Model of `FileObject` and its states

Source: `src/FileObject.{h,cpp}`, `src/fileObject/*.{h,cpp}`.
-/

namespace Verif

/-- A call of an `EndUploadHandler` (FileObject.h:18): which handler, and its arguments.
The handler is taken to return and to use neither the object nor the session. -/
structure UploadCall where
  handler : Nat
  status : GeneralStatus
  content : List Byte
deriving Repr, DecidableEq

/-- The fields of `FileObjectUploadInProgressState` (FileObjectUploadInProgressState.h:24-29). -/
structure Upload where
  fileSize : BitVec 32
  transferSize : BitVec 8
  content : List Byte
  number : BitVec 8
  handler : Nat
deriving Repr, DecidableEq

/-- `_state` of a `FileObject` (FileObject.h:89): which subclass of `FileObjectState` it
points to.  The base class itself (`UNKNOWN`) is there only during construction. -/
inductive FileState where
  | nonexistent
  | empty
  | loaded
  | uploading (u : Upload)
deriving Repr, DecidableEq

/-- `FileObject` (FileObject.h:41-90) and the calls of handlers it has made. -/
structure FileObject where
  instanceId : BitVec 16
  state : FileState
  calls : List UploadCall
deriving Repr, DecidableEq

/-- What a transfer packet is for the upload. -/
inductive Packet where
  | wrongNumber
  | more (data : List Byte)
  | last (data : List Byte)
deriving Repr, DecidableEq

namespace FileObject

/-- `FILE_OBJECT_CLASS_ID` (FileObjectState.h:17), converted to `CipUint`. -/
def classId : BitVec 16 := 0x37
/-- `MAX_TRANSFER_SIZE` (FileObjectState.h:18). -/
def maxTransferSize : BitVec 8 := 255
/-- `FileObjectServiceCodes::INITIATE_UPLOAD` (FileObjectState.h:25). -/
def initiateUpload : BitVec 8 := 0x4B
/-- `FileObjectServiceCodes::UPLOAD_TRANSFER` (FileObjectState.h:26). -/
def uploadTransfer : BitVec 8 := 0x4F

/-- `getState()->getStateCode()` (FileObject.cpp:29-31, FileObjectState.cpp:33-35) with the codes of
FileObject.h:24-34 that the constructors of the states use (FileObjectNonExistentState.cpp:13,
FileObjectEmptyState.cpp:12, FileObjectLoadedState.cpp:16, FileObjectUploadInProgressState.cpp:18). -/
def stateCode (f : FileObject) : BitVec 8 :=
  match f.state with
  | .nonexistent => 0
  | .empty => 1
  | .loaded => 2
  | .uploading _ => 5

/-- `FileObject(instanceId, si, messageRouter)` (FileObject.cpp:21-25) with `SyncState`
(FileObjectState.cpp:57-90). -/
def create {δ : Type} (m : Mem) (D : Device δ) (instanceId : BitVec 16) : Prog (Link δ) FileObject := do
  let response ← ask D ⟨ServiceCode.getAttributeSingle, EPath.mk3 classId instanceId 1, []⟩
  if response.status = GeneralStatus.success then do
    let stateCode ← Prog.lift (Rd.u8.from m response.data)
    if stateCode = 0 then pure ⟨instanceId, .nonexistent, []⟩
    else if stateCode = 1 then pure ⟨instanceId, .empty, []⟩
    else if stateCode = 2 then pure ⟨instanceId, .loaded, []⟩
    else if stateCode = 3 ∨ stateCode = 5 then pure ⟨instanceId, .loaded, []⟩
    else Prog.throw (.runtime "Read unknown or unsupported state")
  else Prog.throw (.runtime "Failed load the state of File Object")

/-- `getState()->SyncState(si)` (FileObject.cpp:29-31, FileObjectState.cpp:57-90), as in the constructor: the new state
object replaces the one that executes, which does nothing more.  If the constructor would throw the state stays. -/
def syncState {δ : Type} (m : Mem) (D : Device δ) : Prog (FileObject × Link δ) Unit := do
  let (f, _) ← Prog.get
  let g ← onLink (create m D f.instanceId)
  Prog.modify fun s => ({ s.1 with state := g.state }, s.2)

/-- `buffer >> fileSize >> transferSize` (FileObjectLoadedState.cpp:33). -/
def announced : Rd (BitVec 32 × BitVec 8) := do
  let fileSize ← Rd.u32
  let transferSize ← Rd.u8
  pure (fileSize, transferSize)

/-- `beginUpload` (FileObject.cpp:33-35): `initiateUpload` of the current state
(FileObjectLoadedState.cpp:19-40, FileObjectEmptyState.cpp:15-19,
FileObjectNonExistentState.cpp:16-21, FileObjectUploadInProgressState.cpp:26-32). -/
def beginUpload {δ : Type} (m : Mem) (D : Device δ) (handler : Nat) : Prog (FileObject × Link δ) Unit := do
  let (f, _) ← Prog.get
  match f.state with
  | .loaded => do
    let response ← onLink (ask D ⟨initiateUpload, EPath.mk2 classId f.instanceId, [maxTransferSize]⟩)
    if response.status = GeneralStatus.success then do
      let (fileSize, transferSize) ← Prog.lift (announced.from m response.data)
      Prog.modify fun s => ({ s.1 with state := .uploading ⟨fileSize, transferSize, [], 0, handler⟩ }, s.2)
    else
      Prog.modify fun s => ({ s.1 with calls := s.1.calls ++ [⟨handler, response.status, []⟩] }, s.2)
  | .nonexistent => pure ()
  | .empty => pure ()
  | .uploading _ => pure ()

/-- The reads from a transfer packet of `size` bytes (FileObjectUploadInProgressState.cpp:45-92)
up to the insertion into `_fileContent`.  `std::vector(size - 4)` throws `length_error` if the
subtraction wraps. -/
def packet (number transferSize : BitVec 8) (size : Nat) : Rd Packet := do
  let transferNumber ← Rd.u8
  let type ← Rd.u8
  if transferNumber ≠ number then pure .wrongNumber
  else if type = 0 then do
    let fileData ← Rd.bytes transferSize.toNat
    pure (.more fileData)
  else if type = 1 then do
    let fileData ← Rd.bytes transferSize.toNat
    pure (.more fileData)
  else if type = 2 ∨ type = 4 then
    if size < 4 then Rd.throw .lengthError
    else do
      let fileData ← Rd.bytes (size - 4)
      pure (.last fileData)
  else Rd.throw (.runtime "Received unexpected transfer type")

/-- `handleTransfers` (FileObject.cpp:37-39): `transfer` of the current state
(FileObjectUploadInProgressState.cpp:34-100, FileObjectLoadedState.cpp:42-44,
FileObjectEmptyState.cpp:21-25, FileObjectNonExistentState.cpp:23-28). -/
def handleTransfers {δ : Type} (m : Mem) (D : Device δ) : Prog (FileObject × Link δ) Bool := do
  let (f, _) ← Prog.get
  match f.state with
  | .nonexistent => pure false
  | .empty => pure false
  | .loaded => pure false
  | .uploading u => do
    let response ← onLink (ask D ⟨uploadTransfer, EPath.mk2 classId f.instanceId, [u.number]⟩)
    if response.status = GeneralStatus.success then do
      let p ← Prog.lift ((packet u.number u.transferSize response.data.length).from m response.data)
      match p with
      | .wrongNumber => do
        Prog.modify fun s =>
          ({ s.1 with calls := s.1.calls ++ [⟨u.handler, GeneralStatus.invalidParameter, []⟩] }, s.2)
        pure false
      | .more fileData => do
        Prog.modify fun s =>
          ({ s.1 with state := .uploading { u with content := u.content ++ fileData, number := u.number + 1 } }, s.2)
        pure true
      | .last fileData => do
        let content := u.content ++ fileData
        let call : UploadCall :=
          if content.length = u.fileSize.toNat then ⟨u.handler, GeneralStatus.success, content⟩
          else ⟨u.handler, GeneralStatus.invalidParameter, []⟩
        Prog.modify fun s =>
          ({ s.1 with state := .uploading { u with content := content }, calls := s.1.calls ++ [call] }, s.2)
        pure false
    else do
      Prog.modify fun s => ({ s.1 with calls := s.1.calls ++ [⟨u.handler, response.status, []⟩] }, s.2)
      pure true

end FileObject

end Verif
