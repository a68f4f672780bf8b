import Verif.Model.File

/-!
# Upload handlers that use the file object

`Model/File` takes handlers to do nothing to the object.  Here a handler may call the object again,
destroy it, or throw (FileObject.h:18, FileObjectState.h:49-52).  Calls of `setState` destroy the state
that runs, and with it the handler and the content it holds.
-/

namespace Verif

/-- What a handler does when it is called, in order.  `inner` is what the handler does that is called
meanwhile, if one is. -/
inductive HandlerAct where
  /-- It returns. -/
  | done
  /-- It throws. -/
  | raise (e : Exn)
  /-- It uses its argument `fileContent`. -/
  | look (next : HandlerAct)
  /-- It uses a variable it has captured. -/
  | capture (next : HandlerAct)
  /-- `fileObject.getState()->SyncState(si)`. -/
  | sync (next : HandlerAct)
  /-- `fileObject.beginUpload(si, handler)`. -/
  | begin (handler : Nat) (inner : HandlerAct) (next : HandlerAct)
  /-- `fileObject.handleTransfers(si)`. -/
  | transfer (inner : HandlerAct) (next : HandlerAct)
  /-- The object is destroyed (FileObject.cpp:27). -/
  | drop (next : HandlerAct)
deriving Repr, DecidableEq

/-- A file object with what its handlers may do to it: how many state objects it has had, whether it is
destroyed, and what handlers saw in `fileContent`. -/
structure LiveFile (δ : Type) where
  file : FileObject
  gen : Nat
  gone : Bool
  seen : List (List Byte)
  link : Link δ

/-- A running handler: whether it is stored in a state object and in which one, and whether its argument
is the content stored there (FileObjectUploadInProgressState.cpp:83) or a temporary. -/
structure HandlerFrame where
  stored : Bool
  gen : Nat
  own : Bool
deriving Repr, DecidableEq

namespace LiveFile

variable {δ : Type}

/-- A request from a method of the object. -/
def onDevice {α : Type} (p : Prog (Link δ) α) : Prog (LiveFile δ) α := fun s =>
  match p s.link with
  | .ok L a => .ok { s with link := L } a
  | .throw L e => .throw { s with link := L } e
  | .ub => .ub

/-- The call of a handler is noted as in `Model/File`. -/
def noteCall (c : UploadCall) : Prog (LiveFile δ) Unit :=
  Prog.modify fun s => { s with file := { s.file with calls := s.file.calls ++ [c] } }

/-- `setState` (FileObjectState.h:49-52): the state object is replaced, the old one destroyed. -/
def setState (st : FileState) : Prog (LiveFile δ) Unit :=
  Prog.modify fun s => { s with file := { s.file with state := st }, gen := s.gen + 1 }

/-- The state object in which the handler is stored is still there. -/
def holds (F : HandlerFrame) (s : LiveFile δ) : Bool := !s.gone && s.gen == F.gen

/-- `getState()->SyncState(si)` (FileObject.cpp:29-31, FileObjectState.cpp:57-90). -/
def sync (m : Mem) (D : Device δ) : Prog (LiveFile δ) Unit := do
  let s ← Prog.get
  if s.gone then Prog.undefined
  else do
    let g ← onDevice (FileObject.create m D s.file.instanceId)
    setState g.state

/-- `beginUpload` (FileObject.cpp:33-35, FileObjectLoadedState.cpp:19-40).  A handler called from here is
a parameter, not stored in the state (line 38). -/
def beginWith (m : Mem) (D : Device δ) (handler : Nat) (call : HandlerFrame → Prog (LiveFile δ) Unit) : Prog (LiveFile δ) Unit := do
  let s ← Prog.get
  if s.gone then Prog.undefined
  else match s.file.state with
  | .loaded => do
    let response ← onDevice (ask D ⟨FileObject.initiateUpload, EPath.mk2 FileObject.classId s.file.instanceId, [FileObject.maxTransferSize]⟩)
    if response.status = GeneralStatus.success then do
      let (fileSize, transferSize) ← Prog.lift (FileObject.announced.from m response.data)
      setState (.uploading ⟨fileSize, transferSize, [], 0, handler⟩)
    else do
      noteCall ⟨handler, response.status, []⟩
      call ⟨false, 0, false⟩
  | .nonexistent => pure ()
  | .empty => pure ()
  | .uploading _ => pure ()

/-- `handleTransfers` (FileObject.cpp:37-39, FileObjectUploadInProgressState.cpp:34-100).  After the call of
a handler nothing of the state is used (lines 58-60, 82-89, 96-99). -/
def transferWith (m : Mem) (D : Device δ) (call : HandlerFrame → Prog (LiveFile δ) Unit) : Prog (LiveFile δ) Bool := do
  let s ← Prog.get
  if s.gone then Prog.undefined
  else match s.file.state with
  | .nonexistent => pure false
  | .empty => pure false
  | .loaded => pure false
  | .uploading u => do
    let response ← onDevice (ask D ⟨FileObject.uploadTransfer, EPath.mk2 FileObject.classId s.file.instanceId, [u.number]⟩)
    if response.status = GeneralStatus.success then do
      let p ← Prog.lift ((FileObject.packet u.number u.transferSize response.data.length).from m response.data)
      match p with
      | .wrongNumber => do
        noteCall ⟨u.handler, GeneralStatus.invalidParameter, []⟩
        call ⟨true, s.gen, false⟩
        pure false
      | .more fileData => do
        Prog.modify fun s =>
          { s with file := { s.file with state := .uploading { u with content := u.content ++ fileData, number := u.number + 1 } } }
        pure true
      | .last fileData => do
        let content := u.content ++ fileData
        Prog.modify fun s => { s with file := { s.file with state := .uploading { u with content := content } } }
        if content.length = u.fileSize.toNat then do
          noteCall ⟨u.handler, GeneralStatus.success, content⟩
          call ⟨true, s.gen, true⟩
          pure false
        else do
          noteCall ⟨u.handler, GeneralStatus.invalidParameter, []⟩
          call ⟨true, s.gen, false⟩
          pure false
    else do
      noteCall ⟨u.handler, response.status, []⟩
      call ⟨true, s.gen, false⟩
      pure true

/-- The vector that `fileContent` refers to, as long as it is there. -/
def contentNow (F : HandlerFrame) (s : LiveFile δ) : List Byte :=
  if F.own then match s.file.state with
    | .uploading u => u.content
    | _ => []
  else []

/-- What a handler does (FileObject.h:18). -/
def run (m : Mem) (D : Device δ) : HandlerAct → HandlerFrame → Prog (LiveFile δ) Unit
  | .done, _ => pure ()
  | .raise e, _ => Prog.throw e
  | .look next, F => do
    let s ← Prog.get
    if F.own ∧ holds F s = false then Prog.undefined
    else do
      Prog.modify fun s => { s with seen := s.seen ++ [contentNow F s] }
      run m D next F
  | .capture next, F => do
    let s ← Prog.get
    if F.stored ∧ holds F s = false then Prog.undefined
    else run m D next F
  | .sync next, F => do
    sync m D
    run m D next F
  | .begin handler inner next, F => do
    beginWith m D handler (run m D inner)
    run m D next F
  | .transfer inner next, F => do
    let _ ← transferWith m D (run m D inner)
    run m D next F
  | .drop next, F => do
    let s ← Prog.get
    if s.gone then Prog.undefined
    else do
      Prog.modify fun s => { s with gone := true }
      run m D next F

/-- `handleTransfers` with a handler that does `a` if it is called. -/
def handleTransfers (m : Mem) (D : Device δ) (a : HandlerAct) : Prog (LiveFile δ) Bool := transferWith m D (run m D a)

/-- `beginUpload` with a handler that does `a` if it is called. -/
def beginUpload (m : Mem) (D : Device δ) (handler : Nat) (a : HandlerAct) : Prog (LiveFile δ) Unit := beginWith m D handler (run m D a)

end LiveFile

end Verif
