import Verif.Model.File

/-!
# Running out of memory

Source: `src/SessionInfo.cpp`, `src/MessageRouter.cpp`, `src/sockets/TCPSocket.cpp`, `src/FileObject.cpp`,
`src/fileObject/*.cpp`.

The functions of `Model/Tcp` and `Model/File` again, with the places at which they allocate memory; each of these may throw
`std::bad_alloc`.  Allocations with no effect on anything but local variables between them are one place.
Simplifications: a place at which nothing happens to be allocated (a vector of size 0, a string that fits
its object) may fail too; the log is off, so that nothing is allocated for it but the texts that are made by the
callers.
-/

namespace Verif

/-- A state, and for each of the next allocations whether it fails; none fails when the list is used up. -/
structure Scarce (σ : Type) where
  st : σ
  fails : List Bool
deriving Repr, DecidableEq

/-- An allocation (`operator new`). -/
def alloc {σ : Type} : Prog (Scarce σ) Unit := fun s =>
  match s.fails with
  | [] => .ok s ()
  | false :: rest => .ok { s with fails := rest } ()
  | true :: rest => .throw { s with fails := rest } .badAlloc

/-- Code that does not allocate. -/
def noAlloc {σ α : Type} (p : Prog σ α) : Prog (Scarce σ) α := fun s =>
  match p s.st with
  | .ok st a => .ok ⟨st, s.fails⟩ a
  | .throw st e => .throw ⟨st, s.fails⟩ e
  | .ub => .ub

/-! ## Sessions -/

/-- `SessionInfo::sendAndReceive` (SessionInfo.cpp:47-69).  It allocates for `packet.pack()`, for the buffer
of each `Receive` (TCPSocket.cpp:142) before anything is received, and for `header.insert`, `expand` and the texts of
exceptions. -/
def sendAndReceiveA (m : Mem) (handle : BitVec 32) (packet : EncapsPacket) : Prog (Scarce Tcp) EncapsPacket := do
  alloc
  noAlloc (Tcp.send packet.pack)
  alloc
  let header ← noAlloc (Tcp.receive EncapsPacket.headerSize)
  let length ← Prog.lift (EncapsPacket.getLengthFromHeader header)
  alloc
  let data ← noAlloc (Tcp.receive length)
  alloc
  let recvPacket ← Prog.lift (EncapsPacket.parse m (header ++ data))
  if recvPacket.status ≠ encapsSuccess then
    Prog.throw (.runtime "Bad encaps packet code")
  else if handle ≠ 0#32 ∧ recvPacket.sessionHandle ≠ handle then
    Prog.throw (.runtime "Wrong session handle received")
  else pure recvPacket

/-- The `SessionInfo` implementation (SessionInfo.cpp:47-73). -/
def SessionIf.tcpA (m : Mem) (handle : BitVec 32) : SessionIf (Scarce Tcp) :=
  ⟨handle, sendAndReceiveA m handle⟩

/-- `SessionInfo::~SessionInfo` (SessionInfo.cpp:41-45): `packet.pack()` allocates in a destructor, so that
an exception terminates the process. -/
def unregisterSessionA (handle : BitVec 32) : Prog (Scarce Tcp) Unit := fun s =>
  match (do alloc; noAlloc (Tcp.send (EncapsPacketFactory.unRegisterSession handle).pack) : Prog (Scarce Tcp) Unit) s with
  | .ok s' _ => .ok s' ()
  | .throw s' _ => .throw s' .abort
  | .ub => .ub

/-- `MessageRouter::sendRequest` (MessageRouter.cpp:37-81): allocates for the request, and for what it makes of
the reply. -/
def sendRequestA {σ : Type} (m : Mem) (si : SessionIf (Scarce σ)) (use8 : Bool) (service : BitVec 8) (path : EPath)
    (data : List Byte) (extra : List CommonPacketItem) : Prog (Scarce σ) MessageRouterResponse := do
  alloc
  let receivedPacket ← si.sendAndReceive (routerPacket si.handle ⟨service, path, data, use8⟩ extra)
  alloc
  Prog.lift (routerReply m receivedPacket.data)

/-- The responder that is `MessageRouter::sendRequest` over a TCP session (MessageRouter.cpp:31-35). -/
def Device.tcpA (m : Mem) (handle : BitVec 32) : Device (Scarce Tcp) :=
  ⟨fun r => sendRequestA m (SessionIf.tcpA m handle) false r.service r.path r.data []⟩

/-! ## File objects -/

namespace FileObject

/-- An allocation in a method of a file object. -/
def allocF {ο δ : Type} : Prog (ο × Link (Scarce δ)) Unit := onLink fun L =>
  match alloc L.dev with
  | .ok d _ => .ok { L with dev := d } ()
  | .throw d e => .throw { L with dev := d } e
  | .ub => .ub

/-- `beginUpload` (FileObject.cpp:33-35; FileObjectLoadedState.cpp:19-40, FileObjectEmptyState.cpp:15-19,
FileObjectNonExistentState.cpp:16-21, FileObjectUploadInProgressState.cpp:26-32).  It allocates for the text of the log,
for the request, for the buffer with the reply, and for the new state, which replaces the old one only when it
is complete (FileObjectState.h:53-56). -/
def beginUploadA {δ : Type} (m : Mem) (D : Device (Scarce δ)) (handler : Nat) :
    Prog (FileObject × Link (Scarce δ)) Unit := do
  let (f, _) ← Prog.get
  match f.state with
  | .loaded => do
    allocF
    let response ← onLink (ask D ⟨initiateUpload, EPath.mk2 classId f.instanceId, [maxTransferSize]⟩)
    allocF
    if response.status = GeneralStatus.success then do
      let (fileSize, transferSize) ← Prog.lift (announced.from m response.data)
      allocF
      Prog.modify fun s => ({ s.1 with state := .uploading ⟨fileSize, transferSize, [], 0, handler⟩ }, s.2)
    else
      Prog.modify fun s => ({ s.1 with calls := s.1.calls ++ [⟨handler, response.status, []⟩] }, s.2)
  | .nonexistent => allocF
  | .empty => allocF
  | .uploading _ => allocF

/-- `handleTransfers` (FileObject.cpp:37-39; FileObjectUploadInProgressState.cpp:34-100, FileObjectLoadedState.cpp:42-44,
FileObjectEmptyState.cpp:21-25, FileObjectNonExistentState.cpp:23-28).  It allocates for the request; for the buffer with
the reply, the texts of the log, the data of the packet and the longer content, all before anything has changed
(`vector::insert` at the end changes nothing if it throws); and for the text of the log when the size is wrong, after
the content was changed. -/
def handleTransfersA {δ : Type} (m : Mem) (D : Device (Scarce δ)) : Prog (FileObject × Link (Scarce δ)) Bool := do
  let (f, _) ← Prog.get
  match f.state with
  | .nonexistent => do allocF; pure false
  | .empty => do allocF; pure false
  | .loaded => pure false
  | .uploading u => do
    allocF
    let response ← onLink (ask D ⟨uploadTransfer, EPath.mk2 classId f.instanceId, [u.number]⟩)
    allocF
    if response.status = GeneralStatus.success then do
      let p ← Prog.lift ((packet u.number u.transferSize response.data.length).from m response.data)
      match p with
      | .wrongNumber => do
        Prog.modify fun s =>
          ({ s.1 with calls := s.1.calls ++ [⟨u.handler, GeneralStatus.invalidParameter, []⟩] }, s.2)
        pure false
      | .more fileData => do
        Prog.modify fun s =>
          ({ s.1 with state := .uploading { u with content := u.content ++ fileData, number := u.number + 1 } }, s.2)
        pure true
      | .last fileData => do
        let content := u.content ++ fileData
        Prog.modify fun s => ({ s.1 with state := .uploading { u with content := content } }, s.2)
        if content.length = u.fileSize.toNat then do
          Prog.modify fun s => ({ s.1 with calls := s.1.calls ++ [⟨u.handler, GeneralStatus.success, content⟩] }, s.2)
          pure false
        else do
          allocF
          Prog.modify fun s =>
            ({ s.1 with calls := s.1.calls ++ [⟨u.handler, GeneralStatus.invalidParameter, []⟩] }, s.2)
          pure false
    else do
      Prog.modify fun s => ({ s.1 with calls := s.1.calls ++ [⟨u.handler, response.status, []⟩] }, s.2)
      pure true

/-- An allocation on a link. -/
def allocL {δ : Type} : Prog (Link (Scarce δ)) Unit := fun L =>
  match alloc L.dev with
  | .ok d _ => .ok { L with dev := d } ()
  | .throw d e => .throw { L with dev := d } e
  | .ub => .ub

/-- `FileObject(instanceId, si, messageRouter)` (FileObject.cpp:21-25) with `SyncState` (FileObjectState.cpp:57-90).  It allocates for
the first state, the request, the buffer with the reply, the new state and the texts of exceptions.  The names of the states that are
destroyed here fit a string object. -/
def createA {δ : Type} (m : Mem) (D : Device (Scarce δ)) (instanceId : BitVec 16) : Prog (Link (Scarce δ)) FileObject := do
  allocL
  let response ← ask D ⟨ServiceCode.getAttributeSingle, EPath.mk3 classId instanceId 1, []⟩
  allocL
  if response.status = GeneralStatus.success then do
    let stateCode ← Prog.lift (Rd.u8.from m response.data)
    if stateCode = 0 then pure ⟨instanceId, .nonexistent, []⟩
    else if stateCode = 1 then pure ⟨instanceId, .empty, []⟩
    else if stateCode = 2 then pure ⟨instanceId, .loaded, []⟩
    else if stateCode = 3 ∨ stateCode = 5 then pure ⟨instanceId, .loaded, []⟩
    else Prog.throw (.runtime "Read unknown or unsupported state")
  else Prog.throw (.runtime "Failed load the state of File Object")

/-- `~FileObject` (FileObject.cpp:27) destroys the state: `~FileObjectState` (FileObjectState.cpp:29-31) makes the name of
the state as a `std::string` (FileObjectState.cpp:37-55), log or not.  All names but `"TRANSFER_UPLOAD_IN_PROGRESS"` fit
a string object without an allocation (libstdc++: 15 characters).  An exception in a destructor terminates the process. -/
def destroyA {δ : Type} : Prog (FileObject × Link (Scarce δ)) Unit := fun s =>
  match s.1.state with
  | .uploading _ =>
    match allocF s with
    | .ok s' _ => .ok s' ()
    | .throw s' _ => .throw s' .abort
    | .ub => .ub
  | _ => .ok s ()

/-- `getState()->SyncState(si)` (FileObjectState.cpp:57-90): as in the constructor, with `make_unique` of the new state; then the assignment
destroys the state that executes (FileObjectState.h:53-56). -/
def syncStateA {δ : Type} (m : Mem) (D : Device (Scarce δ)) : Prog (FileObject × Link (Scarce δ)) Unit := do
  let (f, _) ← Prog.get
  let g ← onLink (createA m D f.instanceId)
  destroyA
  Prog.modify fun s => ({ s.1 with state := g.state }, s.2)

end FileObject

end Verif
