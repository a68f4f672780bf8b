import Verif.Spec.FileLog
import Verif.Props.LogText
import Mathlib.Data.List.Forall2

/-!
# C125: the log of file objects
-/

namespace Verif.Props

open Verif.Spec
open FileObject

/-- The result of a request. -/
theorem ask_said {ο δ : Type} (D : Device δ) (r : Req) (s : Said ο δ) :
    askSaid D r s = match D.answer r s.1.2.dev with
      | .ok d resp => .ok ((s.1.1, ⟨d, s.1.2.sent ++ [r]⟩), s.2 ++ [.request r.service r.path]) resp
      | .throw d e => .throw ((s.1.1, ⟨d, s.1.2.sent ++ [r]⟩), s.2 ++ [.request r.service r.path]) e
      | .ub => .ub := by
  have e : askSaid D r s = quiet (onLink (ask D r)) (s.1, s.2 ++ [.request r.service r.path]) := rfl
  rw [e]
  unfold quiet onLink ask
  cases D.answer r s.1.2.dev <;> rfl

theorem ask_plain {ο δ : Type} (D : Device δ) (r : Req) (s : ο × Link δ) :
    (onLink (ask D r) : Prog (ο × Link δ) _) s = match D.answer r s.2.dev with
      | .ok d resp => .ok (s.1, ⟨d, s.2.sent ++ [r]⟩) resp
      | .throw d e => .throw (s.1, ⟨d, s.2.sent ++ [r]⟩) e
      | .ub => .ub := by
  unfold onLink ask
  cases D.answer r s.2.dev <;> rfl

/-- The request for the state. -/
def stateReq (id : BitVec 16) : Req := ⟨ServiceCode.getAttributeSingle, EPath.mk3 classId id 1, []⟩

/-- `SyncState` case by case. -/
theorem sync_cases {ο δ : Type} (m : Mem) (D : Device δ) (id : BitVec 16) (old : List Char) (s : Said ο δ) :
    syncSaid m D id old s = match D.answer (stateReq id) s.1.2.dev with
      | .ub => .ub
      | .throw d e => .throw ((s.1.1, ⟨d, s.1.2.sent ++ [stateReq id]⟩), s.2 ++ [.request (stateReq id).service (stateReq id).path]) e
      | .ok d resp =>
        let t : ο × Link δ := (s.1.1, ⟨d, s.1.2.sent ++ [stateReq id]⟩)
        let ls := s.2 ++ [.request (stateReq id).service (stateReq id).path]
        if resp.status = GeneralStatus.success then
          match Rd.u8.from m resp.data with
          | .ub => .ub
          | .throw e => .throw (t, ls) e
          | .ok c =>
            if c = 0 then .ok (t, ls ++ [.file .debug id (stateName .nonexistent) "Start".toList, .file .trace id old "Stop".toList]) .nonexistent
            else if c = 1 then .ok (t, ls ++ [.file .debug id (stateName .empty) "Start".toList, .file .trace id old "Stop".toList]) .empty
            else if c = 2 then .ok (t, ls ++ [.file .debug id (stateName .loaded) "Start".toList, .file .trace id old "Stop".toList]) .loaded
            else if c = 3 ∨ c = 5 then
              .ok (t, ls ++ [.file .warning id old "File is uploading. We need to re-initialize the uploading".toList,
                .file .debug id (stateName .loaded) "Start".toList, .file .trace id old "Stop".toList]) .loaded
            else .throw (t, ls) (.runtime "Read unknown or unsupported state")
        else .throw (t, ls) (.runtime "Failed load the state of File Object") := by
  unfold syncSaid
  rw [Prog.bind_run, ask_said]
  unfold stateReq
  cases D.answer ⟨ServiceCode.getAttributeSingle, EPath.mk3 classId id 1, []⟩ s.1.2.dev with
  | ub => rfl
  | throw d e => rfl
  | ok d resp =>
    simp only
    by_cases h : resp.status = GeneralStatus.success
    · rw [if_pos h, if_pos h, Prog.bind_run]
      cases Rd.u8.from m resp.data with
      | ub => rfl
      | throw e => rfl
      | ok c =>
        simp only [Prog.lift_ok]
        by_cases h0 : c = 0
        · rw [if_pos h0, if_pos h0]; simp [replaceSaid, say, Prog.bind_run]
        rw [if_neg h0, if_neg h0]
        by_cases h1 : c = 1
        · rw [if_pos h1, if_pos h1]; simp [replaceSaid, say, Prog.bind_run]
        rw [if_neg h1, if_neg h1]
        by_cases h2 : c = 2
        · rw [if_pos h2, if_pos h2]; simp [replaceSaid, say, Prog.bind_run]
        rw [if_neg h2, if_neg h2]
        by_cases h3 : c = 3 ∨ c = 5
        · rw [if_pos h3, if_pos h3]; simp [replaceSaid, say, Prog.bind_run]
        rw [if_neg h3, if_neg h3]
        rfl
    · rw [if_neg h, if_neg h]; rfl

/-- One message, then the rest. -/
theorem say_bind {ο δ α : Type} (l : LogLine) (k : Unit → Prog (Said ο δ) α) (x : ο × Link δ) (ls : List LogLine) :
    (say l >>= k) (x, ls) = k () (x, ls ++ [l]) := rfl

/-- The request that begins an upload. -/
def beginReq (id : BitVec 16) : Req := ⟨initiateUpload, EPath.mk2 classId id, [maxTransferSize]⟩

/-- `beginUpload` case by case. -/
theorem begin_cases {δ : Type} (m : Mem) (D : Device δ) (h : Nat) (f : FileObject) (L : Link δ) (ls : List LogLine) :
    beginUploadSaid m D h ((f, L), ls) = match f.state with
      | .nonexistent => .ok ((f, L), ls ++ [.file .warning f.instanceId "NONEXISTENT".toList "File cannot be uploaded".toList]) ()
      | .empty => .ok ((f, L), ls ++ [.file .warning f.instanceId "FILE_EMPTY".toList "File cannot be uploaded".toList]) ()
      | .uploading _ =>
        .ok ((f, L), ls ++ [.file .info f.instanceId "TRANSFER_UPLOAD_IN_PROGRESS".toList "Initiate upload of file again".toList]) ()
      | .loaded =>
        let ls := ls ++ [.file .info f.instanceId (stateName .loaded) "Initiate upload".toList] ++ [.request initiateUpload (EPath.mk2 classId f.instanceId)]
        match D.answer (beginReq f.instanceId) L.dev with
        | .ub => .ub
        | .throw d e => .throw ((f, ⟨d, L.sent ++ [beginReq f.instanceId]⟩), ls) e
        | .ok d resp =>
          let L : Link δ := ⟨d, L.sent ++ [beginReq f.instanceId]⟩
          if resp.status = GeneralStatus.success then
            match announced.from m resp.data with
            | .ub => .ub
            | .throw e => .throw ((f, L), ls) e
            | .ok (fileSize, transferSize) =>
              .ok (({ f with state := .uploading ⟨fileSize, transferSize, [], 0, h⟩ }, L),
                ls ++ [.file .debug f.instanceId (stateName (.uploading ⟨fileSize, transferSize, [], 0, h⟩)) "Start".toList] ++ [.file .trace f.instanceId (stateName .loaded) "Stop".toList]) ()
          else .ok (({ f with calls := f.calls ++ [⟨h, resp.status, []⟩] }, L), ls ++ [.status resp]) () := by
  obtain ⟨id, st, calls⟩ := f
  unfold beginUploadSaid
  rw [Prog.bind_ok (Prog.get_run _)]
  cases st with
  | nonexistent => rfl
  | empty => rfl
  | uploading u => rfl
  | loaded =>
    simp only
    rw [say_bind, Prog.bind_run, ask_said]
    unfold beginReq
    simp only
    cases D.answer ⟨initiateUpload, EPath.mk2 classId id, [maxTransferSize]⟩ L.dev with
    | ub => rfl
    | throw d e => rfl
    | ok d resp =>
      simp only
      by_cases hs : resp.status = GeneralStatus.success
      · rw [if_pos hs, if_pos hs, Prog.bind_run]
        cases announced.from m resp.data with
        | ub => rfl
        | throw e => rfl
        | ok x => obtain ⟨a, b⟩ := x; rfl
      · rw [if_neg hs, if_neg hs]; rfl

/-- The request for a packet. -/
def packetReq (id : BitVec 16) (u : Upload) : Req := ⟨uploadTransfer, EPath.mk2 classId id, [u.number]⟩

/-- `handleTransfers` case by case. -/
theorem transfer_cases {δ : Type} (m : Mem) (D : Device δ) (f : FileObject) (L : Link δ) (ls : List LogLine) :
    handleTransfersSaid m D ((f, L), ls) = match f.state with
      | .nonexistent => .ok ((f, L), ls ++ [.file .warning f.instanceId "NONEXISTENT".toList "Nothing to transfer".toList]) false
      | .empty => .ok ((f, L), ls ++ [.file .warning f.instanceId "FILE_EMPTY".toList "Nothing to transfer".toList]) false
      | .loaded => .ok ((f, L), ls) false
      | .uploading u =>
        let name := stateName (.uploading u)
        let ls := ls ++ [.request uploadTransfer (EPath.mk2 classId f.instanceId)]
        match D.answer (packetReq f.instanceId u) L.dev with
        | .ub => .ub
        | .throw d e => .throw ((f, ⟨d, L.sent ++ [packetReq f.instanceId u]⟩), ls) e
        | .ok d resp =>
          let L : Link δ := ⟨d, L.sent ++ [packetReq f.instanceId u]⟩
          if resp.status = GeneralStatus.success then
            match packetHead.from m resp.data with
            | .ub => .ub
            | .throw e => .throw ((f, L), ls) e
            | .ok (_, type) =>
              let ls := ls ++ [.file .debug f.instanceId name ("Receive transfer packet type=".toList ++ Nat.toDigits 10 type.toNat)]
              match (packet u.number u.transferSize resp.data.length).from m resp.data with
              | .ub => .ub
              | .throw e => .throw ((f, L), ls) e
              | .ok .wrongNumber =>
                .ok (({ f with calls := f.calls ++ [⟨u.handler, GeneralStatus.invalidParameter, []⟩] }, L),
                  ls ++ [.file .error f.instanceId name "Wrong transfer number".toList]) false
              | .ok (.more data) =>
                .ok (({ f with state := .uploading { u with content := u.content ++ data, number := u.number + 1 } }, L), ls) true
              | .ok (.last data) =>
                if (u.content ++ data).length = u.fileSize.toNat then
                  .ok (({ f with state := .uploading { u with content := u.content ++ data }, calls := f.calls ++ [⟨u.handler, GeneralStatus.success, u.content ++ data⟩] }, L), ls) false
                else
                  .ok (({ f with state := .uploading { u with content := u.content ++ data }, calls := f.calls ++ [⟨u.handler, GeneralStatus.invalidParameter, []⟩] }, L),
                    ls ++ [.file .error f.instanceId name "Wrong size of the uploaded file".toList]) false
          else .ok (({ f with calls := f.calls ++ [⟨u.handler, resp.status, []⟩] }, L), ls ++ [.status resp]) true := by
  obtain ⟨id, st, calls⟩ := f
  unfold handleTransfersSaid
  rw [Prog.bind_ok (Prog.get_run _)]
  cases st with
  | nonexistent => rfl
  | empty => rfl
  | loaded => rfl
  | uploading u =>
    simp only
    rw [Prog.bind_run, ask_said]
    unfold packetReq
    simp only
    cases D.answer ⟨uploadTransfer, EPath.mk2 classId id, [u.number]⟩ L.dev with
    | ub => rfl
    | throw d e => rfl
    | ok d resp =>
      simp only
      by_cases hs : resp.status = GeneralStatus.success
      · rw [if_pos hs, if_pos hs, Prog.bind_run]
        cases packetHead.from m resp.data with
        | ub => rfl
        | throw e => rfl
        | ok x =>
          obtain ⟨n, type⟩ := x
          simp only [Prog.lift_ok]
          rw [say_bind, Prog.bind_run]
          cases (packet u.number u.transferSize resp.data.length).from m resp.data with
          | ub => rfl
          | throw e => rfl
          | ok p =>
            simp only [Prog.lift_ok]
            cases p with
            | wrongNumber => rfl
            | more data => rfl
            | last data =>
              simp only
              by_cases hl : (u.content ++ data).length = u.fileSize.toNat
              · rw [if_pos hl, if_pos hl]; rfl
              · rw [if_neg hl, if_neg hl]; rfl
      · rw [if_neg hs, if_neg hs]; rfl

/-! ## The messages change nothing -/

theorem head_of_packet (m : Mem) (n ts : BitVec 8) (size : Nat) (data : List Byte) :
    (∀ e, packetHead.from m data = .throw e → (packet n ts size).from m data = .throw e) ∧
    (packetHead.from m data = .ub → (packet n ts size).from m data = .ub) := by
  have e1 : ∀ {α : Type} (k : BitVec 8 → BitVec 8 → Rd α) b,
      (do let x ← Rd.u8; let y ← Rd.u8; k x y : Rd α) m b =
      match Rd.u8 m b with
      | .ub => .ub
      | .throw e => .throw e
      | .ok (x, b) =>
        match Rd.u8 m b with
        | .ub => .ub
        | .throw e => .throw e
        | .ok (y, b) => k x y m b := by
    intro α k b
    change Rd.bind Rd.u8 (fun x => Rd.bind Rd.u8 fun y => k x y) m b = _
    unfold Rd.bind
    cases Rd.u8 m b with
    | ub => rfl
    | throw e => rfl
    | ok p =>
      obtain ⟨x, b⟩ := p
      simp only
      cases Rd.u8 m b with
      | ub => rfl
      | throw e => rfl
      | ok p => rfl
  unfold Rd.from packetHead packet
  rw [e1, e1]
  cases Rd.u8 m (Buffer.ofData data) with
  | ub => exact ⟨fun _ h => (by cases h), fun _ => rfl⟩
  | throw e => exact ⟨fun _ h => (by cases h; rfl), fun h => (by cases h)⟩
  | ok p =>
    obtain ⟨x, b⟩ := p
    simp only
    cases Rd.u8 m b with
    | ub => exact ⟨fun _ h => (by cases h), fun _ => rfl⟩
    | throw e => exact ⟨fun _ h => (by cases h; rfl), fun h => (by cases h)⟩
    | ok p => exact ⟨fun _ h => (by cases h), fun h => (by cases h)⟩

/-- `SyncState` in the model without messages. -/
theorem create_plain {δ : Type} (m : Mem) (D : Device δ) (id : BitVec 16) (L : Link δ) :
    create m D id L = match D.answer (stateReq id) L.dev with
      | .ub => .ub
      | .throw d e => .throw ⟨d, L.sent ++ [stateReq id]⟩ e
      | .ok d resp =>
        let L : Link δ := ⟨d, L.sent ++ [stateReq id]⟩
        if resp.status = GeneralStatus.success then
          match Rd.u8.from m resp.data with
          | .ub => .ub
          | .throw e => .throw L e
          | .ok c =>
            if c = 0 then .ok L ⟨id, .nonexistent, []⟩
            else if c = 1 then .ok L ⟨id, .empty, []⟩
            else if c = 2 then .ok L ⟨id, .loaded, []⟩
            else if c = 3 ∨ c = 5 then .ok L ⟨id, .loaded, []⟩
            else .throw L (.runtime "Read unknown or unsupported state")
        else .throw L (.runtime "Failed load the state of File Object") := by
  unfold create
  rw [Prog.bind_run]
  unfold stateReq ask
  cases D.answer ⟨ServiceCode.getAttributeSingle, EPath.mk3 classId id 1, []⟩ L.dev with
  | ub => rfl
  | throw d e => rfl
  | ok d resp =>
    simp only
    by_cases h : resp.status = GeneralStatus.success
    · rw [if_pos h, if_pos h, Prog.bind_run]
      cases Rd.u8.from m resp.data with
      | ub => rfl
      | throw e => rfl
      | ok c =>
        simp only [Prog.lift_ok]
        by_cases h0 : c = 0
        · rw [if_pos h0, if_pos h0]; rfl
        rw [if_neg h0, if_neg h0]
        by_cases h1 : c = 1
        · rw [if_pos h1, if_pos h1]; rfl
        rw [if_neg h1, if_neg h1]
        by_cases h2 : c = 2
        · rw [if_pos h2, if_pos h2]; rfl
        rw [if_neg h2, if_neg h2]
        by_cases h3 : c = 3 ∨ c = 5
        · rw [if_pos h3, if_pos h3]; rfl
        rw [if_neg h3, if_neg h3]
        rfl
    · rw [if_neg h, if_neg h]; rfl

/-- `create_cases`, the constructor with its messages. -/
theorem create_cases {δ : Type} (m : Mem) (D : Device δ) (id : BitVec 16) (L : Link δ) (ls : List LogLine) :
    createSaid m D id (((), L), ls) =
      match syncSaid m D id unknownName (((), L), ls ++ [.file .debug id unknownName "Start".toList]) with
      | .ub => .ub
      | .throw t e => .throw (t.1, t.2 ++ [.file .trace id unknownName "Stop".toList]) e
      | .ok t st => .ok t ⟨id, st, []⟩ := by
  unfold createSaid
  rw [say_bind, Prog.bind_run]
  unfold sayIfThrown
  cases syncSaid m D id unknownName (((), L), ls ++ [.file .debug id unknownName "Start".toList]) <;> rfl

/-- `syncState` with its messages. -/
theorem resync_cases {δ : Type} (m : Mem) (D : Device δ) (f : FileObject) (L : Link δ) (ls : List LogLine) :
    syncStateSaid m D ((f, L), ls) =
      match syncSaid m D f.instanceId (stateName f.state) ((f, L), ls) with
      | .ub => .ub
      | .throw t e => .throw t e
      | .ok t st => .ok (({ t.1.1 with state := st }, t.1.2), t.2) () := by
  unfold syncStateSaid
  rw [Prog.bind_ok (Prog.get_run _)]
  simp only
  rw [Prog.bind_run]
  cases syncSaid m D f.instanceId (stateName f.state) ((f, L), ls) <;> rfl

/-- C125. Without its messages each function is the one of the other theorems about file objects. -/
theorem C125_same {δ : Type} (m : Mem) (D : Device δ) (f : FileObject) (L : Link δ) (ls : List LogLine) :
    (∀ id, saidEnd (createSaid m D id (((), L), ls)) = onLink (create m D id) ((), L)) ∧
    saidEnd (syncStateSaid m D ((f, L), ls)) = syncState m D (f, L) ∧
    (∀ h, saidEnd (beginUploadSaid m D h ((f, L), ls)) = beginUpload m D h (f, L)) ∧
    saidEnd (handleTransfersSaid m D ((f, L), ls)) = handleTransfers m D (f, L) := by
  refine ⟨fun id => ?_, ?_, fun h => ?_, ?_⟩
  · rw [create_cases, sync_cases]
    unfold onLink
    rw [create_plain]
    simp only
    cases D.answer (stateReq id) L.dev with
    | ub => rfl
    | throw d e => rfl
    | ok d resp =>
      simp only
      by_cases h : resp.status = GeneralStatus.success
      · rw [if_pos h, if_pos h]
        cases Rd.u8.from m resp.data with
        | ub => rfl
        | throw e => rfl
        | ok c =>
          simp only
          by_cases h0 : c = 0
          · rw [if_pos h0, if_pos h0]; rfl
          rw [if_neg h0, if_neg h0]
          by_cases h1 : c = 1
          · rw [if_pos h1, if_pos h1]; rfl
          rw [if_neg h1, if_neg h1]
          by_cases h2 : c = 2
          · rw [if_pos h2, if_pos h2]; rfl
          rw [if_neg h2, if_neg h2]
          by_cases h3 : c = 3 ∨ c = 5
          · rw [if_pos h3, if_pos h3]; rfl
          rw [if_neg h3, if_neg h3]
          rfl
      · rw [if_neg h, if_neg h]; rfl
  · rw [resync_cases, sync_cases]
    unfold syncState
    rw [Prog.bind_ok (Prog.get_run _)]
    simp only
    rw [Prog.bind_run]
    unfold onLink
    rw [create_plain]
    simp only
    cases D.answer (stateReq f.instanceId) L.dev with
    | ub => rfl
    | throw d e => rfl
    | ok d resp =>
      simp only
      by_cases h : resp.status = GeneralStatus.success
      · rw [if_pos h, if_pos h]
        cases Rd.u8.from m resp.data with
        | ub => rfl
        | throw e => rfl
        | ok c =>
          simp only
          by_cases h0 : c = 0
          · rw [if_pos h0, if_pos h0]; rfl
          rw [if_neg h0, if_neg h0]
          by_cases h1 : c = 1
          · rw [if_pos h1, if_pos h1]; rfl
          rw [if_neg h1, if_neg h1]
          by_cases h2 : c = 2
          · rw [if_pos h2, if_pos h2]; rfl
          rw [if_neg h2, if_neg h2]
          by_cases h3 : c = 3 ∨ c = 5
          · rw [if_pos h3, if_pos h3]; rfl
          rw [if_neg h3, if_neg h3]
          rfl
      · rw [if_neg h, if_neg h]; rfl
  · obtain ⟨id, st, calls⟩ := f
    rw [begin_cases]
    unfold beginUpload
    rw [Prog.bind_ok (Prog.get_run _)]
    cases st with
    | nonexistent => rfl
    | empty => rfl
    | uploading u => rfl
    | loaded =>
      simp only
      rw [Prog.bind_run, ask_plain]
      unfold beginReq
      simp only
      cases D.answer ⟨initiateUpload, EPath.mk2 classId id, [maxTransferSize]⟩ L.dev with
      | ub => rfl
      | throw d e => rfl
      | ok d resp =>
        simp only
        by_cases hs : resp.status = GeneralStatus.success
        · rw [if_pos hs, if_pos hs, Prog.bind_run]
          cases announced.from m resp.data with
          | ub => rfl
          | throw e => rfl
          | ok x => obtain ⟨a, b⟩ := x; rfl
        · rw [if_neg hs, if_neg hs]; rfl
  · obtain ⟨id, st, calls⟩ := f
    rw [transfer_cases]
    unfold handleTransfers
    rw [Prog.bind_ok (Prog.get_run _)]
    cases st with
    | nonexistent => rfl
    | empty => rfl
    | loaded => rfl
    | uploading u =>
      simp only
      rw [Prog.bind_run, ask_plain]
      unfold packetReq
      simp only
      cases D.answer ⟨uploadTransfer, EPath.mk2 classId id, [u.number]⟩ L.dev with
      | ub => rfl
      | throw d e => rfl
      | ok d resp =>
        simp only
        by_cases hs : resp.status = GeneralStatus.success
        · rw [if_pos hs, if_pos hs, Prog.bind_run]
          obtain ⟨h1, h2⟩ := head_of_packet m u.number u.transferSize resp.data.length resp.data
          cases hh : packetHead.from m resp.data with
          | ub => rw [h2 hh]; rfl
          | throw e => rw [h1 e hh]; rfl
          | ok x =>
            simp only
            cases (packet u.number u.transferSize resp.data.length).from m resp.data with
            | ub => rfl
            | throw e => rfl
            | ok p =>
              simp only [Prog.lift_ok]
              cases p with
              | wrongNumber => rfl
              | more data => rfl
              | last data =>
                simp only
                by_cases hl : (u.content ++ data).length = u.fileSize.toNat
                · rw [if_pos hl, if_pos hl]; rfl
                · rw [if_neg hl, if_neg hl]; rfl
        · rw [if_neg hs, if_neg hs]; rfl

/-! ## What the messages tell -/

theorem lives_append (a b : List LogLine) : livesIn (a ++ b) = livesIn a ++ livesIn b := by simp [livesIn]
theorem asked_append (a b : List LogLine) : requestsIn (a ++ b) = requestsIn a ++ requestsIn b := by simp [requestsIn]
theorem errors_append (a b : List LogLine) : errorsIn (a ++ b) = errorsIn a ++ errorsIn b := by simp [errorsIn]
theorem failures_append (a b : List UploadCall) : failuresIn (a ++ b) = failuresIn a ++ failuresIn b := by simp [failuresIn]

/-- What holds of the object and its messages at all times. -/
structure Faithful {δ : Type} (id : BitVec 16) (s : Said FileObject δ) : Prop where
  same : s.1.1.instanceId = id
  states : ∃ evs, livesIn s.2 = (true, "UNKNOWN".toList) :: evs ∧ Replaces "UNKNOWN".toList evs (stateName s.1.1.state)
  requests : requestsIn s.2 = s.1.2.sent.map fun r => (r.service, r.path)
  failures : List.Forall₂ (Tells id) (errorsIn s.2) (failuresIn s.1.1.calls)

/-- What a call adds: messages `more`, requests `rs`, calls `cs`. -/
theorem Faithful.add {δ : Type} {id : BitVec 16} {f g : FileObject} {L L' : Link δ} {ls more : List LogLine} {rs : List Req} {cs : List UploadCall}
    (h : Faithful id ((f, L), ls)) (hid : g.instanceId = id)
    (hst : (livesIn more = [] ∧ stateName g.state = stateName f.state) ∨
      livesIn more = [(true, stateName g.state), (false, stateName f.state)])
    (hL : L'.sent = L.sent ++ rs) (hr : requestsIn more = rs.map fun r => (r.service, r.path))
    (hc : g.calls = f.calls ++ cs) (he : List.Forall₂ (Tells id) (errorsIn more) (failuresIn cs)) :
    Faithful id ((g, L'), ls ++ more) := by
  obtain ⟨h1, ⟨evs, h2, h3⟩, h4, h5⟩ := h
  refine ⟨hid, ?_, ?_, ?_⟩
  · rcases hst with ⟨ha, hb⟩ | ha
    · exact ⟨evs, by simp only [lives_append, ha, List.append_nil, h2], by simpa only [hb] using h3⟩
    · exact ⟨evs ++ [(true, stateName g.state), (false, stateName f.state)], by simp only [lives_append, ha, h2, List.cons_append], .next h3⟩
  · simp only [asked_append, h4, hL, hr, List.map_append]
  · simp only [errors_append, hc, failures_append]
    exact List.rel_append h5 he

theorem lives_of_start (l : LogLevel) (id : BitVec 16) (n : List Char) : livesIn [.file l id n "Start".toList] = [(true, n)] := rfl
theorem lives_of_stop (l : LogLevel) (id : BitVec 16) (n : List Char) : livesIn [.file l id n "Stop".toList] = [(false, n)] := rfl

theorem lives_of_type (l : LogLevel) (id : BitVec 16) (n t : List Char) :
    livesIn [.file l id n ("Receive transfer packet type=".toList ++ t)] = [] := by
  simp [livesIn]

/-- The outcome of `SyncState` and what it adds. -/
theorem sync_adds {ο δ : Type} (m : Mem) (D : Device δ) (id : BitVec 16) (old : List Char) (x : ο) (L : Link δ) (ls : List LogLine) :
    (∀ t st, syncSaid m D id old ((x, L), ls) = .ok t st → t.1.1 = x ∧ t.1.2.sent = L.sent ++ [stateReq id] ∧
      ∃ more, t.2 = ls ++ more ∧ livesIn more = [(true, stateName st), (false, old)] ∧
        requestsIn more = [((stateReq id).service, (stateReq id).path)] ∧ errorsIn more = []) ∧
    (∀ t e, syncSaid m D id old ((x, L), ls) = .throw t e → t.1.1 = x ∧ t.1.2.sent = L.sent ++ [stateReq id] ∧
      t.2 = ls ++ [.request (stateReq id).service (stateReq id).path]) := by
  rw [sync_cases]
  simp only
  cases D.answer (stateReq id) L.dev with
  | ub => exact ⟨fun _ _ h => (by cases h), fun _ _ h => (by cases h)⟩
  | throw d e => exact ⟨fun _ _ h => (by cases h), fun _ _ h => (by cases h; exact ⟨rfl, rfl, rfl⟩)⟩
  | ok d resp =>
    simp only
    by_cases h : resp.status = GeneralStatus.success
    · rw [if_pos h]
      cases Rd.u8.from m resp.data with
      | ub => exact ⟨fun _ _ h => (by cases h), fun _ _ h => (by cases h)⟩
      | throw e => exact ⟨fun _ _ h => (by cases h), fun _ _ h => (by cases h; exact ⟨rfl, rfl, rfl⟩)⟩
      | ok c =>
        simp only
        by_cases h0 : c = 0
        · rw [if_pos h0]
          exact ⟨fun _ _ h => (by cases h; exact ⟨rfl, rfl, _, List.append_assoc _ _ _, rfl, rfl, rfl⟩), fun _ _ h => (by cases h)⟩
        rw [if_neg h0]
        by_cases h1 : c = 1
        · rw [if_pos h1]
          exact ⟨fun _ _ h => (by cases h; exact ⟨rfl, rfl, _, List.append_assoc _ _ _, rfl, rfl, rfl⟩), fun _ _ h => (by cases h)⟩
        rw [if_neg h1]
        by_cases h2 : c = 2
        · rw [if_pos h2]
          exact ⟨fun _ _ h => (by cases h; exact ⟨rfl, rfl, _, List.append_assoc _ _ _, rfl, rfl, rfl⟩), fun _ _ h => (by cases h)⟩
        rw [if_neg h2]
        by_cases h3 : c = 3 ∨ c = 5
        · rw [if_pos h3]
          exact ⟨fun _ _ h => (by cases h; exact ⟨rfl, rfl, _, List.append_assoc _ _ _, rfl, rfl, rfl⟩), fun _ _ h => (by cases h)⟩
        rw [if_neg h3]
        exact ⟨fun _ _ h => (by cases h), fun _ _ h => (by cases h; exact ⟨rfl, rfl, rfl⟩)⟩
    · rw [if_neg h]
      exact ⟨fun _ _ h => (by cases h), fun _ _ h => (by cases h; exact ⟨rfl, rfl, rfl⟩)⟩

theorem faithful_create {δ : Type} (m : Mem) (D : Device δ) (id : BitVec 16) (L : Link δ) (hL : L.sent = []) (t : Said Unit δ) (f : FileObject)
    (h : createSaid m D id (((), L), []) = .ok t f) : Faithful id ((f, t.1.2), t.2) := by
  rw [create_cases] at h
  obtain ⟨h1, _⟩ := sync_adds m D id unknownName () L [.file .debug id unknownName "Start".toList]
  rw [List.nil_append] at h
  cases hs : syncSaid m D id unknownName (((), L), [.file .debug id unknownName "Start".toList]) with
  | ub => rw [hs] at h; cases h
  | throw t e => rw [hs] at h; cases h
  | ok u st =>
    rw [hs] at h
    cases h
    obtain ⟨_, h2, more, h3, h4, h5, h6⟩ := h1 _ _ hs
    refine ⟨rfl, ⟨[(true, stateName st), (false, unknownName)], ?_, ?_⟩, ?_, ?_⟩
    · simp only [h3, lives_append, h4, lives_of_start]; rfl
    · exact .next (l := []) (.same _)
    · simp only [h3, asked_append, h5, h2, hL]; rfl
    · simp only [h3, errors_append, h6]; exact .nil

theorem faithful_step {δ : Type} (m : Mem) (D : Device δ) (id : BitVec 16) (s t : Said FileObject δ) (op : FileOp)
    (hF : Faithful id s) (h : stepSaid m D s op = some t) : Faithful id t := by
  obtain ⟨⟨f, L⟩, ls⟩ := s
  have hid := hF.same
  simp only at hid
  cases op with
  | sync =>
    unfold stepSaid at h
    simp only at h
    rw [resync_cases] at h
    obtain ⟨h1, h2⟩ := sync_adds m D f.instanceId (stateName f.state) f L ls
    cases hs : syncSaid m D f.instanceId (stateName f.state) ((f, L), ls) with
    | ub => rw [hs] at h; cases h
    | throw t e =>
      rw [hs] at h; cases h
      obtain ⟨e1, e2, e3⟩ := h2 _ _ hs
      obtain ⟨⟨g, L'⟩, ls'⟩ := t
      simp only at e1 e2 e3
      rw [e1, e3]
      exact hF.add hid (.inl ⟨rfl, rfl⟩) e2 rfl (List.append_nil _).symm .nil
    | ok t st =>
      rw [hs] at h; cases h
      obtain ⟨e1, e2, more, e3, e4, e5, e6⟩ := h1 _ _ hs
      obtain ⟨⟨g, L'⟩, ls'⟩ := t
      simp only at e1 e2 e3
      rw [e1, e3]
      exact hF.add hid (.inr e4) e2 e5 (List.append_nil _).symm (by rw [e6]; exact .nil)
  | begin hd =>
    unfold stepSaid at h
    simp only at h
    rw [begin_cases] at h
    obtain ⟨i, st, calls⟩ := f
    simp only at hid
    subst hid
    cases st with
    | nonexistent => cases h; exact hF.add (rs := []) rfl (.inl ⟨rfl, rfl⟩) (List.append_nil _).symm rfl (List.append_nil _).symm .nil
    | empty => cases h; exact hF.add (rs := []) rfl (.inl ⟨rfl, rfl⟩) (List.append_nil _).symm rfl (List.append_nil _).symm .nil
    | uploading u => cases h; exact hF.add (rs := []) rfl (.inl ⟨rfl, rfl⟩) (List.append_nil _).symm rfl (List.append_nil _).symm .nil
    | loaded =>
      simp only at h
      cases ha : D.answer (beginReq i) L.dev with
      | ub => rw [ha] at h; cases h
      | throw d e =>
        rw [ha] at h; cases h
        simp only [List.append_assoc]
        exact hF.add rfl (.inl ⟨rfl, rfl⟩) rfl rfl (List.append_nil _).symm .nil
      | ok d resp =>
        rw [ha] at h
        simp only at h
        by_cases hs : resp.status = GeneralStatus.success
        · rw [if_pos hs] at h
          cases hx : announced.from m resp.data with
          | ub => rw [hx] at h; cases h
          | throw e =>
            rw [hx] at h; cases h
            simp only [List.append_assoc]
            exact hF.add rfl (.inl ⟨rfl, rfl⟩) rfl rfl (List.append_nil _).symm .nil
          | ok x =>
            obtain ⟨a, b⟩ := x
            rw [hx] at h; cases h
            simp only [List.append_assoc]
            exact hF.add rfl (.inr rfl) rfl rfl (List.append_nil _).symm .nil
        · rw [if_neg hs] at h; cases h
          simp only [List.append_assoc]
          refine hF.add rfl (.inl ⟨rfl, rfl⟩) rfl rfl rfl ?_
          have e1 : failuresIn [⟨hd, resp.status, []⟩] = [⟨hd, resp.status, []⟩] := by simp [failuresIn, hs]
          rw [e1]
          exact .cons (.inl ⟨resp, rfl, rfl⟩) .nil
  | transfer =>
    unfold stepSaid at h
    simp only at h
    rw [transfer_cases] at h
    obtain ⟨i, st, calls⟩ := f
    simp only at hid
    subst hid
    cases st with
    | nonexistent => cases h; exact hF.add (rs := []) rfl (.inl ⟨rfl, rfl⟩) (List.append_nil _).symm rfl (List.append_nil _).symm .nil
    | empty => cases h; exact hF.add (rs := []) rfl (.inl ⟨rfl, rfl⟩) (List.append_nil _).symm rfl (List.append_nil _).symm .nil
    | loaded => cases h; exact hF
    | uploading u =>
      simp only at h
      cases ha : D.answer (packetReq i u) L.dev with
      | ub => rw [ha] at h; cases h
      | throw d e =>
        rw [ha] at h; cases h
        exact hF.add rfl (.inl ⟨rfl, rfl⟩) rfl rfl (List.append_nil _).symm .nil
      | ok d resp =>
        rw [ha] at h
        simp only at h
        by_cases hs : resp.status = GeneralStatus.success
        · rw [if_pos hs] at h
          cases hx : packetHead.from m resp.data with
          | ub => rw [hx] at h; cases h
          | throw e =>
            rw [hx] at h; cases h
            exact hF.add rfl (.inl ⟨rfl, rfl⟩) rfl rfl (List.append_nil _).symm .nil
          | ok x =>
            obtain ⟨a, b⟩ := x
            rw [hx] at h
            simp only at h
            have lt : ∀ (n : List Char) more, livesIn more = [] →
                livesIn ([.request uploadTransfer (EPath.mk2 classId i)] ++ ([.file .debug i n ("Receive transfer packet type=".toList ++ Nat.toDigits 10 b.toNat)] ++ more)) = [] := by
              intro n more hm
              rw [lives_append, lives_append, hm, lives_of_type]; rfl
            cases hp : (packet u.number u.transferSize resp.data.length).from m resp.data with
            | ub => rw [hp] at h; cases h
            | throw e =>
              rw [hp] at h; cases h
              rw [List.append_assoc]
              exact hF.add rfl (.inl ⟨lt _ [] rfl, rfl⟩) rfl rfl (List.append_nil _).symm .nil
            | ok p =>
              rw [hp] at h
              cases p with
              | wrongNumber =>
                cases h
                simp only [List.append_assoc]
                exact hF.add rfl (.inl ⟨lt _ _ rfl, rfl⟩) rfl rfl rfl (.cons (.inr ⟨rfl, .inl rfl⟩) .nil)
              | more data =>
                cases h
                simp only [List.append_assoc]
                exact hF.add rfl (.inl ⟨lt _ [] rfl, rfl⟩) rfl rfl (List.append_nil _).symm .nil
              | last data =>
                simp only at h
                by_cases hl : (u.content ++ data).length = u.fileSize.toNat
                · rw [if_pos hl] at h
                  cases h
                  simp only [List.append_assoc]
                  exact hF.add rfl (.inl ⟨lt _ [] rfl, rfl⟩) rfl rfl rfl .nil
                · rw [if_neg hl] at h
                  cases h
                  simp only [List.append_assoc]
                  exact hF.add rfl (.inl ⟨lt _ _ rfl, rfl⟩) rfl rfl rfl (.cons (.inr ⟨rfl, .inr rfl⟩) .nil)
        · rw [if_neg hs] at h; cases h
          simp only [List.append_assoc]
          refine hF.add rfl (.inl ⟨rfl, rfl⟩) rfl rfl rfl ?_
          have e1 : failuresIn [⟨u.handler, resp.status, []⟩] = [⟨u.handler, resp.status, []⟩] := by simp [failuresIn, hs]
          rw [e1]
          exact .cons (.inl ⟨resp, rfl, rfl⟩) .nil

theorem faithful_run {δ : Type} (m : Mem) (D : Device δ) (id : BitVec 16) (ops : List FileOp) : ∀ (s t : Said FileObject δ),
    Faithful id s → runSaid m D s ops = some t → Faithful id t := by
  induction ops with
  | nil => intro s t hF h; cases h; exact hF
  | cons op ops ih =>
    intro s t hF h
    unfold runSaid at h
    cases hs : stepSaid m D s op with
    | none => rw [hs] at h; cases h
    | some u => rw [hs] at h; exact ih u t (faithful_step m D id s u op hF hs) h

theorem lives_faithful {δ : Type} {m : Mem} {D : Device δ} {id : BitVec 16} {ops : List FileOp} {s : Said FileObject δ}
    (h : FileLife m D id ops s) : Faithful id s := by
  obtain ⟨d, t, f, h1, h2⟩ := h
  exact faithful_run m D id ops _ _ (faithful_create m D id ⟨d, []⟩ rfl t f h1) h2

theorem name_of_code (f : FileObject) : stateName f.state = nameOf f.stateCode := by
  obtain ⟨i, st, c⟩ := f
  cases st <;> rfl

theorem replaces_counts {a b : List Char} {evs : List (Bool × List Char)} (h : Replaces a evs b) (n : List Char) :
    (((true, a) :: evs ++ [(false, b)]).count (true, n)) = (((true, a) :: evs ++ [(false, b)]).count (false, n)) := by
  induction h with
  | same => simp [List.count_cons]
  | @next b c l _ ih =>
    simp only [List.cons_append, List.count_cons, List.count_append, List.count_nil] at ih ⊢
    by_cases h1 : a = n <;> by_cases h2 : b = n <;> by_cases h3 : c = n <;> simp_all

/-- C125. In all histories: the messages begin with the start of the state UNKNOWN; then each new state starts before the one it
replaces stops; the last one is the state that the object has. -/
theorem C125_states {δ : Type} (m : Mem) (D : Device δ) (id : BitVec 16) (ops : List FileOp) (s : Said FileObject δ)
    (h : FileLife m D id ops s) : ∃ evs, livesIn s.2 = (true, "UNKNOWN".toList) :: evs ∧ Replaces "UNKNOWN".toList evs (nameOf s.1.1.stateCode) := by
  obtain ⟨evs, h1, h2⟩ := (lives_faithful h).states
  exact ⟨evs, h1, by rw [← name_of_code]; exact h2⟩

/-- C125. Once the object is destroyed, each state has stopped as often as it has started. -/
theorem C125_balanced {δ : Type} (m : Mem) (D : Device δ) (id : BitVec 16) (ops : List FileOp) (s : Said FileObject δ)
    (h : FileLife m D id ops s) (n : List Char) :
    (livesIn (s.2 ++ destroySaid s.1.1)).count (true, n) = (livesIn (s.2 ++ destroySaid s.1.1)).count (false, n) := by
  obtain ⟨evs, h1, h2⟩ := (lives_faithful h).states
  have e : livesIn (destroySaid s.1.1) = [(false, stateName s.1.1.state)] := rfl
  rw [lives_append, h1, e]
  exact replaces_counts h2 n

/-- C125. A constructor that throws has told the start and the end of the one state there was. -/
theorem C125_failed {δ : Type} (m : Mem) (D : Device δ) (id : BitVec 16) (L : Link δ) (t : Said Unit δ) (e : Exn)
    (h : createSaid m D id (((), L), []) = .throw t e) :
    livesIn t.2 = [(true, "UNKNOWN".toList), (false, "UNKNOWN".toList)] ∧ errorsIn t.2 = [] := by
  rw [create_cases] at h
  obtain ⟨_, h2⟩ := sync_adds m D id unknownName () L [.file .debug id unknownName "Start".toList]
  rw [List.nil_append] at h
  cases hs : syncSaid m D id unknownName (((), L), [.file .debug id unknownName "Start".toList]) with
  | ub => rw [hs] at h; cases h
  | ok t st => rw [hs] at h; cases h
  | throw u e =>
    rw [hs] at h; cases h
    obtain ⟨_, _, h3⟩ := h2 _ _ hs
    simp only [h3]
    exact ⟨rfl, rfl⟩

/-- C125. In all histories: the messages about requests are the requests that were sent, all of them and in order. -/
theorem C125_requests {δ : Type} (m : Mem) (D : Device δ) (id : BitVec 16) (ops : List FileOp) (s : Said FileObject δ)
    (h : FileLife m D id ops s) : requestsIn s.2 = s.1.2.sent.map fun r => (r.service, r.path) :=
  (lives_faithful h).requests

/-- C125. In all histories: there is one error for each call of a handler with a failure, in order, and it tells that failure. -/
theorem C125_failures {δ : Type} (m : Mem) (D : Device δ) (id : BitVec 16) (ops : List FileOp) (s : Said FileObject δ)
    (h : FileLife m D id ops s) : List.Forall₂ (Tells id) (errorsIn s.2) (failuresIn s.1.1.calls) :=
  (lives_faithful h).failures

/-- C125. An object whose file does not exist or is empty sends nothing, calls no handler and stays as it is; there is one message, a
warning with the name of the state. -/
theorem C125_ignored {δ : Type} (m : Mem) (D : Device δ) (f : FileObject) (L : Link δ) (ls : List LogLine)
    (hf : f.stateCode = 0 ∨ f.stateCode = 1) :
    (∀ h, beginUploadSaid m D h ((f, L), ls) =
      .ok ((f, L), ls ++ [.file .warning f.instanceId (nameOf f.stateCode) "File cannot be uploaded".toList]) ()) ∧
    handleTransfersSaid m D ((f, L), ls) =
      .ok ((f, L), ls ++ [.file .warning f.instanceId (nameOf f.stateCode) "Nothing to transfer".toList]) false := by
  obtain ⟨i, st, c⟩ := f
  cases st with
  | nonexistent => exact ⟨fun h => by rw [begin_cases]; rfl, by rw [transfer_cases]; rfl⟩
  | empty => exact ⟨fun h => by rw [begin_cases]; rfl, by rw [transfer_cases]; rfl⟩
  | loaded => simp [stateCode] at hf
  | uploading u => simp [stateCode] at hf

theorem u8_first (m : Mem) (c : BitVec 8) (rest : List Byte) : Rd.u8.from m (c :: rest) = .ok c := by
  simp [Rd.from, Rd.u8, Buffer.ofData]

/-- C125. When the device tells its state, the object is synchronized with it, and warns that an upload has to begin again exactly when
the device says that one is going on. -/
theorem C125_resync {δ : Type} (m : Mem) (D : Device δ) (f : FileObject) (L : Link δ) (ls : List LogLine) (d : δ) (resp : MessageRouterResponse)
    (c : BitVec 8) (rest : List Byte) (ha : D.answer (stateReq f.instanceId) L.dev = .ok d resp) (hs : resp.status = GeneralStatus.success)
    (hd : resp.data = c :: rest) (t : Said FileObject δ) (h : syncStateSaid m D ((f, L), ls) = .ok t ()) :
    ∃ more, t.2 = ls ++ more ∧ t.1.1.stateCode = (if c = 3 ∨ c = 5 then 2 else c) ∧
      (more.filter fun l => l.level = .warning) = if c = 3 ∨ c = 5 then
        [.file .warning f.instanceId (nameOf f.stateCode) "File is uploading. We need to re-initialize the uploading".toList] else [] := by
  rw [resync_cases, sync_cases] at h
  simp only [ha] at h
  rw [if_pos hs, hd, u8_first] at h
  simp only at h
  rw [name_of_code] at h
  by_cases h0 : c = 0
  · rw [if_pos h0] at h; cases h; subst h0
    exact ⟨_, List.append_assoc _ _ _, rfl, rfl⟩
  rw [if_neg h0] at h
  by_cases h1 : c = 1
  · rw [if_pos h1] at h; cases h; subst h1
    exact ⟨_, List.append_assoc _ _ _, rfl, rfl⟩
  rw [if_neg h1] at h
  by_cases h2 : c = 2
  · rw [if_pos h2] at h; cases h; subst h2
    exact ⟨_, List.append_assoc _ _ _, rfl, rfl⟩
  rw [if_neg h2] at h
  by_cases h3 : c = 3 ∨ c = 5
  · rw [if_pos h3] at h; cases h
    refine ⟨_, List.append_assoc _ _ _, by rw [if_pos h3]; rfl, by rw [if_pos h3]; rfl⟩
  · rw [if_neg h3] at h; cases h

theorem head_of_bytes (m : Mem) (n t : BitVec 8) (rest : List Byte) : packetHead.from m (n :: t :: rest) = .ok (n, t) := by
  simp [Rd.from, packetHead, Rd.u8, Buffer.ofData, Bind.bind, Rd.bind, Pure.pure, Rd.pure]

/-- C125. Whatever becomes of a packet, before it there are the request and a message with the type of the packet. -/
theorem C125_packets {δ : Type} (m : Mem) (D : Device δ) (f : FileObject) (u : Upload) (hf : f.state = .uploading u) (L : Link δ)
    (ls : List LogLine) (d : δ) (resp : MessageRouterResponse) (n type : BitVec 8) (rest : List Byte)
    (ha : D.answer (packetReq f.instanceId u) L.dev = .ok d resp) (hs : resp.status = GeneralStatus.success)
    (hd : resp.data = n :: type :: rest) (hub : handleTransfersSaid m D ((f, L), ls) ≠ .ub) :
    ∃ l more, saidLines (handleTransfersSaid m D ((f, L), ls)) = ls ++ [.request uploadTransfer (EPath.mk2 classId f.instanceId), l] ++ more ∧
      l.level = .debug ∧ decAfter "type=" l.text = some type.toNat ∧ more = errorsIn more ∧ more.length ≤ 1 := by
  have htype : ∀ name : List Char, name = "TRANSFER_UPLOAD_IN_PROGRESS".toList → decAfter "type="
      (LogLine.file .debug f.instanceId name ("Receive transfer packet type=".toList ++ Nat.toDigits 10 type.toNat)).text = some type.toNat := by
    intro name hn
    subst hn
    simp [LogLine.text, LogLine.inserted, OStream.render, OStream.put, OStream.digits, decAfter, textAfter, after_hex, digitValue,
      dec_end]
  rw [transfer_cases] at hub ⊢
  rw [hf] at hub ⊢
  simp only [ha] at hub ⊢
  rw [if_pos hs, hd, head_of_bytes] at hub ⊢
  simp only at hub ⊢
  cases hp : (packet u.number u.transferSize (n :: type :: rest).length).from m (n :: type :: rest) with
  | ub => rw [hp] at hub; exact absurd rfl hub
  | throw e => exact ⟨_, [], by simp only [saidLines, List.append_assoc, List.append_nil]; rfl, rfl, htype _ rfl, rfl, by simp⟩
  | ok p =>
    cases p with
    | wrongNumber => exact ⟨_, _, by simp only [saidLines, List.append_assoc]; rfl, rfl, htype _ rfl, rfl, by simp⟩
    | more data => exact ⟨_, [], by simp only [saidLines, List.append_assoc, List.append_nil]; rfl, rfl, htype _ rfl, rfl, by simp⟩
    | last data =>
      simp only
      by_cases hl : (u.content ++ data).length = u.fileSize.toNat
      · rw [if_pos hl]; exact ⟨_, [], by simp only [saidLines, List.append_assoc, List.append_nil]; rfl, rfl, htype _ rfl, rfl, by simp⟩
      · rw [if_neg hl]; exact ⟨_, _, by simp only [saidLines, List.append_assoc]; rfl, rfl, htype _ rfl, rfl, by simp⟩

/-! ## What is not told -/

/-- C125. An upload that is begun while another is going on is not begun: nothing is sent, the new handler is not kept and not called; all
there is is a message of the level INFO, that is not shown where warnings are shown. -/
theorem C125_again_violated {δ : Type} (m : Mem) (D : Device δ) (f : FileObject) (hf : f.stateCode = 5) (h : Nat) (L : Link δ)
    (ls : List LogLine) : ∃ l, beginUploadSaid m D h ((f, L), ls) = .ok ((f, L), ls ++ [l]) () ∧ l.level = .info := by
  obtain ⟨i, st, c⟩ := f
  cases st with
  | uploading u => exact ⟨_, by rw [begin_cases], rfl⟩
  | nonexistent => simp [stateCode] at hf
  | empty => simp [stateCode] at hf
  | loaded => simp [stateCode] at hf

/-- C125. `handleTransfers` of a file that is loaded and not being uploaded says nothing. -/
theorem C125_loaded_violated {δ : Type} (m : Mem) (D : Device δ) (f : FileObject) (hf : f.stateCode = 2) (L : Link δ)
    (ls : List LogLine) : handleTransfersSaid m D ((f, L), ls) = .ok ((f, L), ls) false := by
  obtain ⟨i, st, c⟩ := f
  cases st with
  | loaded => rw [transfer_cases]
  | nonexistent => simp [stateCode] at hf
  | empty => simp [stateCode] at hf
  | uploading u => simp [stateCode] at hf

/-- C125. Whenever a call throws, there is no error in the log and no call of a handler: the upload ends without either. -/
theorem C125_thrown_violated {δ : Type} (m : Mem) (D : Device δ) (f : FileObject) (L : Link δ) (ls : List LogLine) (t : Said FileObject δ)
    (e : Exn) (h : handleTransfersSaid m D ((f, L), ls) = .throw t e ∨ (∃ hd, beginUploadSaid m D hd ((f, L), ls) = .throw t e) ∨
      syncStateSaid m D ((f, L), ls) = .throw t e) :
    t.1.1 = f ∧ errorsIn t.2 = errorsIn ls := by
  obtain ⟨i, st, c⟩ := f
  rcases h with h | ⟨hd, h⟩ | h
  · rw [transfer_cases] at h
    cases st with
    | nonexistent => cases h
    | empty => cases h
    | loaded => cases h
    | uploading u =>
      simp only at h
      cases ha : D.answer (packetReq i u) L.dev with
      | ub => rw [ha] at h; cases h
      | throw d e => rw [ha] at h; cases h; exact ⟨rfl, by rw [errors_append]; exact List.append_nil _⟩
      | ok d resp =>
        rw [ha] at h
        simp only at h
        by_cases hs : resp.status = GeneralStatus.success
        · rw [if_pos hs] at h
          cases hx : packetHead.from m resp.data with
          | ub => rw [hx] at h; cases h
          | throw e => rw [hx] at h; cases h; exact ⟨rfl, by rw [errors_append]; exact List.append_nil _⟩
          | ok x =>
            rw [hx] at h
            simp only at h
            cases hp : (packet u.number u.transferSize resp.data.length).from m resp.data with
            | ub => rw [hp] at h; cases h
            | throw e => rw [hp] at h; cases h; exact ⟨rfl, by rw [errors_append, errors_append, List.append_assoc]; exact List.append_nil _⟩
            | ok p =>
              rw [hp] at h
              cases p with
              | wrongNumber => cases h
              | more data => cases h
              | last data => simp only at h; split at h <;> cases h
        · rw [if_neg hs] at h; cases h
  · rw [begin_cases] at h
    cases st with
    | nonexistent => cases h
    | empty => cases h
    | uploading u => cases h
    | loaded =>
      simp only at h
      cases ha : D.answer (beginReq i) L.dev with
      | ub => rw [ha] at h; cases h
      | throw d e => rw [ha] at h; cases h; exact ⟨rfl, by rw [errors_append, errors_append, List.append_assoc]; exact List.append_nil _⟩
      | ok d resp =>
        rw [ha] at h
        simp only at h
        by_cases hs : resp.status = GeneralStatus.success
        · rw [if_pos hs] at h
          cases hx : announced.from m resp.data with
          | ub => rw [hx] at h; cases h
          | throw e => rw [hx] at h; cases h; exact ⟨rfl, by rw [errors_append, errors_append, List.append_assoc]; exact List.append_nil _⟩
          | ok x => rw [hx] at h; cases h
        · rw [if_neg hs] at h; cases h
  · rw [resync_cases] at h
    obtain ⟨_, h2⟩ := sync_adds m D i (stateName st) (⟨i, st, c⟩ : FileObject) L ls
    cases hs : syncSaid m D i (stateName st) (((⟨i, st, c⟩ : FileObject), L), ls) with
    | ub => rw [hs] at h; cases h
    | ok t st => rw [hs] at h; cases h
    | throw u e =>
      rw [hs] at h; cases h
      obtain ⟨e1, _, e3⟩ := h2 _ _ hs
      exact ⟨e1, by rw [e3, errors_append]; exact List.append_nil _⟩

/-- C125. The status with which a device refuses to tell the state of a file is told nowhere: with any two of them the messages and the
exception of the constructor are the same. -/
theorem C125_status_violated (m : Mem) (id : BitVec 16) (r₁ r₂ : MessageRouterResponse) (h₁ : r₁.status ≠ GeneralStatus.success)
    (h₂ : r₂.status ≠ GeneralStatus.success) (ls : List LogLine) :
    createSaid m (⟨fun _ => pure r₁⟩ : Device Unit) id (((), ⟨(), []⟩), ls) = createSaid m (⟨fun _ => pure r₂⟩ : Device Unit) id (((), ⟨(), []⟩), ls) := by
  rw [create_cases, create_cases, sync_cases, sync_cases]
  have e1 : ∀ r : MessageRouterResponse, ((pure r : Prog Unit MessageRouterResponse) ()) = .ok () r := fun _ => rfl
  simp only [e1]
  rw [if_neg h₁, if_neg h₂]

/-! ## Examples -/

/-- A device that answers from a list, and then no more. -/
def fileScript : Device (List MessageRouterResponse) :=
  ⟨fun _ s => match s with
    | [] => .throw [] (.runtime "closed")
    | r :: rs => .ok rs r⟩

/-- An answer. -/
def fileReply (status : BitVec 8) (data : List Byte) : MessageRouterResponse := { MessageRouterResponse.default with status := status, data := data }

/-- The messages of a constructor and the calls after it. -/
def fileStory (rs : List MessageRouterResponse) (ops : List FileOp) : Option (List (LogLevel × String) × List UploadCall) :=
  match createSaid Mem.strict fileScript 26 (((), ⟨rs, []⟩), []) with
  | .ok t f => (runSaid Mem.strict fileScript ((f, t.1.2), t.2) ops).map fun s => (s.2.map fun l => (l.level, String.ofList l.text), s.1.1.calls)
  | _ => none

/-- An upload of three bytes in one packet, after a first packet with a wrong number: the states, the requests and the error. -/
example : fileStory [fileReply 0 [2], fileReply 0 [3, 0, 0, 0, 255], fileReply 0 [1, 4, 7, 8, 9, 1, 1], fileReply 0 [0, 4, 7, 8, 9, 1, 1]]
    [.begin 1, .transfer, .transfer] = some (
    [(.debug, "FileObject=1a <UNKNOWN> Start"),
     (.info, "Send request: service=0xe epath=[classId=55 objectId=26 attributeId=1]"),
     (.debug, "FileObject=1a <FILE_LOADED> Start"),
     (.trace, "FileObject=1a <UNKNOWN> Stop"),
     (.info, "FileObject=1a <FILE_LOADED> Initiate upload"),
     (.info, "Send request: service=0x4b epath=[classId=55 objectId=26]"),
     (.debug, "FileObject=1a <TRANSFER_UPLOAD_IN_PROGRESS> Start"),
     (.trace, "FileObject=1a <FILE_LOADED> Stop"),
     (.info, "Send request: service=0x4f epath=[classId=55 objectId=26]"),
     (.debug, "FileObject=1a <TRANSFER_UPLOAD_IN_PROGRESS> Receive transfer packet type=4"),
     (.error, "FileObject=1a <TRANSFER_UPLOAD_IN_PROGRESS> Wrong transfer number"),
     (.info, "Send request: service=0x4f epath=[classId=55 objectId=26]"),
     (.debug, "FileObject=1a <TRANSFER_UPLOAD_IN_PROGRESS> Receive transfer packet type=4")],
    [⟨1, GeneralStatus.invalidParameter, []⟩, ⟨1, GeneralStatus.success, [7, 8, 9]⟩]) := by decide +kernel

/-- Histories as in the theorems: an upload in which a device has refused a packet, and the file read again. -/
example : ∃ s, FileLife Mem.strict fileScript 26 [.begin 1, .transfer, .sync] s ∧ s.1.1.stateCode = 2 ∧
    (failuresIn s.1.1.calls).length = 1 ∧ (errorsIn s.2).length = 1 ∧ s.1.2.sent.length = 4 := by
  have h : ∃ t f s, createSaid Mem.strict fileScript 26 (((), ⟨[fileReply 0 [2], fileReply 0 [3, 0, 0, 0, 255], fileReply 8 [], fileReply 0 [5]], []⟩), []) =
      .ok t f ∧ runSaid Mem.strict fileScript ((f, t.1.2), t.2) [.begin 1, .transfer, .sync] = some s ∧ s.1.1.stateCode = 2 ∧
    (failuresIn s.1.1.calls).length = 1 ∧ (errorsIn s.2).length = 1 ∧ s.1.2.sent.length = 4 := by
    refine ⟨_, _, _, rfl, rfl, rfl, rfl, rfl, rfl⟩
  obtain ⟨t, f, s, h1, h2, h3⟩ := h
  exact ⟨s, ⟨_, t, f, h1, h2⟩, h3⟩

/-- A history in which a packet of the unknown type 3 arrives: the call throws; nothing but a DEBUG message tells it, and no handler is called. -/
example : fileStory [fileReply 0 [2], fileReply 0 [3, 0, 0, 0, 255], fileReply 0 [0, 3, 7, 8, 9, 1, 1]] [.begin 1, .begin 2, .transfer] = some (
    [(.debug, "FileObject=1a <UNKNOWN> Start"),
     (.info, "Send request: service=0xe epath=[classId=55 objectId=26 attributeId=1]"),
     (.debug, "FileObject=1a <FILE_LOADED> Start"),
     (.trace, "FileObject=1a <UNKNOWN> Stop"),
     (.info, "FileObject=1a <FILE_LOADED> Initiate upload"),
     (.info, "Send request: service=0x4b epath=[classId=55 objectId=26]"),
     (.debug, "FileObject=1a <TRANSFER_UPLOAD_IN_PROGRESS> Start"),
     (.trace, "FileObject=1a <FILE_LOADED> Stop"),
     (.info, "FileObject=1a <TRANSFER_UPLOAD_IN_PROGRESS> Initiate upload of file again"),
     (.info, "Send request: service=0x4f epath=[classId=55 objectId=26]"),
     (.debug, "FileObject=1a <TRANSFER_UPLOAD_IN_PROGRESS> Receive transfer packet type=3")], []) := by decide +kernel

/-- A device that refuses: the constructor throws. -/
example : ∃ t e, createSaid Mem.strict fileScript 26 (((), ⟨[fileReply 5 []], []⟩), []) = .throw t e := ⟨_, _, rfl⟩

/-- The device says that the file is empty: one warning for each call. -/
example : (fileStory [fileReply 0 [1]] [.begin 1, .transfer]).map (fun p => p.1.drop 4) = some
    [(.warning, "FileObject=1a <FILE_EMPTY> File cannot be uploaded"), (.warning, "FileObject=1a <FILE_EMPTY> Nothing to transfer")] := by
  decide +kernel

end Verif.Props
