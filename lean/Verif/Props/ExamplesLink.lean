import Verif.Model.Examples
import Verif.Spec.Examples
import Verif.Props.File
import Verif.Props.Parameter
import Verif.Props.PowerFlex

/-!
# Property C96: the example programs that use explicit messages
-/

namespace Verif.Props

open Verif Verif.Spec Verif.Examples

variable {δ : Type}

theorem u16_short {data : List Byte} (h : data.length < 2) : Rd.u16.from Mem.strict data = .ub :=
  Rd.from_ub (Sized.u16.short (Buffer.ofData data) (by simp [Buffer.ofData]) (by simp [Buffer.ofData]; omega))

/-! ## ExplicitMessagingExample -/

theorem assembly_bytes : assembly151.bytes = [1, 2, 3, 4, 5, 6, 7, 8, 9, 10] := by decide

/-- The line about the vendor. -/
def vendorLine (r : MessageRouterResponse) : Line :=
  if r.status = 0x00#8 then .vendor (BitVec.ofNat 16 (field r.data 0 2)) else .failed r.status
/-- The line about the write. -/
def writtenLine (r : MessageRouterResponse) : Line := if r.status = 0x00#8 then .written else .failed r.status

theorem explicit_write (D : Device δ) (ls : List Line) (L : Link δ) :
    explicitWrite D (ls, L) =
      match D.answer assemblyReq L.dev with
      | .ub => .ub
      | .throw d e => .throw (ls, ⟨d, L.sent ++ [assemblyReq]⟩) e
      | .ok d r => .ok (ls ++ [writtenLine r], ⟨d, L.sent ++ [assemblyReq]⟩) 0 := by
  have hq : (⟨ServiceCode.setAttributeSingle, EPath.mk3 0x04 151 3, assembly151.bytes⟩ : Req) = assemblyReq := by
    rw [assembly_bytes]; rfl
  unfold explicitWrite
  rw [hq]
  match h : D.answer assemblyReq L.dev with
  | .ub => exact Prog.bind_ub (onLink_ub (ask_ub h))
  | .throw d e => exact Prog.bind_throw (onLink_throw (ask_throw h))
  | .ok d r =>
    refine (Prog.bind_ok (onLink_ok (ask_ok h))).trans ?_
    by_cases hs : r.status = 0x00#8
    · rw [if_pos (show _ = GeneralStatus.success from hs)]
      simp only [writtenLine, if_pos hs]
      rfl
    · rw [if_neg (show ¬ _ = GeneralStatus.success from hs)]
      simp only [writtenLine, if_neg hs]
      rfl

/-- C96. What the explicit messaging example does, whatever the device does: it asks for the
vendor and then writes the assembly, and reports each answer; if there is no answer it ends there by
the exception; it reads out of bounds exactly if the vendor is announced with success but has fewer than
two bytes. -/
theorem C96_explicit (m : Mem) (D : Device δ) (L : Link δ) :
    (∀ d e, D.answer vendorReq L.dev = .throw d e →
      explicitMain m D ([], L) = .throw ([], ⟨d, L.sent ++ [vendorReq]⟩) e) ∧
    (∀ d r, D.answer vendorReq L.dev = .ok d r →
      (r.status = 0x00#8 → r.data.length < 2 → explicitMain Mem.strict D ([], L) = .ub) ∧
      (¬ (r.status = 0x00#8 ∧ r.data.length < 2) →
        (∀ d' e, D.answer assemblyReq d = .throw d' e →
          explicitMain m D ([], L) = .throw ([vendorLine r], ⟨d', L.sent ++ [vendorReq, assemblyReq]⟩) e) ∧
        (∀ d' r', D.answer assemblyReq d = .ok d' r' →
          explicitMain m D ([], L) =
            .ok ([vendorLine r, writtenLine r'], ⟨d', L.sent ++ [vendorReq, assemblyReq]⟩) 0))) := by
  refine ⟨fun d e h => Prog.bind_throw (onLink_throw (ask_throw (r := vendorReq) h)), fun d r h => ⟨fun hs hl => ?_, fun hn => ?_⟩⟩
  · refine (Prog.bind_ok (onLink_ok (ask_ok (r := vendorReq) h))).trans ?_
    rw [if_pos (show _ = GeneralStatus.success from hs)]
    refine Prog.bind_ub ?_
    rw [u16_short hl]
    rfl
  · have key : explicitMain m D ([], L) = explicitWrite D ([vendorLine r], ⟨d, L.sent ++ [vendorReq]⟩) := by
      refine (Prog.bind_ok (onLink_ok (ask_ok (r := vendorReq) h))).trans ?_
      unfold vendorLine
      by_cases hs : r.status = 0x00#8
      · rw [if_pos (show _ = GeneralStatus.success from hs), if_pos hs,
          u16_from (show 2 ≤ r.data.length from Nat.le_of_not_lt fun hl => hn ⟨hs, hl⟩)]
        rfl
      · rw [if_neg (show ¬ _ = GeneralStatus.success from hs), if_neg hs]
        rfl
    rw [key, explicit_write]
    constructor
    · intro d' e h'
      rw [show D.answer assemblyReq (Link.mk d _).dev = _ from h']
      simp
    · intro d' r' h'
      rw [show D.answer assemblyReq (Link.mk d _).dev = _ from h']
      simp

/-! ## FileObjectExample -/

theorem fileLoop_of_transfers {m : Mem} {D : Device δ} {k : Nat} {s s' : FileObject × Link δ}
    (h : transfers m D (k + 1) s = .ok s' (List.replicate k true ++ [false])) (n : Nat) (hn : k + 1 ≤ n) :
    fileLoop m D n s = .ok s' true := by
  induction k generalizing s n with
  | zero =>
    obtain ⟨n, rfl⟩ : ∃ j, n = j + 1 := ⟨n - 1, by omega⟩
    obtain ⟨s1, b, h1, h⟩ := Prog.bind_eq_ok h
    obtain ⟨s2, bs, h2, h⟩ := Prog.bind_eq_ok h
    injection h with h3 h'
    simp at h'
    cases h2
    obtain ⟨rfl, _⟩ := h'
    subst h3
    exact (Prog.bind_ok h1).trans rfl
  | succ k ih =>
    obtain ⟨n, rfl⟩ : ∃ j, n = j + 1 := ⟨n - 1, by omega⟩
    obtain ⟨s1, b, h1, h⟩ := Prog.bind_eq_ok h
    obtain ⟨s2, bs, h2, h⟩ := Prog.bind_eq_ok h
    injection h with h5 h'
    rw [List.replicate_succ, List.cons_append] at h'
    injection h' with h3 h4
    subst h3 h4 h5
    exact (Prog.bind_ok h1).trans (ih h2 n (by omega))

/-- C96. A device that has the file and sends it: the program ends with exit code 0 and `Device.eds` is the
file, after exactly the requests of one upload. -/
theorem C96_file (m : Mem) (D : Device δ) (L : Link δ) (state : BitVec 8)
    (hst : state = 2 ∨ state = 3 ∨ state = 5) (ts : Nat) (hts : ts < 256) (chunks : List (List Byte)) (last crc : List Byte)
    (hch : ∀ c ∈ chunks, c.length = ts) (hcrc : crc.length = 2) (hsize : (chunks.flatten ++ last).length < 2 ^ 32) (d' : δ)
    (hg : Grants D L.dev ((fileStateReq 0xC8, [state]) ::
      (fileBeginReq 0xC8, fileAnnounce (chunks.flatten ++ last).length ts) :: fileTransfers 0xC8 crc 0 chunks last) d')
    (n : Nat) (hn : chunks.length < n) :
    fileMain m D n L = .ran (.exited 0) ⟨d', L.sent ++ [fileStateReq 0xC8, fileBeginReq 0xC8] ++
      (List.range (chunks.length + 1)).map (fileNextReq 0xC8)⟩ (some (chunks.flatten ++ last)) := by
  obtain ⟨f1, L1, s2, f3, h1, h2, h3, h4⟩ := C59_upload m D L 0xC8 state hst ts hts chunks last crc hch hcrc hsize 0 d' hg
  unfold fileMain
  simp only [h1, h2, fileLoop_of_transfers h3 n hn]
  rw [h4]
  rfl

/-- Upload in progress, nothing reported but errors. -/
structure FilePending (inst : BitVec 16) (f : FileObject) (log : List Exchange) : Prop where
  id : f.instanceId = inst
  upload : ∀ u, f.state = .uploading u → ∃ n, u.number = BitVec.ofNat 8 n ∧
    UploadOf inst log u.fileSize.toNat u.transferSize.toNat n 0 u.content false
  errors : ∀ c ∈ f.calls, c.status ≠ 0x00#8

theorem eds_errors (calls : List UploadCall) (h : ∀ c ∈ calls, c.status ≠ 0x00#8) : deviceEds calls = none := by
  unfold deviceEds
  have : ∀ (calls : List UploadCall) (d : Option (List Byte)), (∀ c ∈ calls, c.status ≠ 0x00#8) → calls.foldl edsHandler d = d := by
    intro calls
    induction calls with
    | nil => intro d _; rfl
    | cons c cs ih =>
      intro d h
      rw [List.foldl_cons, ih _ fun x hx => h x (List.mem_cons_of_mem _ hx)]
      exact if_neg (h c (by simp))
  exact this calls none h

theorem eds_snoc (calls : List UploadCall) (c : UploadCall) (h : ∀ c ∈ calls, c.status ≠ 0x00#8) :
    deviceEds (calls ++ [c]) = if c.status = 0x00#8 then some c.content else none := by
  have := eds_errors calls h
  unfold deviceEds at this ⊢
  rw [List.foldl_append, this]
  rfl

/-- What the program can have written. -/
def Wrote (inst : BitVec 16) (log : List Exchange) (disk : Option (List Byte)) : Prop :=
  ∀ c, disk = some c → ∃ n ts, UploadOf inst log c.length ts n 1 c true

theorem pending_transfer {D : Device δ} {inst : BitVec 16} {f : FileObject} {L : Link (δ × List Exchange)}
    (hi : FilePending inst f L.dev.2) :
    (∀ f' L', FileObject.handleTransfers Mem.strict (recorded D) (f, L) = .ok (f', L') true → FilePending inst f' L'.dev.2) ∧
    (∀ f' L', FileObject.handleTransfers Mem.strict (recorded D) (f, L) = .ok (f', L') false → Wrote inst L'.dev.2 (deviceEds f'.calls)) ∧
    (∀ f' L' e, FileObject.handleTransfers Mem.strict (recorded D) (f, L) = .throw (f', L') e → deviceEds f'.calls = none) := by
  match hu : f.state with
  | .uploading u =>
    obtain ⟨ht, hub, hok⟩ := transfer_run Mem.strict (recorded D) L f u hu
    obtain ⟨n, hn, hup⟩ := hi.upload u hu
    have hreq : (⟨0x4F#8, ⟨0x37, f.instanceId, 0, 2⟩, [u.number]⟩ : Req) = fileNextReq inst n := by
      rw [hi.id, hn, fileNextReq, le_one_ofNat]
    have hle : le 1 u.number.toNat = le 1 n := by rw [le_one, hn, le_one_ofNat]
    match ha : (recorded D).answer ⟨0x4F#8, ⟨0x37, f.instanceId, 0, 2⟩, [u.number]⟩ L.dev with
    | .ub =>
      rw [hub ha]
      exact ⟨fun _ _ h => (by cases h), fun _ _ h => (by cases h), fun _ _ _ h => (by cases h)⟩
    | .throw d e =>
      rw [ht d e ha]
      refine ⟨fun _ _ h => (by cases h), fun _ _ h => (by cases h), fun _ _ _ h => ?_⟩
      injection h with h _; injection h with h _; subst h
      exact eds_errors _ hi.errors
    | .ok d resp =>
      have hlog := recorded_ok ha
      rw [hreq] at hlog
      obtain ⟨hbad, hgood⟩ := hok d resp ha
      by_cases hst : resp.status = 0x00#8
      · rw [hgood hst]
        match hp : (FileObject.packet u.number u.transferSize resp.data.length).from Mem.strict resp.data with
        | .ub => exact ⟨fun _ _ h => (by cases h), fun _ _ h => (by cases h), fun _ _ _ h => (by cases h)⟩
        | .throw x =>
          refine ⟨fun _ _ h => (by cases h), fun _ _ h => (by cases h), fun _ _ _ h => ?_⟩
          injection h with h _; injection h with h _; subst h
          exact eds_errors _ hi.errors
        | .ok .wrongNumber =>
          refine ⟨fun _ _ h => (by cases h), fun _ _ h => ?_, fun _ _ _ h => (by cases h)⟩
          injection h with h _; injection h with h1 h2; subst h1 h2
          intro c hc
          rw [eds_snoc _ _ hi.errors, if_neg (show ¬ (0x20#8 : BitVec 8) = 0x00#8 by decide)] at hc
          cases hc
        | .ok (.more bs) =>
          refine ⟨fun _ _ h => ?_, fun _ _ h => (by cases h), fun _ _ _ h => (by cases h)⟩
          injection h with h _; injection h with h1 h2; subst h1 h2
          rw [show (Link.mk d _).dev.2 = _ from hlog]
          refine ⟨hi.id, fun u' e => ?_, hi.errors⟩
          injection e with e
          subst e
          rcases packet_inv hp with hp | ⟨type, bs', tail, e1, e2, e3, e4⟩ | ⟨type, bs', tail, e1, _⟩
          · cases hp
          · injection e1 with e1
            subst e1
            refine ⟨n + 1, ?_, ?_⟩
            · simp only [hn]; apply BitVec.eq_of_toNat_eq; simp
            · obtain ⟨pre, r, tl, post, g1, g2, g3, g4⟩ := hup
              refine ⟨pre, r, tl, post ++ [⟨fileNextReq inst n, resp⟩], by rw [g1]; simp, g2, g3, ?_⟩
              exact .piece _ type bs tail g4 rfl hst (by rw [← hle]; exact e2) e3 e4
          · cases e1
        | .ok (.last bs) =>
          refine ⟨fun _ _ h => (by cases h), fun _ _ h => ?_, fun _ _ _ h => (by cases h)⟩
          injection h with h _; injection h with h1 h2; subst h1 h2
          rw [show (Link.mk d _).dev.2 = _ from hlog]
          have hnew : UploadOf inst (L.dev.2 ++ [⟨fileNextReq inst n, resp⟩]) u.fileSize.toNat u.transferSize.toNat n
              1 (u.content ++ bs) true := by
            rcases packet_inv hp with hp | ⟨type, bs', tail, e1, _⟩ | ⟨type, bs', tail, e1, e2, e3, e4⟩
            · cases hp
            · cases e1
            · injection e1 with e1
              subst e1
              obtain ⟨pre, r, tl, post, g1, g2, g3, g4⟩ := hup
              refine ⟨pre, r, tl, post ++ [⟨fileNextReq inst n, resp⟩], by rw [g1]; simp, g2, g3, ?_⟩
              exact .last _ type bs tail g4 rfl hst (by rw [← hle]; exact e2) e3 e4
          intro c hc
          rw [eds_snoc _ _ hi.errors] at hc
          by_cases hz : (u.content ++ bs).length = u.fileSize.toNat
          · simp only [if_pos hz] at hc
            cases hc
            exact ⟨n, u.transferSize.toNat, by rw [hz]; exact hnew⟩
          · simp only [if_neg hz] at hc
            rw [if_neg (show ¬ (0x20#8 : BitVec 8) = 0x00#8 by decide)] at hc
            cases hc
      · rw [hbad hst]
        refine ⟨fun _ _ h => ?_, fun _ _ h => (by cases h), fun _ _ _ h => (by cases h)⟩
        injection h with h _; injection h with h1 h2; subst h1 h2
        rw [show (Link.mk d _).dev.2 = _ from hlog]
        refine ⟨hi.id, fun u' e => ?_, fun c hc => ?_⟩
        · obtain ⟨n', g1, g2⟩ := hi.upload u' e
          exact ⟨n', g1, uploadOf_other g2 _⟩
        · rcases List.mem_append.mp hc with hc | hc
          · exact hi.errors c hc
          · rw [List.mem_singleton] at hc; subst hc; exact hst
  | .loaded | .empty | .nonexistent =>
    rw [C62_transfer_other _ _ _ _ (fun u e => by rw [hu] at e; cases e)]
    refine ⟨fun _ _ h => (by cases h), fun _ _ h => ?_, fun _ _ _ h => (by cases h)⟩
    injection h with h _; injection h with h1 h2; subst h1 h2
    intro c hc
    rw [eds_errors _ hi.errors] at hc
    cases hc

theorem pending_loop {D : Device δ} {inst : BitVec 16} (n : Nat) {f : FileObject} {L : Link (δ × List Exchange)}
    (hi : FilePending inst f L.dev.2) :
    (∀ f' L', fileLoop Mem.strict (recorded D) n (f, L) = .ok (f', L') false → deviceEds f'.calls = none) ∧
    (∀ f' L', fileLoop Mem.strict (recorded D) n (f, L) = .ok (f', L') true → Wrote inst L'.dev.2 (deviceEds f'.calls)) ∧
    (∀ f' L' e, fileLoop Mem.strict (recorded D) n (f, L) = .throw (f', L') e → deviceEds f'.calls = none) := by
  induction n generalizing f L with
  | zero =>
    refine ⟨fun _ _ h => ?_, fun _ _ h => (by cases h), fun _ _ _ h => (by cases h)⟩
    injection h with h _; injection h with h1 h2; subst h1
    exact eds_errors _ hi.errors
  | succ n ih =>
    obtain ⟨ht, hf, hx⟩ := pending_transfer (D := D) hi
    match h1 : FileObject.handleTransfers Mem.strict (recorded D) (f, L) with
    | .ub =>
      rw [show fileLoop Mem.strict (recorded D) (n + 1) (f, L) = .ub from Prog.bind_ub h1]
      exact ⟨fun _ _ h => (by cases h), fun _ _ h => (by cases h), fun _ _ _ h => (by cases h)⟩
    | .throw s e =>
      rw [show fileLoop Mem.strict (recorded D) (n + 1) (f, L) = .throw s e from Prog.bind_throw h1]
      refine ⟨fun _ _ h => (by cases h), fun _ _ h => (by cases h), fun f' L' e' h => ?_⟩
      injection h with h _
      subst h
      exact hx _ _ _ h1
    | .ok (f1, L1) true =>
      rw [show fileLoop Mem.strict (recorded D) (n + 1) (f, L) = fileLoop Mem.strict (recorded D) n (f1, L1) from Prog.bind_ok h1]
      exact ih (ht _ _ h1)
    | .ok (f1, L1) false =>
      rw [show fileLoop Mem.strict (recorded D) (n + 1) (f, L) = .ok (f1, L1) true from (Prog.bind_ok h1).trans rfl]
      refine ⟨fun _ _ h => (by cases h), fun _ _ h => ?_, fun _ _ _ h => (by cases h)⟩
      injection h with h _; injection h with h2 h3; subst h2 h3
      exact hf _ _ h1

/-- C96. Whatever the device does: as long as the program runs, and if it ends by an exception, nothing has been
written; if it has written a file, it has ended, and the file is what the device sent: exactly the announced number of
bytes, which are the payloads of the packets taken, in order, each in answer to a request for its number, and only
the last of them a last packet. -/
theorem C96_file_content (D : Device δ) (d : δ) (sent : List Req) (n : Nat) (how : How) (L : Link (δ × List Exchange))
    (disk : Option (List Byte)) (h : fileMain Mem.strict (recorded D) n ⟨(d, []), sent⟩ = .ran how L disk) :
    (how ≠ .exited 0 → disk = none) ∧
    (∀ c, disk = some c → how = .exited 0 ∧ ∃ k ts, UploadOf 0xC8 L.dev.2 c.length ts k 1 c true) := by
  have done : (how = .exited 0 ∧ Wrote 0xC8 L.dev.2 disk) ∨ disk = none → (how ≠ .exited 0 → disk = none) ∧
      (∀ c, disk = some c → how = .exited 0 ∧ ∃ k ts, UploadOf 0xC8 L.dev.2 c.length ts k 1 c true) := by
    rintro (⟨h1, h2⟩ | h1)
    · exact ⟨fun hn => absurd h1 hn, fun c hc => ⟨h1, h2 c hc⟩⟩
    · exact ⟨fun _ => h1, fun c hc => by rw [h1] at hc; cases hc⟩
  refine done ?_
  unfold fileMain at h
  match hc : FileObject.create Mem.strict (recorded D) 0xC8 ⟨(d, []), sent⟩ with
  | .ub => rw [hc] at h; cases h
  | .throw L1 e => rw [hc] at h; injection h with _ _ h; exact .inr h.symm
  | .ok L1 f =>
    obtain ⟨c1, c2, c3⟩ := create_inv hc
    simp only [hc] at h
    have hnone : deviceEds f.calls = none := by rw [c2]; rfl
    have hpend : ∀ s2 : FileObject × Link (δ × List Exchange),
        FileObject.beginUpload Mem.strict (recorded D) 0 (f, L1) = .ok s2 () → FilePending 0xC8 s2.1 s2.2.dev.2 := by
      intro s2 hb
      by_cases hl : f.state = .loaded
      · rw [begin_run _ _ _ _ hl, c1] at hb
        match ha : (recorded D).answer (fileBeginReq 0xC8) L1.dev with
        | .ub => rw [ha] at hb; cases hb
        | .throw d e => rw [ha] at hb; cases hb
        | .ok d' resp =>
          have hlog := recorded_ok ha
          simp only [ha] at hb
          by_cases hst : resp.status = 0x00#8
          · rw [if_pos hst] at hb
            match hp : FileObject.announced.from Mem.strict resp.data with
            | .ub => rw [hp] at hb; cases hb
            | .throw e => rw [hp] at hb; cases hb
            | .ok (size, ts) =>
              rw [hp] at hb
              injection hb with hb _
              subst hb
              refine ⟨rfl, fun u e => ?_, by simp [c2]⟩
              injection e with e
              subst e
              obtain ⟨tail, ht⟩ := announced_inv hp
              refine ⟨0, rfl, L1.dev.2, resp, tail, [], ?_, hst, ht, .nothing⟩
              rw [show (Link.mk d' _).dev.2 = _ from hlog]
          · rw [if_neg hst] at hb
            injection hb with hb _
            subst hb
            refine ⟨rfl, fun u e => absurd e (c3 u), ?_⟩
            simp [c2, hst]
      · rw [C62_begin_other _ _ _ _ hl] at hb
        injection hb with hb _
        subst hb
        exact ⟨c1, fun u e => absurd e (c3 u), by simp [c2]⟩
    match hb : FileObject.beginUpload Mem.strict (recorded D) 0 (f, L1) with
    | .ub => rw [hb] at h; cases h
    | .throw s e =>
      simp only [hb] at h
      injection h with _ _ h
      right
      rw [← h]
      by_cases hl : f.state = .loaded
      · rw [begin_run _ _ _ _ hl] at hb
        match ha : (recorded D).answer (fileBeginReq f.instanceId) L1.dev with
        | .ub => rw [ha] at hb; cases hb
        | .throw d e =>
          rw [ha] at hb; injection hb with hb _; subst hb; exact hnone
        | .ok d' resp =>
          simp only [ha] at hb
          by_cases hst : resp.status = 0x00#8
          · rw [if_pos hst] at hb
            match hp : FileObject.announced.from Mem.strict resp.data with
            | .ub => rw [hp] at hb; cases hb
            | .throw e => rw [hp] at hb; injection hb with hb _; subst hb; exact hnone
            | .ok (size, ts) => rw [hp] at hb; cases hb
          · rw [if_neg hst] at hb; cases hb
      · rw [C62_begin_other _ _ _ _ hl] at hb; cases hb
    | .ok (f2, L2) () =>
      simp only [hb] at h
      obtain ⟨p1, p2, p3⟩ := pending_loop (D := D) n (hpend _ hb)
      match hl : fileLoop Mem.strict (recorded D) n (f2, L2) with
      | .ub => rw [hl] at h; cases h
      | .throw (f3, L3) e => simp only [hl] at h; injection h with _ _ h; right; rw [← h]; exact p3 _ _ _ hl
      | .ok (f3, L3) false => simp only [hl] at h; injection h with _ _ h; right; rw [← h]; exact p1 _ _ hl
      | .ok (f3, L3) true =>
        simp only [hl] at h
        injection h with h1 h2 h3
        left
        subst h1 h2 h3
        exact ⟨rfl, p2 _ _ hl⟩

/-- C96. The loop has no limit: a device that starts the upload and then answers every transfer with an error keeps the
program running, however long it is observed, and nothing is written. -/
theorem C96_file_forever_violated (m : Mem) (D : Device δ) (L : Link δ) (state : BitVec 8)
    (hst : state = 2 ∨ state = 3 ∨ state = 5) (ts size : Nat) (hts : ts < 256) (hsize : size < 2 ^ 32) (d' : δ)
    (hg : Grants D L.dev [(fileStateReq 0xC8, [state]), (fileBeginReq 0xC8, fileAnnounce size ts)] d')
    (resp : MessageRouterResponse) (hr : resp.status ≠ 0x00#8) (ha : ∀ r, D.answer r d' = .ok d' resp) (n : Nat) :
    ∃ L', fileMain m D n L = .ran .running L' none := by
  cases hg with
  | cons a1 s1 e1 hg =>
  rename_i d1 r1
  cases hg with
  | cons a2 s2 e2 hg =>
  rename_i d2 r2
  cases hg
  have hc : FileObject.create m D 0xC8 L = .ok ⟨d1, L.sent ++ [fileStateReq 0xC8]⟩ ⟨0xC8, .loaded, []⟩ := by
    rw [(C62_create m D L 0xC8 d1 r1 a1).1 state [] s1 e1]
    rcases hst with rfl | rfl | rfl <;> rfl
  have hb := (C62_begin m D ⟨d1, L.sent ++ [fileStateReq 0xC8]⟩ ⟨0xC8, .loaded, []⟩ rfl 0).1 d' r2 size ts [] a2 s2 hsize hts
    (by simp [e2])
  have hloop : ∀ (n : Nat) (f : FileObject) (u : Upload) (sent : List Req), f.state = .uploading u → (∀ c ∈ f.calls, c.status ≠ 0x00#8) →
      ∃ s, fileLoop m D n (f, ⟨d', sent⟩) = .ok s false ∧ deviceEds s.1.calls = none := by
    intro n
    induction n with
    | zero => intro f u sent _ he; exact ⟨_, rfl, eds_errors _ he⟩
    | succ n ih =>
      intro f u sent hf he
      have h1 := ((transfer_run m D ⟨d', sent⟩ f u hf).2.2 d' resp (ha _)).1 hr
      obtain ⟨s, h2, h3⟩ := ih { f with calls := f.calls ++ [⟨u.handler, resp.status, []⟩] } u _ hf (by
        intro c hc
        rcases List.mem_append.mp hc with hc | hc
        · exact he c hc
        · rw [List.mem_singleton] at hc; subst hc; exact hr)
      exact ⟨s, (Prog.bind_ok h1).trans h2, h3⟩
  obtain ⟨s, h1, h2⟩ := hloop n ⟨0xC8, .uploading (freshUpload (BitVec.ofNat 32 size) (BitVec.ofNat 8 ts) 0), []⟩ _ (L.sent ++ [fileStateReq 0xC8] ++ [fileBeginReq 0xC8]) rfl (by simp)
  refine ⟨s.2, ?_⟩
  unfold fileMain
  simp only [hc, hb, h1, h2]

/-- C96. The exit code 0 does not say that a file was written: a device without the file, or with an empty one, gets one request, nothing is
written, and the program ends with exit code 0. -/
theorem C96_file_silent_violated (m : Mem) (D : Device δ) (L : Link δ) (state : BitVec 8) (hst : state = 0 ∨ state = 1) (d' : δ)
    (hg : Grants D L.dev [(fileStateReq 0xC8, [state])] d') (n : Nat) :
    fileMain m D (n + 1) L = .ran (.exited 0) ⟨d', L.sent ++ [fileStateReq 0xC8]⟩ none := by
  cases hg with
  | cons a1 s1 e1 hg =>
  rename_i d1 r1
  cases hg
  have hx := (C62_create m D L 0xC8 d' r1 a1).1 state [] s1 e1
  rcases hst with rfl | rfl
  · have hc : FileObject.create m D 0xC8 L = .ok ⟨d', L.sent ++ [fileStateReq 0xC8]⟩ ⟨0xC8, .nonexistent, []⟩ := hx
    have hl : fileLoop m D (n + 1) (⟨0xC8, .nonexistent, []⟩, ⟨d', L.sent ++ [fileStateReq 0xC8]⟩) = .ok _ true :=
      (Prog.bind_ok (C62_transfer_other m D _ _ fun u h => by cases h)).trans rfl
    unfold fileMain
    simp only [hc, C62_begin_other m D ⟨d', L.sent ++ [fileStateReq 0xC8]⟩ ⟨0xC8, .nonexistent, []⟩ (by simp) 0, hl]
    rfl
  · have hc : FileObject.create m D 0xC8 L = .ok ⟨d', L.sent ++ [fileStateReq 0xC8]⟩ ⟨0xC8, .empty, []⟩ := hx
    have hl : fileLoop m D (n + 1) (⟨0xC8, .empty, []⟩, ⟨d', L.sent ++ [fileStateReq 0xC8]⟩) = .ok _ true :=
      (Prog.bind_ok (C62_transfer_other m D _ _ fun u h => by cases h)).trans rfl
    unfold fileMain
    simp only [hc, C62_begin_other m D ⟨d', L.sent ++ [fileStateReq 0xC8]⟩ ⟨0xC8, .empty, []⟩ (by simp) 0, hl]
    rfl

/-- C96. Nor does it if the device has the file and refuses to send it: the refusal goes to the handler, which does nothing with it. -/
theorem C96_file_refused_violated (m : Mem) (D : Device δ) (L : Link δ) (state : BitVec 8) (hst : state = 2 ∨ state = 3 ∨ state = 5) (d1 d' : δ)
    (hg : Grants D L.dev [(fileStateReq 0xC8, [state])] d1) (resp : MessageRouterResponse)
    (ha : D.answer (fileBeginReq 0xC8) d1 = .ok d' resp) (hr : resp.status ≠ 0x00#8) (n : Nat) :
    fileMain m D (n + 1) L = .ran (.exited 0) ⟨d', L.sent ++ [fileStateReq 0xC8, fileBeginReq 0xC8]⟩ none := by
  cases hg with
  | cons a1 s1 e1 hg =>
  rename_i d2 r1
  cases hg
  have hc : FileObject.create m D 0xC8 L = .ok ⟨d1, L.sent ++ [fileStateReq 0xC8]⟩ ⟨0xC8, .loaded, []⟩ := by
    rw [(C62_create m D L 0xC8 d1 r1 a1).1 state [] s1 e1]
    rcases hst with rfl | rfl | rfl <;> rfl
  have hb := (C62_begin m D ⟨d1, L.sent ++ [fileStateReq 0xC8]⟩ ⟨0xC8, .loaded, []⟩ rfl 0).2.1 d' resp ha hr
  have hl : fileLoop m D (n + 1) (⟨0xC8, .loaded, [⟨0, resp.status, []⟩]⟩, ⟨d', L.sent ++ [fileStateReq 0xC8] ++ [fileBeginReq 0xC8]⟩) = .ok _ true :=
    (Prog.bind_ok (C62_transfer_other m D _ _ fun u h => by cases h)).trans rfl
  have he : deviceEds [⟨0, resp.status, []⟩] = none := eds_errors _ (by simpa using hr)
  unfold fileMain
  simp only [hc, hb]
  rw [List.nil_append, hl]
  dsimp only
  rw [he, List.append_assoc]
  rfl

example : ∃ (D : Device Unit) (resp : MessageRouterResponse), Grants D () [(fileStateReq 0xC8, [2])] () ∧
    D.answer (fileBeginReq 0xC8) () = .ok () resp ∧ resp.status ≠ 0x00#8 :=
  ⟨⟨fun r _ => if r = fileStateReq 0xC8 then .ok () ⟨0x8E, 0, [], [2], []⟩ else .ok () ⟨0xCB, 0x0C, [], [], []⟩⟩, ⟨0xCB, 0x0C, [], [], []⟩,
    .cons (by rfl) rfl rfl .nil, by rfl, by decide⟩

end Verif.Props
