import Verif.Props.File

/-!
# C102: the state of a file object, and several uploads with one object
-/

namespace Verif.Props

open Verif Verif.Spec

variable {δ : Type}

/-! ## The code tells what the calls do -/

/-- C102. The code that `getStateCode` returns tells what the calls do, whatever the device answers.  `beginUpload`
makes its request if the code is 2 and else does nothing; `handleTransfers` makes a request if it is 5 and else
returns false and does nothing. -/
theorem C102_code (m : Mem) (D : Device δ) (L : Link δ) (f : FileObject) (hd : Nat) :
    (f.stateCode.toNat = 2 → ∀ f' L', Leaves (FileObject.beginUpload m D hd (f, L)) (f', L') →
      L'.sent = L.sent ++ [fileBeginReq f.instanceId]) ∧
    (f.stateCode.toNat ≠ 2 → FileObject.beginUpload m D hd (f, L) = .ok (f, L) ()) ∧
    (f.stateCode.toNat = 5 → ∀ f' L', Leaves (FileObject.handleTransfers m D (f, L)) (f', L') →
      ∃ k, L'.sent = L.sent ++ [fileNextReq f.instanceId k]) ∧
    (f.stateCode.toNat ≠ 5 → FileObject.handleTransfers m D (f, L) = .ok (f, L) false) := by
  refine ⟨fun h f' L' hl => ?_, fun h => ?_, fun h f' L' hl => ?_, fun h => ?_⟩
  · have hs : f.state = .loaded := by
      unfold FileObject.stateCode at h
      split at h <;> first | assumption | cases h
    rw [begin_run m D L f hs hd] at hl
    cases ha : D.answer (fileBeginReq f.instanceId) L.dev with
    | ub => rw [ha] at hl; rcases hl with ⟨_, h⟩ | ⟨_, h⟩ <;> cases h
    | throw d e => rw [ha] at hl; rcases hl with ⟨_, h⟩ | ⟨_, h⟩ <;> cases h; rfl
    | ok d resp =>
      rw [ha] at hl
      dsimp only at hl
      split at hl
      · cases hr : FileObject.announced.from m resp.data with
        | ub => rw [hr] at hl; rcases hl with ⟨_, h⟩ | ⟨_, h⟩ <;> cases h
        | throw e => rw [hr] at hl; rcases hl with ⟨_, h⟩ | ⟨_, h⟩ <;> cases h; rfl
        | ok x => rw [hr] at hl; rcases hl with ⟨_, h⟩ | ⟨_, h⟩ <;> cases h; rfl
      · rcases hl with ⟨_, h⟩ | ⟨_, h⟩ <;> cases h; rfl
  · refine C62_begin_other m D L f (fun e => h ?_) hd
    simp only [FileObject.stateCode, e]; rfl
  · obtain ⟨u, hu⟩ : ∃ u, f.state = .uploading u := by
      unfold FileObject.stateCode at h
      split at h <;> first | exact ⟨_, by assumption⟩ | cases h
    refine ⟨u.number.toNat, ?_⟩
    have hk : fileNextReq f.instanceId u.number.toNat = ⟨0x4F#8, ⟨0x37, f.instanceId, 0, 2⟩, [u.number]⟩ := by
      rw [fileNextReq, le_one]
    rw [hk]
    obtain ⟨ht, hub, hok⟩ := transfer_run m D L f u hu
    cases ha : D.answer ⟨0x4F#8, ⟨0x37, f.instanceId, 0, 2⟩, [u.number]⟩ L.dev with
    | ub => rw [hub ha] at hl; rcases hl with ⟨_, h⟩ | ⟨_, h⟩ <;> cases h
    | throw d e => rw [ht d e ha] at hl; rcases hl with ⟨_, h⟩ | ⟨_, h⟩ <;> cases h; rfl
    | ok d resp =>
      obtain ⟨hbad, hgood⟩ := hok d resp ha
      by_cases hst : resp.status = 0x00#8
      · rw [hgood hst] at hl
        rcases hl with ⟨_, h⟩ | ⟨_, h⟩ <;> split at h <;> cases h <;> rfl
      · rw [hbad hst] at hl
        rcases hl with ⟨_, h⟩ | ⟨_, h⟩ <;> cases h; rfl
  · refine C62_transfer_other m D L f fun u e => h ?_
    simp only [FileObject.stateCode, e]; rfl

/-- C102. `handleTransfers` never changes the code, not even when the file is complete. -/
theorem C102_stays (m : Mem) (D : Device δ) (L L' : Link δ) (f f' : FileObject)
    (h : Leaves (FileObject.handleTransfers m D (f, L)) (f', L')) : f'.stateCode = f.stateCode := by
  by_cases hu : ∃ u, f.state = .uploading u
  · obtain ⟨u, hu⟩ := hu
    have hc : f.stateCode = 5 := by simp only [FileObject.stateCode, hu]
    rcases h with ⟨b, h⟩ | ⟨e, h⟩
    · obtain ⟨u', hu', _⟩ := transfer_keeps hu h
      simp only [FileObject.stateCode, hu', hu]
    · obtain ⟨ht, hub, hok⟩ := transfer_run m D L f u hu
      cases ha : D.answer ⟨0x4F#8, ⟨0x37, f.instanceId, 0, 2⟩, [u.number]⟩ L.dev with
      | ub => rw [hub ha] at h; cases h
      | throw d e => rw [ht d e ha] at h; cases h; rfl
      | ok d resp =>
        obtain ⟨hbad, hgood⟩ := hok d resp ha
        by_cases hst : resp.status = 0x00#8
        · rw [hgood hst] at h
          split at h <;> cases h <;> rfl
        · rw [hbad hst] at h; cases h
  · rw [C62_transfer_other m D L f fun u e => hu ⟨u, e⟩] at h
    rcases h with ⟨_, h⟩ | ⟨_, h⟩ <;> cases h; rfl

/-- C102. The code after construction, and after a synchronisation of an object in any state, is the one for the state
that the device answers with; calls of handlers are not made, and what is known of an upload is forgotten.  If the
device answers with another state, with an error or not at all, an exception is thrown and the object stays as it is. -/
theorem C102_sync (m : Mem) (D : Device δ) (L : Link δ) (f : FileObject) :
    (∀ d resp b rest code, D.answer (fileStateReq f.instanceId) L.dev = .ok d resp → resp.status = 0x00#8 →
      resp.data = b :: rest → codeFor b.toNat = some code →
      ∃ f' g, FileObject.syncState m D (f, L) = .ok (f', ⟨d, L.sent ++ [fileStateReq f.instanceId]⟩) () ∧
        f'.stateCode = code ∧ f'.instanceId = f.instanceId ∧ f'.calls = f.calls ∧ (∀ u, f'.state ≠ .uploading u) ∧
        FileObject.create m D f.instanceId L = .ok ⟨d, L.sent ++ [fileStateReq f.instanceId]⟩ g ∧
        g.stateCode = code ∧ g.calls = []) ∧
    (∀ d resp, D.answer (fileStateReq f.instanceId) L.dev = .ok d resp →
      (resp.status ≠ 0x00#8 ∨ ∃ b rest, resp.data = b :: rest ∧ codeFor b.toNat = none) →
      ∃ e, FileObject.syncState m D (f, L) = .throw (f, ⟨d, L.sent ++ [fileStateReq f.instanceId]⟩) (.runtime e)) ∧
    (∀ d e, D.answer (fileStateReq f.instanceId) L.dev = .throw d e →
      FileObject.syncState m D (f, L) = .throw (f, ⟨d, L.sent ++ [fileStateReq f.instanceId]⟩) e) := by
  refine ⟨?_, ?_, ?_⟩
  · intro d resp b rest code ha hs hd hcode
    have hc := (C62_create m D L f.instanceId d resp ha).1 b rest hs hd
    rw [sync_run]
    generalize b.toNat = n at hcode hc
    unfold codeFor at hcode
    split at hcode <;> first | (
      cases hcode
      rw [show FileObject.create m D f.instanceId L = .ok _ ⟨f.instanceId, _, []⟩ from hc]
      exact ⟨_, _, rfl, rfl, rfl, rfl, (fun u e => by cases e), rfl, rfl, rfl⟩) | cases hcode
  · intro d resp ha h
    rw [sync_run]
    by_cases hs : resp.status = 0x00#8
    · obtain ⟨b, rest, hd, hcode⟩ := h.resolve_left fun h => h hs
      have hc := (C62_create m D L f.instanceId d resp ha).1 b rest hs hd
      generalize b.toNat = n at hcode hc
      unfold codeFor at hcode
      split at hcode <;> first | cases hcode | skip
      rename_i h0 h1 h2 h3 h5
      split at hc
      · exact absurd rfl h0
      · exact absurd rfl h1
      · exact absurd rfl h2
      · exact absurd rfl h3
      · exact absurd rfl h5
      · rw [hc]; exact ⟨_, rfl⟩
    · rw [(C62_create m D L f.instanceId d resp ha).2 hs]
      exact ⟨_, rfl⟩
  · intro d e ha
    rw [sync_run]
    have h : FileObject.create m D f.instanceId L = .throw ⟨d, L.sent ++ [fileStateReq f.instanceId]⟩ e :=
      Prog.bind_throw (ask_throw (r := fileStateReq f.instanceId) ha)
    rw [h]

/-! ## One upload after another -/

theorem grants_append {D : Device δ} {d d'' : δ} {xs ys : List (Req × List (BitVec 8))}
    (h : Grants D d (xs ++ ys) d'') : ∃ d', Grants D d xs d' ∧ Grants D d' ys d'' := by
  induction xs generalizing d with
  | nil => exact ⟨d, .nil, h⟩
  | cons x xs ih =>
    cases h with
    | cons h1 h2 h3 h4 =>
      obtain ⟨d', g1, g2⟩ := ih h4
      exact ⟨d', .cons h1 h2 h3 g1, g2⟩

/-- For every handler of the list: synchronise, begin an upload, and call `handleTransfers` so many times. -/
def uploadEach (m : Mem) (D : Device δ) : List (Nat × Nat) → Prog (FileObject × Link δ) (List (List Bool))
  | [] => pure []
  | (hd, n) :: rest => do
    FileObject.syncState m D
    FileObject.beginUpload m D hd
    let bs ← transfers m D n
    let bss ← uploadEach m D rest
    pure (bs :: bss)

theorem uploadEach_cons {m : Mem} {D : Device δ} {hd n : Nat} {rest : List (Nat × Nat)} {s s1 s2 s3 s4 : FileObject × Link δ}
    {bs : List Bool} {bss : List (List Bool)} (h1 : FileObject.syncState m D s = .ok s1 ())
    (h2 : FileObject.beginUpload m D hd s1 = .ok s2 ()) (h3 : transfers m D n s2 = .ok s3 bs)
    (h4 : uploadEach m D rest s3 = .ok s4 bss) : uploadEach m D ((hd, n) :: rest) s = .ok s4 (bs :: bss) :=
  (Prog.bind_ok h1).trans ((Prog.bind_ok h2).trans ((Prog.bind_ok h3).trans ((Prog.bind_ok h4).trans rfl)))

/-- C102. With one object any number of files can be uploaded, if the program synchronises before each: whatever state
the object is in, each handler is called once, with status success and its file. -/
theorem C102_uploads (m : Mem) (D : Device δ) (jobs : List (Nat × BitVec 8 × FileParts))
    (hstate : ∀ j ∈ jobs, j.2.1 = 2 ∨ j.2.1 = 3 ∨ j.2.1 = 5) (hproper : ∀ j ∈ jobs, j.2.2.Proper) (f : FileObject)
    (L : Link δ) (d' : δ) (hg : Grants D L.dev (jobs.flatMap fun j => j.2.2.exchanges f.instanceId j.2.1) d') :
    ∃ f', uploadEach m D (jobs.map fun j => (j.1, j.2.2.chunks.length + 1)) (f, L) =
        .ok (f', ⟨d', L.sent ++ (jobs.flatMap fun j => j.2.2.exchanges f.instanceId j.2.1).map Prod.fst⟩)
          (jobs.map fun j => List.replicate j.2.2.chunks.length true ++ [false]) ∧
      f'.calls = f.calls ++ jobs.map fun j => ⟨j.1, 0x00#8, j.2.2.content⟩ := by
  induction jobs generalizing f L with
  | nil =>
    cases hg
    exact ⟨f, by simp [uploadEach], by simp⟩
  | cons j jobs ih =>
    obtain ⟨hd, state, p⟩ := j
    obtain ⟨hts, hch, hcrc, hsize⟩ := hproper _ (List.mem_cons_self ..)
    have hst := hstate _ (List.mem_cons_self ..)
    dsimp only at hts hch hcrc hsize hst
    rw [List.flatMap_cons] at hg
    obtain ⟨d1, hg1, hg2⟩ := grants_append hg
    cases hg1 with
    | cons ha hs hdt hrest =>
    rename_i da resp1
    cases hrest with
    | cons ha2 hs2 hdt2 hrest =>
    rename_i db resp2
    -- synchronise
    have h1 : FileObject.syncState m D (f, L) = .ok (⟨f.instanceId, .loaded, f.calls⟩, ⟨da, L.sent ++ [fileStateReq f.instanceId]⟩) () := by
      rw [sync_run, (C62_create m D L f.instanceId da resp1 ha).1 state [] hs hdt]
      rcases hst with rfl | rfl | rfl <;> rfl
    -- begin
    have h2 := (C62_begin m D ⟨da, L.sent ++ [fileStateReq f.instanceId]⟩ ⟨f.instanceId, .loaded, f.calls⟩ rfl hd).1 db resp2 _ p.ts []
      ha2 hs2 hsize hts (by rw [hdt2, List.append_nil])
    have e8 : (BitVec.ofNat 8 p.ts).toNat = p.ts := by rw [BitVec.toNat_ofNat]; omega
    -- transfer
    have h3 := drain m D f.instanceId p.crc hcrc p.last (BitVec.ofNat 32 p.content.length) (BitVec.ofNat 8 p.ts) hd p.chunks 0
      ⟨db, L.sent ++ [fileStateReq f.instanceId] ++ [fileBeginReq f.instanceId]⟩ [] f.calls d1 (by rw [e8]; exact hch) hrest
    rw [BitVec.toNat_ofNat, Nat.mod_eq_of_lt hsize, List.nil_append] at h3
    rw [if_pos (show (p.chunks.flatten ++ p.last).length = p.content.length from rfl)] at h3
    obtain ⟨f', h4, h5⟩ := ih (fun x hx => hstate x (List.mem_cons_of_mem _ hx)) (fun x hx => hproper x (List.mem_cons_of_mem _ hx))
      ⟨f.instanceId, .uploading ⟨BitVec.ofNat 32 p.content.length, BitVec.ofNat 8 p.ts, p.chunks.flatten ++ p.last,
        BitVec.ofNat 8 (0 + p.chunks.length), hd⟩, f.calls ++ [⟨hd, 0x00#8, p.chunks.flatten ++ p.last⟩]⟩
      ⟨d1, L.sent ++ [fileStateReq f.instanceId] ++ [fileBeginReq f.instanceId] ++
        (fileTransfers f.instanceId p.crc 0 p.chunks p.last).map Prod.fst⟩ hg2
    refine ⟨f', (uploadEach_cons h1 h2 h3 h4).trans ?_, ?_⟩
    · simp [FileParts.exchanges]
    · rw [h5]; simp [FileParts.content]

/-! ## Concrete cases -/

/-- A second file, of three bytes in one packet. -/
def threeBytes : List (BitVec 8 × List Byte) := [(0, [5]), (0, [3, 0, 0, 0, 8]), (0, [0, 4, 1, 2, 3, 0x11, 0x22])]

def threeParts : FileParts := ⟨8, [], [1, 2, 3], [0x11, 0x22]⟩
def fiveParts : FileParts := ⟨2, [[0xa, 0xb], [0xc, 0xd]], [0xe], [0x77, 0x66]⟩

/-- C102 non-vacuity: the hypotheses of `C102_uploads` are met by a device with two files. -/
example : fiveParts.Proper ∧ threeParts.Proper ∧
    Grants scriptDevice (fiveBytes ++ threeBytes)
      ([(9, 2#8, fiveParts), (10, 5#8, threeParts)].flatMap fun j : Nat × BitVec 8 × FileParts => j.2.2.exchanges 0xC8 j.2.1) [] := by
  refine ⟨⟨by decide, by decide, by decide, by decide⟩, ⟨by decide, by decide, by decide, by decide⟩, ?_⟩
  refine .cons rfl rfl rfl (.cons rfl rfl rfl (.cons rfl rfl rfl (.cons rfl rfl rfl (.cons rfl rfl rfl
    (.cons rfl rfl rfl (.cons rfl rfl rfl (.cons rfl rfl rfl .nil)))))))

/-- Construct, upload for handler 9 with three transfers, then begin an upload for handler 10, with or without
synchronising, and transfer once. -/
def uploadTwice (sync : Bool) : Option (List UploadCall × List Bool × List Req) :=
  match FileObject.create Mem.strict scriptDevice 0xC8 ⟨fiveBytes ++ (if sync then threeBytes else threeBytes.drop 1), []⟩ with
  | .ok L f =>
    match (do
        FileObject.beginUpload Mem.strict scriptDevice 9
        let bs ← transfers Mem.strict scriptDevice 3
        if sync then FileObject.syncState Mem.strict scriptDevice else pure ()
        FileObject.beginUpload Mem.strict scriptDevice 10
        let cs ← transfers Mem.strict scriptDevice 1
        pure (bs ++ cs) : Prog (FileObject × Link (List (BitVec 8 × List Byte))) (List Bool)) (f, L) with
    | .ok (f', L') bs => some (f'.calls, bs, L'.sent)
    | _ => none
  | _ => none

/-- C102: with synchronising both files arrive. -/
example : (uploadTwice true).map (fun x => (x.1, x.2.1)) =
    some ([⟨9, 0, [0xa, 0xb, 0xc, 0xd, 0xe]⟩, ⟨10, 0, [1, 2, 3]⟩], [true, true, false, false]) := by
  decide +kernel

/-- C102 violated: a program that uploads a file and begins another upload with the same object, although the device
would send the file.  `beginUpload` makes no request, its handler is never called, and `handleTransfers` asks for the
last packet of the first file and calls the first handler again. -/
theorem C102_again_violated : uploadTwice false =
    some ([⟨9, 0, [0xa, 0xb, 0xc, 0xd, 0xe]⟩, ⟨9, 0x20, []⟩], [true, true, false, false],
      [fileStateReq 0xC8, fileBeginReq 0xC8, fileNextReq 0xC8 0, fileNextReq 0xC8 1, fileNextReq 0xC8 2,
        fileNextReq 0xC8 2]) := by
  decide +kernel

end Verif.Props
