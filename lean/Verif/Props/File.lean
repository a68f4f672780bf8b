import Verif.Model.File
import Verif.Lemmas.Invert
import Verif.Spec.File

/-!
# Properties C59, C60, C61, C62: file objects
-/

namespace Verif.Props

open Verif Verif.Spec

variable {δ : Type}

/-! ## C62: the state of the object -/

/-- C62. The constructor makes one request.  What it makes of the answer: -/
theorem C62_create (m : Mem) (D : Device δ) (L : Link δ) (inst : BitVec 16) (d : δ) (resp : MessageRouterResponse)
    (h : D.answer (fileStateReq inst) L.dev = .ok d resp) :
    (∀ b rest, resp.status = 0x00#8 → resp.data = b :: rest →
      FileObject.create m D inst L =
        match b.toNat with
        | 0 => .ok ⟨d, L.sent ++ [fileStateReq inst]⟩ ⟨inst, .nonexistent, []⟩
        | 1 => .ok ⟨d, L.sent ++ [fileStateReq inst]⟩ ⟨inst, .empty, []⟩
        | 2 | 3 | 5 => .ok ⟨d, L.sent ++ [fileStateReq inst]⟩ ⟨inst, .loaded, []⟩
        | _ => .throw ⟨d, L.sent ++ [fileStateReq inst]⟩ (.runtime "Read unknown or unsupported state")) ∧
    (resp.status ≠ 0x00#8 → FileObject.create m D inst L =
      .throw ⟨d, L.sent ++ [fileStateReq inst]⟩ (.runtime "Failed load the state of File Object")) := by
  constructor
  · intro b rest hs hd
    refine (Prog.bind_ok (ask_ok (r := fileStateReq inst) h)).trans ?_
    rw [if_pos (show _ = GeneralStatus.success from hs)]
    have hr : Rd.u8.from m resp.data = .ok b := by
      rw [hd]; exact Rd.from_ok ((Reads.u8 b).start (post := rest) m)
    rw [hr]
    refine (Prog.bind_ok (Prog.lift_ok b _)).trans ?_
    have e : ∀ k : Nat, k < 256 → (b = BitVec.ofNat 8 k ↔ b.toNat = k) := by
      intro k hk
      constructor
      · intro h; rw [h, BitVec.toNat_ofNat]; omega
      · intro h; rw [← h]; simp
    by_cases h0 : b = 0
    · subst h0; rfl
    by_cases h1 : b = 1
    · subst h1; rfl
    by_cases h2 : b = 2
    · subst h2; rfl
    by_cases h3 : b = 3
    · subst h3; rfl
    by_cases h5 : b = 5
    · subst h5; rfl
    rw [if_neg h0, if_neg h1, if_neg h2, if_neg (fun h => h.elim h3 h5)]
    split
    · exact absurd ((e 0 (by decide)).mpr ‹_›) h0
    · exact absurd ((e 1 (by decide)).mpr ‹_›) h1
    · exact absurd ((e 2 (by decide)).mpr ‹_›) h2
    · exact absurd ((e 3 (by decide)).mpr ‹_›) h3
    · exact absurd ((e 5 (by decide)).mpr ‹_›) h5
    · rfl
  · intro hs
    refine (Prog.bind_ok (ask_ok (r := fileStateReq inst) h)).trans ?_
    rw [if_neg (show ¬ _ = GeneralStatus.success from hs)]
    rfl

/-- C62. An empty answer with status success is read out of bounds. -/
theorem C62_empty_violated (D : Device δ) (L : Link δ) (inst : BitVec 16) (d : δ) (resp : MessageRouterResponse)
    (h : D.answer (fileStateReq inst) L.dev = .ok d resp) (hs : resp.status = 0x00#8) (hd : resp.data = []) :
    FileObject.create Mem.strict D inst L = .ub := by
  refine (Prog.bind_ok (ask_ok (r := fileStateReq inst) h)).trans ?_
  rw [if_pos (show _ = GeneralStatus.success from hs), hd]
  rfl

/-- The state of an upload that was just announced. -/
def freshUpload (size : BitVec 32) (ts : BitVec 8) (h : Nat) : Upload := ⟨size, ts, [], 0, h⟩

/-- C62. `beginUpload` on a loaded file: the upload begins after a success answer with
the announced sizes; any other status is given to the handler and the object stays loaded;
if there is no answer nothing changes. -/
theorem C62_begin (m : Mem) (D : Device δ) (L : Link δ) (f : FileObject) (hf : f.state = .loaded) (hd : Nat) :
    (∀ d resp size ts tail, D.answer (fileBeginReq f.instanceId) L.dev = .ok d resp → resp.status = 0x00#8 →
      size < 2 ^ 32 → ts < 256 → resp.data = fileAnnounce size ts ++ tail →
      FileObject.beginUpload m D hd (f, L) =
        .ok ({ f with state := .uploading (freshUpload (BitVec.ofNat 32 size) (BitVec.ofNat 8 ts) hd) },
          ⟨d, L.sent ++ [fileBeginReq f.instanceId]⟩) ()) ∧
    (∀ d resp, D.answer (fileBeginReq f.instanceId) L.dev = .ok d resp → resp.status ≠ 0x00#8 →
      FileObject.beginUpload m D hd (f, L) =
        .ok ({ f with calls := f.calls ++ [⟨hd, resp.status, []⟩] }, ⟨d, L.sent ++ [fileBeginReq f.instanceId]⟩) ()) ∧
    (∀ d e, D.answer (fileBeginReq f.instanceId) L.dev = .throw d e →
      FileObject.beginUpload m D hd (f, L) = .throw (f, ⟨d, L.sent ++ [fileBeginReq f.instanceId]⟩) e) := by
  obtain ⟨inst, st, calls⟩ := f
  obtain rfl : st = .loaded := hf
  refine ⟨?_, ?_, ?_⟩
  · intro d resp size ts tail h hs hz ht hdat
    refine (Prog.bind_ok (Prog.get_run (_, L))).trans ?_
    refine (Prog.bind_ok (onLink_ok (o := (⟨inst, .loaded, calls⟩ : FileObject)) (ask_ok (r := fileBeginReq inst) h))).trans ?_
    rw [if_pos (show _ = GeneralStatus.success from hs)]
    have hr : FileObject.announced.from m resp.data = .ok (BitVec.ofNat 32 size, BitVec.ofNat 8 ts) := by
      rw [hdat]
      refine Rd.from_ok (Reads.start (bs := fileAnnounce size ts) ?_ m)
      have h1 := Reads.u32 (BitVec.ofNat 32 size)
      have h2 := Reads.u8 (BitVec.ofNat 8 ts)
      rw [BitVec.toNat_ofNat, Nat.mod_eq_of_lt hz] at h1
      rw [← le_one, BitVec.toNat_ofNat, Nat.mod_eq_of_lt ht] at h2
      exact h1.bind (h2.map_pure _)
    rw [hr]
    rfl
  · intro d resp h hs
    refine (Prog.bind_ok (Prog.get_run (_, L))).trans ?_
    refine (Prog.bind_ok (onLink_ok (o := (⟨inst, .loaded, calls⟩ : FileObject)) (ask_ok (r := fileBeginReq inst) h))).trans ?_
    rw [if_neg (show ¬ _ = GeneralStatus.success from hs)]
    rfl
  · intro d e h
    refine (Prog.bind_ok (Prog.get_run (_, L))).trans ?_
    exact Prog.bind_throw (onLink_throw (ask_throw (r := fileBeginReq inst) h))

/-- C62. In any other state `beginUpload` does nothing: no request, no call. -/
theorem C62_begin_other (m : Mem) (D : Device δ) (L : Link δ) (f : FileObject) (hf : f.state ≠ .loaded) (hd : Nat) :
    FileObject.beginUpload m D hd (f, L) = .ok (f, L) () := by
  refine (Prog.bind_ok (Prog.get_run (f, L))).trans ?_
  match hs : f.state with
  | .loaded => exact absurd hs hf
  | .nonexistent => simp only [hs]; rfl
  | .empty => simp only [hs]; rfl
  | .uploading _ => simp only [hs]; rfl

/-- C62. Without an upload `handleTransfers` returns false and does nothing. -/
theorem C62_transfer_other (m : Mem) (D : Device δ) (L : Link δ) (f : FileObject) (hf : ∀ u, f.state ≠ .uploading u) :
    FileObject.handleTransfers m D (f, L) = .ok (f, L) false := by
  refine (Prog.bind_ok (Prog.get_run (f, L))).trans ?_
  match hs : f.state with
  | .uploading u => exact absurd hs (hf u)
  | .nonexistent => simp only [hs]; rfl
  | .empty => simp only [hs]; rfl
  | .loaded => simp only [hs]; rfl

/-! ## One transfer -/

/-- `handleTransfers` on an upload, by what the device answers. -/
theorem transfer_run (m : Mem) (D : Device δ) (L : Link δ) (f : FileObject) (u : Upload) (hf : f.state = .uploading u) :
    (∀ d e, D.answer ⟨0x4F#8, ⟨0x37, f.instanceId, 0, 2⟩, [u.number]⟩ L.dev = .throw d e →
      FileObject.handleTransfers m D (f, L) =
        .throw (f, ⟨d, L.sent ++ [⟨0x4F#8, ⟨0x37, f.instanceId, 0, 2⟩, [u.number]⟩]⟩) e) ∧
    (D.answer ⟨0x4F#8, ⟨0x37, f.instanceId, 0, 2⟩, [u.number]⟩ L.dev = .ub →
      FileObject.handleTransfers m D (f, L) = .ub) ∧
    (∀ d resp, D.answer ⟨0x4F#8, ⟨0x37, f.instanceId, 0, 2⟩, [u.number]⟩ L.dev = .ok d resp →
      let L' : Link δ := ⟨d, L.sent ++ [⟨0x4F#8, ⟨0x37, f.instanceId, 0, 2⟩, [u.number]⟩]⟩
      (resp.status ≠ 0x00#8 → FileObject.handleTransfers m D (f, L) =
        .ok ({ f with calls := f.calls ++ [⟨u.handler, resp.status, []⟩] }, L') true) ∧
      (resp.status = 0x00#8 → FileObject.handleTransfers m D (f, L) =
        match (FileObject.packet u.number u.transferSize resp.data.length).from m resp.data with
        | .ub => .ub
        | .throw e => .throw (f, L') e
        | .ok .wrongNumber => .ok ({ f with calls := f.calls ++ [⟨u.handler, 0x20#8, []⟩] }, L') false
        | .ok (.more bs) =>
          .ok ({ f with state := .uploading { u with content := u.content ++ bs, number := u.number + 1 } }, L') true
        | .ok (.last bs) =>
          .ok ({ f with
                  state := .uploading { u with content := u.content ++ bs }
                  calls := f.calls ++ [if (u.content ++ bs).length = u.fileSize.toNat
                    then ⟨u.handler, 0x00#8, u.content ++ bs⟩ else ⟨u.handler, 0x20#8, []⟩] }, L') false)) := by
  obtain ⟨inst, st, calls⟩ := f
  obtain rfl : st = .uploading u := hf
  refine ⟨?_, ?_, ?_⟩
  · intro d e h
    refine (Prog.bind_ok (Prog.get_run (_, L))).trans ?_
    exact Prog.bind_throw (onLink_throw (ask_throw h))
  · intro h
    refine (Prog.bind_ok (Prog.get_run (_, L))).trans ?_
    exact Prog.bind_ub (onLink_ub (ask_ub h))
  · intro d resp h
    constructor
    · intro hs
      refine (Prog.bind_ok (Prog.get_run (_, L))).trans ?_
      refine (Prog.bind_ok (onLink_ok (ask_ok h))).trans ?_
      rw [if_neg (show ¬ _ = GeneralStatus.success from hs)]
      rfl
    · intro hs
      refine (Prog.bind_ok (Prog.get_run (_, L))).trans ?_
      refine (Prog.bind_ok (onLink_ok (ask_ok h))).trans ?_
      rw [if_pos (show _ = GeneralStatus.success from hs)]
      match hp : (FileObject.packet u.number u.transferSize resp.data.length).from m resp.data with
      | .ub => exact Prog.bind_ub (Prog.lift_ub _)
      | .throw e => exact Prog.bind_throw (Prog.lift_throw e _)
      | .ok .wrongNumber => rfl
      | .ok (.more bs) => rfl
      | .ok (.last bs) => rfl

/-! ## Packets -/

theorem le_one_ofNat (k : Nat) : le 1 k = [BitVec.ofNat 8 k] := by
  have := le_one (BitVec.ofNat 8 k)
  rw [BitVec.toNat_ofNat] at this
  rw [← this]
  simp [le]

theorem packet_more (m : Mem) (n ts : BitVec 8) (k type : Nat) (bs tail : List Byte) (hn : n = BitVec.ofNat 8 k)
    (ht : type = 0 ∨ type = 1) (hb : bs.length = ts.toNat) (len : Nat) :
    (FileObject.packet n ts len).from m (le 1 k ++ le 1 type ++ bs ++ tail) = .ok (.more bs) := by
  subst hn
  refine Rd.from_ok (Reads.start (bs := le 1 k ++ le 1 type ++ bs) ?_ m)
  rw [le_one_ofNat, le_one_ofNat, List.append_assoc]
  refine (Reads.u8 _).bind ((Reads.u8 _).bind ?_)
  rw [if_neg (by simp)]
  rcases ht with rfl | rfl
  · rw [if_pos (by rfl)]
    exact (Reads.bytes' hb).map_pure _
  · rw [if_neg (by decide), if_pos (by rfl)]
    exact (Reads.bytes' hb).map_pure _

theorem packet_last (m : Mem) (n ts : BitVec 8) (k type : Nat) (bs crc : List Byte) (hn : n = BitVec.ofNat 8 k)
    (ht : type = 2 ∨ type = 4) (hc : crc.length = 2) :
    (FileObject.packet n ts (le 1 k ++ le 1 type ++ bs ++ crc).length).from m (le 1 k ++ le 1 type ++ bs ++ crc) =
      .ok (.last bs) := by
  subst hn
  have hl : (le 1 k ++ le 1 type ++ bs ++ crc).length = bs.length + 4 := by
    rw [le_one_ofNat, le_one_ofNat]; simp; omega
  rw [hl]
  refine Rd.from_ok (Reads.start (bs := le 1 k ++ le 1 type ++ bs) ?_ m)
  rw [le_one_ofNat, le_one_ofNat, List.append_assoc]
  refine (Reads.u8 _).bind ((Reads.u8 _).bind ?_)
  rw [if_neg (by simp)]
  have h0 : ¬ bs.length + 4 < 4 := by omega
  rcases ht with rfl | rfl
  · rw [if_neg (by decide), if_neg (by decide), if_pos (by decide), if_neg h0]
    exact (Reads.bytes' (by omega)).map_pure _
  · rw [if_neg (by decide), if_neg (by decide), if_pos (by decide), if_neg h0]
    exact (Reads.bytes' (by omega)).map_pure _

/-! ## C59: a complete upload -/

/-- Call `handleTransfers` so many times. -/
def transfers (m : Mem) (D : Device δ) : Nat → Prog (FileObject × Link δ) (List Bool)
  | 0 => pure []
  | k + 1 => do
    let b ← FileObject.handleTransfers m D
    let bs ← transfers m D k
    pure (b :: bs)

theorem transfers_succ {m : Mem} {D : Device δ} {k : Nat} {s s' s'' : FileObject × Link δ} {b : Bool} {bs : List Bool}
    (h : FileObject.handleTransfers m D s = .ok s' b) (h' : transfers m D k s' = .ok s'' bs) :
    transfers m D (k + 1) s = .ok s'' (b :: bs) := by
  refine (Prog.bind_ok h).trans ((Prog.bind_ok h').trans rfl)

theorem drain (m : Mem) (D : Device δ) (inst : BitVec 16) (crc : List Byte) (hcrc : crc.length = 2) (last : List Byte)
    (size : BitVec 32) (ts : BitVec 8) (hd : Nat) (chunks : List (List Byte)) :
    ∀ (k : Nat) (L : Link δ) (c : List Byte) (calls : List UploadCall) (d' : δ), (∀ x ∈ chunks, x.length = ts.toNat) →
      Grants D L.dev (fileTransfers inst crc k chunks last) d' →
      transfers m D (chunks.length + 1) (⟨inst, .uploading ⟨size, ts, c, BitVec.ofNat 8 k, hd⟩, calls⟩, L) =
        .ok (⟨inst, .uploading ⟨size, ts, c ++ chunks.flatten ++ last, BitVec.ofNat 8 (k + chunks.length), hd⟩,
            calls ++ [if (c ++ chunks.flatten ++ last).length = size.toNat then ⟨hd, 0x00#8, c ++ chunks.flatten ++ last⟩
              else ⟨hd, 0x20#8, []⟩]⟩,
          ⟨d', L.sent ++ (fileTransfers inst crc k chunks last).map Prod.fst⟩)
          (List.replicate chunks.length true ++ [false]) := by
  induction chunks with
  | nil =>
    intro k L c calls d' _ hg
    cases hg with
    | cons ha hs hdt hrest =>
    rename_i resp
    cases hrest
    have hrun := ((transfer_run m D L ⟨inst, .uploading ⟨size, ts, c, BitVec.ofNat 8 k, hd⟩, calls⟩ _ rfl).2.2 _ resp
      (by rw [fileNextReq, le_one_ofNat] at ha; exact ha)).2 hs
    rw [hdt, packet_last m _ ts k _ last crc rfl (by split <;> simp) hcrc] at hrun
    refine transfers_succ (hrun.trans ?_) rfl
    simp [fileTransfers, fileNextReq, le_one_ofNat]
  | cons x xs ih =>
    intro k L c calls d' hl hg
    cases hg with
    | cons ha hs hdt hrest =>
    rename_i dm resp
    have hrun := ((transfer_run m D L ⟨inst, .uploading ⟨size, ts, c, BitVec.ofNat 8 k, hd⟩, calls⟩ _ rfl).2.2 _ resp
      (by rw [fileNextReq, le_one_ofNat] at ha; exact ha)).2 hs
    have hp := packet_more m (BitVec.ofNat 8 k) ts k (if k = 0 then 0 else 1) x [] rfl (by split <;> simp)
      (hl x (by simp)) resp.data.length
    rw [List.append_nil, ← hdt] at hp
    rw [hp] at hrun
    have hn : BitVec.ofNat 8 k + 1 = BitVec.ofNat 8 (k + 1) := by
      apply BitVec.eq_of_toNat_eq; simp
    have := ih (k + 1) ⟨dm, L.sent ++ [⟨0x4F#8, ⟨0x37, inst, 0, 2⟩, [BitVec.ofNat 8 k]⟩]⟩ (c ++ x) calls d'
      (fun y hy => hl y (by simp [hy])) hrest
    refine (transfers_succ hrun (by rw [hn]; exact this)).trans ?_
    have e1 : k + 1 + xs.length = k + (xs.length + 1) := by omega
    simp [fileTransfers, fileNextReq, le_one_ofNat, e1, List.replicate_succ]

/-- C59. A device that answers the requests of an upload with the parts of a file: the
handler is called exactly once, with status success and the file; all calls of
`handleTransfers` but the last return true; the requests are exactly these. -/
theorem C59_upload (m : Mem) (D : Device δ) (L : Link δ) (inst : BitVec 16) (state : BitVec 8)
    (hst : state = 2 ∨ state = 3 ∨ state = 5) (ts : Nat) (hts : ts < 256) (chunks : List (List Byte)) (last crc : List Byte)
    (hch : ∀ c ∈ chunks, c.length = ts) (hcrc : crc.length = 2) (hsize : (chunks.flatten ++ last).length < 2 ^ 32)
    (hd : Nat) (d' : δ)
    (hg : Grants D L.dev ((fileStateReq inst, [state]) ::
      (fileBeginReq inst, fileAnnounce (chunks.flatten ++ last).length ts) :: fileTransfers inst crc 0 chunks last) d') :
    ∃ f1 L1 s2 f3, FileObject.create m D inst L = .ok L1 f1 ∧ FileObject.beginUpload m D hd (f1, L1) = .ok s2 () ∧
      transfers m D (chunks.length + 1) s2 =
        .ok (f3, ⟨d', L.sent ++ [fileStateReq inst, fileBeginReq inst] ++
          (List.range (chunks.length + 1)).map (fileNextReq inst)⟩) (List.replicate chunks.length true ++ [false]) ∧
      f3.calls = [⟨hd, 0x00#8, chunks.flatten ++ last⟩] := by
  cases hg with
  | cons ha hs hdt hrest =>
  rename_i d1 resp1
  cases hrest with
  | cons ha2 hs2 hdt2 hrest =>
  rename_i d2 resp2
  have h1 := (C62_create m D L inst d1 resp1 ha).1 state [] hs hdt
  have h1' : FileObject.create m D inst L = .ok ⟨d1, L.sent ++ [fileStateReq inst]⟩ ⟨inst, .loaded, []⟩ := by
    rw [h1]
    rcases hst with rfl | rfl | rfl <;> rfl
  have h2 := (C62_begin m D ⟨d1, L.sent ++ [fileStateReq inst]⟩ ⟨inst, .loaded, []⟩ rfl hd).1 d2 resp2 _ ts [] ha2 hs2
    hsize hts (by rw [hdt2, List.append_nil])
  have e8 : (BitVec.ofNat 8 ts).toNat = ts := by rw [BitVec.toNat_ofNat]; omega
  have h3 := drain m D inst crc hcrc last (BitVec.ofNat 32 (chunks.flatten ++ last).length) (BitVec.ofNat 8 ts) hd chunks 0
    ⟨d2, L.sent ++ [fileStateReq inst] ++ [fileBeginReq inst]⟩ [] [] d' (by rw [e8]; exact hch) hrest
  have hsent : ∀ (cs : List (List Byte)) k, (fileTransfers inst crc k cs last).map Prod.fst =
      (List.range (cs.length + 1)).map (fun i => fileNextReq inst (k + i)) := by
    intro cs
    induction cs with
    | nil => intro k; simp [fileTransfers]
    | cons x xs ih =>
      intro k
      rw [List.length_cons, List.range_succ_eq_map, List.map_cons, fileTransfers, List.map_cons, ih]
      simp [Function.comp_def, Nat.add_assoc, Nat.add_comm 1]
  rw [hsent] at h3
  simp only [Nat.zero_add, List.append_assoc, List.cons_append, List.nil_append] at h3
  rw [BitVec.toNat_ofNat, Nat.mod_eq_of_lt hsize, if_pos rfl] at h3
  refine ⟨_, _, _, ⟨inst, .uploading ⟨BitVec.ofNat 32 (chunks.flatten ++ last).length, BitVec.ofNat 8 ts, chunks.flatten ++ last,
    BitVec.ofNat 8 chunks.length, hd⟩, [⟨hd, 0x00#8, chunks.flatten ++ last⟩]⟩, h1', h2, ?_, rfl⟩
  simp only [List.append_assoc, List.cons_append, List.nil_append]
  exact h3

/-- C59. Every file can be sent in packets of any positive size. -/
theorem C59_chunks (ts : Nat) (hts : 0 < ts) (content : List Byte) :
    ∃ (chunks : List (List Byte)) (last : List Byte), content = chunks.flatten ++ last ∧ (∀ c ∈ chunks, c.length = ts) ∧ last.length ≤ ts ∧
      (content ≠ [] → last ≠ []) := by
  generalize hn : content.length = n
  induction n using Nat.strongRecOn generalizing content with
  | ind n ih =>
    by_cases h : content.length ≤ ts
    · exact ⟨[], content, by simp, by simp, h, id⟩
    · obtain ⟨cs, l, h1, h2, h3, h4⟩ := ih (content.drop ts).length (by simp; omega) (content.drop ts) rfl
      refine ⟨content.take ts :: cs, l, ?_, ?_, h3, fun _ => h4 ?_⟩
      · rw [List.flatten_cons, List.append_assoc, ← h1, List.take_append_drop]
      · intro c hc
        rcases List.mem_cons.mp hc with rfl | hc
        · rw [List.length_take]; omega
        · exact h2 c hc
      · intro e
        have := congrArg List.length e
        simp at this; omega

/-! ## C60: what a successful upload contains -/

theorem packet_inv {n ts : BitVec 8} {data : List Byte} {p : Packet}
    (h : (FileObject.packet n ts data.length).from Mem.strict data = .ok p) :
    p = .wrongNumber ∨
    (∃ type bs tail, p = .more bs ∧ data = le 1 n.toNat ++ le 1 type ++ bs ++ tail ∧ (type = 0 ∨ type = 1) ∧
      bs.length = ts.toNat) ∨
    (∃ type bs crc, p = .last bs ∧ data = le 1 n.toNat ++ le 1 type ++ bs ++ crc ∧ (type = 2 ∨ type = 4) ∧
      crc.length = 2) := by
  replace ⟨b, h⟩ := Rd.from_inv h
  replace ⟨v, b1, h1, h⟩ := Rd.bind_inv h
  obtain ⟨r1, hr1, e1⟩ := u8_inv (Rest.ofData data) h1
  replace ⟨t, b2, h2, h⟩ := Rd.bind_inv h
  obtain ⟨r2, hr2, e2⟩ := u8_inv hr1 h2
  by_cases hv : v ≠ n
  · rw [if_pos hv] at h
    exact .inl (Rd.pure_inv h).1
  · rw [if_neg hv] at h
    have hv : v = n := Classical.not_not.mp hv
    subst hv
    have hmore : ∀ k : Nat, t = BitVec.ofNat 8 k → (k = 0 ∨ k = 1) →
        (do let fileData ← Rd.bytes ts.toNat; pure (Packet.more fileData) : Rd Packet) Mem.strict b2 = .ok (p, b) →
        ∃ type bs tail, p = .more bs ∧ data = le 1 v.toNat ++ le 1 type ++ bs ++ tail ∧ (type = 0 ∨ type = 1) ∧
          bs.length = ts.toNat := by
      intro k hk hk' h
      obtain ⟨bs, b3, h3, h⟩ := Rd.bind_inv h
      obtain ⟨r3, _, e3, e4⟩ := bytes_inv hr2 h3
      refine ⟨k, bs, r3, (Rd.pure_inv h).1, ?_, hk', e4⟩
      rw [e1, e2, e3, le_one t, hk, ← le_one_ofNat k]
      simp
    by_cases h0 : t = 0
    · rw [if_pos h0] at h
      exact .inr (.inl (hmore 0 h0 (.inl rfl) h))
    rw [if_neg h0] at h
    by_cases h1 : t = 1
    · rw [if_pos h1] at h
      exact .inr (.inl (hmore 1 h1 (.inr rfl) h))
    rw [if_neg h1] at h
    by_cases h24 : t = 2 ∨ t = 4
    · rw [if_pos h24] at h
      by_cases hl : data.length < 4
      · rw [if_pos hl] at h; cases h
      · rw [if_neg hl] at h
        obtain ⟨bs, b3, h3, h⟩ := Rd.bind_inv h
        obtain ⟨r3, _, e3, e4⟩ := bytes_inv hr2 h3
        have hlen : r3.length = 2 := by
          have := congrArg List.length e1
          rw [e2, e3, le_one, le_one] at this
          simp at this
          omega
        obtain ⟨k, hk, hk'⟩ : ∃ k : Nat, t = BitVec.ofNat 8 k ∧ (k = 2 ∨ k = 4) := by
          rcases h24 with h | h
          · exact ⟨2, h, .inl rfl⟩
          · exact ⟨4, h, .inr rfl⟩
        refine .inr (.inr ⟨k, bs, r3, (Rd.pure_inv h).1, ?_, hk', hlen⟩)
        rw [e1, e2, e3, le_one t, hk, ← le_one_ofNat k]
        simp
    · rw [if_neg h24] at h; cases h

/-- `beginUpload` on a loaded file, by what the device answers. -/
theorem begin_run (m : Mem) (D : Device δ) (L : Link δ) (f : FileObject) (hf : f.state = .loaded) (hd : Nat) :
    FileObject.beginUpload m D hd (f, L) =
      match D.answer (fileBeginReq f.instanceId) L.dev with
      | .ub => .ub
      | .throw d e => .throw (f, ⟨d, L.sent ++ [fileBeginReq f.instanceId]⟩) e
      | .ok d resp =>
        if resp.status = 0x00#8 then
          match FileObject.announced.from m resp.data with
          | .ub => .ub
          | .throw e => .throw (f, ⟨d, L.sent ++ [fileBeginReq f.instanceId]⟩) e
          | .ok (size, ts) => .ok ({ f with state := .uploading ⟨size, ts, [], 0, hd⟩ }, ⟨d, L.sent ++ [fileBeginReq f.instanceId]⟩) ()
        else .ok ({ f with calls := f.calls ++ [⟨hd, resp.status, []⟩] }, ⟨d, L.sent ++ [fileBeginReq f.instanceId]⟩) () := by
  obtain ⟨inst, st, calls⟩ := f
  obtain rfl : st = .loaded := hf
  refine (Prog.bind_ok (Prog.get_run (_, L))).trans ?_
  match h : D.answer (fileBeginReq inst) L.dev with
  | .ub => exact Prog.bind_ub (onLink_ub (ask_ub (r := fileBeginReq inst) h))
  | .throw d e => exact Prog.bind_throw (onLink_throw (ask_throw (r := fileBeginReq inst) h))
  | .ok d resp =>
    refine (Prog.bind_ok (onLink_ok (o := (⟨inst, .loaded, calls⟩ : FileObject)) (ask_ok (r := fileBeginReq inst) h))).trans ?_
    simp only
    by_cases hs : resp.status = 0x00#8
    · rw [if_pos (show _ = GeneralStatus.success from hs), if_pos hs]
      match hp : FileObject.announced.from m resp.data with
      | .ub => exact Prog.bind_ub (Prog.lift_ub _)
      | .throw e => exact Prog.bind_throw (Prog.lift_throw e _)
      | .ok (size, ts) => rfl
    · rw [if_neg (show ¬ _ = GeneralStatus.success from hs), if_neg hs]
      rfl

theorem announced_inv {data : List Byte} {size : BitVec 32} {ts : BitVec 8}
    (h : FileObject.announced.from Mem.strict data = .ok (size, ts)) :
    ∃ tail, data = fileAnnounce size.toNat ts.toNat ++ tail := by
  obtain ⟨b, h⟩ := Rd.from_inv h
  obtain ⟨v, b1, h1, h⟩ := Rd.bind_inv h
  obtain ⟨r1, hr1, e1⟩ := u32_inv (Rest.ofData data) h1
  obtain ⟨t, b2, h2, h⟩ := Rd.bind_inv h
  obtain ⟨r2, _, e2⟩ := u8_inv hr1 h2
  have := (Rd.pure_inv h).1
  injection this with h3 h4
  subst h3 h4
  exact ⟨r2, by rw [e1, e2, fileAnnounce, List.append_assoc]⟩

/-- The objects a program can have: made by the constructor and then used by any calls of
`beginUpload` (with these handlers, in this order), `handleTransfers` and `SyncState`, which
may return or throw. -/
inductive FileRun (D : Device δ) (inst : BitVec 16) (L0 : Link δ) : List Nat → FileObject → Link δ → Prop
  | create {L f} : FileObject.create Mem.strict D inst L0 = .ok L f → FileRun D inst L0 [] f L
  | begin {hs f L f' L'} (h : Nat) : FileRun D inst L0 hs f L →
      (FileObject.beginUpload Mem.strict D h (f, L) = .ok (f', L') () ∨
        ∃ e, FileObject.beginUpload Mem.strict D h (f, L) = .throw (f', L') e) → FileRun D inst L0 (hs ++ [h]) f' L'
  | transfer {hs f L f' L'} : FileRun D inst L0 hs f L →
      ((∃ b, FileObject.handleTransfers Mem.strict D (f, L) = .ok (f', L') b) ∨
        ∃ e, FileObject.handleTransfers Mem.strict D (f, L) = .throw (f', L') e) → FileRun D inst L0 hs f' L'
  | sync {hs f L f' L'} : FileRun D inst L0 hs f L →
      (FileObject.syncState Mem.strict D (f, L) = .ok (f', L') () ∨
        ∃ e, FileObject.syncState Mem.strict D (f, L) = .throw (f', L') e) → FileRun D inst L0 hs f' L'

theorem uploadOf_other {inst : BitVec 16} {log : List Exchange} {size ts n l : Nat} {c : List Byte} {b : Bool}
    (h : UploadOf inst log size ts n l c b) (x : Exchange) : UploadOf inst (log ++ [x]) size ts n l c false := by
  obtain ⟨pre, r, tail, post, rfl, h1, h2, h3⟩ := h
  exact ⟨pre, r, tail, post ++ [x], by simp, h1, h2, h3.other x⟩

/-- What is known about an object and the exchanges. -/
structure FileInv (inst : BitVec 16) (hs : List Nat) (f : FileObject) (log : List Exchange) : Prop where
  id : f.instanceId = inst
  upload : ∀ u, f.state = .uploading u → u.handler ∈ hs ∧ ∃ n l b, u.number = BitVec.ofNat 8 n ∧ l ≤ f.calls.length ∧
    UploadOf inst log u.fileSize.toNat u.transferSize.toNat n l u.content b
  calls : ∀ i c, f.calls[i]? = some c → c.handler ∈ hs ∧ (c.status = 0x00#8 → ∃ log1 rest n l ts, log = log1 ++ rest ∧
    l ≤ i + 1 ∧ UploadOf inst log1 c.content.length ts n l c.content true)

theorem FileInv.next {inst : BitVec 16} {hs : List Nat} {f f' : FileObject} {log : List Exchange} (h : FileInv inst hs f log) (x : Exchange)
    (hi : f'.instanceId = f.instanceId)
    (hu : ∀ u, f'.state = .uploading u → f.state = .uploading u ∨ (u.handler ∈ hs ∧ ∃ n l b, u.number = BitVec.ofNat 8 n ∧
      l ≤ f'.calls.length ∧ UploadOf inst (log ++ [x]) u.fileSize.toNat u.transferSize.toNat n l u.content b))
    (hc : f'.calls = f.calls ∨ ∃ c, f'.calls = f.calls ++ [c] ∧ c.handler ∈ hs ∧ (c.status = 0x00#8 → ∃ n l ts,
      l ≤ f.calls.length + 1 ∧ UploadOf inst (log ++ [x]) c.content.length ts n l c.content true)) :
    FileInv inst hs f' (log ++ [x]) := by
  have old : ∀ i c, f.calls[i]? = some c → c.handler ∈ hs ∧ (c.status = 0x00#8 → ∃ log1 rest n l ts,
      log ++ [x] = log1 ++ rest ∧ l ≤ i + 1 ∧ UploadOf inst log1 c.content.length ts n l c.content true) := by
    intro i c e
    obtain ⟨h1, h2⟩ := h.calls i c e
    refine ⟨h1, fun hs => ?_⟩
    obtain ⟨log1, rest, n, l, ts, h3, h5, h4⟩ := h2 hs
    exact ⟨log1, rest ++ [x], n, l, ts, by rw [h3, List.append_assoc], h5, h4⟩
  have hlen : f.calls.length ≤ f'.calls.length := by
    rcases hc with hc | ⟨c, hc, _⟩ <;> rw [hc] <;> simp
  refine ⟨hi.trans h.id, ?_, ?_⟩
  · intro u e
    rcases hu u e with e | e
    · obtain ⟨h1, n, l, b, h2, h4, h3⟩ := h.upload u e
      exact ⟨h1, n, l, false, h2, by omega, uploadOf_other h3 x⟩
    · exact e
  · intro i c e
    rcases hc with hc | ⟨c', hc, e1, e2⟩
    · rw [hc] at e; exact old i c e
    · rw [hc] at e
      by_cases hlt : i < f.calls.length
      · rw [List.getElem?_append_left hlt] at e
        exact old i c e
      · rw [List.getElem?_append_right (by omega)] at e
        obtain ⟨hz, rfl⟩ : i - f.calls.length = 0 ∧ c' = c := by
          match hk : i - f.calls.length with
          | 0 => rw [hk] at e; exact ⟨rfl, by simpa using e⟩
          | k + 1 => rw [hk] at e; simp at e
        refine ⟨e1, fun hs => ?_⟩
        obtain ⟨n, l, ts, h4, h3⟩ := e2 hs
        exact ⟨log ++ [x], [], n, l, ts, by simp, by omega, h3⟩

theorem FileInv.handlers {inst : BitVec 16} {hs : List Nat} {f : FileObject} {log : List Exchange} (h : FileInv inst hs f log) (k : Nat) :
    FileInv inst (hs ++ [k]) f log :=
  ⟨h.id, fun u e => ⟨List.mem_append_left _ (h.upload u e).1, (h.upload u e).2⟩,
    fun i c e => ⟨List.mem_append_left _ (h.calls i c e).1, (h.calls i c e).2⟩⟩

theorem recorded_ok {D : Device δ} {r : Req} {s s' : δ × List Exchange} {resp : MessageRouterResponse}
    (h : (recorded D).answer r s = .ok s' resp) : s'.2 = s.2 ++ [⟨r, resp⟩] := by
  unfold recorded at h
  simp only at h
  split at h
  · injection h with h1 h2; rw [← h1, ← h2]
  · cases h
  · cases h

theorem recorded_throw {D : Device δ} {r : Req} {s s' : δ × List Exchange} {e : Exn}
    (h : (recorded D).answer r s = .throw s' e) : s'.2 = s.2 := by
  unfold recorded at h
  simp only at h
  split at h
  · cases h
  · injection h with h1 h2; rw [← h1]
  · cases h

theorem fileInv_begin {D : Device δ} {inst : BitVec 16} {hs : List Nat} {f f' : FileObject}
    {L L' : Link (δ × List Exchange)} {k : Nat} (hi : FileInv inst hs f L.dev.2)
    (h : FileObject.beginUpload Mem.strict (recorded D) k (f, L) = .ok (f', L') () ∨
        ∃ e, FileObject.beginUpload Mem.strict (recorded D) k (f, L) = .throw (f', L') e) :
    FileInv inst (hs ++ [k]) f' L'.dev.2 := by
  by_cases hl : f.state = .loaded
  · rw [begin_run _ _ _ _ hl] at h
    match ha : (recorded D).answer (fileBeginReq f.instanceId) L.dev with
    | .ub => rw [ha] at h; rcases h with h | ⟨e, h⟩ <;> cases h
    | .throw d e =>
      rw [ha] at h
      rcases h with h | ⟨e, h⟩
      · cases h
      · injection h with h _
        injection h with h1 h2
        subst h1 h2
        rw [show (Link.mk d _).dev.2 = _ from recorded_throw ha]
        exact hi.handlers k
    | .ok d resp =>
      have hlog := recorded_ok ha
      rw [hi.id] at hlog
      rw [ha] at h
      simp only at h
      by_cases hst : resp.status = 0x00#8
      · simp only [if_pos hst] at h
        match hp : FileObject.announced.from Mem.strict resp.data with
        | .ub => rw [hp] at h; rcases h with h | ⟨e, h⟩ <;> cases h
        | .throw x =>
          rw [hp] at h
          rcases h with h | ⟨e, h⟩
          · cases h
          · injection h with h _
            injection h with h1 h2
            subst h1 h2
            rw [show (Link.mk d _).dev.2 = _ from hlog]
            exact (hi.handlers k).next _ rfl (fun u e => .inl e) (.inl rfl)
        | .ok (size, ts) =>
          rw [hp] at h
          rcases h with h | ⟨e, h⟩
          · injection h with h _
            injection h with h1 h2
            subst h1 h2
            rw [show (Link.mk d _).dev.2 = _ from hlog]
            refine (hi.handlers k).next _ rfl (fun u e => .inr ?_) (.inl rfl)
            injection e with e
            subst e
            obtain ⟨tail, ht⟩ := announced_inv hp
            exact ⟨by simp, 0, 0, false, rfl, Nat.zero_le _, L.dev.2, resp, tail, [], rfl, hst, ht, .nothing⟩
          · cases h
      · simp only [if_neg hst] at h
        rcases h with h | ⟨e, h⟩
        · injection h with h _
          injection h with h1 h2
          subst h1 h2
          rw [show (Link.mk d _).dev.2 = _ from hlog]
          refine (hi.handlers k).next _ rfl (fun u e => .inl e) (.inr ⟨_, rfl, by simp, fun hh => absurd hh hst⟩)
        · cases h
  · rw [C62_begin_other _ _ _ _ hl] at h
    rcases h with h | ⟨e, h⟩
    · injection h with h _
      injection h with h1 h2
      subst h1 h2
      exact hi.handlers k
    · cases h

theorem fileInv_transfer {D : Device δ} {inst : BitVec 16} {hs : List Nat} {f f' : FileObject}
    {L L' : Link (δ × List Exchange)} (hi : FileInv inst hs f L.dev.2)
    (h : (∃ b, FileObject.handleTransfers Mem.strict (recorded D) (f, L) = .ok (f', L') b) ∨
        ∃ e, FileObject.handleTransfers Mem.strict (recorded D) (f, L) = .throw (f', L') e) :
    FileInv inst hs f' L'.dev.2 := by
  match hu : f.state with
  | .uploading u =>
    obtain ⟨ht, hub, hok⟩ := transfer_run Mem.strict (recorded D) L f u hu
    obtain ⟨hh, n, l, b, hn, hle', hup⟩ := hi.upload u hu
    have hreq : (⟨0x4F#8, ⟨0x37, f.instanceId, 0, 2⟩, [u.number]⟩ : Req) = fileNextReq inst n := by
      rw [hi.id, hn, fileNextReq, le_one_ofNat]
    have hle : le 1 u.number.toNat = le 1 n := by rw [le_one, hn, le_one_ofNat]
    match ha : (recorded D).answer ⟨0x4F#8, ⟨0x37, f.instanceId, 0, 2⟩, [u.number]⟩ L.dev with
    | .ub => rw [hub ha] at h; rcases h with ⟨b, h⟩ | ⟨e, h⟩ <;> cases h
    | .throw d e =>
      rw [ht d e ha] at h
      rcases h with ⟨b, h⟩ | ⟨e, h⟩
      · cases h
      · injection h with h _
        injection h with h1 h2
        subst h1 h2
        rw [show (Link.mk d _).dev.2 = _ from recorded_throw ha]
        exact hi
    | .ok d resp =>
      have hlog := recorded_ok ha
      rw [hreq] at hlog
      obtain ⟨hbad, hgood⟩ := hok d resp ha
      by_cases hst : resp.status = 0x00#8
      · rw [hgood hst] at h
        match hp : (FileObject.packet u.number u.transferSize resp.data.length).from Mem.strict resp.data with
        | .ub => rw [hp] at h; rcases h with ⟨b, h⟩ | ⟨e, h⟩ <;> cases h
        | .throw x =>
          rw [hp] at h
          rcases h with ⟨b, h⟩ | ⟨e, h⟩
          · cases h
          · injection h with h _
            injection h with h1 h2
            subst h1 h2
            rw [show (Link.mk d _).dev.2 = _ from hlog]
            exact hi.next _ rfl (fun u e => .inl e) (.inl rfl)
        | .ok .wrongNumber =>
          rw [hp] at h
          rcases h with ⟨b, h⟩ | ⟨e, h⟩
          · injection h with h _
            injection h with h1 h2
            subst h1 h2
            rw [show (Link.mk d _).dev.2 = _ from hlog]
            refine hi.next _ rfl (fun u e => .inl e) (.inr ⟨_, rfl, hh, fun hh => absurd hh (show ¬ (0x20#8 : BitVec 8) = 0x00#8 by decide)⟩)
          · cases h
        | .ok (.more bs) =>
          rw [hp] at h
          rcases h with ⟨b, h⟩ | ⟨e, h⟩
          · injection h with h _
            injection h with h1 h2
            subst h1 h2
            rw [show (Link.mk d _).dev.2 = _ from hlog]
            refine hi.next _ rfl (fun u' e => .inr ?_) (.inl rfl)
            injection e with e
            subst e
            rcases packet_inv hp with hp | ⟨type, bs', tail, e1, e2, e3, e4⟩ | ⟨type, bs', tail, e1, _⟩
            · cases hp
            · injection e1 with e1
              subst e1
              refine ⟨hh, n + 1, l, false, ?_, hle', ?_⟩
              · simp only [hn]; apply BitVec.eq_of_toNat_eq; simp
              · obtain ⟨pre, r, tl, post, g1, g2, g3, g4⟩ := hup
                refine ⟨pre, r, tl, post ++ [⟨fileNextReq inst n, resp⟩], by rw [g1]; simp, g2, g3, ?_⟩
                exact .piece _ type bs tail g4 rfl hst (by rw [← hle]; exact e2) e3 e4
            · cases e1
          · cases h
        | .ok (.last bs) =>
          rw [hp] at h
          rcases h with ⟨b, h⟩ | ⟨e, h⟩
          · injection h with h _
            injection h with h1 h2
            subst h1 h2
            rw [show (Link.mk d _).dev.2 = _ from hlog]
            have hnew : UploadOf inst (L.dev.2 ++ [⟨fileNextReq inst n, resp⟩]) u.fileSize.toNat u.transferSize.toNat n
                (l + 1) (u.content ++ bs) true := by
              rcases packet_inv hp with hp | ⟨type, bs', tail, e1, _⟩ | ⟨type, bs', tail, e1, e2, e3, e4⟩
              · cases hp
              · cases e1
              · injection e1 with e1
                subst e1
                obtain ⟨pre, r, tl, post, g1, g2, g3, g4⟩ := hup
                refine ⟨pre, r, tl, post ++ [⟨fileNextReq inst n, resp⟩], by rw [g1]; simp, g2, g3, ?_⟩
                exact .last _ type bs tail g4 rfl hst (by rw [← hle]; exact e2) e3 e4
            refine hi.next _ rfl (fun u' e => .inr ?_) (.inr ⟨_, rfl, ?_⟩)
            · injection e with e
              subst e
              exact ⟨hh, n, l + 1, true, hn, by simpa using hle', hnew⟩
            · by_cases hz : (u.content ++ bs).length = u.fileSize.toNat
              · rw [if_pos hz]
                exact ⟨hh, fun _ => ⟨n, l + 1, u.transferSize.toNat, by omega, by rw [← hz] at hnew; exact hnew⟩⟩
              · rw [if_neg hz]
                exact ⟨hh, fun hh => absurd hh (show ¬ (0x20#8 : BitVec 8) = 0x00#8 by decide)⟩
          · cases h
      · rw [hbad hst] at h
        rcases h with ⟨b, h⟩ | ⟨e, h⟩
        · injection h with h _
          injection h with h1 h2
          subst h1 h2
          rw [show (Link.mk d _).dev.2 = _ from hlog]
          refine hi.next _ rfl (fun u e => .inl e) (.inr ⟨_, rfl, hh, fun hh => absurd hh hst⟩)
        · cases h
  | .loaded | .empty | .nonexistent =>
    rw [C62_transfer_other _ _ _ _ (fun u e => by rw [hu] at e; cases e)] at h
    rcases h with ⟨b, h⟩ | ⟨e, h⟩
    · injection h with h _
      injection h with h1 h2
      subst h1 h2
      exact hi
    · cases h

theorem create_inv {m : Mem} {D : Device δ} {inst : BitVec 16} {L L' : Link δ} {f : FileObject}
    (h : FileObject.create m D inst L = .ok L' f) :
    f.instanceId = inst ∧ f.calls = [] ∧ ∀ u, f.state ≠ .uploading u := by
  obtain ⟨L1, resp, _, h⟩ := Prog.bind_eq_ok h
  by_cases hs : resp.status = GeneralStatus.success
  · rw [if_pos hs] at h
    obtain ⟨L2, b, _, h⟩ := Prog.bind_eq_ok h
    have key : ∀ st : FileState, (∀ u, st ≠ .uploading u) → (pure ⟨inst, st, []⟩ : Prog (Link δ) FileObject) L2 = .ok L' f →
        f.instanceId = inst ∧ f.calls = [] ∧ ∀ u, f.state ≠ .uploading u := by
      intro st hst h
      injection h with _ h
      subst h
      exact ⟨rfl, rfl, hst⟩
    by_cases h0 : b = 0
    · rw [if_pos h0] at h; exact key _ (fun _ e => by cases e) h
    rw [if_neg h0] at h
    by_cases h0 : b = 1
    · rw [if_pos h0] at h; exact key _ (fun _ e => by cases e) h
    rw [if_neg h0] at h
    by_cases h0 : b = 2
    · rw [if_pos h0] at h; exact key _ (fun _ e => by cases e) h
    rw [if_neg h0] at h
    by_cases h0 : b = 3 ∨ b = 5
    · rw [if_pos h0] at h; exact key _ (fun _ e => by cases e) h
    rw [if_neg h0] at h
    cases h
  · rw [if_neg hs] at h; cases h

/-- The constructor makes one exchange, or none if there is no answer. -/
theorem create_log {D : Device δ} {inst : BitVec 16} {L : Link (δ × List Exchange)} :
    (∀ L' f, FileObject.create Mem.strict (recorded D) inst L = .ok L' f → ∃ x, L'.dev.2 = L.dev.2 ++ [x]) ∧
    (∀ L' e, FileObject.create Mem.strict (recorded D) inst L = .throw L' e →
      L'.dev.2 = L.dev.2 ∨ ∃ x, L'.dev.2 = L.dev.2 ++ [x]) := by
  match ha : (recorded D).answer (fileStateReq inst) L.dev with
  | .ub =>
    have h : FileObject.create Mem.strict (recorded D) inst L = .ub :=
      Prog.bind_ub (ask_ub (r := fileStateReq inst) ha)
    refine ⟨fun L' f h' => ?_, fun L' e h' => ?_⟩ <;> rw [h] at h' <;> cases h'
  | .throw d e =>
    have h : FileObject.create Mem.strict (recorded D) inst L = .throw ⟨d, L.sent ++ [fileStateReq inst]⟩ e :=
      Prog.bind_throw (ask_throw (r := fileStateReq inst) ha)
    refine ⟨fun L' f h' => ?_, fun L' e h' => ?_⟩ <;> rw [h] at h'
    · cases h'
    · injection h' with h1 _
      subst h1
      exact .inl (recorded_throw ha)
  | .ok d resp =>
    have hlog := recorded_ok ha
    by_cases hs : resp.status = 0x00#8
    · cases hd : resp.data with
      | nil =>
        have h := C62_empty_violated (recorded D) L inst d resp ha hs hd
        refine ⟨fun L' f h' => ?_, fun L' e h' => ?_⟩ <;> rw [h] at h' <;> cases h'
      | cons b rest =>
        have h := (C62_create Mem.strict (recorded D) L inst d resp ha).1 b rest hs hd
        refine ⟨fun L' f h' => ?_, fun L' e h' => .inr ?_⟩ <;> rw [h] at h' <;> split at h' <;>
          first | (cases h'; exact ⟨_, hlog⟩) | cases h'
    · have h := (C62_create Mem.strict (recorded D) L inst d resp ha).2 hs
      refine ⟨fun L' f h' => ?_, fun L' e h' => ?_⟩ <;> rw [h] at h'
      · cases h'
      · injection h' with h1 _
        subst h1
        exact .inr ⟨_, hlog⟩

theorem sync_run (m : Mem) (D : Device δ) (f : FileObject) (L : Link δ) :
    FileObject.syncState m D (f, L) =
      match FileObject.create m D f.instanceId L with
      | .ok L' g => .ok ({ f with state := g.state }, L') ()
      | .throw L' e => .throw (f, L') e
      | .ub => .ub := by
  refine (Prog.bind_ok (Prog.get_run (f, L))).trans ?_
  cases h : FileObject.create m D f.instanceId L with
  | ok L' g => exact (Prog.bind_ok (onLink_ok h)).trans rfl
  | throw L' e => exact Prog.bind_throw (onLink_throw h)
  | ub => exact Prog.bind_ub (onLink_ub h)

theorem fileInv_sync {D : Device δ} {inst : BitVec 16} {hs : List Nat} {f f' : FileObject}
    {L L' : Link (δ × List Exchange)} (hi : FileInv inst hs f L.dev.2)
    (h : FileObject.syncState Mem.strict (recorded D) (f, L) = .ok (f', L') () ∨
        ∃ e, FileObject.syncState Mem.strict (recorded D) (f, L) = .throw (f', L') e) : FileInv inst hs f' L'.dev.2 := by
  rw [sync_run] at h
  have hlog := create_log (D := D) (inst := f.instanceId) (L := L)
  cases hc : FileObject.create Mem.strict (recorded D) f.instanceId L with
  | ub => rw [hc] at h; rcases h with h | ⟨e, h⟩ <;> cases h
  | throw L1 e =>
    rw [hc] at h
    rcases h with h | ⟨e', h⟩
    · cases h
    · injection h with h _
      injection h with h1 h2
      subst h1 h2
      rcases hlog.2 L1 e hc with hl | ⟨x, hl⟩ <;> rw [hl]
      · exact hi
      · exact hi.next x rfl (fun _ e => .inl e) (.inl rfl)
  | ok L1 g =>
    rw [hc] at h
    rcases h with h | ⟨e', h⟩
    · injection h with h _
      injection h with h1 h2
      subst h1 h2
      obtain ⟨x, hl⟩ := hlog.1 L1 g hc
      rw [hl]
      exact hi.next x rfl (fun u e => absurd e ((create_inv hc).2.2 u)) (.inl rfl)
    · cases h

/-- C60. Whatever the device answers and whatever is called: the `i`-th call of a handler
(counted from 0) with status success is for a handler given to `beginUpload`, and comes with
exactly the announced number of bytes; these are the payloads of the packets taken since
the announcement, in order, each in answer to a request for its number; the last of them is a
last packet, and at most `i + 1` of them are last packets. -/
theorem C60_content (D : Device δ) (inst : BitVec 16) (d : δ) (sent : List Req) (hs : List Nat) (f : FileObject)
    (L : Link (δ × List Exchange)) (h : FileRun (recorded D) inst ⟨(d, []), sent⟩ hs f L) (i : Nat) (c : UploadCall)
    (hi : f.calls[i]? = some c) :
    c.handler ∈ hs ∧ (c.status = 0x00#8 → ∃ log rest n l ts, L.dev.2 = log ++ rest ∧ l ≤ i + 1 ∧
      UploadOf inst log c.content.length ts n l c.content true) := by
  have inv : FileInv inst hs f L.dev.2 := by
    clear hi
    induction h with
    | create h =>
      obtain ⟨h1, h2, h3⟩ := create_inv h
      exact ⟨h1, fun u e => absurd e (h3 u), fun i c e => by rw [h2] at e; cases e⟩
    | begin k _ h ih => exact fileInv_begin ih h
    | transfer _ h ih => exact fileInv_transfer ih h
    | sync _ h ih => exact fileInv_sync ih h
  exact inv.calls i c hi

/-- Before any last packet, number and size of the packets give the length. -/
theorem received_length {inst : BitVec 16} {ts n l : Nat} {log : List Exchange} {c : List Byte} {b : Bool}
    (h : Received inst ts log n l c b) : n * ts ≤ c.length ∧ (l = 0 → c.length = n * ts ∧ b = false) := by
  induction h with
  | nothing => simp
  | other x _ ih => exact ⟨ih.1, fun e => ⟨(ih.2 e).1, rfl⟩⟩
  | piece x type bs tail _ _ _ _ _ hb ih =>
    rw [List.length_append, hb, Nat.add_mul, Nat.one_mul]
    exact ⟨by omega, fun e => ⟨by have := (ih.2 e).1; omega, rfl⟩⟩
  | last x type bs crc _ _ _ _ _ _ ih =>
    rw [List.length_append]
    exact ⟨by omega, fun e => by omega⟩

/-! ## C61: how often the handler is called -/

/-- C61. One call of `handleTransfers` on an upload.  If it returns false the handler was
called once; if it returns true the handler was not called unless the device answered with an
error status, which the handler was given; if it throws the handler was not called. -/
theorem C61_one_call (m : Mem) (D : Device δ) (L : Link (δ × List Exchange)) (f : FileObject) (u : Upload)
    (hf : f.state = .uploading u) :
    (∀ f' L', FileObject.handleTransfers m (recorded D) (f, L) = .ok (f', L') false →
      ∃ c, f'.calls = f.calls ++ [c] ∧ c.handler = u.handler ∧ (c.status = 0x00#8 ∨ c.status = 0x20#8) ∧
        ∃ x, L'.dev.2 = L.dev.2 ++ [x] ∧ x.resp.status = 0x00#8) ∧
    (∀ f' L', FileObject.handleTransfers m (recorded D) (f, L) = .ok (f', L') true →
      ∃ x, L'.dev.2 = L.dev.2 ++ [x] ∧
        (x.resp.status = 0x00#8 → f'.calls = f.calls) ∧
        (x.resp.status ≠ 0x00#8 → f'.calls = f.calls ++ [⟨u.handler, x.resp.status, []⟩])) ∧
    (∀ f' L' e, FileObject.handleTransfers m (recorded D) (f, L) = .throw (f', L') e → f' = f) := by
  obtain ⟨ht, hub, hok⟩ := transfer_run m (recorded D) L f u hf
  match ha : (recorded D).answer ⟨0x4F#8, ⟨0x37, f.instanceId, 0, 2⟩, [u.number]⟩ L.dev with
  | .ub =>
    rw [hub ha]
    exact ⟨fun _ _ h => (by cases h), fun _ _ h => (by cases h), fun _ _ _ h => (by cases h)⟩
  | .throw d e =>
    rw [ht d e ha]
    refine ⟨fun _ _ h => (by cases h), fun _ _ h => (by cases h), fun _ _ _ h => ?_⟩
    injection h with h _; injection h with h _; exact h.symm
  | .ok d resp =>
    have hlog := recorded_ok ha
    obtain ⟨hbad, hgood⟩ := hok d resp ha
    by_cases hst : resp.status = 0x00#8
    · rw [hgood hst]
      match hp : (FileObject.packet u.number u.transferSize resp.data.length).from m resp.data with
      | .ub => exact ⟨fun _ _ h => (by cases h), fun _ _ h => (by cases h), fun _ _ _ h => (by cases h)⟩
      | .throw x =>
        refine ⟨fun _ _ h => (by cases h), fun _ _ h => (by cases h), fun _ _ _ h => ?_⟩
        injection h with h _; injection h with h _; exact h.symm
      | .ok .wrongNumber =>
        refine ⟨fun f' L' h => ?_, fun _ _ h => (by cases h), fun _ _ _ h => (by cases h)⟩
        injection h with h _; injection h with h1 h2; subst h1 h2
        exact ⟨_, rfl, rfl, .inr rfl, _, hlog, hst⟩
      | .ok (.more bs) =>
        refine ⟨fun _ _ h => (by cases h), fun f' L' h => ?_, fun _ _ _ h => (by cases h)⟩
        injection h with h _; injection h with h1 h2; subst h1 h2
        exact ⟨_, hlog, fun _ => rfl, fun h => absurd hst h⟩
      | .ok (.last bs) =>
        refine ⟨fun f' L' h => ?_, fun _ _ h => (by cases h), fun _ _ _ h => (by cases h)⟩
        injection h with h _; injection h with h1 h2; subst h1 h2
        refine ⟨_, rfl, ?_, ?_, _, hlog, hst⟩
        · split <;> rfl
        · split
          · exact .inl rfl
          · exact .inr rfl
    · rw [hbad hst]
      refine ⟨fun _ _ h => (by cases h), fun f' L' h => ?_, fun _ _ _ h => (by cases h)⟩
      injection h with h _; injection h with h1 h2; subst h1 h2
      exact ⟨_, hlog, fun h => absurd h hst, fun _ => rfl⟩

/-- A call of `handleTransfers` keeps an upload an upload. -/
theorem transfer_keeps {m : Mem} {D : Device δ} {L L' : Link δ} {f f' : FileObject} {u : Upload} {b : Bool}
    (hf : f.state = .uploading u) (h : FileObject.handleTransfers m D (f, L) = .ok (f', L') b) :
    ∃ u', f'.state = .uploading u' ∧ u'.handler = u.handler := by
  obtain ⟨ht, hub, hok⟩ := transfer_run m D L f u hf
  match ha : D.answer ⟨0x4F#8, ⟨0x37, f.instanceId, 0, 2⟩, [u.number]⟩ L.dev with
  | .ub => rw [hub ha] at h; cases h
  | .throw d e => rw [ht d e ha] at h; cases h
  | .ok d resp =>
    obtain ⟨hbad, hgood⟩ := hok d resp ha
    by_cases hst : resp.status = 0x00#8
    · rw [hgood hst] at h
      match hp : (FileObject.packet u.number u.transferSize resp.data.length).from m resp.data with
      | .ub => rw [hp] at h; cases h
      | .throw x => rw [hp] at h; cases h
      | .ok .wrongNumber =>
        rw [hp] at h
        injection h with h _; injection h with h1 h2; subst h1
        exact ⟨u, hf, rfl⟩
      | .ok (.more bs) =>
        rw [hp] at h
        injection h with h _; injection h with h1 h2; subst h1
        exact ⟨_, rfl, rfl⟩
      | .ok (.last bs) =>
        rw [hp] at h
        injection h with h _; injection h with h1 h2; subst h1
        exact ⟨_, rfl, rfl⟩
    · rw [hbad hst] at h
      injection h with h _; injection h with h1 h2; subst h1
      exact ⟨u, hf, rfl⟩

/-- C61. Any number of calls of `handleTransfers` on an upload: the handler was called once for
each call that returned false and once for each answer with an error status. -/
theorem C61_count (m : Mem) (D : Device δ) (k : Nat) (L L' : Link (δ × List Exchange)) (f f' : FileObject) (u : Upload)
    (hf : f.state = .uploading u) (bs : List Bool) (h : transfers m (recorded D) k (f, L) = .ok (f', L') bs) :
    ∃ new, L'.dev.2 = L.dev.2 ++ new ∧ new.length = k ∧
      f'.calls.length = f.calls.length + bs.count false + new.countP (fun x => x.resp.status ≠ 0x00#8) := by
  induction k generalizing L f u bs with
  | zero =>
    injection h with h h'
    injection h with h1 h2
    subst h1 h2 h'
    exact ⟨[], by simp, rfl, by simp⟩
  | succ k ih =>
    obtain ⟨⟨f1, L1⟩, b, h1, h⟩ := Prog.bind_eq_ok h
    obtain ⟨⟨f2, L2⟩, bs', h2, h⟩ := Prog.bind_eq_ok h
    injection h with h h'
    injection h with e1 e2
    subst e1 e2 h'
    obtain ⟨u', hu', _⟩ := transfer_keeps hf h1
    obtain ⟨new, e1, e2, e3⟩ := ih L1 f1 u' hu' bs' h2
    obtain ⟨hF, hT, _⟩ := C61_one_call m D L f u hf
    cases b with
    | false =>
      obtain ⟨c, c1, _, _, x, x1, x2⟩ := hF _ _ h1
      refine ⟨x :: new, by rw [e1, x1]; simp, by simp [e2], ?_⟩
      rw [e3, c1, List.countP_cons]
      simp [x2]
      omega
    | true =>
      obtain ⟨x, x1, x2, x3⟩ := hT _ _ h1
      refine ⟨x :: new, by rw [e1, x1]; simp, by simp [e2], ?_⟩
      rw [e3, List.countP_cons]
      by_cases hst : x.resp.status = 0x00#8
      · rw [x2 hst]; simp [hst]
      · rw [x3 hst]; simp [hst]; omega

/-- C61. A device that answers every transfer with an error: however often `handleTransfers`
is called it returns true, and calls the handler. -/
theorem C61_error_violated (m : Mem) (D : Device δ) (d : δ) (resp : MessageRouterResponse) (hst : resp.status ≠ 0x00#8)
    (ha : ∀ r, D.answer r d = .ok d resp) (f : FileObject) (u : Upload) (hf : f.state = .uploading u) (k : Nat)
    (sent : List Req) :
    ∃ sent', transfers m D k (f, ⟨d, sent⟩) =
      .ok ({ f with calls := f.calls ++ List.replicate k ⟨u.handler, resp.status, []⟩ }, ⟨d, sent'⟩) (List.replicate k true) := by
  induction k generalizing f sent with
  | zero => exact ⟨sent, by simp [transfers]⟩
  | succ k ih =>
    have h1 := ((transfer_run m D ⟨d, sent⟩ f u hf).2.2 d resp (ha _)).1 hst
    obtain ⟨sent', h2⟩ := ih { f with calls := f.calls ++ [⟨u.handler, resp.status, []⟩] } hf
      (sent ++ [⟨0x4F#8, ⟨0x37, f.instanceId, 0, 2⟩, [u.number]⟩])
    refine ⟨sent', (transfers_succ h1 h2).trans ?_⟩
    simp [List.replicate_succ]

/-! ## C75: malformed packets -/

theorem packet_short2 (n ts : BitVec 8) (data : List Byte) (h : data.length < 2) :
    (FileObject.packet n ts data.length).from Mem.strict data = .ub := by
  refine Rd.from_ub ?_
  match data, h with
  | [], _ => rfl
  | [a], _ => rfl

theorem packet_type (m : Mem) (n ts a t : BitVec 8) (rest : List Byte) (len : Nat) :
    (FileObject.packet n ts len).from m (a :: t :: rest) =
      if a ≠ n then .ok .wrongNumber
      else if t = 0 ∨ t = 1 then
        match Rd.bytes ts.toNat m ⟨a :: t :: rest, 2⟩ with
        | .ok (bs, _) => .ok (.more bs)
        | .throw e => .throw e
        | .ub => .ub
      else if t = 2 ∨ t = 4 then
        if len < 4 then .throw .lengthError
        else match Rd.bytes (len - 4) m ⟨a :: t :: rest, 2⟩ with
          | .ok (bs, _) => .ok (.last bs)
          | .throw e => .throw e
          | .ub => .ub
      else .throw (.runtime "Received unexpected transfer type") := by
  have key : FileObject.packet n ts len m (Buffer.ofData (a :: t :: rest)) =
      (if a ≠ n then pure .wrongNumber
      else if t = 0 then do let fileData ← Rd.bytes ts.toNat; pure (.more fileData)
      else if t = 1 then do let fileData ← Rd.bytes ts.toNat; pure (.more fileData)
      else if t = 2 ∨ t = 4 then
        if len < 4 then Rd.throw .lengthError
        else do let fileData ← Rd.bytes (len - 4); pure (.last fileData)
      else Rd.throw (.runtime "Received unexpected transfer type") : Rd Packet) m ⟨a :: t :: rest, 2⟩ := by
    refine (Rd.bind_ok (b' := ⟨a :: t :: rest, 1⟩) (a := a) rfl).trans ?_
    exact (Rd.bind_ok (b' := ⟨a :: t :: rest, 2⟩) (a := t) rfl).trans rfl
  unfold Rd.from
  rw [key]
  by_cases ha : a ≠ n
  · rw [if_pos ha, if_pos ha]; rfl
  · rw [if_neg ha, if_neg ha]
    by_cases h0 : t = 0
    · rw [if_pos h0, if_pos (show t = 0 ∨ t = 1 from .inl h0)]; rw [Rd.bind_run]; rcases Rd.bytes ts.toNat m _ with ⟨bs, _⟩ | e | _ <;> rfl
    · rw [if_neg h0]
      by_cases h1 : t = 1
      · rw [if_pos h1, if_pos (show t = 0 ∨ t = 1 from .inr h1)]; rw [Rd.bind_run]; rcases Rd.bytes ts.toNat m _ with ⟨bs, _⟩ | e | _ <;> rfl
      · rw [if_neg h1, if_neg (show ¬ (t = 0 ∨ t = 1) from fun h => h.elim h0 h1)]
        by_cases h2 : t = 2 ∨ t = 4
        · rw [if_pos h2, if_pos h2]
          by_cases hl : len < 4
          · rw [if_pos hl, if_pos hl]; rfl
          · rw [if_neg hl, if_neg hl]; rw [Rd.bind_run]; rcases Rd.bytes (len - 4) m _ with ⟨bs, _⟩ | e | _ <;> rfl
        · rw [if_neg h2, if_neg h2]; rfl

/-- C75. A successful answer that is not a packet.  In the first two cases the call reads
out of bounds; in the last two it throws, the handler is not called, and the upload is as it
was.  (Type 3 is "abort".) -/
theorem C75_malformed (D : Device δ) (L : Link δ) (f : FileObject) (u : Upload) (hf : f.state = .uploading u) (d : δ)
    (resp : MessageRouterResponse)
    (ha : D.answer ⟨0x4F#8, ⟨0x37, f.instanceId, 0, 2⟩, [u.number]⟩ L.dev = .ok d resp) (hst : resp.status = 0x00#8) :
    (resp.data.length < 2 → FileObject.handleTransfers Mem.strict D (f, L) = .ub) ∧
    (∀ t rest, resp.data = u.number :: t :: rest → t.toNat < 2 → rest.length < u.transferSize.toNat →
      FileObject.handleTransfers Mem.strict D (f, L) = .ub) ∧
    (∀ m t rest, resp.data = u.number :: t :: rest → (t.toNat = 2 ∨ t.toNat = 4) → rest.length < 2 →
      ∃ L', FileObject.handleTransfers m D (f, L) = .throw (f, L') .lengthError) ∧
    (∀ m t rest, resp.data = u.number :: t :: rest → (t.toNat = 3 ∨ 4 < t.toNat) →
      ∃ L', FileObject.handleTransfers m D (f, L) = .throw (f, L') (.runtime "Received unexpected transfer type")) := by
  have hgood := fun m => (((transfer_run m D L f u hf).2.2 d resp ha).2 hst)
  have hne : ∀ (t : BitVec 8) (k : Nat), k < 256 → t.toNat ≠ k → ¬ t = BitVec.ofNat 8 k := by
    intro t k hk h e
    rw [e, BitVec.toNat_ofNat, Nat.mod_eq_of_lt hk] at h
    exact h rfl
  refine ⟨?_, ?_, ?_, ?_⟩
  · intro h
    rw [hgood, packet_short2 _ _ _ h]
  · intro t rest hd ht hr
    have h01 : t = 0 ∨ t = 1 := by
      by_cases h : t.toNat = 0
      · exact .inl (BitVec.eq_of_toNat_eq h)
      · exact .inr (BitVec.eq_of_toNat_eq (by show t.toNat = 1; omega))
    have hp : (FileObject.packet u.number u.transferSize resp.data.length).from Mem.strict resp.data = .ub := by
      rw [hd, packet_type, if_neg (by simp), if_pos h01]
      rw [(Sized.bytes u.transferSize.toNat).short ⟨u.number :: t :: rest, 2⟩ (by simp) (by simp; omega)]
    rw [hgood, hp]
  · intro m t rest hd ht hr
    have h24 : t = 2 ∨ t = 4 := by
      rcases ht with h | h
      · exact .inl (BitVec.eq_of_toNat_eq h)
      · exact .inr (BitVec.eq_of_toNat_eq h)
    have hp : (FileObject.packet u.number u.transferSize resp.data.length).from m resp.data = .throw .lengthError := by
      rw [hd, packet_type, if_neg (by simp), if_neg, if_pos h24, if_pos (by simp; omega)]
      rcases h24 with rfl | rfl <;> decide
    rw [hgood, hp]
    exact ⟨_, rfl⟩
  · intro m t rest hd ht
    have hp : (FileObject.packet u.number u.transferSize resp.data.length).from m resp.data =
        .throw (.runtime "Received unexpected transfer type") := by
      rw [hd, packet_type, if_neg (by simp), if_neg, if_neg]
      · rintro (h | h)
        · exact hne t 2 (by decide) (by omega) h
        · exact hne t 4 (by decide) (by omega) h
      · rintro (h | h)
        · exact hne t 0 (by decide) (by omega) h
        · exact hne t 1 (by decide) (by omega) h
    rw [hgood, hp]
    exact ⟨_, rfl⟩

/-! ## Concrete cases -/

/-- A device that answers by a list, one answer after the other, and then with status 5. -/
def scriptDevice : Device (List (BitVec 8 × List Byte)) :=
  ⟨fun _ s => match s with
    | [] => .ok [] { MessageRouterResponse.default with status := 5, data := [] }
    | a :: rest => .ok rest { MessageRouterResponse.default with status := a.1, data := a.2 }⟩

/-- Construct, begin an upload for handler 9, call `handleTransfers` so many times. -/
def uploadScript (script : List (BitVec 8 × List Byte)) (k : Nat) : Option (List UploadCall × List Bool × List Req) :=
  match FileObject.create Mem.strict scriptDevice 0xC8 ⟨script, []⟩ with
  | .ok L f =>
    match FileObject.beginUpload Mem.strict scriptDevice 9 (f, L) with
    | .ok s _ =>
      match transfers Mem.strict scriptDevice k s with
      | .ok (f', L') bs => some (f'.calls, bs, L'.sent)
      | _ => none
    | _ => none
  | _ => none

/-- C59: a file of five bytes in packets of two. -/
def fiveBytes : List (BitVec 8 × List Byte) :=
  [(0, [2]), (0, [5, 0, 0, 0, 2]), (0, [0, 0, 0xa, 0xb]), (0, [1, 1, 0xc, 0xd]), (0, [2, 2, 0xe, 0x77, 0x66])]

example : Grants scriptDevice fiveBytes ((fileStateReq 0xC8, [2#8]) ::
    (fileBeginReq 0xC8, fileAnnounce ([[0xa#8, 0xb#8], [0xc#8, 0xd#8]].flatten ++ [0xe#8]).length 2) ::
    fileTransfers 0xC8 [0x77, 0x66] 0 [[0xa, 0xb], [0xc, 0xd]] [0xe]) [] := by
  refine .cons rfl rfl rfl (.cons rfl rfl rfl (.cons rfl rfl rfl (.cons rfl rfl rfl (.cons rfl rfl rfl .nil))))

example : uploadScript fiveBytes 3 = some ([⟨9, 0, [0xa, 0xb, 0xc, 0xd, 0xe]⟩], [true, true, false],
    [fileStateReq 0xC8, fileBeginReq 0xC8, fileNextReq 0xC8 0, fileNextReq 0xC8 1, fileNextReq 0xC8 2]) := by
  decide +kernel

/-- C61. After the upload is complete the next call asks for the last packet again; if the
device sends it with an empty payload the handler is told about the same file again. -/
theorem C61_after_completion_violated :
    (uploadScript (fiveBytes ++ [(0, [2, 2, 0x77, 0x66])]) 4).map (fun x => (x.1, x.2.1)) =
      some ([⟨9, 0, [0xa, 0xb, 0xc, 0xd, 0xe]⟩, ⟨9, 0, [0xa, 0xb, 0xc, 0xd, 0xe]⟩], [true, true, false, false]) := by
  decide +kernel

/-- C60. A file of two bytes, and twice a last packet with one byte: the first call of the
handler reports the wrong size, the second one success and the two payloads together. -/
theorem C60_two_last_violated :
    (uploadScript [(0, [2]), (0, [2, 0, 0, 0, 5]), (0, [0, 4, 0xa, 0, 0]), (0, [0, 4, 0xb, 0, 0])] 2).map
      (fun x => (x.1, x.2.1)) = some ([⟨9, 0x20, []⟩, ⟨9, 0, [0xa, 0xb]⟩], [false, false]) := by
  decide +kernel

/-- C61: an error, a wrong number and a good packet. -/
example : (uploadScript [(0, [2]), (0, [1, 0, 0, 0, 5]), (8, []), (0, [3, 0]), (0, [0, 4, 0xa, 0, 0])] 3).map
    (fun x => (x.1, x.2.1)) = some ([⟨9, 8, []⟩, ⟨9, 0x20, []⟩, ⟨9, 0, [0xa]⟩], [true, false, false]) := by
  decide +kernel

/-- C62: a refused upload, and states that are not supported. -/
example : (uploadScript [(0, [3]), (0x10, [])] 1).map (fun x => (x.1, x.2.1)) = some ([⟨9, 0x10, []⟩], [false]) ∧
    FileObject.create Mem.strict scriptDevice 1 ⟨[(0, [4])], []⟩ =
      .throw ⟨[], [fileStateReq 1]⟩ (.runtime "Read unknown or unsupported state") ∧
    (uploadScript [(0, [1])] 1).map (fun x => (x.1, x.2.1)) = some ([], [false]) := by
  decide +kernel

theorem fileRun_transfers {D : Device δ} {inst : BitVec 16} {L0 : Link δ} {hs : List Nat} (k : Nat) {f f' : FileObject}
    {L L' : Link δ} {bs : List Bool} (h : FileRun D inst L0 hs f L)
    (ht : transfers Mem.strict D k (f, L) = .ok (f', L') bs) : FileRun D inst L0 hs f' L' := by
  induction k generalizing f L bs with
  | zero =>
    injection ht with e _; injection e with e1 e2; subst e1 e2; exact h
  | succ k ih =>
    obtain ⟨⟨f1, L1⟩, b, h1, ht⟩ := Prog.bind_eq_ok ht
    obtain ⟨⟨f2, L2⟩, bs', h2, ht⟩ := Prog.bind_eq_ok ht
    injection ht with e _; injection e with e1 e2; subst e1 e2
    exact ih (h.transfer (.inl ⟨b, h1⟩)) h2

/-- C60: a use of an object with a successful call of handler 9. -/
example : ∃ f L, FileRun (recorded scriptDevice) 0xC8 ⟨(fiveBytes, []), []⟩ [9] f L ∧
    f.calls[0]? = some ⟨9, 0, [0xa, 0xb, 0xc, 0xd, 0xe]⟩ := by
  have hg : ∃ d', Grants (recorded scriptDevice) (fiveBytes, []) ((fileStateReq 0xC8, [2#8]) ::
      (fileBeginReq 0xC8, fileAnnounce ([[0xa#8, 0xb#8], [0xc#8, 0xd#8]].flatten ++ [0xe#8]).length 2) ::
      fileTransfers 0xC8 [0x77, 0x66] 0 [[0xa, 0xb], [0xc, 0xd]] [0xe]) d' :=
    ⟨_, .cons rfl rfl rfl (.cons rfl rfl rfl (.cons rfl rfl rfl (.cons rfl rfl rfl (.cons rfl rfl rfl .nil))))⟩
  obtain ⟨d', hg⟩ := hg
  obtain ⟨f1, L1, s2, f3, h1, h2, h3, h4⟩ := C59_upload Mem.strict (recorded scriptDevice) ⟨(fiveBytes, []), []⟩ 0xC8 2 (.inl rfl)
    2 (by decide) _ _ _ (by decide) (by decide) (by decide) 9 d' hg
  obtain ⟨f2, L2⟩ := s2
  exact ⟨_, _, fileRun_transfers _ (.begin 9 (.create h1) (.inl h2)) h3, by rw [h4]; rfl⟩

/-- An upload just begun. -/
def begun : FileObject := ⟨1, .uploading ⟨1, 5, [], 0, 9⟩, []⟩

/-- C75: a last packet of three bytes, and an abort. -/
example :
    FileObject.handleTransfers Mem.strict scriptDevice (begun, ⟨[(0, [0, 4, 7])], []⟩) =
      .throw (begun, ⟨[], [fileNextReq 1 0]⟩) .lengthError ∧
    FileObject.handleTransfers Mem.strict scriptDevice (begun, ⟨[(0, [0, 3])], []⟩) =
      .throw (begun, ⟨[], [fileNextReq 1 0]⟩) (.runtime "Received unexpected transfer type") ∧
    FileObject.handleTransfers Mem.strict scriptDevice (begun, ⟨[(0, [0, 0, 1, 2, 3, 4])], []⟩) = .ub := by
  exact ⟨rfl, rfl, rfl⟩

end Verif.Props
