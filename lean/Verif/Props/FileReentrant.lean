import Verif.Props.File
import Verif.Props.ObjectEnds
import Verif.Model.FileReentrant
import Verif.Spec.FileHandler

/-!
# Property C106: upload handlers that use the file object, or throw
-/

namespace Verif.Props

open Verif Verif.Spec

variable {δ : Type}

/-- The file of `s` and the link are `p`. -/
def withFile (s : LiveFile δ) (p : FileObject × Link δ) : LiveFile δ := { s with file := p.1, link := p.2 }

theorem onDevice_ok {α : Type} {p : Prog (Link δ) α} {s : LiveFile δ} {L : Link δ} {a : α} (h : p s.link = .ok L a) :
    LiveFile.onDevice p s = .ok { s with link := L } a := by
  unfold LiveFile.onDevice; rw [h]

theorem onDevice_throw {α : Type} {p : Prog (Link δ) α} {s : LiveFile δ} {L : Link δ} {e : Exn} (h : p s.link = .throw L e) :
    LiveFile.onDevice p s = .throw { s with link := L } e := by
  unfold LiveFile.onDevice; rw [h]

theorem onDevice_ub {α : Type} {p : Prog (Link δ) α} {s : LiveFile δ} (h : p s.link = .ub) : LiveFile.onDevice p s = .ub := by
  unfold LiveFile.onDevice; rw [h]

/-- C106. `handleTransfers` is what it is without the effects of handlers, and then, if it calls the handler,
these effects; after them nothing.  The handler that is called is the one of the current state object, and its
argument is stored there if the status is success. -/
theorem C106_transfer (m : Mem) (D : Device δ) (a : HandlerAct) (s : LiveFile δ) (hs : s.gone = false) :
    LiveFile.handleTransfers m D a s =
      match FileObject.handleTransfers m D (s.file, s.link) with
      | .ub => .ub
      | .throw p e => .throw (withFile s p) e
      | .ok p b =>
        match p.1.calls.drop s.file.calls.length with
        | [] => .ok (withFile s p) b
        | c :: _ => (LiveFile.run m D a ⟨true, s.gen, c.status = 0x00#8⟩ >>= fun _ => pure b) (withFile s p) := by
  obtain ⟨⟨inst, st, calls⟩, gen, gone, seen, L⟩ := s
  obtain rfl : gone = false := hs
  match st with
  | .nonexistent => 
    rw [C62_transfer_other m D L _ (fun u h => by cases h)]
    simp only [List.drop_length]
    rfl
  | .empty => 
    rw [C62_transfer_other m D L _ (fun u h => by cases h)]
    simp only [List.drop_length]
    rfl
  | .loaded => 
    rw [C62_transfer_other m D L _ (fun u h => by cases h)]
    simp only [List.drop_length]
    rfl
  | .uploading u =>
    obtain ⟨h1, h2, h3⟩ := transfer_run m D L ⟨inst, .uploading u, calls⟩ u rfl
    simp only at h1 h2 h3 ⊢
    refine (Prog.bind_ok (Prog.get_run _)).trans ?_
    simp only [Bool.false_eq_true, if_false]
    match ha : D.answer ⟨0x4F#8, ⟨0x37, inst, 0, 2⟩, [u.number]⟩ L.dev with
    | .ub => rw [h2 ha]; exact Prog.bind_ub (onDevice_ub (ask_ub ha))
    | .throw d e => rw [h1 d e ha]; exact Prog.bind_throw (onDevice_throw (ask_throw ha))
    | .ok d resp =>
      obtain ⟨h4, h5⟩ := h3 d resp ha
      refine (Prog.bind_ok (onDevice_ok (ask_ok ha))).trans ?_
      by_cases hr : resp.status = 0x00#8
      · rw [h5 hr, if_pos (show _ = GeneralStatus.success from hr), Prog.bind_run]
        match hp : (FileObject.packet u.number u.transferSize resp.data.length).from m resp.data with
        | .ub => rfl
        | .throw e => rfl
        | .ok .wrongNumber =>
          simp only [Prog.lift_ok, List.drop_left]
          refine (Prog.bind_ok (show LiveFile.noteCall _ _ = .ok _ () from rfl)).trans ?_
          rfl
        | .ok (.more bs) =>
          simp only [Prog.lift_ok, List.drop_length]
          rfl
        | .ok (.last bs) =>
          simp only [Prog.lift_ok, List.drop_left]
          by_cases hl : (u.content ++ bs).length = u.fileSize.toNat
          · simp only [if_pos hl]
            refine (Prog.bind_ok (Prog.modify_run _ _)).trans ?_
            refine (Prog.bind_ok (show LiveFile.noteCall _ _ = .ok _ () from rfl)).trans ?_
            rfl
          · simp only [if_neg hl]
            refine (Prog.bind_ok (Prog.modify_run _ _)).trans ?_
            refine (Prog.bind_ok (show LiveFile.noteCall _ _ = .ok _ () from rfl)).trans ?_
            rfl
      · rw [h4 hr, if_neg (show ¬ _ = GeneralStatus.success from hr)]
        simp only [List.drop_left, hr, decide_false]
        refine (Prog.bind_ok (show LiveFile.noteCall _ _ = .ok _ () from rfl)).trans ?_
        rfl

/-- C106. `beginUpload` likewise; the handler is called from the stack, with an empty argument of its own. -/
theorem C106_begin (m : Mem) (D : Device δ) (hd : Nat) (a : HandlerAct) (s : LiveFile δ) (hs : s.gone = false) :
    LiveFile.beginUpload m D hd a s =
      match FileObject.beginUpload m D hd (s.file, s.link) with
      | .ub => .ub
      | .throw p e => .throw (withFile s p) e
      | .ok p _ =>
        match p.1.calls.drop s.file.calls.length with
        | [] => .ok { withFile s p with gen := if p.1.state = s.file.state then s.gen else s.gen + 1 } ()
        | _ :: _ => LiveFile.run m D a ⟨false, 0, false⟩ (withFile s p) := by
  obtain ⟨⟨inst, st, calls⟩, gen, gone, seen, L⟩ := s
  obtain rfl : gone = false := hs
  match st with
  | .nonexistent => 
    rw [C62_begin_other m D L _ (fun h => by cases h)]
    simp only [List.drop_length, if_true]
    rfl
  | .empty => 
    rw [C62_begin_other m D L _ (fun h => by cases h)]
    simp only [List.drop_length, if_true]
    rfl
  | .uploading u => 
    rw [C62_begin_other m D L _ (fun h => by cases h)]
    simp only [List.drop_length, if_true]
    rfl
  | .loaded =>
    rw [begin_run m D L ⟨inst, .loaded, calls⟩ rfl hd]
    refine (Prog.bind_ok (Prog.get_run _)).trans ?_
    simp only [Bool.false_eq_true, if_false]
    match ha : D.answer (fileBeginReq inst) L.dev with
    | .ub => exact Prog.bind_ub (onDevice_ub (ask_ub ha))
    | .throw d e => exact Prog.bind_throw (onDevice_throw (ask_throw ha))
    | .ok d resp =>
      refine (Prog.bind_ok (onDevice_ok (ask_ok ha))).trans ?_
      by_cases hr : resp.status = 0x00#8
      · have hr' : resp.status = GeneralStatus.success := hr
        simp only [if_pos hr, if_pos hr']
        rw [Prog.bind_run]
        match hp : FileObject.announced.from m resp.data with
        | .ub => rfl
        | .throw e => rfl
        | .ok (size, ts) =>
          simp only [Prog.lift_ok, List.drop_length, reduceCtorEq, if_false]
          rfl
      · have hr' : ¬ resp.status = GeneralStatus.success := hr
        simp only [if_neg hr, if_neg hr', List.drop_left]
        rfl

/-! ## Handlers that do nothing, and what they see -/

/-- C106. With a handler that returns at once, `handleTransfers` is what C59 to C62 are about. -/
theorem C106_transfer_done (m : Mem) (D : Device δ) (s : LiveFile δ) (hs : s.gone = false) :
    LiveFile.handleTransfers m D .done s =
      match FileObject.handleTransfers m D (s.file, s.link) with
      | .ub => .ub
      | .throw p e => .throw (withFile s p) e
      | .ok p b => .ok (withFile s p) b := by
  rw [C106_transfer m D .done s hs]
  match FileObject.handleTransfers m D (s.file, s.link) with
  | .ub => rfl
  | .throw p e => rfl
  | .ok p b =>
    simp only
    generalize p.1.calls.drop s.file.calls.length = cs
    cases cs <;> rfl

/-- What `handleTransfers` makes of a file, if it returns: without an upload nothing, otherwise an upload of the same file
to the same handler.  If it calls the handler, it does so once, the number of the next packet is as before, and
the argument is empty or the content of the upload, the latter with status success. -/
theorem live_keeps (m : Mem) (D : Device δ) (f : FileObject) (L : Link δ) (p : FileObject × Link δ) (b : Bool)
    (h : FileObject.handleTransfers m D (f, L) = .ok p b) :
    (p = (f, L) ∧ ∀ u, f.state ≠ .uploading u) ∨
    ∃ u u', f.state = .uploading u ∧ p.1.state = .uploading u' ∧ p.1.instanceId = f.instanceId ∧ u'.handler = u.handler ∧
      u'.fileSize = u.fileSize ∧ u'.transferSize = u.transferSize ∧
      (p.1.calls = f.calls ∨ ∃ c, p.1.calls = f.calls ++ [c] ∧ c.handler = u.handler ∧ u'.number = u.number ∧
        (c.status = 0x00#8 → c.content = u'.content ∧ b = false) ∧ (c.status ≠ 0x00#8 → c.content = [])) := by
  by_cases hu : ∃ u, f.state = .uploading u
  · obtain ⟨u, hu⟩ := hu
    right
    obtain ⟨h1, h2, h3⟩ := transfer_run m D L f u hu
    match ha : D.answer ⟨0x4F#8, ⟨0x37, f.instanceId, 0, 2⟩, [u.number]⟩ L.dev with
    | .ub => rw [h2 ha] at h; cases h
    | .throw d e => rw [h1 d e ha] at h; cases h
    | .ok d resp =>
      obtain ⟨h4, h5⟩ := h3 d resp ha
      by_cases hr : resp.status = 0x00#8
      · rw [h5 hr] at h
        match hp : (FileObject.packet u.number u.transferSize resp.data.length).from m resp.data, h with
        | .ok .wrongNumber, h =>
          cases h
          exact ⟨u, u, hu, hu, rfl, rfl, rfl, rfl, .inr ⟨_, rfl, rfl, rfl, fun h => absurd h (show ¬ (0x20#8 : BitVec 8) = 0x00#8 by decide), fun _ => rfl⟩⟩
        | .ok (.more bs), h =>
          cases h
          exact ⟨u, _, hu, rfl, rfl, rfl, rfl, rfl, .inl rfl⟩
        | .ok (.last bs), h =>
          by_cases hl : (u.content ++ bs).length = u.fileSize.toNat
          · simp only [if_pos hl] at h
            cases h
            exact ⟨u, _, hu, rfl, rfl, rfl, rfl, rfl, .inr ⟨_, rfl, rfl, rfl, fun _ => ⟨rfl, rfl⟩, fun h => absurd rfl h⟩⟩
          · simp only [if_neg hl] at h
            cases h
            exact ⟨u, _, hu, rfl, rfl, rfl, rfl, rfl, .inr ⟨_, rfl, rfl, rfl, fun h => absurd h (show ¬ (0x20#8 : BitVec 8) = 0x00#8 by decide), fun _ => rfl⟩⟩
      · rw [h4 hr] at h
        cases h
        exact ⟨u, u, hu, hu, rfl, rfl, rfl, rfl, .inr ⟨_, rfl, rfl, rfl, fun h => absurd h hr, fun _ => rfl⟩⟩
  · left
    rw [C62_transfer_other m D L f (fun u h => hu ⟨u, h⟩)] at h
    cases h
    exact ⟨rfl, fun u h => hu ⟨u, h⟩⟩

/-- C106. The argument of a handler is what the call says: the content of the upload if the status is success,
empty otherwise. -/
theorem C106_look (m : Mem) (D : Device δ) (s : LiveFile δ) (hs : s.gone = false) (p : FileObject × Link δ) (b : Bool)
    (h : FileObject.handleTransfers m D (s.file, s.link) = .ok p b) (c : UploadCall) (hc : p.1.calls = s.file.calls ++ [c]) :
    LiveFile.handleTransfers m D (.look .done) s = .ok { withFile s p with seen := s.seen ++ [c.content] } b := by
  rw [C106_transfer m D _ s hs, h]
  simp only [hc, List.drop_left]
  rcases live_keeps m D _ _ p b h with ⟨hp, _⟩ | ⟨u, u', _, hu', _, _, _, _, hcc⟩
  · rw [hp] at hc
    exact absurd (congrArg List.length hc) (by simp)
  · rcases hcc with he | ⟨c', he, _, _, h0, h1⟩
    · exact absurd (congrArg List.length (hc.symm.trans he)) (by simp)
    · obtain rfl : c = c' := by
        have := List.append_cancel_left (hc.symm.trans he)
        injection this
      have hn : LiveFile.contentNow ⟨true, s.gen, c.status = 0x00#8⟩ (withFile s p) = c.content := by
        by_cases hz : c.status = 0x00#8
        · rw [(h0 hz).1]
          unfold LiveFile.contentNow
          rw [if_pos (by simpa using hz)]
          show (match p.1.state with | .uploading u => u.content | _ => []) = _
          rw [hu']
        · rw [h1 hz]
          unfold LiveFile.contentNow
          rw [if_neg (by simpa using hz)]
      have hh : LiveFile.holds ⟨true, s.gen, c.status = 0x00#8⟩ (withFile s p) = true := by
        show (!s.gone && s.gen == s.gen) = true
        rw [hs]; simp
      have hr : LiveFile.run m D (.look .done) ⟨true, s.gen, c.status = 0x00#8⟩ (withFile s p) =
          .ok { withFile s p with seen := s.seen ++ [c.content] } () := by
        refine (Prog.bind_ok (Prog.get_run _)).trans ?_
        rw [if_neg (by rw [hh]; simp)]
        refine (Prog.bind_ok (Prog.modify_run _ _)).trans ?_
        rw [hn]
        rfl
      rw [Prog.bind_ok hr]
      rfl

/-! ## Careful handlers -/

/-- The object is uploading. -/
def IsUploading (s : LiveFile δ) : Prop := ∃ u, s.file.state = .uploading u

/-- What a handler that loses `n` does to the object. -/
def LosesOnly (n : Nat) (s s' : LiveFile δ) : Prop :=
  (n ≤ 1 → s'.gone = s.gone) ∧ (n = 0 → IsUploading s → s'.gen = s.gen ∧ IsUploading s')

theorem LosesOnly.refl (n : Nat) (s : LiveFile δ) : LosesOnly n s s := ⟨fun _ => rfl, fun _ h => ⟨rfl, h⟩⟩

theorem LosesOnly.trans {n k : Nat} {s s' s'' : LiveFile δ} (h : LosesOnly n s s') (h' : LosesOnly k s' s'') :
    LosesOnly (max n k) s s'' := by
  constructor
  · intro hl
    rw [h'.1 (by omega), h.1 (by omega)]
  · intro hl hu
    obtain ⟨e, hu'⟩ := h.2 (by omega) hu
    obtain ⟨e', hu''⟩ := h'.2 (by omega) hu'
    exact ⟨e'.trans e, hu''⟩

/-- The handler runs where `l` is lost. -/
def FrameAt (l : Nat) (F : HandlerFrame) (s : LiveFile δ) : Prop :=
  (l ≤ 1 → s.gone = false) ∧ (l = 0 → F.stored = true → s.gen = F.gen ∧ IsUploading s)

theorem FrameAt.mono {l n : Nat} {F : HandlerFrame} {s s' : LiveFile δ} (h : FrameAt l F s) (h' : LosesOnly n s s') :
    FrameAt (max l n) F s' := by
  constructor
  · intro hl
    rw [h'.1 (by omega), h.1 (by omega)]
  · intro hl hF
    obtain ⟨e, hu⟩ := h.2 (by omega) hF
    obtain ⟨e', hu'⟩ := h'.2 (by omega) hu
    exact ⟨e'.trans e, hu'⟩

/-- `p` has no undefined behaviour from `s`, and loses at most `n`. -/
def FineCall {α : Type} (p : Prog (LiveFile δ) α) (n : Nat) (s : LiveFile δ) : Prop :=
  p s ≠ .ub ∧ ∀ s' x, p s = .ok s' x → LosesOnly n s s'

theorem FineCall.bind {α β : Type} {p : Prog (LiveFile δ) α} {q : α → Prog (LiveFile δ) β} {n k : Nat} {s : LiveFile δ}
    (h : FineCall p n s) (h' : ∀ s' x, p s = .ok s' x → FineCall (q x) k s') : FineCall (p >>= q) (max n k) s := by
  constructor
  · rw [Prog.bind_run]
    match hp : p s with
    | .ub => exact absurd hp h.1
    | .throw s' e => exact fun h => by cases h
    | .ok s' x => exact (h' s' x hp).1
  · intro s'' y hy
    obtain ⟨s', x, h1, h2⟩ := Prog.bind_eq_ok hy
    exact (h.2 s' x h1).trans ((h' s' x h1).2 s'' y h2)

section

variable (m : Mem) (hm : m.Lenient) (D : Device δ) (hD : ∀ r d, D.answer r d ≠ .ub)
include hm hD

/-- The handler `a` is all right where it is called first. -/
def FineCallInside (a : HandlerAct) : Prop :=
  ∀ F s, (F.own = true → F.stored = true) → FrameAt 0 F s → FineCall (LiveFile.run m D a F) (loses a) s

theorem transfer_fine (a : HandlerAct) (ha : FineCallInside m D a) (s : LiveFile δ) (hs : s.gone = false) :
    FineCall (LiveFile.handleTransfers m D a) (loses a) s := by
  unfold FineCall
  rw [C106_transfer m D a s hs]
  match hp : FileObject.handleTransfers m D (s.file, s.link) with
  | .ub => exact absurd hp (handleTransfers_ends hm hD _)
  | .throw p e => exact ⟨fun h => (by cases h), fun s' x h => by cases h⟩
  | .ok p b =>
    have hk := live_keeps m D _ _ p b hp
    have hl : LosesOnly 0 s (withFile s p) := by
      refine ⟨fun _ => rfl, fun _ hu => ⟨rfl, ?_⟩⟩
      rcases hk with ⟨e, hno⟩ | ⟨u, u', _, h, _⟩
      · obtain ⟨u, hu⟩ := hu; exact absurd hu (hno u)
      · exact ⟨u', h⟩
    have hw : LosesOnly (loses a) s (withFile s p) :=
      ⟨fun _ => rfl, fun _ => hl.2 rfl⟩
    rcases hk with ⟨e, _⟩ | ⟨u, u', hu, hu', _, _, _, _, hc | ⟨c, hc, _⟩⟩
    · subst e
      simp only [List.drop_length]
      exact ⟨fun h => (by cases h), fun s' x h => by cases h; exact hw⟩
    · simp only [hc, List.drop_length]
      exact ⟨fun h => (by cases h), fun s' x h => by cases h; exact hw⟩
    · simp only [hc, List.drop_left]
      have hf := ha ⟨true, s.gen, c.status = 0x00#8⟩ (withFile s p) (fun _ => rfl)
        ⟨fun _ => hs, fun _ _ => ⟨rfl, u', hu'⟩⟩
      have hb : FineCall (LiveFile.run m D a ⟨true, s.gen, c.status = 0x00#8⟩ >>= fun _ => pure b) (loses a) (withFile s p) := by
        have := hf.bind (q := fun _ => pure b) (k := 0) (fun s' x _ =>
          ⟨fun h => (by cases h), fun s'' y h => by cases h; exact LosesOnly.refl 0 _⟩)
        rwa [Nat.max_zero] at this
      refine ⟨hb.1, fun s' x h => ?_⟩
      have := hl.trans (hb.2 s' x h)
      rwa [Nat.zero_max] at this

theorem begin_fine (hd : Nat) (a : HandlerAct) (ha : FineCallInside m D a) (s : LiveFile δ) (hs : s.gone = false) :
    FineCall (LiveFile.beginUpload m D hd a) (loses a) s := by
  unfold FineCall
  rw [C106_begin m D hd a s hs]
  by_cases hl : s.file.state = .loaded
  · have hn : ¬ IsUploading s := by rintro ⟨u, h⟩; rw [hl] at h; cases h
    match hp : FileObject.beginUpload m D hd (s.file, s.link) with
    | .ub => exact absurd hp (beginUpload_ends hm hD hd _)
    | .throw p e => exact ⟨fun h => (by cases h), fun s' x h => by cases h⟩
    | .ok p b =>
      simp only
      match p.1.calls.drop s.file.calls.length with
      | [] =>
        refine ⟨fun h => (by cases h), fun s' x h => ?_⟩
        cases h
        exact ⟨fun _ => rfl, fun _ h => absurd h hn⟩
      | _ :: _ =>
        have hf := ha ⟨false, 0, false⟩ (withFile s p) (fun h => by cases h) ⟨fun _ => hs, fun _ h => by cases h⟩
        exact ⟨hf.1, fun s' x h => ⟨fun hle => (hf.2 s' x h).1 hle, fun _ h => absurd h hn⟩⟩
  · rw [C62_begin_other m D _ _ hl]
    simp only [List.drop_length, if_true]
    exact ⟨fun h => (by cases h), fun s' x h => by cases h; exact LosesOnly.refl _ _⟩

theorem sync_fine (s : LiveFile δ) (hs : s.gone = false) : FineCall (LiveFile.sync m D) 1 s := by
  have hc := create_ends hm hD s.file.instanceId s.link
  have e : LiveFile.sync m D s = (LiveFile.onDevice (FileObject.create m D s.file.instanceId) >>= fun g => LiveFile.setState g.state) s := by
    refine (Prog.bind_ok (Prog.get_run s)).trans ?_
    rw [hs]; rfl
  unfold FineCall
  rw [e]
  match hx : FileObject.create m D s.file.instanceId s.link with
  | .ub => exact absurd hx hc
  | .throw L x => rw [Prog.bind_throw (onDevice_throw hx)]; exact ⟨fun h => (by cases h), fun s' x h => by cases h⟩
  | .ok L g =>
    rw [Prog.bind_ok (onDevice_ok hx)]
    refine ⟨fun h => (by cases h), fun s' x h => ?_⟩
    cases h
    exact ⟨fun _ => rfl, fun h => by omega⟩

theorem run_fine (a : HandlerAct) : ∀ (l : Nat) (F : HandlerFrame) (s : LiveFile δ), (F.own = true → F.stored = true) →
    Careful l a → FrameAt l F s → FineCall (LiveFile.run m D a F) (loses a) s := by
  induction a with
  | done => intro l F s _ _ _; exact ⟨fun h => (by cases h), fun s' x h => by cases h; exact LosesOnly.refl _ _⟩
  | raise e => intro l F s _ _ _; exact ⟨fun h => (by cases h), fun s' x h => by cases h⟩
  | look k ih =>
    rintro l F s hF ⟨rfl, hk⟩ hs
    have hh : ¬ (F.own = true ∧ LiveFile.holds F s = false) := by
      rintro ⟨h1, h2⟩
      have h3 := (hs.2 rfl (hF h1)).1
      have h4 := hs.1 (by omega)
      simp [LiveFile.holds, h3, h4] at h2
    have e : LiveFile.run m D (.look k) F s = LiveFile.run m D k F { s with seen := s.seen ++ [LiveFile.contentNow F s] } := by
      refine (Prog.bind_ok (Prog.get_run s)).trans ?_
      rw [if_neg hh]
      rfl
    unfold FineCall
    rw [e]
    have := ih 0 F { s with seen := s.seen ++ [LiveFile.contentNow F s] } hF hk ⟨hs.1, hs.2⟩
    exact ⟨this.1, fun s' x h => this.2 s' x h⟩
  | capture k ih =>
    rintro l F s hF ⟨rfl, hk⟩ hs
    have hh : ¬ (F.stored = true ∧ LiveFile.holds F s = false) := by
      rintro ⟨h1, h2⟩
      have h3 := (hs.2 rfl h1).1
      have h4 := hs.1 (by omega)
      simp [LiveFile.holds, h3, h4] at h2
    have e : LiveFile.run m D (.capture k) F s = LiveFile.run m D k F s := by
      refine (Prog.bind_ok (Prog.get_run s)).trans ?_
      rw [if_neg hh]
    unfold FineCall
    rw [e]
    exact ih 0 F s hF hk hs
  | sync k ih =>
    rintro l F s hF ⟨hl, hk⟩ hs
    refine (sync_fine m hm D hD s (hs.1 hl)).bind fun s' x h => ih 1 F s' hF hk ?_
    have hp := (sync_fine m hm D hD s (hs.1 hl)).2 s' x h
    exact ⟨fun _ => (hp.1 (by omega)).trans (hs.1 hl), fun h => by omega⟩
  | begin hd a k iha ihk =>
    rintro l F s hF ⟨hl, ha, hk⟩ hs
    have hb := begin_fine m hm D hD hd a (fun F s hF h => iha 0 F s hF ha h) s (hs.1 hl)
    exact hb.bind fun s' x h => ihk _ F s' hF hk (hs.mono (hb.2 s' x h))
  | transfer a k iha ihk =>
    rintro l F s hF ⟨hl, ha, hk⟩ hs
    have hb := transfer_fine m hm D hD a (fun F s hF h => iha 0 F s hF ha h) s (hs.1 hl)
    exact hb.bind fun s' x h => ihk _ F s' hF hk (hs.mono (hb.2 s' x h))
  | drop k ih =>
    rintro l F s hF ⟨hl, hk⟩ hs
    have e : LiveFile.run m D (.drop k) F s = LiveFile.run m D k F { s with gone := true } := by
      refine (Prog.bind_ok (Prog.get_run s)).trans ?_
      rw [hs.1 hl]
      rfl
    unfold FineCall
    rw [e]
    have := ih 2 F { s with gone := true } hF hk ⟨fun h => by omega, fun h => by omega⟩
    refine ⟨this.1, fun s' x _ => ⟨fun h => ?_, fun h => ?_⟩⟩
    · have : 2 ≤ loses (.drop k) := Nat.le_max_left _ _
      omega
    · have : 2 ≤ loses (.drop k) := Nat.le_max_left _ _
      omega

/-- C106. A program that uses a file object, with handlers that use it as well, has no undefined behaviour if the program
and the handlers are careful: neither its argument nor captured variables are used by a handler after it
has called `SyncState`, and the object is not used after it is destroyed.  The handlers may start uploads, transfer,
throw, call `SyncState` and destroy the object.  (Answers that are too short are another matter: `m` is lenient.) -/
theorem C106_careful (a : HandlerAct) (ha : Careful 0 a) (s : LiveFile δ) (hs : s.gone = false) :
    LiveFile.run m D a ⟨false, 0, false⟩ s ≠ .ub :=
  (run_fine m hm D hD a 0 ⟨false, 0, false⟩ s (fun h => by cases h) ha ⟨fun _ => hs, fun _ h => by cases h⟩).1

/-- C106. In particular each call of `handleTransfers` and `beginUpload` with a careful handler. -/
theorem C106_careful_calls (a : HandlerAct) (ha : Careful 0 a) (s : LiveFile δ) (hs : s.gone = false) :
    LiveFile.handleTransfers m D a s ≠ .ub ∧ ∀ hd, LiveFile.beginUpload m D hd a s ≠ .ub :=
  ⟨(transfer_fine m hm D hD a (fun F s hF h => run_fine m hm D hD a 0 F s hF ha h) s hs).1,
    fun hd => (begin_fine m hm D hD hd a (fun F s hF h => run_fine m hm D hD a 0 F s hF ha h) s hs).1⟩

end

/-! ## Handlers that are not careful -/

theorem live_sync (m : Mem) (D : Device δ) (s : LiveFile δ) (hs : s.gone = false) (L : Link δ) (g : FileObject)
    (hg : FileObject.create m D s.file.instanceId s.link = .ok L g) :
    LiveFile.sync m D s = .ok { s with link := L, file := { s.file with state := g.state }, gen := s.gen + 1 } () := by
  refine (Prog.bind_ok (Prog.get_run s)).trans ?_
  rw [if_neg (by rw [hs]; simp)]
  exact (Prog.bind_ok (onDevice_ok hg)).trans rfl

/-- C106. A handler is called, calls `SyncState`, and the device says the state: if now the handler uses what it has
captured, or, called with status success, its argument, it uses what is destroyed. -/
theorem C106_after_sync_violated (m : Mem) (D : Device δ) (s : LiveFile δ) (hs : s.gone = false) (p : FileObject × Link δ) (b : Bool)
    (h : FileObject.handleTransfers m D (s.file, s.link) = .ok p b) (c : UploadCall) (hc : p.1.calls = s.file.calls ++ [c])
    (L : Link δ) (g : FileObject) (hg : FileObject.create m D p.1.instanceId p.2 = .ok L g) (k : HandlerAct) :
    LiveFile.handleTransfers m D (.sync (.capture k)) s = .ub ∧
    (c.status = 0x00#8 → LiveFile.handleTransfers m D (.sync (.look k)) s = .ub) := by
  have hh : LiveFile.holds ⟨true, s.gen, c.status = 0x00#8⟩ { withFile s p with link := L, file := { p.1 with state := g.state }, gen := s.gen + 1 } = false := by
    show (!s.gone && s.gen + 1 == s.gen) = false
    simp
  constructor
  · rw [C106_transfer m D _ s hs, h]
    simp only [hc, List.drop_left]
    refine Prog.bind_ub ((Prog.bind_ok (live_sync m D (withFile s p) hs L g hg)).trans ?_)
    refine (Prog.bind_ok (Prog.get_run _)).trans ?_
    rw [if_pos ⟨rfl, hh⟩]
    rfl
  · intro hz
    rw [C106_transfer m D _ s hs, h]
    simp only [hc, List.drop_left]
    refine Prog.bind_ub ((Prog.bind_ok (live_sync m D (withFile s p) hs L g hg)).trans ?_)
    refine (Prog.bind_ok (Prog.get_run _)).trans ?_
    rw [if_pos ⟨by simpa using hz, hh⟩]
    rfl

/-- C106. A handler that destroys the object ends well, but then the object must not be used, as by
`while (file->handleTransfers(si))` if the status is an error. -/
theorem C106_drop (m : Mem) (D : Device δ) (s : LiveFile δ) (hs : s.gone = false) (p : FileObject × Link δ) (b : Bool)
    (h : FileObject.handleTransfers m D (s.file, s.link) = .ok p b) (c : UploadCall) (hc : p.1.calls = s.file.calls ++ [c]) :
    LiveFile.handleTransfers m D (.drop .done) s = .ok { withFile s p with gone := true } b ∧
    ∀ a, LiveFile.handleTransfers m D a { withFile s p with gone := true } = .ub := by
  constructor
  · rw [C106_transfer m D _ s hs, h]
    simp only [hc, List.drop_left]
    have hr : LiveFile.run m D (.drop .done) ⟨true, s.gen, c.status = 0x00#8⟩ (withFile s p) = .ok { withFile s p with gone := true } () := by
      refine (Prog.bind_ok (Prog.get_run _)).trans ?_
      rw [if_neg (show ¬ (withFile s p).gone = true by show ¬ s.gone = true; rw [hs]; simp)]
      rfl
    rw [Prog.bind_ok hr]
    rfl
  · intro a
    rfl

/-- C106. After a handler has destroyed the object every use of it is undefined: each of its functions, destroying it again,
and, in a handler called by `handleTransfers`, what it has captured and the argument of a success. -/
theorem C106_gone_violated (m : Mem) (D : Device δ) (s : LiveFile δ) (hs : s.gone = true) (F : HandlerFrame) (hd : Nat)
    (a k : HandlerAct) :
    LiveFile.run m D (.sync k) F s = .ub ∧ LiveFile.run m D (.begin hd a k) F s = .ub ∧
    LiveFile.run m D (.transfer a k) F s = .ub ∧ LiveFile.run m D (.drop k) F s = .ub ∧
    (F.stored = true → LiveFile.run m D (.capture k) F s = .ub) ∧ (F.own = true → LiveFile.run m D (.look k) F s = .ub) := by
  obtain ⟨f, gen, gone, seen, L⟩ := s
  obtain rfl : gone = true := hs
  refine ⟨rfl, rfl, rfl, rfl, fun h => ?_, fun h => ?_⟩
  · refine (Prog.bind_ok (Prog.get_run _)).trans ?_
    rw [if_pos ⟨h, rfl⟩]
    rfl
  · refine (Prog.bind_ok (Prog.get_run _)).trans ?_
    rw [if_pos ⟨h, rfl⟩]
    rfl

/-! ## Uploads one after the other, and handlers that throw -/

/-- C106. A handler that calls `beginUpload` starts nothing: the object is still uploading, until `SyncState`. -/
theorem C106_begin_again_violated (m : Mem) (D : Device δ) (s : LiveFile δ) (hs : s.gone = false) (hd : Nat) (a : HandlerAct) :
    LiveFile.handleTransfers m D (.begin hd a .done) s = LiveFile.handleTransfers m D .done s := by
  rw [C106_transfer m D _ s hs, C106_transfer m D .done s hs]
  match h : FileObject.handleTransfers m D (s.file, s.link) with
  | .ub => rfl
  | .throw p e => rfl
  | .ok p b =>
    simp only
    match hc : p.1.calls.drop s.file.calls.length with
    | [] => rfl
    | c :: cs =>
      simp only
      rcases live_keeps m D _ _ p b h with ⟨hp, _⟩ | ⟨u, u', _, hu', _⟩
      · rw [hp, List.drop_length] at hc; cases hc
      · have hb : LiveFile.beginUpload m D hd a (withFile s p) = .ok (withFile s p) () := by
          rw [C106_begin m D hd a (withFile s p) hs, C62_begin_other m D _ _ (by show p.1.state ≠ _; rw [hu']; simp)]
          simp only [List.drop_length, if_true]
          rfl
        have hr : LiveFile.run m D (.begin hd a .done) ⟨true, s.gen, c.status = 0x00#8⟩ (withFile s p) = .ok (withFile s p) () :=
          (Prog.bind_ok hb).trans rfl
        rw [Prog.bind_ok hr]
        rfl

/-- C106. A handler that calls `SyncState` and then `beginUpload` starts the next upload, if the device has the file and
grants it.  `handleTransfers` returns what it would return otherwise, false after a success. -/
theorem C106_restart (m : Mem) (D : Device δ) (s : LiveFile δ) (hs : s.gone = false) (p : FileObject × Link δ) (b : Bool)
    (h : FileObject.handleTransfers m D (s.file, s.link) = .ok p b) (c : UploadCall) (hc : p.1.calls = s.file.calls ++ [c])
    (L : Link δ) (g : FileObject) (hg : FileObject.create m D p.1.instanceId p.2 = .ok L g) (hl : g.state = .loaded)
    (d : δ) (resp : MessageRouterResponse) (hr : D.answer (fileBeginReq p.1.instanceId) L.dev = .ok d resp) (hz : resp.status = 0x00#8)
    (size ts : Nat) (tail : List Byte) (h32 : size < 2 ^ 32) (h8 : ts < 256) (hdat : resp.data = fileAnnounce size ts ++ tail)
    (hd : Nat) (a : HandlerAct) :
    LiveFile.handleTransfers m D (.sync (.begin hd a .done)) s =
      .ok ⟨{ p.1 with state := .uploading (freshUpload (BitVec.ofNat 32 size) (BitVec.ofNat 8 ts) hd) }, s.gen + 2, false, s.seen,
        ⟨d, L.sent ++ [fileBeginReq p.1.instanceId]⟩⟩ b := by
  obtain ⟨f, gen, gone, seen, L0⟩ := s
  obtain rfl : gone = false := hs
  rw [C106_transfer m D _ _ rfl, h]
  simp only [hc, List.drop_left]
  have hb := (C62_begin m D L { p.1 with state := g.state } hl hd).1 d resp size ts tail hr hz h32 h8 hdat
  have e := C106_begin m D hd a ⟨{ p.1 with state := g.state }, gen + 1, false, seen, L⟩ rfl
  simp only at e
  rw [hb] at e
  simp only [List.drop_length, hl, reduceCtorEq, if_false] at e
  have hs := live_sync m D (withFile ⟨f, gen, false, seen, L0⟩ p) rfl L g hg
  simp only [withFile, hl] at hs
  have hr : LiveFile.run m D (.sync (.begin hd a .done)) ⟨true, gen, c.status = 0x00#8⟩ (withFile ⟨f, gen, false, seen, L0⟩ p) = _ :=
    (Prog.bind_ok hs).trans ((Prog.bind_ok e).trans rfl)
  rw [Prog.bind_ok hr]
  rw [← hc]
  rfl

/-- C106. An exception of a handler leaves `handleTransfers`.  The object is as if the handler had returned: it
is uploading, and asks for the same packet next. -/
theorem C106_raise (m : Mem) (D : Device δ) (s : LiveFile δ) (hs : s.gone = false) (p : FileObject × Link δ) (b : Bool)
    (h : FileObject.handleTransfers m D (s.file, s.link) = .ok p b) (c : UploadCall) (hc : p.1.calls = s.file.calls ++ [c]) (e : Exn) :
    LiveFile.handleTransfers m D (.raise e) s = .throw (withFile s p) e ∧
    ∃ u u', s.file.state = .uploading u ∧ p.1.state = .uploading u' ∧ u'.number = u.number := by
  constructor
  · rw [C106_transfer m D _ s hs, h]
    simp only [hc, List.drop_left]
    rfl
  · rcases live_keeps m D _ _ p b h with ⟨hp, _⟩ | ⟨u, u', hu, hu', _, _, _, _, hcc⟩
    · rw [hp] at hc
      exact absurd (congrArg List.length hc) (by simp)
    · rcases hcc with he | ⟨c', he, _, hn, _⟩
      · exact absurd (congrArg List.length (hc.symm.trans he)) (by simp)
      · exact ⟨u, u', hu, hu', hn⟩

/-- C106. An exception of a handler leaves `beginUpload` too, and the object is still loaded. -/
theorem C106_begin_raise (m : Mem) (D : Device δ) (s : LiveFile δ) (hs : s.gone = false) (hl : s.file.state = .loaded)
    (d : δ) (resp : MessageRouterResponse) (hr : D.answer (fileBeginReq s.file.instanceId) s.link.dev = .ok d resp)
    (hz : resp.status ≠ 0x00#8) (hd : Nat) (e : Exn) :
    LiveFile.beginUpload m D hd (.raise e) s =
      .throw { s with
        file := { s.file with calls := s.file.calls ++ [⟨hd, resp.status, []⟩] }
        link := ⟨d, s.link.sent ++ [fileBeginReq s.file.instanceId]⟩ } e := by
  rw [C106_begin m D hd _ s hs, (C62_begin m D s.link s.file hl hd).2.1 d resp hr hz]
  simp only [List.drop_left]
  rfl

/-! ## Examples -/

/-- A device with a file of one byte, which it sends in one packet as often as asked. -/
def oneByteFile : Device Unit :=
  ⟨fun r _ =>
    if r.service = 0x0E#8 then .ok () ⟨0x8E#8, 0, [], [2#8], []⟩
    else if r.service = 0x4B#8 then .ok () ⟨0xCB#8, 0, [], [1, 0, 0, 0, 255], []⟩
    else .ok () ⟨0xCF#8, 0, [], [0, 4, 7, 0, 0], []⟩⟩

/-- A file object that has announced an upload from it. -/
def oneByteUpload : LiveFile Unit := ⟨⟨200, .uploading ⟨1, 255, [], 0, 9⟩, []⟩, 5, false, [], ⟨(), []⟩⟩

/-- C106. A handler that transfers changes its argument meanwhile: here the only packet is appended again. -/
theorem C106_nested_violated (m : Mem) :
    ∃ s', LiveFile.handleTransfers m oneByteFile (.look (.transfer .done (.look .done))) oneByteUpload = .ok s' false ∧
      s'.seen = [[7#8], [7#8, 7#8]] ∧ s'.file.calls = [⟨9, 0x00#8, [7#8]⟩, ⟨9, 0x20#8, []⟩] :=
  ⟨_, rfl, rfl, rfl⟩

/-- The hypotheses of C106_look, C106_after_sync_violated, C106_drop, C106_restart and C106_raise are met: the upload of
the file of one byte. -/
example : ∃ p, FileObject.handleTransfers Mem.strict oneByteFile (oneByteUpload.file, oneByteUpload.link) = .ok p false ∧
    p.1.calls = oneByteUpload.file.calls ++ [⟨9, 0x00#8, [7#8]⟩] ∧
    (∃ L g, FileObject.create Mem.strict oneByteFile p.1.instanceId p.2 = .ok L g ∧ g.state = .loaded ∧
      ∃ d resp, oneByteFile.answer (fileBeginReq p.1.instanceId) L.dev = .ok d resp ∧ resp.status = 0x00#8 ∧
        resp.data = fileAnnounce 1 255 ++ []) :=
  ⟨_, rfl, rfl, _, _, rfl, rfl, _, _, rfl, rfl, by decide⟩

/-- A careful program: begin, transfer, and in the handler look, synchronise, begin the next upload, whose handler looks and
throws; then transfer again, with a handler that destroys the object. -/
example : Careful 0 (.begin 1 .done (.transfer (.look (.sync (.begin 2 (.look (.raise (.runtime "x"))) .done))) (.transfer (.look (.drop .done)) .done))) := by
  simp [Careful, loses]

/-- The hypotheses of C106_careful are met by this device, and memory that gives zeros. -/
example (a : HandlerAct) (ha : Careful 0 a) : LiveFile.run (fun _ => some 0) oneByteFile a ⟨false, 0, false⟩ oneByteUpload ≠ .ub :=
  C106_careful _ (fun _ => ⟨0, rfl⟩) oneByteFile (fun r d => by
    show (if r.service = 0x0E#8 then _ else if r.service = 0x4B#8 then _ else _) ≠ _
    split
    · exact fun h => by cases h
    · split <;> exact fun h => by cases h) a ha oneByteUpload rfl

/-- It runs: two uploads, each with the content. -/
example : ∃ s', LiveFile.run Mem.strict oneByteFile
      (.transfer (.look (.sync (.begin 2 .done .done))) (.transfer (.look (.drop .done)) .done)) ⟨false, 0, false⟩ oneByteUpload = .ok s' () ∧
    s'.seen = [[7#8], [7#8]] ∧ s'.gone = true ∧ s'.file.calls.map (·.handler) = [9, 2] :=
  ⟨_, rfl, rfl, rfl, rfl⟩

/-- A handler that is not careful, with the device as it is. -/
example : LiveFile.handleTransfers Mem.strict oneByteFile (.sync (.look .done)) oneByteUpload = .ub := rfl

end Verif.Props
