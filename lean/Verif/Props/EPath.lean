import Verif.Model.Cip
import Verif.Spec.Cip
import Verif.Lemmas.Reader
import Verif.Props.Buffer

/-!
# Properties C11, C12, C13 (EPATH)
-/

namespace Verif.Props

open Verif Verif.Spec

/-- The paths a user can build with one, two or three identifiers. -/
inductive Built : EPath → List (BitVec 16) → Prop
  | one (c) : Built (EPath.mk1 c) [c]
  | two (c o) : Built (EPath.mk2 c o) [c, o]
  | three (c o a) : Built (EPath.mk3 c o a) [c, o, a]

theorem le_one_setWidth (v : BitVec 16) : le 1 v.toNat = [v.setWidth 8] := by
  simp only [le, List.cons.injEq, and_true]
  apply BitVec.eq_of_toNat_eq; simp

/-- C11. A path is packed as its logical segments in order, in 8-bit form (where
an identifier contributes its low byte) or 16-bit form with a zero pad byte. -/
theorem C11_layout (p : EPath) (ids : List (BitVec 16)) (h : Built p ids) (use8 : Bool) :
    p.packPaddedPath use8 = pathBytes use8 (ids.map BitVec.toNat) := by
  cases h <;> cases use8 <;>
    simp [EPath.packPaddedPath, EPath.mk1, EPath.mk2, EPath.mk3, C02_little_endian, Buffer.empty,
      pathBytes, Seg.bytes, SegKind.code8, SegKind.code16, le]

/-- C11. The declared size in words is half the packed length. -/
theorem C11_size (p : EPath) (ids : List (BitVec 16)) (h : Built p ids) (use8 : Bool) :
    (p.packPaddedPath use8).length = 2 * (p.getSizeInWords use8).toNat := by
  rw [C11_layout p ids h]
  cases h <;> cases use8 <;>
    simp [EPath.getSizeInWords, EPath.mk1, EPath.mk2, EPath.mk3, pathBytes, Seg.bytes]

example : Built (EPath.mk3 0x0F#16 1#16 300#16) [0x0F#16, 1#16, 300#16] := .three _ _ _

/-- C11. The default constructed path breaks this: it declares no words but packs
a class segment. -/
theorem C11_default_path_violated :
    (EPath.mk0.getSizeInWords false).toNat = 0 ∧ (EPath.mk0.packPaddedPath false).length = 4 ∧
    (EPath.mk0.getSizeInWords true).toNat = 0 ∧ (EPath.mk0.packPaddedPath true).length = 2 := by decide

/-! ## Segments -/

/-- The effect of a segment on the identifiers. -/
def applySeg (p : EPath) (s : Seg) : EPath :=
  match s.kind with
  | .cls => { p with classId := BitVec.ofNat 16 s.id }
  | .inst => { p with objectId := BitVec.ofNat 16 s.id }
  | .attr => { p with attributeId := BitVec.ofNat 16 s.id }

theorem reads_seg (p : EPath) (s : Seg) (h : s.Fits) : Reads (p.expandSegment) s.bytes (applySeg p s) := by
  have b8 : ∀ (id : Nat), id < 256 → ∀ g : BitVec 16 → EPath,
      Reads (Rd.u8 >>= fun byte => pure (g (byte.setWidth 16))) (le 1 id) (g (BitVec.ofNat 16 id)) := by
    intro id hid g
    have := (Reads.u8 (BitVec.ofNat 8 id)).map_pure (fun byte => g (byte.setWidth 16))
    refine this.cast ?_ ?_
    · simp only [le]; rw [Nat.mod_eq_of_lt hid]
    · congr 1; apply BitVec.eq_of_toNat_eq; simp; omega
  have b16 : ∀ (pad : Byte) (id : Nat), id < 65536 → ∀ g : BitVec 16 → EPath,
      Reads (Rd.u8 >>= fun _ => Rd.u16 >>= fun w => pure (g w)) (pad :: le 2 id) (g (BitVec.ofNat 16 id)) := by
    intro pad id hid g
    have h2 := Reads.u16 (BitVec.ofNat 16 id)
    have e : (BitVec.ofNat 16 id).toNat = id := by simp; omega
    rw [e] at h2
    exact (Reads.u8 pad).bind (h2.map_pure g)
  have pre : ∀ (c : Byte) (x : Byte → Rd EPath) (bs : List Byte) (q : EPath),
      Reads (x c) bs q → Reads (Rd.u8 >>= x) (c :: bs) q := fun c x bs q hx => (Reads.u8 c).bind hx
  cases s with
  | short k id =>
    cases k
    · exact pre _ _ _ _ (b8 id h fun v => { p with classId := v })
    · exact pre _ _ _ _ (b8 id h fun v => { p with objectId := v })
    · exact pre _ _ _ _ (b8 id h fun v => { p with attributeId := v })
  | long k pad id =>
    cases k
    · exact pre _ _ _ _ (b16 pad id h fun v => { p with classId := v })
    · exact pre _ _ _ _ (b16 pad id h fun v => { p with objectId := v })
    · exact pre _ _ _ _ (b16 pad id h fun v => { p with attributeId := v })

theorem seg_bytes_ne_nil (s : Seg) : 2 ≤ s.bytes.length := by
  cases s <;> simp [Seg.bytes]

/-- Decoding complete segments up to the end of the buffer. -/
theorem expandLoop_ok (segs : List Seg) (hf : ∀ s ∈ segs, s.Fits) (n : Nat) (hn : segs.length ≤ n)
    (p : EPath) (m : Mem) (pre : List Byte) :
    EPath.expandLoop n p m ⟨pre ++ segs.flatMap Seg.bytes, pre.length⟩ =
      .ok (segs.foldl applySeg p, ⟨pre ++ segs.flatMap Seg.bytes, pre.length + (segs.flatMap Seg.bytes).length⟩) := by
  induction segs generalizing n p pre with
  | nil =>
    cases n with
    | zero => simp [EPath.expandLoop]
    | succ n => simp [EPath.expandLoop, Rd.bind_run, Buffer.isEmpty]
  | cons s segs ih =>
    cases n with
    | zero => simp at hn
    | succ n =>
      have h1 := (reads_seg p s (hf s (by simp))) m pre (segs.flatMap Seg.bytes)
      have h2 := ih (fun t ht => hf t (by simp [ht])) n (by simpa using hn) (applySeg p s) (pre ++ s.bytes)
      have hs := seg_bytes_ne_nil s
      unfold EPath.expandLoop
      rw [Rd.bind_ok (Rd.get_run _ _), Rd.ite_run, if_neg (by simp [Buffer.isEmpty]; omega)]
      simp only [List.flatMap_cons, List.append_assoc, List.length_append] at h1 h2 ⊢
      rw [Rd.bind_ok h1, h2]
      simp [Nat.add_assoc]

theorem flatMap_bytes_length (segs : List Seg) : segs.length ≤ (segs.flatMap Seg.bytes).length := by
  induction segs with
  | nil => simp
  | cons s segs ih =>
    have := seg_bytes_ne_nil s
    simp only [List.flatMap_cons, List.length_append, List.length_cons]; omega

theorem expand_segs (segs : List Seg) (hf : ∀ s ∈ segs, s.Fits) (m : Mem) :
    EPath.expandPaddedPath m (segs.flatMap Seg.bytes) = .ok (EPath.countIds (segs.foldl applySeg EPath.mk0)) := by
  have h := expandLoop_ok segs hf (segs.flatMap Seg.bytes).length (flatMap_bytes_length segs) EPath.mk0 m []
  simp only [List.nil_append, List.length_nil, Nat.zero_add] at h
  unfold EPath.expandPaddedPath EPath.expandRd Buffer.ofData
  rw [Rd.bind_ok h, Rd.bind_ok (Rd.get_run _ _), Rd.ite_run, if_pos (by simp [Buffer.isValid])]
  rfl

/-- The identifiers after a list of segments are the last ones named. -/
theorem foldl_applySeg (segs : List Seg) (p : EPath) :
    (segs.foldl applySeg p).classId =
      (((segs.filter fun s => s.kind = .cls).getLast?.map fun s => BitVec.ofNat 16 s.id).getD p.classId) ∧
    (segs.foldl applySeg p).objectId =
      (((segs.filter fun s => s.kind = .inst).getLast?.map fun s => BitVec.ofNat 16 s.id).getD p.objectId) ∧
    (segs.foldl applySeg p).attributeId =
      (((segs.filter fun s => s.kind = .attr).getLast?.map fun s => BitVec.ofNat 16 s.id).getD p.attributeId) := by
  induction segs generalizing p with
  | nil => simp
  | cons s segs ih =>
    obtain ⟨h1, h2, h3⟩ := ih (applySeg p s)
    have last : ∀ (l : List Seg) (d : BitVec 16),
        ((s :: l).getLast?.map fun s => BitVec.ofNat 16 s.id).getD d
        = (l.getLast?.map fun s => BitVec.ofNat 16 s.id).getD (BitVec.ofNat 16 s.id) := by
      intro l d
      cases l with
      | nil => rfl
      | cons a l => simp [List.getLast?_cons_cons, List.getLast?_eq_some_getLast]
    simp only [List.foldl_cons, h1, h2, h3, List.filter_cons]
    cases hk : s.kind <;> simp [applySeg, hk, last]

/-! ## C12 -/

/-- Which identifiers of a path make it survive packing and expanding. -/
def Survives (use8 : Bool) (ids : List (BitVec 16)) : Prop :=
  ∀ i ∈ ids, i ≠ 0#16 ∧ (use8 = true → i.toNat < 256)

theorem expand_pathBytes (use8 : Bool) (ids : List (BitVec 16)) (m : Mem) (h3 : ids.length ≤ 3) :
    EPath.expandPaddedPath m (pathBytes use8 (ids.map BitVec.toNat)) =
      .ok (EPath.countIds ((List.zip [SegKind.cls, .inst, .attr] ids).foldl (fun p x =>
        applySeg p (.long x.1 0#8 (if use8 then x.2.toNat % 256 else x.2.toNat))) EPath.mk0)) := by
  have key : ∀ (l : List (SegKind × BitVec 16)),
      (l.map fun p => if use8 then Seg.short p.1 (p.2.toNat % 256) else Seg.long p.1 0#8 p.2.toNat).flatMap Seg.bytes
      = (l.map fun p => (p.1, p.2.toNat)).flatMap fun p =>
          if use8 then (Seg.short p.1 p.2).bytes else (Seg.long p.1 0#8 p.2).bytes := by
    intro l
    induction l with
    | nil => rfl
    | cons a l ih =>
      simp only [List.map_cons, List.flatMap_cons, ih]
      congr 1
      cases use8 <;> simp [Seg.bytes, le]
  have hz : List.zip [SegKind.cls, .inst, .attr] (ids.map BitVec.toNat)
      = (List.zip [SegKind.cls, .inst, .attr] ids).map fun p => (p.1, p.2.toNat) := by
    rw [List.zip_map_right]; rfl
  have hs := expand_segs ((List.zip [SegKind.cls, .inst, .attr] ids).map fun p =>
    if use8 then Seg.short p.1 (p.2.toNat % 256) else Seg.long p.1 0#8 p.2.toNat) (by
      intro s hs
      obtain ⟨q, _, rfl⟩ := List.mem_map.mp hs
      cases use8
      · exact q.2.isLt
      · simp only [if_true, Seg.Fits]; omega) m
  rw [key] at hs
  unfold pathBytes
  rw [hz, hs, List.foldl_map]
  congr 3
  funext p x
  cases use8 <;> simp [applySeg, Seg.kind, Seg.id]

/-- C12. A path survives packing and expanding exactly when none of its
identifiers is zero and, with 8-bit segments, all are below 256. -/
theorem C12_roundtrip_iff (p : EPath) (ids : List (BitVec 16)) (h : Built p ids) (use8 : Bool) :
    (∀ m, EPath.expandPaddedPath m (p.packPaddedPath use8) = .ok p) ↔ Survives use8 ids := by
  have h3 : ids.length ≤ 3 := by cases h <;> simp
  have hx : ∀ m, EPath.expandPaddedPath m (p.packPaddedPath use8) =
      .ok (EPath.countIds ((List.zip [SegKind.cls, .inst, .attr] ids).foldl (fun p x =>
        applySeg p (.long x.1 0#8 (if use8 then x.2.toNat % 256 else x.2.toNat))) EPath.mk0)) := by
    intro m
    rw [C11_layout p ids h use8, expand_pathBytes use8 ids m h3]
  have lt : ∀ v : BitVec 16, (0#16 < v) ↔ v ≠ 0#16 := by
    intro v
    rw [BitVec.lt_def]
    constructor
    · intro h e; subst e; simp at h
    · intro h
      have : v.toNat ≠ 0 := fun e => h (BitVec.eq_of_toNat_eq (by simpa using e))
      simp; omega
  have md : ∀ v : BitVec 16, BitVec.ofNat 16 (v.toNat % 256) = v ↔ v.toNat < 256 := by
    intro v
    constructor
    · intro h
      have := congrArg BitVec.toNat h
      simp at this; omega
    · intro h
      apply BitVec.eq_of_toNat_eq
      simp; omega
  constructor
  · intro hm
    have := (hx Mem.strict).symm.trans (hm Mem.strict)
    injection this with this
    cases h <;> cases use8 <;>
      simp [EPath.countIds, applySeg, Seg.kind, Seg.id, EPath.mk0, EPath.mk1, EPath.mk2, EPath.mk3, lt, md, Survives] at this ⊢ <;>
      grind
  · intro hs m
    rw [hx m]
    congr 1
    cases h <;> cases use8 <;>
      simp [Survives] at hs <;>
      simp [EPath.countIds, applySeg, Seg.kind, Seg.id, EPath.mk0, EPath.mk1, EPath.mk2, EPath.mk3, lt] <;> grind

example : Built (EPath.mk2 0x37#16 0xC8#16) [0x37#16, 0xC8#16] ∧ Survives true [0x37#16, 0xC8#16] :=
  ⟨.two _ _, by simp [Survives]⟩

/-- C12. In particular a class-level path (instance 0) does not survive. -/
theorem C12_class_level_lost (c a : BitVec 16) (use8 : Bool) :
    ∃ m, EPath.expandPaddedPath m ((EPath.mk3 c 0#16 a).packPaddedPath use8) ≠ .ok (EPath.mk3 c 0#16 a) := by
  have h := C12_roundtrip_iff _ _ (Built.three c 0#16 a) use8
  apply Classical.byContradiction
  intro hn
  have : ∀ m, EPath.expandPaddedPath m ((EPath.mk3 c 0#16 a).packPaddedPath use8) = .ok (EPath.mk3 c 0#16 a) := by
    intro m
    apply Classical.byContradiction
    intro h; exact hn ⟨m, h⟩
  have := h.mp this 0#16 (by simp)
  exact this.1 rfl

/-! ## C13 -/

/-- One segment at any point of a buffer with at least one byte left. -/
theorem expandSegment_cases (p : EPath) (b : Buffer) (hb : b.pos < b.bytes.length) :
    (∃ s : Seg, s.Fits ∧ (b.bytes.drop b.pos).take s.bytes.length = s.bytes ∧
      ∀ m, p.expandSegment m b = .ok (applySeg p s, ⟨b.bytes, b.pos + s.bytes.length⟩)) ∨
    (b.bytes[b.pos] ∉ knownCodes ∧ ∀ m, p.expandSegment m b = .throw (.runtime "Unknown EPATH segment")) ∨
    (b.bytes[b.pos] ∈ knownCodes ∧ p.expandSegment Mem.strict b = .ub ∧ ∀ m : Mem, m.Lenient → ∃ q n,
      p.expandSegment m b = .ok (q, ⟨b.bytes, n⟩) ∧ b.bytes.length < n) := by
  have hu := fun m => u8_eq m b hb
  have hd : b.bytes.drop b.pos = b.bytes[b.pos] :: b.bytes.drop (b.pos + 1) :=
    List.drop_eq_getElem_cons hb
  generalize hc : b.bytes[b.pos] = c at hu hd
  by_cases hk : c ∈ knownCodes
  · -- 8-bit or 16-bit form
    have form : (∃ k : SegKind, c = k.code8) ∨ (∃ k : SegKind, c = k.code16) := by
      simp [knownCodes] at hk
      rcases hk with h | h | h | h | h | h
      · exact .inl ⟨.cls, h⟩
      · exact .inr ⟨.cls, h⟩
      · exact .inl ⟨.inst, h⟩
      · exact .inr ⟨.inst, h⟩
      · exact .inl ⟨.attr, h⟩
      · exact .inr ⟨.attr, h⟩
    rcases form with ⟨k, rfl⟩ | ⟨k, rfl⟩
    · by_cases h1 : b.pos + 1 < b.bytes.length
      · left
        have hs : (Seg.short k (b.bytes[b.pos + 1]).toNat).Fits := (b.bytes[b.pos + 1]).isLt
        have ht : (b.bytes.drop b.pos).take 2 = (Seg.short k (b.bytes[b.pos + 1]).toNat).bytes := by
          rw [hd, List.drop_eq_getElem_cons h1]
          simp only [Seg.bytes, le_one]
          rfl
        refine ⟨_, hs, by simpa [Seg.bytes] using ht, fun m => ?_⟩
        exact (reads_seg p _ hs).at m b (by omega) (by simpa [Seg.bytes] using ht)
      · right; right
        have sz : ∀ q : Byte → EPath, Sized (Rd.u8 >>= fun byte => pure (q byte)) 1 := fun q => Sized.u8.map q
        refine ⟨hk, ?_, ?_⟩
        · unfold EPath.expandSegment
          rw [Rd.bind_ok (hu _)]
          cases k <;> exact (sz _).short ⟨b.bytes, b.pos + 1⟩ hb (by simp; omega)
        · intro m hm
          have : ∃ q, p.expandSegment m b = .ok (q, ⟨b.bytes, b.pos + 1 + 1⟩) := by
            unfold EPath.expandSegment
            rw [Rd.bind_ok (hu _)]
            cases k <;> exact (sz _).lenient m hm ⟨b.bytes, b.pos + 1⟩
          obtain ⟨q, hq⟩ := this
          exact ⟨q, _, hq, by omega⟩
    · by_cases h1 : b.pos + 3 < b.bytes.length
      · left
        have hlt := ofLe_lt [b.bytes[b.pos + 2], b.bytes[b.pos + 3]]
        have hs : (Seg.long k b.bytes[b.pos + 1] (ofLe [b.bytes[b.pos + 2], b.bytes[b.pos + 3]])).Fits := by
          simp only [List.length_cons, List.length_nil] at hlt
          simp only [Seg.Fits]; omega
        have ht : (b.bytes.drop b.pos).take 4 =
            (Seg.long k b.bytes[b.pos + 1] (ofLe [b.bytes[b.pos + 2], b.bytes[b.pos + 3]])).bytes := by
          rw [hd, List.drop_eq_getElem_cons (by omega), List.drop_eq_getElem_cons (by omega),
            List.drop_eq_getElem_cons (by omega)]
          have := le_ofLe [b.bytes[b.pos + 2], b.bytes[b.pos + 3]]
          simp only [List.length_cons, List.length_nil] at this
          simp only [Seg.bytes, this]
          rfl
        refine ⟨_, hs, by simpa [Seg.bytes] using ht, fun m => ?_⟩
        exact (reads_seg p _ hs).at m b (by omega) (by simpa [Seg.bytes] using ht)
      · right; right
        have sz : ∀ q : BitVec 16 → EPath, Sized (Rd.u8 >>= fun _ => Rd.u16 >>= fun w => pure (q w)) 3 :=
          fun q => Sized.u8.bind (fun _ => Sized.u16.map q)
        refine ⟨hk, ?_, ?_⟩
        · unfold EPath.expandSegment
          rw [Rd.bind_ok (hu _)]
          cases k <;> exact (sz _).short ⟨b.bytes, b.pos + 1⟩ hb (by simp; omega)
        · intro m hm
          have : ∃ q, p.expandSegment m b = .ok (q, ⟨b.bytes, b.pos + 1 + 3⟩) := by
            unfold EPath.expandSegment
            rw [Rd.bind_ok (hu _)]
            cases k <;> exact (sz _).lenient m hm ⟨b.bytes, b.pos + 1⟩
          obtain ⟨q, hq⟩ := this
          exact ⟨q, _, hq, by omega⟩
  · right; left
    refine ⟨hk, fun m => ?_⟩
    unfold EPath.expandSegment
    rw [Rd.bind_ok (hu m)]
    simp [knownCodes] at hk
    simp [hk]

/-- The three possible courses of the loop from any point of the buffer. -/
theorem expandLoop_cases (n : Nat) (p : EPath) (b : Buffer) (hb : b.pos ≤ b.bytes.length)
    (hn : b.bytes.length - b.pos ≤ n) :
    (∃ segs : List Seg, (∀ s ∈ segs, s.Fits) ∧ b.bytes.drop b.pos = segs.flatMap Seg.bytes ∧
      ∀ m, EPath.expandLoop n p m b = .ok (segs.foldl applySeg p, ⟨b.bytes, b.bytes.length⟩)) ∨
    (∃ (segs : List Seg) (c : Byte) (rest : List Byte), (∀ s ∈ segs, s.Fits) ∧ c ∉ knownCodes ∧
      b.bytes.drop b.pos = segs.flatMap Seg.bytes ++ c :: rest ∧
      ∀ m, EPath.expandLoop n p m b = .throw (.runtime "Unknown EPATH segment")) ∨
    (EPath.expandLoop n p Mem.strict b = .ub ∧ ∀ m : Mem, m.Lenient → ∃ q k,
      EPath.expandLoop n p m b = .ok (q, ⟨b.bytes, k⟩) ∧ b.bytes.length < k) := by
  induction n generalizing p b with
  | zero =>
    left
    refine ⟨[], by simp, ?_, fun m => ?_⟩
    · simp; omega
    · have : b.pos = b.bytes.length := by omega
      simp only [EPath.expandLoop, Rd.pure_run, List.foldl_nil, ← this]
  | succ n ih =>
    by_cases he : b.pos = b.bytes.length
    · left
      refine ⟨[], by simp, by simp [he], fun m => ?_⟩
      unfold EPath.expandLoop
      rw [Rd.bind_ok (Rd.get_run _ _), Rd.ite_run, if_pos (by simp [Buffer.isEmpty, he])]
      simp only [Rd.pure_run, List.foldl_nil, ← he]
    · have hlt : b.pos < b.bytes.length := by omega
      have step : ∀ m, EPath.expandLoop (n + 1) p m b = (p.expandSegment >>= EPath.expandLoop n) m b := by
        intro m
        rw [EPath.expandLoop, Rd.bind_ok (Rd.get_run _ _), Rd.ite_run, if_neg (by simp [Buffer.isEmpty]; omega)]
      rcases expandSegment_cases p b hlt with ⟨s, hs, htake, hok⟩ | ⟨hk, hthrow⟩ | ⟨hk, hub, hlen⟩
      · have hpos : b.pos + s.bytes.length ≤ b.bytes.length := by
          have := congrArg List.length htake
          simp only [List.length_take, List.length_drop] at this
          omega
        have hs2 := seg_bytes_ne_nil s
        have hsplit : b.bytes.drop b.pos = s.bytes ++ b.bytes.drop (b.pos + s.bytes.length) := by
          conv => lhs; rw [← List.take_append_drop s.bytes.length (b.bytes.drop b.pos), htake]
          rw [List.drop_drop]
        rcases ih (applySeg p s) ⟨b.bytes, b.pos + s.bytes.length⟩ hpos (by simp; omega) with
          ⟨segs, h1, h2, h3⟩ | ⟨segs, c, rest, h1, h2, h3, h4⟩ | ⟨h1, h2⟩
        · left
          refine ⟨s :: segs, ?_, ?_, fun m => ?_⟩
          · intro t ht
            rcases List.mem_cons.mp ht with rfl | ht
            · exact hs
            · exact h1 t ht
          · rw [hsplit]; simp only at h2; rw [h2]; rfl
          · rw [step, Rd.bind_ok (hok m), h3 m]; rfl
        · right; left
          refine ⟨s :: segs, c, rest, ?_, h2, ?_, fun m => ?_⟩
          · intro t ht
            rcases List.mem_cons.mp ht with rfl | ht
            · exact hs
            · exact h1 t ht
          · rw [hsplit]; simp only at h3; rw [h3]; simp
          · rw [step, Rd.bind_ok (hok m), h4 m]
        · right; right
          refine ⟨?_, fun m hm => ?_⟩
          · rw [step, Rd.bind_ok (hok _), h1]
          · obtain ⟨q, k, hq, hk⟩ := h2 m hm
            exact ⟨q, k, by rw [step, Rd.bind_ok (hok _), hq], hk⟩
      · right; left
        refine ⟨[], b.bytes[b.pos], b.bytes.drop (b.pos + 1), by simp, hk, ?_, fun m => ?_⟩
        · rw [List.flatMap_nil, List.nil_append]; exact List.drop_eq_getElem_cons hlt
        · rw [step, Rd.bind_throw (hthrow m)]
      · right; right
        refine ⟨by rw [step, Rd.bind_ub hub], fun m hm => ?_⟩
        obtain ⟨q, k, hq, hk⟩ := hlen m hm
        refine ⟨q, k, ?_, hk⟩
        rw [step, Rd.bind_ok hq]
        cases n with
        | zero => rfl
        | succ n =>
          rw [EPath.expandLoop, Rd.bind_ok (Rd.get_run _ _), Rd.ite_run,
            if_pos (by simp [Buffer.isEmpty]; omega)]
          rfl

/-- Complete segments are all read. -/
theorem expandLoop_segs (segs : List Seg) (hs : ∀ s ∈ segs, s.Fits) (tail : List Byte) : ∀ (n : Nat) (p : EPath) (b : Buffer),
    b.pos ≤ b.bytes.length → b.bytes.drop b.pos = segs.flatMap Seg.bytes ++ tail → b.bytes.length - b.pos ≤ n →
    ∃ k, tail.length ≤ k ∧ ∀ m, EPath.expandLoop n p m b =
      EPath.expandLoop k (segs.foldl applySeg p) m ⟨b.bytes, b.bytes.length - tail.length⟩ := by
  induction segs with
  | nil =>
    intro n p b hb hd hn
    have := congrArg List.length hd
    simp only [List.length_drop, List.flatMap_nil, List.nil_append] at this
    refine ⟨n, by omega, fun m => ?_⟩
    rw [show b.bytes.length - tail.length = b.pos by omega]
    rfl
  | cons s segs ih =>
    intro n p b hb hd hn
    have hl := congrArg List.length hd
    have hne := seg_bytes_ne_nil s
    simp only [List.length_drop, List.flatMap_cons, List.append_assoc, List.length_append] at hl
    cases n with
    | zero => omega
    | succ n =>
      have htake : (b.bytes.drop b.pos).take s.bytes.length = s.bytes := by
        rw [hd]; simp
      obtain ⟨k, hk, h⟩ := ih (fun t ht => hs t (List.mem_cons_of_mem _ ht)) n (applySeg p s) ⟨b.bytes, b.pos + s.bytes.length⟩
        (by simp; omega) (by
          show b.bytes.drop (b.pos + s.bytes.length) = _
          rw [← List.drop_drop, hd]; simp) (by simp; omega)
      refine ⟨k, hk, fun m => ?_⟩
      rw [EPath.expandLoop, Rd.bind_ok (Rd.get_run _ _), Rd.ite_run, if_neg (by simp [Buffer.isEmpty]; omega),
        Rd.bind_ok ((reads_seg p s (hs s (by simp))).at m b (by omega) htake), h m]
      rfl

theorem lastIds (segs : List Seg) (h1 : ∀ s ∈ segs, s.Fits) :
    (EPath.countIds (segs.foldl applySeg EPath.mk0)).classId.toNat = lastId .cls segs ∧
    (EPath.countIds (segs.foldl applySeg EPath.mk0)).objectId.toNat = lastId .inst segs ∧
    (EPath.countIds (segs.foldl applySeg EPath.mk0)).attributeId.toNat = lastId .attr segs := by
  have hid : ∀ k, (((segs.filter fun s => s.kind = k).getLast?.map fun s => BitVec.ofNat 16 s.id).getD 0#16).toNat
      = lastId k segs := by
    intro k
    unfold lastId
    cases e : (segs.filter fun s => s.kind = k).getLast? with
    | none => rfl
    | some s =>
      have hm : s ∈ segs := (List.mem_filter.mp (List.mem_of_getLast? e)).1
      have hf := h1 s hm
      have : s.id < 65536 := by
        cases s <;> simp only [Seg.Fits, Seg.id] at hf ⊢ <;> omega
      simp; omega
  obtain ⟨f1, f2, f3⟩ := foldl_applySeg segs EPath.mk0
  refine ⟨?_, ?_, ?_⟩
  · rw [← hid]; exact congrArg BitVec.toNat f1
  · rw [← hid]; exact congrArg BitVec.toNat f2
  · rw [← hid]; exact congrArg BitVec.toNat f3

/-- C13. Complete classification of the path decoder over every byte string:
* the string is a concatenation of complete known segments, and the result holds
  the last identifier named for each kind (0 when none), whatever is in memory;
* or complete segments are followed by an unknown segment code, and it throws;
* or the last segment is cut off: then it reads out of bounds, and if the stray
  reads return bytes (any bytes) it throws "Wrong EPATH format". -/
theorem C13_classification (data : List Byte) :
    (∃ (segs : List Seg) (p : EPath), (∀ s ∈ segs, s.Fits) ∧ data = segs.flatMap Seg.bytes ∧
      (∀ m, EPath.expandPaddedPath m data = .ok p) ∧
      p.classId.toNat = lastId .cls segs ∧ p.objectId.toNat = lastId .inst segs ∧
      p.attributeId.toNat = lastId .attr segs) ∨
    (∃ (segs : List Seg) (c : Byte) (rest : List Byte), (∀ s ∈ segs, s.Fits) ∧ c ∉ knownCodes ∧
      data = segs.flatMap Seg.bytes ++ c :: rest ∧
      ∀ m, EPath.expandPaddedPath m data = .throw (.runtime "Unknown EPATH segment")) ∨
    (EPath.expandPaddedPath Mem.strict data = .ub ∧
      ∀ m : Mem, m.Lenient → EPath.expandPaddedPath m data = .throw (.runtime "Wrong EPATH format")) := by
  unfold EPath.expandPaddedPath EPath.expandRd
  rcases expandLoop_cases data.length EPath.mk0 (Buffer.ofData data) (by simp [Buffer.ofData])
    (by simp [Buffer.ofData]) with ⟨segs, h1, h2, h3⟩ | ⟨segs, c, rest, h1, h2, h3, h4⟩ | ⟨h1, h2⟩
  · left
    refine ⟨segs, EPath.countIds (segs.foldl applySeg EPath.mk0), h1, by simpa [Buffer.ofData] using h2, ?_, ?_⟩
    · intro m
      rw [Rd.bind_ok (h3 m), Rd.bind_ok (Rd.get_run _ _), Rd.ite_run, if_pos (by simp [Buffer.isValid])]
      rfl
    · exact lastIds segs h1
  · right; left
    refine ⟨segs, c, rest, h1, h2, by simpa [Buffer.ofData] using h3, fun m => ?_⟩
    rw [Rd.bind_throw (h4 m)]
  · right; right
    refine ⟨by rw [Rd.bind_ub h1], fun m hm => ?_⟩
    obtain ⟨q, k, hq, hk⟩ := h2 m hm
    rw [Rd.bind_ok hq, Rd.bind_ok (Rd.get_run _ _), Rd.ite_run]
    rw [if_neg (by simp [Buffer.isValid, Buffer.ofData] at hk ⊢; exact decide_eq_false (by omega))]
    rfl

/-- C13. Conversely every concatenation of complete known segments is decoded, to the last identifiers. -/
theorem C13_accepts (segs : List Seg) (hs : ∀ s ∈ segs, s.Fits) :
    ∃ p : EPath, (∀ m, EPath.expandPaddedPath m (segs.flatMap Seg.bytes) = .ok p) ∧
      p.classId.toNat = lastId .cls segs ∧ p.objectId.toNat = lastId .inst segs ∧
      p.attributeId.toNat = lastId .attr segs := by
  refine ⟨EPath.countIds (segs.foldl applySeg EPath.mk0), fun m => ?_, lastIds segs hs⟩
  unfold EPath.expandPaddedPath EPath.expandRd
  obtain ⟨k, _, h⟩ := expandLoop_segs segs hs [] (segs.flatMap Seg.bytes).length EPath.mk0 (Buffer.ofData (segs.flatMap Seg.bytes))
    (by simp [Buffer.ofData]) (by simp [Buffer.ofData]) (by simp [Buffer.ofData])
  have he : ∀ q m, EPath.expandLoop k q m ⟨segs.flatMap Seg.bytes, (segs.flatMap Seg.bytes).length⟩ =
      .ok (q, ⟨segs.flatMap Seg.bytes, (segs.flatMap Seg.bytes).length⟩) := by
    intro q m
    cases k with
    | zero => rfl
    | succ k =>
      rw [EPath.expandLoop, Rd.bind_ok (Rd.get_run _ _), Rd.ite_run, if_pos (by simp [Buffer.isEmpty])]
      rfl
  rw [Rd.bind_ok ((h m).trans (he _ m)), Rd.bind_ok (Rd.get_run _ _), Rd.ite_run, if_pos (by simp [Buffer.isValid])]
  rfl

/-- C13. And complete segments before an unknown code throw, whatever comes after it. -/
theorem C13_unknown (segs : List Seg) (hs : ∀ s ∈ segs, s.Fits) (c : Byte) (hc : c ∉ knownCodes) (rest : List Byte) (m : Mem) :
    EPath.expandPaddedPath m (segs.flatMap Seg.bytes ++ c :: rest) = .throw (.runtime "Unknown EPATH segment") := by
  unfold EPath.expandPaddedPath EPath.expandRd
  obtain ⟨k, hk, h⟩ := expandLoop_segs segs hs (c :: rest) (segs.flatMap Seg.bytes ++ c :: rest).length EPath.mk0
    (Buffer.ofData (segs.flatMap Seg.bytes ++ c :: rest))
    (by simp [Buffer.ofData]) (by simp [Buffer.ofData]) (by simp [Buffer.ofData])
  have hp : (Buffer.ofData (segs.flatMap Seg.bytes ++ c :: rest)).bytes.length - (c :: rest).length = (segs.flatMap Seg.bytes).length := by
    simp [Buffer.ofData]
  rw [hp] at h
  have hb : (segs.flatMap Seg.bytes).length < (segs.flatMap Seg.bytes ++ c :: rest).length := by simp
  have hg : (segs.flatMap Seg.bytes ++ c :: rest)[(segs.flatMap Seg.bytes).length] = c := by simp
  rcases expandSegment_cases (segs.foldl applySeg EPath.mk0) ⟨segs.flatMap Seg.bytes ++ c :: rest, (segs.flatMap Seg.bytes).length⟩ hb with
    ⟨s, _, ht, _⟩ | ⟨_, hthrow⟩ | ⟨hk', _⟩
  · refine absurd ?_ hc
    have h0 := congrArg List.head? ht
    cases s with
    | short k i =>
      simp [Seg.bytes] at h0
      rw [h0]; cases k <;> decide
    | long k pd i =>
      simp [Seg.bytes] at h0
      rw [h0]; cases k <;> decide
  · cases k with
    | zero => simp at hk
    | succ k =>
      rw [Rd.bind_throw]
      rw [h m]
      rw [EPath.expandLoop, Rd.bind_ok (Rd.get_run _ _), Rd.ite_run, if_neg (by simp [Buffer.isEmpty, Buffer.ofData])]
      exact Rd.bind_throw (hthrow m)
  · rw [hg] at hk'
    exact absurd hk' hc

example : EPath.expandPaddedPath Mem.strict [0x20#8, 6#8, 0x25#8, 0#8, 1#8, 2#8] =
    .ok ⟨6#16, 0x201#16, 0#16, 2#8⟩ := by decide +kernel
example : EPath.expandPaddedPath Mem.strict [0x20#8, 6#8, 0x2C#8, 1#8] =
    .throw (.runtime "Unknown EPATH segment") := by decide +kernel
example : EPath.expandPaddedPath Mem.strict [0x20#8, 6#8, 0x25#8] = .ub := by decide +kernel

end Verif.Props
