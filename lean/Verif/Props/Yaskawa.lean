import Verif.Model.Yaskawa
import Verif.Props.Router

/-!
# Property C66: Yaskawa requests and paths
-/

namespace Verif.Props

open Verif Verif.Spec

/-- The Yaskawa paths a user can build. -/
inductive YBuilt : YEPath → List (BitVec 8) → Prop
  | one (c) : YBuilt (YEPath.mk1 c) [c]
  | two (c o) : YBuilt (YEPath.mk2 c o) [c, o]
  | three (c o a) : YBuilt (YEPath.mk3 c o a) [c, o, a]

/-- C66. The path is its 8-bit segments in order. -/
theorem C66_layout (p : YEPath) (ids : List (BitVec 8)) (h : YBuilt p ids) :
    p.packPaddedPath = pathBytes true (ids.map BitVec.toNat) ∧
    p.packPaddedPath.length = 2 * p.getSizeInWords.toNat := by
  cases h <;>
    simp [YEPath.packPaddedPath, YEPath.mk1, YEPath.mk2, YEPath.mk3, YEPath.getSizeInWords, C02_little_endian, Buffer.empty,
      pathBytes, Seg.bytes, SegKind.code8, le]

/-- C66. Every byte of a request is that of the ordinary request in 8-bit mode with the
same service, identifiers and data. -/
theorem C66_request (service : BitVec 8) (data : List Byte) (p : YEPath) (q : EPath) (ids : List (BitVec 8))
    (hp : YBuilt p ids) (hq : Built q (ids.map fun i => i.setWidth 16)) :
    yaskawaRequest service p data = MessageRouterRequest.pack ⟨service, q, data, true⟩ := by
  have w : ∀ v : BitVec 8, (v.setWidth 16).setWidth 8 = v := by
    intro v; apply BitVec.eq_of_toNat_eq; simp
  cases hp <;> cases hq <;>
    simp [yaskawaRequest, MessageRouterRequest.pack, YEPath.packPaddedPath, EPath.packPaddedPath, YEPath.mk1, YEPath.mk2,
      YEPath.mk3, EPath.mk1, EPath.mk2, EPath.mk3, YEPath.getSizeInWords, EPath.getSizeInWords, w]

/-- C66. Over any session the Yaskawa router and the ordinary router in 8-bit mode do the
same: the same packet is sent, and the same result comes of it. -/
theorem C66_router {σ : Type} (m : Mem) (si : SessionIf σ) (service : BitVec 8) (data : List Byte)
    (extra : List CommonPacketItem) (p : YEPath) (q : EPath) (ids : List (BitVec 8))
    (hp : YBuilt p ids) (hq : Built q (ids.map fun i => i.setWidth 16)) (s : σ) :
    yaskawaSend m si service p data extra s = sendRequest m si true service q data extra s := by
  unfold yaskawaSend sendRequest yaskawaPacket routerPacket
  rw [C66_request service data p q ids hp hq]

example : YBuilt (YEPath.mk3 0x97#8 0#8 3#8) [0x97#8, 0#8, 3#8] ∧
    Built (EPath.mk3 0x97#16 0#16 3#16) ([0x97#8, 0#8, 3#8].map fun i => i.setWidth 16) := ⟨.three _ _ _, .three _ _ _⟩
example : yaskawaRequest 0x0E (YEPath.mk3 0x97 0 3) [7] = [0x0E, 3, 0x20, 0x97, 0x24, 0, 0x30, 3, 7] := by decide

/-! ## Decoding paths -/

/-- The identifiers cut to eight bits. -/
def cutPath (p : EPath) : YEPath := ⟨p.classId.setWidth 8, p.objectId.setWidth 8, p.attributeId.setWidth 8, p.size⟩

/-- Map the result of a read. -/
def mapRead (f : α → β) : Outcome (α × Buffer) → Outcome (β × Buffer)
  | .ok (a, b) => .ok (f a, b)
  | .throw e => .throw e
  | .ub => .ub

theorem mapRead_bind {x : Rd γ} {f : γ → Rd α} {g : γ → Rd β} {h : α → β} {m : Mem} {b : Buffer}
    (hfg : ∀ a b', g a m b' = mapRead h (f a m b')) : (x >>= g) m b = mapRead h ((x >>= f) m b) := by
  rw [Rd.bind_run, Rd.bind_run]
  rcases x m b with ⟨a, b'⟩ | e | _
  · exact hfg a b'
  · rfl
  · rfl

theorem cut8 (v : BitVec 8) : (v.setWidth 16).setWidth 8 = v := by
  apply BitVec.eq_of_toNat_eq; simp

theorem expandSegment_cut (p : EPath) (m : Mem) (b : Buffer) :
    (cutPath p).expandSegment m b = mapRead cutPath (p.expandSegment m b) := by
  unfold YEPath.expandSegment EPath.expandSegment
  refine mapRead_bind fun c b => ?_
  have s8 : ∀ (g : EPath → BitVec 16 → EPath) (g' : YEPath → BitVec 8 → YEPath),
      (∀ v, g' (cutPath p) v = cutPath (g p (v.setWidth 16))) →
      (Rd.u8 >>= fun byte => (pure (g' (cutPath p) byte) : Rd YEPath)) m b =
        mapRead cutPath ((Rd.u8 >>= fun byte => (pure (g p (byte.setWidth 16)) : Rd EPath)) m b) := by
    intro g g' hg
    refine mapRead_bind fun v b' => ?_
    rw [hg]; rfl
  have s16 : ∀ (g : EPath → BitVec 16 → EPath) (g' : YEPath → BitVec 8 → YEPath),
      (∀ v : BitVec 16, g' (cutPath p) (v.setWidth 8) = cutPath (g p v)) →
      (Rd.u8 >>= fun _ => Rd.u16 >>= fun w => (pure (g' (cutPath p) (w.setWidth 8)) : Rd YEPath)) m b =
        mapRead cutPath ((Rd.u8 >>= fun _ => Rd.u16 >>= fun w => (pure (g p w) : Rd EPath)) m b) := by
    intro g g' hg
    refine mapRead_bind fun _ b' => mapRead_bind fun v b' => ?_
    rw [hg]; rfl
  by_cases h1 : c = 0x20#8
  · rw [if_pos h1, if_pos h1]
    exact s8 (fun p v => { p with classId := v }) (fun p v => { p with classId := v }) fun v => by
      simp only [cutPath, cut8]
  rw [if_neg h1, if_neg h1]
  by_cases h2 : c = 0x21#8
  · rw [if_pos h2, if_pos h2]
    exact s16 (fun p v => { p with classId := v }) (fun p v => { p with classId := v }) fun v => rfl
  rw [if_neg h2, if_neg h2]
  by_cases h3 : c = 0x24#8
  · rw [if_pos h3, if_pos h3]
    exact s8 (fun p v => { p with objectId := v }) (fun p v => { p with objectId := v }) fun v => by
      simp only [cutPath, cut8]
  rw [if_neg h3, if_neg h3]
  by_cases h4 : c = 0x25#8
  · rw [if_pos h4, if_pos h4]
    exact s16 (fun p v => { p with objectId := v }) (fun p v => { p with objectId := v }) fun v => rfl
  rw [if_neg h4, if_neg h4]
  by_cases h5 : c = 0x30#8
  · rw [if_pos h5, if_pos h5]
    exact s8 (fun p v => { p with attributeId := v }) (fun p v => { p with attributeId := v }) fun v => by
      simp only [cutPath, cut8]
  rw [if_neg h5, if_neg h5]
  by_cases h6 : c = 0x31#8
  · rw [if_pos h6, if_pos h6]
    exact s16 (fun p v => { p with attributeId := v }) (fun p v => { p with attributeId := v }) fun v => rfl
  rw [if_neg h6, if_neg h6]
  rfl

theorem expandLoop_cut (n : Nat) (p : EPath) (m : Mem) (b : Buffer) :
    YEPath.expandLoop n (cutPath p) m b = mapRead cutPath (EPath.expandLoop n p m b) := by
  induction n generalizing p b with
  | zero => rfl
  | succ n ih =>
    unfold YEPath.expandLoop EPath.expandLoop
    rw [Rd.bind_ok (Rd.get_run _ _), Rd.bind_ok (Rd.get_run _ _)]
    by_cases he : b.isEmpty
    · rw [if_pos he, if_pos he]; rfl
    · rw [if_neg he, if_neg he, Rd.bind_run, Rd.bind_run, expandSegment_cut]
      rcases EPath.expandSegment p m b with ⟨q, b'⟩ | e | _
      · exact ih q b'
      · rfl
      · rfl

/-- The number of leading identifiers that are not 0. -/
def leading : List (BitVec 8) → Nat
  | [] => 0
  | i :: rest => if i = 0 then 0 else leading rest + 1

/-- C66. On every byte string the Yaskawa decoder does what the ordinary decoder does:
it throws in the same cases, and otherwise has the same identifiers, cut to eight bits. -/
theorem C66_expand (m : Mem) (data : List Byte) :
    match EPath.expandPaddedPath m data with
    | .ok q => ∃ p, YEPath.expandPaddedPath m data = .ok p ∧ p.classId = q.classId.setWidth 8 ∧
        p.objectId = q.objectId.setWidth 8 ∧ p.attributeId = q.attributeId.setWidth 8 ∧
        p.size.toNat = leading [p.classId, p.objectId, p.attributeId]
    | .throw e => YEPath.expandPaddedPath m data = .throw e
    | .ub => YEPath.expandPaddedPath m data = .ub := by
  have hl := expandLoop_cut data.length EPath.mk0 m (Buffer.ofData data)
  rw [show cutPath EPath.mk0 = YEPath.mk0 from rfl] at hl
  unfold EPath.expandPaddedPath YEPath.expandPaddedPath EPath.expandRd YEPath.expandRd
  rcases hx : EPath.expandLoop data.length EPath.mk0 m (Buffer.ofData data) with ⟨q, b⟩ | e | _
  · rw [hx] at hl
    rw [Rd.bind_ok hx, Rd.bind_ok hl, Rd.bind_ok (Rd.get_run _ _), Rd.bind_ok (Rd.get_run _ _)]
    by_cases hv : b.isValid
    · rw [if_pos hv, if_pos hv]
      refine ⟨(cutPath q).countIds, rfl, rfl, rfl, rfl, ?_⟩
      have lt : ∀ v : BitVec 8, (0#8 < v) ↔ v ≠ 0#8 := by
        intro v
        rw [BitVec.lt_def]
        constructor
        · intro h e; subst e; simp at h
        · intro h
          have : v.toNat ≠ 0 := fun e => h (BitVec.eq_of_toNat_eq (by simpa using e))
          simp; omega
      simp only [YEPath.countIds, leading, gt_iff_lt, lt]
      by_cases h1 : (cutPath q).classId = 0#8
      · simp [h1]
      · by_cases h2 : (cutPath q).objectId = 0#8
        · simp [h1, h2]
        · by_cases h3 : (cutPath q).attributeId = 0#8 <;> simp [h1, h2, h3]
    · rw [if_neg hv, if_neg hv]; rfl
  · rw [hx] at hl
    rw [Rd.bind_throw hx, Rd.bind_throw hl]
  · rw [hx] at hl
    rw [Rd.bind_ub hx, Rd.bind_ub hl]

/-- C66. A path of identifiers that are not 0 is read back as it was packed. -/
theorem C66_roundtrip (p : YEPath) (ids : List (BitVec 8)) (h : YBuilt p ids) (h0 : ∀ i ∈ ids, i ≠ 0) (m : Mem) :
    YEPath.expandPaddedPath m p.packPaddedPath = .ok p := by
  obtain ⟨q, hq⟩ : ∃ q, Built q (ids.map fun i => i.setWidth 16) := by
    cases h
    · exact ⟨_, .one _⟩
    · exact ⟨_, .two _ _⟩
    · exact ⟨_, .three _ _ _⟩
  have hs : Survives true (ids.map fun i => i.setWidth 16) := by
    intro i hi
    obtain ⟨j, hj, rfl⟩ := List.mem_map.1 hi
    refine ⟨fun e => h0 j hj ?_, fun _ => ?_⟩
    · have := congrArg (BitVec.setWidth 8) e
      rw [cut8] at this
      exact this
    · have := j.isLt
      simp; omega
  have hb : p.packPaddedPath = q.packPaddedPath true := by
    rw [(C66_layout p ids h).1, C11_layout q _ hq, List.map_map]
    congr 1
  have hx := C66_expand m p.packPaddedPath
  rw [hb, (C12_roundtrip_iff q _ hq true).2 hs m] at hx
  obtain ⟨p', e1, e2, e3, e4, e5⟩ := hx
  rw [hb, e1]
  have hsize : p'.size = BitVec.ofNat 8 (leading [p'.classId, p'.objectId, p'.attributeId]) := by
    rw [← e5]; simp
  obtain ⟨a, b, c, d⟩ := p'
  simp only at e2 e3 e4 hsize
  subst hsize e2 e3 e4
  cases h <;> cases hq <;>
    simp [EPath.mk1, EPath.mk2, EPath.mk3, YEPath.mk1, YEPath.mk2, YEPath.mk3, leading] <;> simp_all

/-- C66. A 16-bit identifier in a path is cut without an error: class 0x0104 becomes class
4, and of class 0x0100, instance 1 nothing is left. -/
theorem C66_cut_violated :
    YEPath.expandPaddedPath Mem.strict [0x21, 0, 0x04, 0x01] = .ok ⟨4, 0, 0, 1⟩ ∧
    YEPath.expandPaddedPath Mem.strict [0x21, 0, 0x00, 0x01, 0x24, 1] = .ok ⟨0, 1, 0, 0⟩ := by
  decide +kernel

/-! ## Comparing and showing paths -/

/-- C66. Two paths compare equal exactly if they are built from the same identifiers, and
exactly if they are sent as the same bytes. -/
theorem C66_eq (p q : YEPath) (is js : List (BitVec 8)) (hp : YBuilt p is) (hq : YBuilt q js) :
    (p.eq q = true ↔ is = js) ∧ (p.packPaddedPath = q.packPaddedPath ↔ is = js) := by
  constructor
  · cases hp <;> cases hq <;> simp [YEPath.eq, YEPath.mk1, YEPath.mk2, YEPath.mk3, and_assoc]
  · rw [(C66_layout p is hp).1, (C66_layout q js hq).1]
    cases hp <;> cases hq <;> simp [pathBytes, Seg.bytes, SegKind.code8, le_one]

/-- C66. A path is shown with its identifiers, in order. -/
theorem C66_text (p : YEPath) (ids : List (BitVec 8)) (hp : YBuilt p ids) : p.toStr = showPath (ids.map BitVec.toNat) := by
  cases hp <;> simp [YEPath.toStr, YEPath.mk1, YEPath.mk2, YEPath.mk3, showPath, String.append_assoc] <;> rfl

end Verif.Props
