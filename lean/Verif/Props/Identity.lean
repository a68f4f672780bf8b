import Verif.Model.Identity
import Verif.Spec.Object
import Verif.Spec.Eip
import Verif.Lemmas.Link
import Verif.Props.CommonPacket
import Verif.Props.Encaps

/-!
# Property C54: identity object
-/

namespace Verif.Props

open Verif Verif.Spec

/-- What the getters of an identity object return. -/
def identityView (o : IdentityObject) : Identity :=
  { vendor := o.vendorId.toNat, deviceType := o.deviceType.toNat, productCode := o.productCode.toNat
    major := o.revision.major.toNat, minor := o.revision.minor.toNat, status := o.status.toNat
    serial := o.serialNumber.toNat, name := o.productName.data }

/-! ## Reading an identity record -/

theorem identity_at (m : Mem) (inst : BitVec 16) (b : Buffer) (h : IdentityFits b.bytes b.pos) :
    ∃ o, IdentityObject.rd inst m b = .ok (o, ⟨b.bytes, b.pos + 15 + field b.bytes (b.pos + 14) 1⟩) ∧
      o.instanceId = inst ∧ identityView o = identityAt b.bytes b.pos ∧
      o.productName = CipString.ofBytes 8 o.productName.data := by
  obtain ⟨h1, h2⟩ := h
  unfold IdentityObject.rd Rd.revision Rd.shortString
  rw [Rd.bind_ok (u16_at m b (by omega)), Rd.bind_ok (u16_at m _ (by simp; omega)), Rd.bind_ok (u16_at m _ (by simp; omega)),
    Rd.bind_ok (Rd.bind_ok (u8_at m _ (by simp; omega)) |>.trans (Rd.bind_ok (u8_at m _ (by simp; omega)))),
    Rd.bind_ok (u16_at m _ (by simp; omega)), Rd.bind_ok (u32_at m _ (by simp; omega)),
    Rd.bind_ok (Rd.bind_ok (u8_at m _ (by simp; omega)) |>.trans (Rd.bind_ok (bytes_eq m _ _ (by
      simp only [toNat_field8]; simpa [Nat.add_assoc] using h2))))]
  have pos_eq : ∀ (o : IdentityObject) (p q : Nat), p = q → (pure o : Rd IdentityObject) m ⟨b.bytes, p⟩ = .ok (o, ⟨b.bytes, q⟩) := by
    intro o p q h; rw [h]; rfl
  refine ⟨_, pos_eq _ _ _ (by simp only [toNat_field8]), ?_, ?_, ?_⟩
  · rfl
  · simp only [identityView, identityAt, toNat_field8, toNat_field16, toNat_field32, Nat.add_assoc, CipString.ofBytes,
      Nat.reduceAdd]
  · rfl

theorem identity_sized (inst : BitVec 16) (b : Buffer) (hb : b.pos ≤ b.bytes.length) (h : ¬ IdentityFits b.bytes b.pos) :
    IdentityObject.rd inst Mem.strict b = .ub := by
  by_cases h1 : b.pos + 15 ≤ b.bytes.length
  · have h2 : b.bytes.length < b.pos + 15 + field b.bytes (b.pos + 14) 1 := by
      unfold IdentityFits at h; omega
    unfold IdentityObject.rd Rd.revision Rd.shortString
    rw [Rd.bind_ok (u16_at _ b (by omega)), Rd.bind_ok (u16_at _ _ (by simp; omega)), Rd.bind_ok (u16_at _ _ (by simp; omega)),
      Rd.bind_ok (Rd.bind_ok (u8_at _ _ (by simp; omega)) |>.trans (Rd.bind_ok (u8_at _ _ (by simp; omega)))),
      Rd.bind_ok (u16_at _ _ (by simp; omega)), Rd.bind_ok (u32_at _ _ (by simp; omega)),
      Rd.bind_ub (Rd.bind_ok (u8_at _ _ (by simp; omega)) |>.trans (Rd.bind_ub ((Sized.bytes _).short _ (by simp; omega) (by
        simp only [toNat_field8]; simpa [Nat.add_assoc] using h2))))]
  · have hn : Needs (IdentityObject.rd inst) 15 := by
      refine (Needs.bind (n := 2) (k := 13) Sized.u16 fun _ => Needs.bind (n := 2) (k := 11) Sized.u16 fun _ =>
        Needs.bind (n := 2) (k := 9) Sized.u16 fun _ => Needs.bind (n := 2) (k := 7) Sized.revision fun _ =>
        Needs.bind (n := 2) (k := 5) Sized.u16 fun _ => Needs.bind (n := 4) (k := 1) Sized.u32 fun _ => ?_)
      intro b h1 h2
      exact Rd.bind_ub (Rd.bind_ub (Sized.u8.short b h1 h2))
    exact hn b hb (by omega)

/-! ## C54 -/

/-- The request an identity object makes. -/
def identityReq : Req := ⟨0x01#8, ⟨1, 1, 0, 2⟩, []⟩

/-- C54. Whatever happens, exactly one request is made, and it is GetAttributesAll of
class 1, instance 1 — whatever instance number was given. -/
theorem C54_request {δ : Type} (m : Mem) (D : Device δ) (L : Link δ) (inst : BitVec 16) :
    (∀ L' o, IdentityObject.connect m D inst L = .ok L' o → L'.sent = L.sent ++ [identityReq]) ∧
    (∀ L' e, IdentityObject.connect m D inst L = .throw L' e → L'.sent = L.sent ++ [identityReq]) := by
  have h : Makes (IdentityObject.connect m D inst) L (· = [identityReq]) := by
    refine Makes.ask rfl fun L' resp => Makes.ite (fun _ => Makes.lift _ _ rfl) (fun _ => Makes.throw _ _ rfl)
  constructor
  · intro L' o ho
    obtain ⟨tr, h1, h2⟩ := h.1 L' o ho
    rw [h1, h2]
  · intro L' o ho
    obtain ⟨tr, h1, h2⟩ := h.2 L' o ho
    rw [h1, h2]

/-- C54. A success reply with a complete record: the object holds exactly its fields. -/
theorem C54_read {δ : Type} (m : Mem) (D : Device δ) (L : Link δ) (inst : BitVec 16) (d : δ) (r : MessageRouterResponse)
    (ha : D.answer identityReq L.dev = .ok d r) (hs : r.status = 0x00#8) (hf : IdentityFits r.data 0) :
    ∃ o, IdentityObject.connect m D inst L = .ok ⟨d, L.sent ++ [identityReq]⟩ o ∧
      o.instanceId = inst ∧ identityView o = identityAt r.data 0 := by
  obtain ⟨o, h1, h2, h3, _⟩ := identity_at m inst (Buffer.ofData r.data) hf
  refine ⟨o, ?_, h2, h3⟩
  unfold IdentityObject.connect
  refine (Prog.bind_ok (ask_ok (r := identityReq) ha)).trans ?_
  rw [if_pos (show r.status = GeneralStatus.success from hs)]
  rw [Rd.from_ok h1]
  rfl

/-- C54. Any other status throws. -/
theorem C54_failed {δ : Type} (m : Mem) (D : Device δ) (L : Link δ) (inst : BitVec 16) (d : δ) (r : MessageRouterResponse)
    (ha : D.answer identityReq L.dev = .ok d r) (hs : r.status ≠ 0x00#8) :
    IdentityObject.connect m D inst L =
      .throw ⟨d, L.sent ++ [identityReq]⟩ (.runtime "Failed to read all attributes") := by
  unfold IdentityObject.connect
  refine (Prog.bind_ok (ask_ok (r := identityReq) ha)).trans ?_
  rw [if_neg (show ¬ r.status = GeneralStatus.success from hs)]
  rfl

/-- C54. A success reply that is too short is read out of bounds (the intended
exception is never thrown). -/
theorem C54_short_violated {δ : Type} (D : Device δ) (L : Link δ) (inst : BitVec 16) (d : δ) (r : MessageRouterResponse)
    (ha : D.answer identityReq L.dev = .ok d r) (hs : r.status = 0x00#8) (hf : ¬ IdentityFits r.data 0) :
    IdentityObject.connect Mem.strict D inst L = .ub := by
  have h1 := identity_sized inst (Buffer.ofData r.data) (Nat.zero_le _) hf
  unfold IdentityObject.connect
  refine (Prog.bind_ok (ask_ok (r := identityReq) ha)).trans ?_
  rw [if_pos (show r.status = GeneralStatus.success from hs)]
  rw [Rd.from_ub h1]
  rfl

/-- A device with a fixed reply. -/
def fixedReply (r : MessageRouterResponse) : Device Unit := ⟨fun _ d => .ok d r⟩

/-- A reply as devices send it, asked for with instance 5; a refusal; a reply cut off
inside the name. -/
example :
    let i : Identity := ⟨1, 12, 65, 1, 2, 0x60, 0x11223344, [0x41#8, 0x42#8]⟩
    let ok := { MessageRouterResponse.default with data := i.bytes }
    let no := { MessageRouterResponse.default with status := 0x08#8 }
    let cut := { MessageRouterResponse.default with data := i.bytes.take 16 }
    (∃ o, IdentityObject.connect Mem.strict (fixedReply ok) 5 ⟨(), []⟩ = .ok ⟨(), [identityReq]⟩ o ∧ o.instanceId = 5 ∧
      identityView o = i) ∧
    IdentityObject.connect Mem.strict (fixedReply no) 5 ⟨(), []⟩ =
      .throw ⟨(), [identityReq]⟩ (.runtime "Failed to read all attributes") ∧
    IdentityObject.connect Mem.strict (fixedReply cut) 5 ⟨(), []⟩ = .ub := by
  refine ⟨?_, ?_, ?_⟩
  · obtain ⟨o, h1, h2, h3⟩ := C54_read Mem.strict (fixedReply { MessageRouterResponse.default with
      data := Identity.bytes ⟨1, 12, 65, 1, 2, 0x60, 0x11223344, [0x41#8, 0x42#8]⟩ }) ⟨(), []⟩ 5 () _ rfl rfl (by decide)
    exact ⟨o, h1, h2, h3.trans (by decide)⟩
  · decide +kernel
  · decide +kernel

end Verif.Props
