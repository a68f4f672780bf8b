import Verif.Model.TcpTime
import Verif.Model.File
import Verif.Model.Parameter
import Verif.Model.PowerFlex
import Verif.Model.Identity

/-!
# The operations of objects end

Where a read after the end of a vector returns a byte, whatever it is, no reader of a reply
has undefined behaviour, and so every operation of an object ends by returning or throwing, if
the requests do.
-/

namespace Verif.Props

open Verif

/-! ## Readers -/

/-- The reader returns or throws. -/
def RdEnds {α : Type} (m : Mem) (x : Rd α) : Prop := ∀ b, x m b ≠ .ub

section

variable {α β : Type} {m : Mem}

theorem RdEnds.pure (a : α) : RdEnds m (Pure.pure a : Rd α) := fun b h => by cases h

theorem RdEnds.throw (e : Exn) : RdEnds m (Rd.throw e : Rd α) := fun b h => by cases h

theorem RdEnds.get : RdEnds m Rd.get := fun b h => by cases h

theorem RdEnds.bind {x : Rd α} {f : α → Rd β} (h : RdEnds m x) (h' : ∀ a, RdEnds m (f a)) : RdEnds m (x >>= f) := by
  intro b
  have e : (x >>= f) m b = (match x m b with
    | .ok (a, b') => f a m b'
    | .throw e => .throw e
    | .ub => .ub) := rfl
  rw [e]
  cases hx : x m b with
  | ok p => exact h' p.1 p.2
  | throw e => intro h; cases h
  | ub => exact absurd hx (h b)

theorem RdEnds.ite {c : Prop} [Decidable c] {x y : Rd α} (h : RdEnds m x) (h' : RdEnds m y) : RdEnds m (if c then x else y) := by
  split
  · exact h
  · exact h'

theorem RdEnds.from {x : Rd α} (h : RdEnds m x) (data : List Byte) : x.from m data ≠ .ub := by
  unfold Rd.from
  cases hx : x m (Buffer.ofData data) with
  | ok p => intro h; cases h
  | throw e => intro h; cases h
  | ub => exact absurd hx (h _)

variable (hm : m.Lenient)
include hm

theorem u8_ends : RdEnds m Rd.u8 := by
  intro b h
  unfold Rd.u8 at h
  cases hb : b.bytes[b.pos]? with
  | some v => rw [hb] at h; cases h
  | none =>
    obtain ⟨v, hv⟩ := hm b.pos
    rw [hb, hv] at h
    cases h

theorem u16_ends : RdEnds m Rd.u16 := (u8_ends hm).bind fun _ => (u8_ends hm).bind fun _ => RdEnds.pure _

theorem u32_ends : RdEnds m Rd.u32 :=
  (u8_ends hm).bind fun _ => (u8_ends hm).bind fun _ => (u8_ends hm).bind fun _ => (u8_ends hm).bind fun _ => RdEnds.pure _

theorem u64_ends : RdEnds m Rd.u64 :=
  (u8_ends hm).bind fun _ => (u8_ends hm).bind fun _ => (u8_ends hm).bind fun _ => (u8_ends hm).bind fun _ =>
  (u8_ends hm).bind fun _ => (u8_ends hm).bind fun _ => (u8_ends hm).bind fun _ => (u8_ends hm).bind fun _ => RdEnds.pure _

theorem bytes_ends (n : Nat) : RdEnds m (Rd.bytes n) := by
  induction n with
  | zero => exact RdEnds.pure _
  | succ n ih => exact (u8_ends hm).bind fun _ => ih.bind fun _ => RdEnds.pure _

theorem words_ends (n : Nat) : RdEnds m (Rd.words n) := by
  induction n with
  | zero => exact RdEnds.pure _
  | succ n ih => exact (u8_ends hm).bind fun _ => (u8_ends hm).bind fun _ => ih.bind fun _ => RdEnds.pure _

theorem revision_ends : RdEnds m Rd.revision := (u8_ends hm).bind fun _ => (u8_ends hm).bind fun _ => RdEnds.pure _

theorem shortString_ends : RdEnds m Rd.shortString := (u8_ends hm).bind fun _ => (bytes_ends hm _).bind fun _ => RdEnds.pure _

theorem identityRd_ends (inst : BitVec 16) : RdEnds m (IdentityObject.rd inst) :=
  (u16_ends hm).bind fun _ => (u16_ends hm).bind fun _ => (u16_ends hm).bind fun _ => (revision_ends hm).bind fun _ =>
  (u16_ends hm).bind fun _ => (u32_ends hm).bind fun _ => (shortString_ends hm).bind fun _ => RdEnds.pure _

theorem faultRd_ends (inst : BitVec 16) : RdEnds m (PowerFlex.faultObjectRd inst) :=
  (u16_ends hm).bind fun _ => (u8_ends hm).bind fun _ => (u8_ends hm).bind fun _ => (bytes_ends hm _).bind fun _ =>
  (u64_ends hm).bind fun _ => (u16_ends hm).bind fun _ => RdEnds.pure _

theorem attributes_ends (inst : BitVec 16) (full : Bool) (size : Nat) : RdEnds m (ParameterObject.attributes inst full size) := by
  refine (bytes_ends hm _).bind fun _ => (u8_ends hm).bind fun _ => (bytes_ends hm _).bind fun _ => (u16_ends hm).bind fun _ =>
    (u8_ends hm).bind fun _ => RdEnds.ite ?_ (RdEnds.pure _)
  exact (bytes_ends hm _).bind fun _ => (shortString_ends hm).bind fun _ => (shortString_ends hm).bind fun _ =>
    (shortString_ends hm).bind fun _ => (bytes_ends hm _).bind fun _ => (bytes_ends hm _).bind fun _ => (bytes_ends hm _).bind fun _ =>
    RdEnds.ite ((bytes_ends hm _).bind fun _ => (u8_ends hm).bind fun _ => RdEnds.pure _) (RdEnds.pure _)

theorem scaling_ends (o : ParameterObject) : RdEnds m (ParameterObject.scaling o) :=
  (u16_ends hm).bind fun _ => (u16_ends hm).bind fun _ => (u16_ends hm).bind fun _ => (u16_ends hm).bind fun _ => RdEnds.pure _

theorem announced_ends : RdEnds m FileObject.announced := (u32_ends hm).bind fun _ => (u8_ends hm).bind fun _ => RdEnds.pure _

theorem packet_ends (number transferSize : BitVec 8) (size : Nat) : RdEnds m (FileObject.packet number transferSize size) := by
  refine (u8_ends hm).bind fun _ => (u8_ends hm).bind fun _ => RdEnds.ite (RdEnds.pure _) ?_
  refine RdEnds.ite ((bytes_ends hm _).bind fun _ => RdEnds.pure _) (RdEnds.ite ((bytes_ends hm _).bind fun _ => RdEnds.pure _) ?_)
  exact RdEnds.ite (RdEnds.ite (RdEnds.throw _) ((bytes_ends hm _).bind fun _ => RdEnds.pure _)) (RdEnds.throw _)

theorem expandItem_ends : RdEnds m CommonPacket.expandItem :=
  (u16_ends hm).bind fun _ => (u16_ends hm).bind fun _ => (bytes_ends hm _).bind fun _ => RdEnds.get.bind fun _ =>
  RdEnds.ite (RdEnds.pure _) (RdEnds.throw _)

theorem expandItems_ends (n : Nat) : RdEnds m (CommonPacket.expandItems n) := by
  induction n with
  | zero => exact RdEnds.pure _
  | succ n ih =>
    exact RdEnds.get.bind fun _ => RdEnds.ite (RdEnds.pure _) ((expandItem_ends hm).bind fun _ => ih.bind fun _ => RdEnds.pure _)

theorem commonPacket_ends (data : List Byte) : CommonPacket.expand m data ≠ .ub := by
  have h : RdEnds m CommonPacket.expandRd := (u16_ends hm).bind fun _ => expandItems_ends hm _
  unfold CommonPacket.expand
  cases hx : CommonPacket.expandRd m (Buffer.ofData data) with
  | ok p => intro h; cases h
  | throw e => intro h; cases h
  | ub => exact absurd hx (h _)

theorem responseHeader_ends : RdEnds m MessageRouterResponse.header :=
  (u8_ends hm).bind fun _ => (u8_ends hm).bind fun _ => (u8_ends hm).bind fun _ => (u8_ends hm).bind fun _ => RdEnds.pure _

theorem responseExpand_ends (r : MessageRouterResponse) (data : List Byte) : MessageRouterResponse.expand m r data ≠ .ub := by
  unfold MessageRouterResponse.expand
  split
  · intro h; cases h
  · cases hx : MessageRouterResponse.header m (Buffer.ofData data) with
    | ub => exact absurd hx (responseHeader_ends hm _)
    | throw e => intro h; cases h
    | ok p =>
      obtain ⟨⟨service, status, n⟩, b⟩ := p
      simp only
      split
      · intro h; cases h
      · cases hw : Rd.words n.toNat m b with
        | ub => exact absurd hw (words_ends hm _ _)
        | throw e => intro h; cases h
        | ok p =>
          obtain ⟨words, b⟩ := p
          simp only
          cases hd : Rd.bytes (b.bytes.length - b.pos) m b with
          | ub => exact absurd hd (bytes_ends hm _ _)
          | throw e => intro h; cases h
          | ok p => intro h; cases h

theorem responseParse_ends (data : List Byte) : MessageRouterResponse.parse m data ≠ .ub := by
  unfold MessageRouterResponse.parse
  cases hx : MessageRouterResponse.expand m MessageRouterResponse.default data with
  | ub => exact absurd hx (responseExpand_ends hm _ _)
  | throw s e => intro h; cases h
  | ok s a => intro h; cases h

theorem routerReply_ends (data : List Byte) : routerReply m data ≠ .ub := by
  unfold routerReply
  split
  · intro h; cases h
  · have h : RdEnds m (do
      let _ ← Rd.u32
      let _ ← Rd.u16
      Rd.bytes (data.length - 6) : Rd (List Byte)) := (u32_ends hm).bind fun _ => (u16_ends hm).bind fun _ => bytes_ends hm _
    revert h
    generalize (do
      let _ ← Rd.u32
      let _ ← Rd.u16
      Rd.bytes (data.length - 6) : Rd (List Byte)) = x
    intro h
    cases hx : x m (Buffer.ofData data) with
    | ub => exact absurd hx (h _)
    | throw e => intro h; cases h
    | ok p =>
      obtain ⟨received, b⟩ := p
      simp only
      cases he : CommonPacket.expand m received with
      | ub => exact absurd he (commonPacket_ends hm _)
      | throw e => intro h; cases h
      | ok items =>
        simp only
        cases items[1]? with
        | none => intro h; cases h
        | some item =>
          simp only
          cases hp : MessageRouterResponse.parse m item.data with
          | ub => exact absurd hp (responseParse_ends hm _)
          | throw e => intro h; cases h
          | ok r =>
            simp only
            split
            · intro h; cases h
            · intro h; cases h

end

/-! ## Programs -/

/-- The program returns or throws. -/
def Ends {σ α : Type} (p : Prog σ α) : Prop := ∀ s, p s ≠ .ub

section

variable {σ α β : Type}

theorem Ends.pure (a : α) : Ends (Pure.pure a : Prog σ α) := fun b h => by cases h

theorem Ends.throw (e : Exn) : Ends (Prog.throw e : Prog σ α) := fun b h => by cases h

theorem Ends.modify (f : σ → σ) : Ends (Prog.modify f) := fun b h => by cases h

theorem Ends.lift {o : Outcome α} (h : o ≠ .ub) : Ends (Prog.lift o : Prog σ α) := by
  intro s
  cases o with
  | ok a => intro h; cases h
  | throw e => intro h; cases h
  | ub => exact absurd rfl h

theorem Ends.bind {x : Prog σ α} {f : α → Prog σ β} (h : Ends x) (h' : ∀ a, Ends (f a)) : Ends (x >>= f) := by
  intro s
  cases hx : x s with
  | ok s' a => rw [Prog.bind_ok hx]; exact h' a s'
  | throw s' e => rw [Prog.bind_throw hx]; intro h; cases h
  | ub => exact absurd hx (h s)

theorem Ends.ite {c : Prop} [Decidable c] {x y : Prog σ α} (h : Ends x) (h' : Ends y) : Ends (if c then x else y) := by
  split
  · exact h
  · exact h'

theorem Ends.onLink {ο δ : Type} {p : Prog (Link δ) α} (h : Ends p) : Ends (Verif.onLink p : Prog (ο × Link δ) α) := by
  intro s
  unfold Verif.onLink
  cases hx : p s.2 with
  | ok s' a => intro h; cases h
  | throw s' e => intro h; cases h
  | ub => exact absurd hx (h s.2)

end

/-- Every request to the responder returns or throws. -/
def Answers {δ : Type} (D : Device δ) : Prop := ∀ r, Ends (D.answer r)

section

variable {δ : Type} {m : Mem} (hm : m.Lenient) {D : Device δ} (hD : Answers D)
include hD

theorem ask_ends (r : Req) : Ends (ask D r) := by
  intro s
  unfold ask
  cases hx : D.answer r s.dev with
  | ok s' a => intro h; cases h
  | throw s' e => intro h; cases h
  | ub => exact absurd hx (hD r s.dev)

theorem writeCommand_ends (c : BitVec 8) : Ends (PowerFlex.writeCommand D c) :=
  (ask_ends hD _).bind fun _ => Ends.ite (Ends.throw _) (Ends.pure _)

theorem scalingData_ends (inst : BitVec 16) (ids : List (BitVec 16)) : Ends (ParameterObject.scalingData D inst ids) := by
  induction ids with
  | nil => exact Ends.pure _
  | cons i ids ih => exact (ask_ends hD _).bind fun _ => Ends.ite (Ends.throw _) (ih.bind fun _ => Ends.pure _)

include hm

theorem identity_ends (inst : BitVec 16) : Ends (IdentityObject.connect m D inst) :=
  (ask_ends hD _).bind fun _ => Ends.ite (Ends.lift ((identityRd_ends hm _).from _)) (Ends.throw _)

theorem faultObject_ends (inst : BitVec 16) : Ends (PowerFlex.faultObject m D inst) :=
  (ask_ends hD _).bind fun _ => Ends.ite (Ends.lift ((faultRd_ends hm _).from _)) (Ends.throw _)

theorem parameter_ends (inst : BitVec 16) (full : Bool) : Ends (ParameterObject.connect m D inst full) := by
  refine (ask_ends hD _).bind fun _ => Ends.ite ?_ (Ends.throw _)
  refine (Ends.lift ((u8_ends hm).from _)).bind fun size => (ask_ends hD _).bind fun _ => Ends.ite ?_ (Ends.throw _)
  refine (Ends.lift ((attributes_ends hm _ _ _).from _)).bind fun o => Ends.ite ?_ (Ends.pure _)
  exact (scalingData_ends hD _ _).bind fun d => Ends.lift ((scaling_ends hm _).from _)

/-- An object that was read from a target has a router; without one the pointer is null. -/
theorem update_ends (s : ParameterObject × Link δ) (h : s.1.hasRouter = true) : ParameterObject.updateValue m D s ≠ .ub := by
  have e : Ends (Verif.onLink (ask D ⟨ServiceCode.getAttributeSingle, EPath.mk3 ParameterObject.classId s.1.instanceId 1, []⟩) >>= fun r =>
      if r.status = GeneralStatus.success then do
        let value ← Prog.lift ((Rd.bytes s.1.value.length).from m r.data)
        Prog.modify fun s : ParameterObject × Link δ => ({ s.1 with value }, s.2)
      else Prog.throw (.runtime "Failed to read value")) :=
    (ask_ends hD _).onLink.bind fun r => Ends.ite ((Ends.lift ((bytes_ends hm _).from _)).bind fun _ => Ends.modify _) (Ends.throw _)
  have := e s
  unfold ParameterObject.updateValue
  obtain ⟨o, L⟩ := s
  simp only at h
  show (if o.hasRouter = true then _ else _ : Prog (ParameterObject × Link δ) Unit) (o, L) ≠ .ub
  rw [if_pos h]
  exact this

theorem create_ends (inst : BitVec 16) : Ends (FileObject.create m D inst) :=
  (ask_ends hD _).bind fun _ => Ends.ite ((Ends.lift ((u8_ends hm).from _)).bind fun _ =>
    Ends.ite (Ends.pure _) (Ends.ite (Ends.pure _) (Ends.ite (Ends.pure _) (Ends.ite (Ends.pure _) (Ends.throw _))))) (Ends.throw _)

theorem beginUpload_ends (h : Nat) : Ends (FileObject.beginUpload m D h) := by
  unfold FileObject.beginUpload
  refine fun s => ?_
  obtain ⟨o, L⟩ := s
  show (match o.state with | .loaded => _ | .nonexistent => _ | .empty => _ | .uploading _ => _ : Prog (FileObject × Link δ) Unit) (o, L) ≠ .ub
  cases o.state with
  | nonexistent => intro h; cases h
  | empty => intro h; cases h
  | uploading u => intro h; cases h
  | loaded =>
    refine Ends.bind (ask_ends hD _).onLink (fun r => ?_) _
    exact Ends.ite ((Ends.lift ((announced_ends hm).from _)).bind fun _ => Ends.modify _) (Ends.modify _)

theorem handleTransfers_ends : Ends (FileObject.handleTransfers m D) := by
  unfold FileObject.handleTransfers
  refine fun s => ?_
  obtain ⟨o, L⟩ := s
  show (match o.state with | .nonexistent => _ | .empty => _ | .loaded => _ | .uploading _ => _ : Prog (FileObject × Link δ) Bool) (o, L) ≠ .ub
  cases o.state with
  | nonexistent => intro h; cases h
  | empty => intro h; cases h
  | loaded => intro h; cases h
  | uploading u =>
    refine Ends.bind (ask_ends hD _).onLink (fun r => ?_) _
    refine Ends.ite ((Ends.lift ((packet_ends hm _ _ _).from _)).bind fun v => ?_) ((Ends.modify _).bind fun _ => Ends.pure _)
    cases v with
    | wrongNumber => exact (Ends.modify _).bind fun _ => Ends.pure _
    | more d => exact (Ends.modify _).bind fun _ => Ends.pure _
    | last d => exact (Ends.modify _).bind fun _ => Ends.pure _

theorem faultDetail_ends (param : BitVec 16) : Ends (PowerFlex.getFaultDetail m D param) :=
  (ask_ends hD _).bind fun _ => Ends.ite (Ends.lift ((u16_ends hm).from _)) (Ends.throw _)

theorem faultParameter_ends (rnd : Rat → Rat) (pow : Nat → Rat) (number : Int) (details : Bool) :
    Ends (PowerFlex.faultParameter rnd pow m D number details) := by
  unfold PowerFlex.faultParameter
  split
  · exact Ends.throw _
  · refine (faultDetail_ends hm hD _).bind fun code => Ends.ite ?_ (Ends.pure _)
    exact (faultDetail_ends hm hD _).bind fun _ => (faultDetail_ends hm hD _).bind fun _ => (faultDetail_ends hm hD _).bind fun _ => Ends.pure _

theorem listFaults_ends (rnd : Rat → Rat) (pow : Nat → Rat) (details : Bool) (left : Nat) (number : Int) :
    Ends (PowerFlex.listFaults rnd pow m D details left number) := by
  induction left generalizing number with
  | zero => exact Ends.pure _
  | succ left ih =>
    refine (faultParameter_ends hm hD rnd pow number details).onLink.bind fun d => Ends.ite (Ends.pure _) ?_
    refine (Ends.lift ?_).bind fun _ => (Ends.modify _).bind fun _ => (ih _).bind fun _ => Ends.pure _
    unfold PowerFlex.getFaultDescription
    split
    · intro h; cases h
    · intro h; cases h

theorem handleFaults_ends (rnd : Rat → Rat) (pow : Nat → Rat) (M : PowerFlex.FaultManager) :
    Ends (PowerFlex.handleFaultParameters rnd pow m D M) :=
  (listFaults_ends hm hD rnd pow _ 10 1).bind fun _ => Ends.ite (writeCommand_ends hD _).onLink (Ends.pure _)

end

end Verif.Props
