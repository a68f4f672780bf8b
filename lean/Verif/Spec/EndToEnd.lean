import Verif.Spec.Exchange
import Verif.Spec.Object

/-!
# Specification: the frames of an exchange of explicit messages

The requests of the object classes as frames, and the frames of a target that grants
them.  The model is only used for the type of requests.
-/

namespace Verif.Spec

/-- A request without additional items; the path has as many identifiers as it says. -/
def explicitOf (r : Req) : ExplicitRequest :=
  ⟨r.service, [r.path.classId, r.path.objectId, r.path.attributeId].take r.path.size.toNat, r.data, []⟩

/-- The frame of a request, with 16-bit path segments. -/
def reqFrame (handle : BitVec 32) (r : Req) : List (BitVec 8) := (explicitOf r).frame false handle

/-- A path of one to three identifiers; those that are absent are 0. -/
def Plain (p : EPath) : Prop :=
  (p.size = 1 ∧ p.objectId = 0 ∧ p.attributeId = 0) ∨ (p.size = 2 ∧ p.attributeId = 0) ∨ p.size = 3

/-- A request that can be sent: the path is plain and the frame fits its length field. -/
def Sendable (r : Req) : Prop := Plain r.path ∧ (explicitOf r).Fits false

/-- The replies `as` carry success and the given data, and fit their frames.  Everything
else in them is free. -/
def Carries (as : List ExplicitReply) (datas : List (List (BitVec 8))) : Prop :=
  as.map (·.data) = datas ∧ ∀ a ∈ as, a.status = 0x00#8 ∧ a.Fits

/-- The bytes of the reply frames, one after the other. -/
def replyStream (handle : BitVec 32) (as : List ExplicitReply) : List (BitVec 8) :=
  as.flatMap (ExplicitReply.frame handle)

/-- The RegisterSession frame of a client. -/
def registerFrame : List (BitVec 8) := encapsFrame 0x65 0 0 (List.replicate 8 0#8) 0 (le 2 1 ++ le 2 0)
/-- The UnRegisterSession frame of a client. -/
def unregisterFrame (handle : BitVec 32) : List (BitVec 8) :=
  encapsFrame 0x66 handle.toNat 0 (List.replicate 8 0#8) 0 []

/-- The reply of a target that grants a session with this handle. -/
structure SessionGrant where
  command : BitVec 16
  handle : BitVec 32
  context : List (BitVec 8)
  options : BitVec 32
  payload : List (BitVec 8)

/-- Its frame. -/
def SessionGrant.frame (g : SessionGrant) : List (BitVec 8) :=
  encapsFrame g.command.toNat g.handle.toNat 0 g.context g.options.toNat g.payload

/-- The format can carry it. -/
def SessionGrant.Fits (g : SessionGrant) : Prop := g.context.length = 8 ∧ g.payload.length < 65536

end Verif.Spec
