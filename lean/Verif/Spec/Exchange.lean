import Verif.Spec.Eip
import Verif.Spec.Cip

/-!
# Specification: explicit messaging, one request frame and one reply frame
-/

namespace Verif.Spec

/-- An explicit request as a user states it. -/
structure ExplicitRequest where
  service : BitVec 8
  /-- class, instance, attribute; the later ones may be absent -/
  ids : List (BitVec 16)
  data : List (BitVec 8)
  /-- additional common packet items -/
  items : List (BitVec 16 × List (BitVec 8))

/-- The payload of the SendRRData frame. -/
def ExplicitRequest.payload (use8 : Bool) (r : ExplicitRequest) : List (BitVec 8) :=
  le 4 0 ++ le 2 0 ++ cpf ([(0, []),
    (0xB2, mrRequest r.service.toNat (pathBytes use8 (r.ids.map BitVec.toNat)) r.data)]
    ++ r.items.map fun i => (i.1.toNat, i.2))

/-- The frame a conforming client writes. -/
def ExplicitRequest.frame (use8 : Bool) (handle : BitVec 32) (r : ExplicitRequest) : List (BitVec 8) :=
  encapsFrame 0x6F handle.toNat 0 (List.replicate 8 0#8) 0 (r.payload use8)

/-- The format can carry the request. -/
def ExplicitRequest.Fits (use8 : Bool) (r : ExplicitRequest) : Prop :=
  (r.payload use8).length < 65536

/-- The reply of a target, with the fields the client does not look at. -/
structure ExplicitReply where
  command : BitVec 16
  context : List (BitVec 8)
  options : BitVec 32
  interface : BitVec 32
  timeout : BitVec 16
  address : BitVec 16 × List (BitVec 8)
  dataType : BitVec 16
  service : BitVec 8
  reserved : BitVec 8
  status : BitVec 8
  extra : List (BitVec 16)
  data : List (BitVec 8)
  items : List (BitVec 16 × List (BitVec 8))

/-- The payload of the reply frame. -/
def ExplicitReply.payload (r : ExplicitReply) : List (BitVec 8) :=
  le 4 r.interface.toNat ++ le 2 r.timeout.toNat ++ cpf ([(r.address.1.toNat, r.address.2),
    (r.dataType.toNat, mrResponse r.service.toNat r.reserved.toNat r.status.toNat
      (r.extra.map BitVec.toNat) r.data)]
    ++ r.items.map fun i => (i.1.toNat, i.2))

/-- The frame of a target that grants success at the encapsulation level. -/
def ExplicitReply.frame (handle : BitVec 32) (r : ExplicitReply) : List (BitVec 8) :=
  encapsFrame r.command.toNat handle.toNat 0 r.context r.options.toNat r.payload

/-- The format can carry the reply. -/
def ExplicitReply.Fits (r : ExplicitReply) : Prop :=
  r.context.length = 8 ∧ r.extra.length < 256 ∧ r.payload.length < 65536

end Verif.Spec
