import Verif.Spec.Eip
import Verif.Model.Link

/-!
# Specification: object classes and discovery

Layouts from CIP Volume 1, chapter 5 (Identity Object) and Volume 2, table 2-4.4
(ListIdentity item).  The model is only used for the types of requests and replies.
-/

namespace Verif.Spec

/-- The attributes of an identity object. -/
structure Identity where
  vendor : Nat
  deviceType : Nat
  productCode : Nat
  major : Nat
  minor : Nat
  status : Nat
  serial : Nat
  name : List (BitVec 8)
deriving Repr, DecidableEq

/-- The identity record at an offset: vendor, device type, product code (two bytes
each), major and minor revision (one byte each), status (two), serial number (four),
and the name with its length in one byte. -/
def identityAt (bs : List (BitVec 8)) (off : Nat) : Identity :=
  { vendor := field bs off 2
    deviceType := field bs (off + 2) 2
    productCode := field bs (off + 4) 2
    major := field bs (off + 6) 1
    minor := field bs (off + 7) 1
    status := field bs (off + 8) 2
    serial := field bs (off + 10) 4
    name := (bs.drop (off + 15)).take (field bs (off + 14) 1) }

/-- There is a complete identity record at an offset. -/
def IdentityFits (bs : List (BitVec 8)) (off : Nat) : Prop :=
  off + 15 ≤ bs.length ∧ off + 15 + field bs (off + 14) 1 ≤ bs.length

instance (bs : List (BitVec 8)) (off : Nat) : Decidable (IdentityFits bs off) := by
  unfold IdentityFits; infer_instance

/-- The bytes of an identity record. -/
def Identity.bytes (i : Identity) : List (BitVec 8) :=
  le 2 i.vendor ++ le 2 i.deviceType ++ le 2 i.productCode ++ le 1 i.major ++ le 1 i.minor ++ le 2 i.status
    ++ le 4 i.serial ++ le 1 i.name.length ++ i.name

/-- The values fit their fields. -/
def Identity.Fits (i : Identity) : Prop :=
  i.vendor < 65536 ∧ i.deviceType < 65536 ∧ i.productCode < 65536 ∧ i.major < 256 ∧ i.minor < 256 ∧
    i.status < 65536 ∧ i.serial < 2 ^ 32 ∧ i.name.length < 256

/-- What a ListIdentity answer says about a device: where it is and what it is. -/
structure Found where
  host : String
  port : Nat
  identity : Identity
deriving Repr, DecidableEq

/-- The content of a ListIdentity item: protocol version (two bytes), a socket address
(family, port and IPv4 address, most significant byte first, and eight bytes of
padding), an identity record. -/
def foundIn (item : List (BitVec 8)) : Found :=
  { host := String.intercalate "." (((item.drop 6).take 4).map fun o => toString o.toNat)
    port := field item 4 1 * 256 + field item 5 1
    identity := identityAt item 18 }

/-- The first 504 bytes of a datagram, completed with zeros. -/
def discReceived (d : List (BitVec 8)) : List (BitVec 8) := (d ++ List.replicate 504 0#8).take 504

/-- A datagram that discovery can read: behind the 24 bytes of the header there are
these items, and each has a complete identity record. -/
def Announces (d : List (BitVec 8)) (items : List (Nat × List (BitVec 8))) : Prop :=
  CpfAccepts ((discReceived d).drop 24) items ∧ ∀ i ∈ items, IdentityFits i.2 18

/-- A responder that answers these requests, in this order, with success and these
data, and ends in this state. -/
inductive Grants {δ : Type} (D : Device δ) : δ → List (Req × List (BitVec 8)) → δ → Prop
  | nil {d} : Grants D d [] d
  | cons {d d' d'' r resp data rest} : D.answer r d = .ok d' resp → resp.status = 0x00#8 → resp.data = data →
      Grants D d' rest d'' → Grants D d ((r, data) :: rest) d''

/-! ## Parameter object (CIP Volume 1, 5-14) -/

/-- The attributes of a parameter instance. -/
structure Param where
  value : List (BitVec 8)
  linkPath : List (BitVec 8)
  descriptor : Nat
  type : Nat
  name : List (BitVec 8)
  units : List (BitVec 8)
  help : List (BitVec 8)
  min : List (BitVec 8)
  max : List (BitVec 8)
  default : List (BitVec 8)
  multiplier : Nat
  divisor : Nat
  base : Nat
  offset : Nat
  precision : Nat
deriving Repr, DecidableEq

namespace Param

/-- Descriptor bit 2: scaling is supported. -/
def scalable (p : Param) : Bool := p.descriptor / 4 % 2 == 1
/-- Descriptor bit 4: read only. -/
def readOnly (p : Param) : Bool := p.descriptor / 16 % 2 == 1

/-- A string with its length in one byte. -/
def str (s : List (BitVec 8)) : List (BitVec 8) := le 1 s.length ++ s

/-- Value, link path size, link path, descriptor, data type. -/
def stub (p : Param) : List (BitVec 8) :=
  p.value ++ (le 1 p.linkPath.length ++ (p.linkPath ++ (le 2 p.descriptor ++ le 1 p.type)))

/-- Data size, name, units, help, minimum, maximum, default; with scaling also sixteen
bytes of scaling values and links and the precision. -/
def rest (p : Param) (size : Nat) (scalingBlock : List (BitVec 8)) : List (BitVec 8) :=
  le 1 size ++ (str p.name ++ (str p.units ++ (str p.help ++ (p.min ++ (p.max ++ (p.default ++
    if p.scalable then scalingBlock ++ le 1 p.precision else []))))))

/-- Multiplier, divisor, base, offset, two bytes each. -/
def scaling (p : Param) : List (BitVec 8) := le 2 p.multiplier ++ (le 2 p.divisor ++ (le 2 p.base ++ le 2 p.offset))

/-- The sizes fit. -/
structure Fits (p : Param) : Prop where
  value : p.value.length < 256
  linkPath : p.linkPath.length < 256
  descriptor : p.descriptor < 65536
  type : p.type < 256
  name : p.name.length < 256
  units : p.units.length < 256
  help : p.help.length < 256
  min : p.min.length = p.value.length
  max : p.max.length = p.value.length
  default : p.default.length = p.value.length
  multiplier : p.multiplier < 65536
  divisor : p.divisor < 65536
  base : p.base < 65536
  offset : p.offset < 65536
  precision : p.precision < 256

/-- Two's complement. -/
def signed16 (v : Nat) : Int := if v < 32768 then v else v - 65536

end Param

/-- What a user sees of a parameter object. -/
structure ParamSeen where
  value : List (BitVec 8)
  type : Nat
  scalable : Bool
  readOnly : Bool
  name : List (BitVec 8)
  units : List (BitVec 8)
  help : List (BitVec 8)
  min : List (BitVec 8)
  max : List (BitVec 8)
  default : List (BitVec 8)
  multiplier : Nat
  divisor : Nat
  base : Nat
  offset : Int
  precision : Nat
deriving Repr, DecidableEq

/-- What should be seen: everything, or without full attributes only value, type and
flags; scaling only of a scalable parameter. -/
def Param.seen (p : Param) (full : Bool) : ParamSeen :=
  let zeros := List.replicate p.value.length 0#8
  { value := p.value, type := p.type, scalable := p.scalable, readOnly := p.readOnly
    name := if full then p.name else []
    units := if full then p.units else []
    help := if full then p.help else []
    min := if full then p.min else zeros
    max := if full then p.max else zeros
    default := if full then p.default else zeros
    multiplier := if full && p.scalable then p.multiplier else 1
    divisor := if full && p.scalable then p.divisor else 1
    base := if full && p.scalable then p.base else 1
    offset := if full && p.scalable then signed16 p.offset else 0
    precision := if full && p.scalable then p.precision else 0 }

/-- GetAttributeSingle of a parameter attribute. -/
def paramGet (inst attr : BitVec 16) : Req := ⟨0x0E#8, ⟨0x0F, inst, attr, 3⟩, []⟩

/-- The documented requests: data size, all attributes, and for a scalable parameter
with full attributes multiplier, divisor, base and offset. -/
def paramRequests (inst : BitVec 16) (scaling : Bool) : List Req :=
  [paramGet inst 6, ⟨0x01#8, ⟨0x0F, inst, 0, 2⟩, []⟩] ++
    if scaling then [paramGet inst 13, paramGet inst 14, paramGet inst 15, paramGet inst 16] else []

/-- The number in the first `n` bytes, unsigned or in two's complement. -/
def intAt (n : Nat) (signed : Bool) (bs : List (BitVec 8)) : Int :=
  let v := field bs 0 n
  if signed ∧ 256 ^ n ≤ 2 * v then (v : Int) - 256 ^ n else v

end Verif.Spec
