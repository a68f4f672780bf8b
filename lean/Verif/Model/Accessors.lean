import Verif.Model.Parameter
import Verif.Model.Identity

/-!
# Model of the setters of `ParameterObject` and `IdentityObject`

Source: `src/ParameterObject.{h,cpp}`, `src/IdentityObject.{h,cpp}`.  The getters are the fields of the model; for
`getActualValue<T>` and the like see `encodeValue`.
-/

namespace Verif

namespace ParameterObject

/-- A call of a setter (ParameterObject.cpp:254-294, ParameterObject.h:149-153,183-187,217-221). -/
inductive Setter where
  | scalable (b : Bool)
  | readOnly (b : Bool)
  | type (t : BitVec 8)
  | name (s : List Byte)
  | units (s : List Byte)
  | help (s : List Byte)
  | multiplier (v : BitVec 16)
  | divisor (v : BitVec 16)
  | base (v : BitVec 16)
  | offset (v : BitVec 16)
  | precision (v : BitVec 8)
  | engMin (T : IntType) (e : Rat)
  | engMax (T : IntType) (e : Rat)
  | engDefault (T : IntType) (e : Rat)

/-- What a setter does (ParameterObject.cpp:254-294, ParameterObject.h:149-153,183-187,217-221). -/
def set (rnd : Rat → Rat) (pow : Nat → Rat) (o : ParameterObject) : Setter → Outcome ParameterObject
  | .scalable b => .ok { o with isScalable := b }
  | .readOnly b => .ok { o with isReadOnly := b }
  | .type t => .ok { o with type := t }
  | .name s => .ok { o with name := s }
  | .units s => .ok { o with units := s }
  | .help s => .ok { o with help := s }
  | .multiplier v => .ok { o with scalingMultiplier := v }
  | .divisor v => .ok { o with scalingDivisor := v }
  | .base v => .ok { o with scalingBase := v }
  | .offset v => .ok { o with scalingOffset := v }
  | .precision v => .ok { o with precision := v }
  | .engMin T e => setEngMin rnd pow T o e
  | .engMax T e => setEngMax rnd pow T o e
  | .engDefault T e => setEngDefault rnd pow T o e

/-- Several calls in a row. -/
def sets (rnd : Rat → Rat) (pow : Nat → Rat) (o : ParameterObject) : List Setter → Outcome ParameterObject
  | [] => .ok o
  | s :: ss =>
    match set rnd pow o s with
    | .ub => .ub
    | .throw e => .throw e
    | .ok o' => sets rnd pow o' ss

end ParameterObject

namespace IdentityObject

/-- A call of a setter (IdentityObject.cpp:64-114). -/
inductive Setter where
  | vendorId (v : BitVec 16)
  | deviceType (v : BitVec 16)
  | productCode (v : BitVec 16)
  | revision (r : CipRevision)
  | status (v : BitVec 16)
  | serialNumber (v : BitVec 32)
  | productName (s : List Byte)

/-- What a setter does (IdentityObject.cpp:64-114). -/
def set (o : IdentityObject) : Setter → IdentityObject
  | .vendorId v => { o with vendorId := v }
  | .deviceType v => { o with deviceType := v }
  | .productCode v => { o with productCode := v }
  | .revision r => { o with revision := r }
  | .status v => { o with status := v }
  | .serialNumber v => { o with serialNumber := v }
  | .productName s => o.setProductName s

/-- `IdentityObject(instanceId)` (IdentityObject.cpp:12-21) and several setters in a row. -/
def made (instanceId : BitVec 16) (ss : List Setter) : IdentityObject := ss.foldl set { instanceId }

/-- `getProductName()` (IdentityObject.cpp:108-110, CipString.h:41-43). -/
def getProductName (o : IdentityObject) : List Byte := o.productName.data

end IdentityObject

end Verif
