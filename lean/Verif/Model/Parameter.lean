import Verif.Model.Link

/-!
# Model of `ParameterObject`

Source: `src/ParameterObject.{h,cpp}`, `src/BaseObject.cpp`.
-/

namespace Verif

/-- `ParameterObject` (ParameterObject.h:362-381); the getters and `setScalable`
(ParameterObject.cpp:201-254) and those of `BaseObject` (BaseObject.cpp:9-21) are the
fields and record updates.  `scalingOffset` is `CipInt`, kept as
its bit pattern.  Not modelled: `_messageRouter` (the null pointer left by the
constructor without a session is `hasRouter = false`). -/
structure ParameterObject where
  instanceId : BitVec 16
  hasFullAttributes : Bool
  isScalable : Bool := false
  isReadOnly : Bool := false
  parameter : BitVec 16 := 0
  value : List Byte := []
  type : BitVec 8 := 0
  name : List Byte := []
  units : List Byte := []
  help : List Byte := []
  minValue : List Byte := []
  maxValue : List Byte := []
  defaultValue : List Byte := []
  scalingMultiplier : BitVec 16 := 1
  scalingDivisor : BitVec 16 := 1
  scalingBase : BitVec 16 := 1
  scalingOffset : BitVec 16 := 0
  precision : BitVec 8 := 0
  hasRouter : Bool := false
deriving Repr, DecidableEq

namespace ParameterObject

/-- `CLASS_ID` (ParameterObject.h:25). -/
def classId : BitVec 16 := 0x0f

/-- `ParameterObject(instanceId, fullAttributes, typeSize)` (ParameterObject.cpp:43-60):
the vectors are filled with zeros. -/
def empty (instanceId : BitVec 16) (full : Bool) (typeSize : Nat) : ParameterObject :=
  { instanceId, hasFullAttributes := full, value := List.replicate typeSize 0, minValue := List.replicate typeSize 0,
    maxValue := List.replicate typeSize 0, defaultValue := List.replicate typeSize 0 }

/-- The reads from the answer to GetAttributeAll (ParameterObject.cpp:110-144) into an
object whose vectors have `size` elements. -/
def attributes (instanceId : BitVec 16) (full : Bool) (size : Nat) : Rd ParameterObject := do
  let value ← Rd.bytes size
  let linkPathSize ← Rd.u8
  let _ ← Rd.bytes linkPathSize.toNat
  let descriptor ← Rd.u16
  let type ← Rd.u8
  let isScalable := descriptor &&& 4#16 != 0#16
  let isReadOnly := descriptor &&& 16#16 != 0#16
  if full then do
    let _ ← Rd.bytes 1
    let name ← Rd.shortString
    let units ← Rd.shortString
    let help ← Rd.shortString
    let minValue ← Rd.bytes size
    let maxValue ← Rd.bytes size
    let defaultValue ← Rd.bytes size
    let o : ParameterObject :=
      { instanceId, hasFullAttributes := full, isScalable, isReadOnly, parameter := instanceId, value, type,
        name := name.data, units := units.data, help := help.data, minValue, maxValue, defaultValue,
        hasRouter := true }
    if isScalable then do
      let _ ← Rd.bytes 16
      let precision ← Rd.u8
      pure { o with precision }
    else pure o
  else
    pure { instanceId, hasFullAttributes := full, isScalable, isReadOnly, parameter := instanceId, value, type,
           minValue := List.replicate size 0, maxValue := List.replicate size 0,
           defaultValue := List.replicate size 0, hasRouter := true }

/-- The loop over the scaling attributes (ParameterObject.cpp:146-161): the answers one
after the other. -/
def scalingData {δ : Type} (D : Device δ) (instanceId : BitVec 16) : List (BitVec 16) → Prog (Link δ) (List Byte)
  | [] => pure []
  | attrId :: rest => do
    let response ← ask D ⟨ServiceCode.getAttributeSingle, EPath.mk3 classId instanceId attrId, []⟩
    if response.status ≠ GeneralStatus.success then
      Prog.throw (.runtime ("Failed to read value of attribute=" ++ toString attrId.toNat))
    else do
      let more ← scalingData D instanceId rest
      pure (response.data ++ more)

/-- `buffer >> _scalingMultiplier >> ... >> _scalingOffset` (ParameterObject.cpp:163-165). -/
def scaling (o : ParameterObject) : Rd ParameterObject := do
  let scalingMultiplier ← Rd.u16
  let scalingDivisor ← Rd.u16
  let scalingBase ← Rd.u16
  let scalingOffset ← Rd.u16
  pure { o with scalingMultiplier, scalingDivisor, scalingBase, scalingOffset }

/-- `ParameterObject(instanceId, fullAttributes, si, messageRouter)`
(ParameterObject.cpp:62-182).  The `runtime_error` at line 170 is made but not thrown. -/
def connect {δ : Type} (m : Mem) (D : Device δ) (instanceId : BitVec 16) (full : Bool) :
    Prog (Link δ) ParameterObject := do
  let response ← ask D ⟨ServiceCode.getAttributeSingle, EPath.mk3 classId instanceId 6, []⟩
  if response.status = GeneralStatus.success then do
    let dataSize ← Prog.lift (Rd.u8.from m response.data)
    let response ← ask D ⟨ServiceCode.getAttributeAll, EPath.mk2 classId instanceId, []⟩
    if response.status = GeneralStatus.success then do
      let o ← Prog.lift ((attributes instanceId full dataSize.toNat).from m response.data)
      if full && o.isScalable then do
        let data ← scalingData D instanceId [13, 14, 15, 16]
        Prog.lift ((scaling o).from m data)
      else pure o
    else Prog.throw (.runtime "Failed to read all attributes")
  else Prog.throw (.runtime "Failed to read data size of the parameter")

/-- `updateValue` (ParameterObject.cpp:184-197) on an object and a link.  Without a router
the null pointer is dereferenced. -/
def updateValue {δ : Type} (m : Mem) (D : Device δ) : Prog (ParameterObject × Link δ) Unit := do
  let (o, _) ← Prog.get
  if o.hasRouter then do
    let response ← onLink (ask D ⟨ServiceCode.getAttributeSingle, EPath.mk3 classId o.instanceId 1, []⟩)
    if response.status = GeneralStatus.success then do
      let value ← Prog.lift ((Rd.bytes o.value.length).from m response.data)
      Prog.modify fun s => ({ s.1 with value }, s.2)
    else Prog.throw (.runtime "Failed to read value")
  else Prog.undefined

/-! ## Engineering units

`double` is modelled by rational numbers and a rounding function applied after each
operation; infinities and NaN are in `Model/Ieee`.  `pow` stands for `std::pow(10, _)`. -/

/-- `actualToEngValue` (ParameterObject.cpp:297-304). -/
def actualToEng (rnd : Rat → Rat) (pow : Nat → Rat) (o : ParameterObject) (a : Rat) : Rat :=
  if o.isScalable then
    rnd (rnd (rnd (rnd (a + o.scalingOffset.toInt) * o.scalingMultiplier.toNat) * o.scalingBase.toNat)
      / rnd (o.scalingDivisor.toNat * pow o.precision.toNat))
  else a

/-- `engToActualValue` (ParameterObject.cpp:306-313).  `_scalingMultiplier * _scalingBase`
is a product of two `int`: undefined if it is 2^31 or more. -/
def engToActual (rnd : Rat → Rat) (pow : Nat → Rat) (o : ParameterObject) (e : Rat) : Outcome Rat :=
  if o.isScalable then
    if o.scalingMultiplier.toNat * o.scalingBase.toNat < 2 ^ 31 then
      .ok (rnd (rnd (rnd (rnd (e * o.scalingDivisor.toNat) * pow o.precision.toNat)
        / (o.scalingMultiplier.toNat * o.scalingBase.toNat : Nat)) - o.scalingOffset.toInt))
    else .ub
  else .ok e

/-- The integer types `T` of the accessor templates (Types.h:13-28).  `float` and
`double` are in `Model/Ieee`. -/
inductive IntType where
  | u8 | i8 | u16 | i16 | u32 | i32 | u64 | i64
deriving Repr, DecidableEq

/-- `buffer >> v` for an integer type (Buffer.cpp:27-122). -/
def IntType.read : IntType → Rd Int
  | .u8 => do let v ← Rd.u8; pure v.toNat
  | .i8 => do let v ← Rd.u8; pure v.toInt
  | .u16 => do let v ← Rd.u16; pure v.toNat
  | .i16 => do let v ← Rd.u16; pure v.toInt
  | .u32 => do let v ← Rd.u32; pure v.toNat
  | .i32 => do let v ← Rd.u32; pure v.toInt
  | .u64 => do let v ← Rd.u64; pure v.toNat
  | .i64 => do let v ← Rd.u64; pure v.toInt

/-- `buffer << v` for an integer type (Buffer.cpp:21-118). -/
def IntType.write (b : Buffer) (v : Int) : IntType → Buffer
  | .u8 | .i8 => b.putU8 (BitVec.ofInt 8 v)
  | .u16 | .i16 => b.putU16 (BitVec.ofInt 16 v)
  | .u32 | .i32 => b.putU32 (BitVec.ofInt 32 v)
  | .u64 | .i64 => b.putU64 (BitVec.ofInt 64 v)

/-- `encodeValue<T>` (ParameterObject.h:347-353). -/
def encodeValue (m : Mem) (T : IntType) (data : List Byte) : Outcome Int := T.read.from m data

/-- `decodeValue<T>` (ParameterObject.h:355-360). -/
def decodeValue (T : IntType) (v : Int) : List Byte := (T.write Buffer.empty v).bytes

/-- The range of an integer type: `std::numeric_limits<T>::min()` and `max()`. -/
def IntType.range : IntType → Int × Int
  | .u8 => (0, 2 ^ 8 - 1)
  | .i8 => (-(2 ^ 7), 2 ^ 7 - 1)
  | .u16 => (0, 2 ^ 16 - 1)
  | .i16 => (-(2 ^ 15), 2 ^ 15 - 1)
  | .u32 => (0, 2 ^ 32 - 1)
  | .i32 => (-(2 ^ 31), 2 ^ 31 - 1)
  | .u64 => (0, 2 ^ 64 - 1)
  | .i64 => (-(2 ^ 63), 2 ^ 63 - 1)

/-- The values of an integer type. -/
def IntType.has (T : IntType) (v : Int) : Prop := T.range.1 ≤ v ∧ v ≤ T.range.2

instance (T : IntType) (v : Int) : Decidable (T.has v) := by unfold IntType.has; infer_instance

/-- `static_cast<T>(double)` for an integer type: rounds toward zero; undefined if the
result is not a value of the type. -/
def castInt (T : IntType) (q : Rat) : Outcome Int :=
  let v := if q < 0 then q.ceil else q.floor
  if T.has v then .ok v else .ub

/-- The bytes stored by `setEngMinValue<T>`, `setEngMaxValue<T>` and
`setEngDefaultValue<T>` (ParameterObject.h:149-153,183-187,217-221). -/
def engBytes (rnd : Rat → Rat) (pow : Nat → Rat) (T : IntType) (o : ParameterObject) (e : Rat) : Outcome (List Byte) :=
  match engToActual rnd pow o e with
  | .ub => .ub
  | .throw x => .throw x
  | .ok q =>
    match castInt T q with
    | .ub => .ub
    | .throw x => .throw x
    | .ok v => .ok (decodeValue T v)

/-- `setEngMinValue<T>` (ParameterObject.h:149-153). -/
def setEngMin (rnd : Rat → Rat) (pow : Nat → Rat) (T : IntType) (o : ParameterObject) (e : Rat) : Outcome ParameterObject :=
  match engBytes rnd pow T o e with
  | .ub => .ub | .throw x => .throw x | .ok bs => .ok { o with minValue := bs }

/-- `setEngMaxValue<T>` (ParameterObject.h:183-187). -/
def setEngMax (rnd : Rat → Rat) (pow : Nat → Rat) (T : IntType) (o : ParameterObject) (e : Rat) : Outcome ParameterObject :=
  match engBytes rnd pow T o e with
  | .ub => .ub | .throw x => .throw x | .ok bs => .ok { o with maxValue := bs }

/-- `setEngDefaultValue<T>` (ParameterObject.h:217-221). -/
def setEngDefault (rnd : Rat → Rat) (pow : Nat → Rat) (T : IntType) (o : ParameterObject) (e : Rat) : Outcome ParameterObject :=
  match engBytes rnd pow T o e with
  | .ub => .ub | .throw x => .throw x | .ok bs => .ok { o with defaultValue := bs }

/-- `getEngValue<T>` and the three for the limits (ParameterObject.h:115-119,138-142,
172-176,206-210) on the stored bytes; the conversion of the integer to `double` rounds. -/
def engOf (m : Mem) (rnd : Rat → Rat) (pow : Nat → Rat) (T : IntType) (o : ParameterObject) (bs : List Byte) : Outcome Rat :=
  match encodeValue m T bs with
  | .ub => .ub | .throw x => .throw x | .ok v => .ok (actualToEng rnd pow o (rnd v))

end ParameterObject

end Verif
