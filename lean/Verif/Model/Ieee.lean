import Verif.Model.Double
import Verif.Model.Parameter

/-!
# `float` and `double`

IEEE 754 binary32 and binary64 with infinities, NaN and gradual underflow (`CipReal` and `CipLreal`,
Types.h:23-24), and the accessors of `ParameterObject` on them.  Simplifications: the sign of zero and
the payload of a NaN are not kept.  (Nothing in ParameterObject.cpp:297-313 divides by a zero that is
negative.)
-/

namespace Verif

namespace Ieee

open Double

/-- A value of `float` or `double` (Types.h:23-24). -/
inductive Val where
  | nan
  | inf (neg : Bool)
  | fin (x : Rat)
deriving Repr, DecidableEq

/-- A binary format: the bits of the significand, and the bits of the exponent (Types.h:23-24). -/
structure Format where
  prec : Nat
  ebits : Nat
deriving Repr, DecidableEq

/-- `float` (Types.h:23). -/
def f32 : Format := ⟨24, 8⟩
/-- `double` (Types.h:24). -/
def f64 : Format := ⟨53, 11⟩

/-- The largest exponent, which is also the bias. -/
def Format.emax (F : Format) : Int := 2 ^ (F.ebits - 1) - 1

/-- The exponent of the last place of a number, not below the one of the smallest numbers. -/
def Format.last (F : Format) (x : Rat) : Int := max (exponent x) (1 - F.emax) - (F.prec - 1)

/-- To nearest, ties to even, with gradual underflow. -/
def Format.near (F : Format) (x : Rat) : Rat :=
  if x = 0 then 0 else (nearest (x / pow2 (F.last x)) : Rat) * pow2 (F.last x)

/-- The rounding of one operation: numbers that are too large become infinite. -/
def Format.round (F : Format) (x : Rat) : Val :=
  if pow2 (F.emax + 1) ≤ (F.near x).abs then .inf (decide (x < 0)) else .fin (F.near x)

/-- `+` of `double` (ParameterObject.cpp:299). -/
def add : Val → Val → Val
  | .nan, _ => .nan
  | _, .nan => .nan
  | .inf a, .inf b => if a = b then .inf a else .nan
  | .inf a, .fin _ => .inf a
  | .fin _, .inf b => .inf b
  | .fin x, .fin y => f64.round (x + y)

/-- Unary minus: `a - b` is `a + (-b)` (ParameterObject.cpp:309). -/
def neg : Val → Val
  | .nan => .nan
  | .inf a => .inf (!a)
  | .fin x => .fin (-x)

/-- `*` of `double` (ParameterObject.cpp:299-300,308). -/
def mul : Val → Val → Val
  | .nan, _ => .nan
  | _, .nan => .nan
  | .inf a, .inf b => .inf (a != b)
  | .inf a, .fin y => if y = 0 then .nan else .inf (a != decide (y < 0))
  | .fin x, .inf b => if x = 0 then .nan else .inf (decide (x < 0) != b)
  | .fin x, .fin y => f64.round (x * y)

/-- `/` of `double` (ParameterObject.cpp:299-300,308-309).  A divisor that is zero is not negative. -/
def div : Val → Val → Val
  | .nan, _ => .nan
  | _, .nan => .nan
  | .inf _, .inf _ => .nan
  | .inf a, .fin y => .inf (a != decide (y < 0))
  | .fin _, .inf _ => .fin 0
  | .fin x, .fin y => if y = 0 then (if x = 0 then .nan else .inf (decide (x < 0))) else f64.round (x / y)

/-- The conversion of `float` to `double`, which is exact, and of `double` to `float`, which
rounds (ParameterObject.h:117,151).  The standard leaves the conversion of a number that is too large
open; this is the one of IEEE 754. -/
def convert (F : Format) : Val → Val
  | .nan => .nan
  | .inf a => .inf a
  | .fin x => F.round x

/-- The value of a bit pattern (Buffer.cpp:124-138 reads and writes bit patterns). -/
def Format.decode (F : Format) (bits : Nat) : Val :=
  let frac := bits % 2 ^ (F.prec - 1)
  let ex := bits / 2 ^ (F.prec - 1) % 2 ^ F.ebits
  let neg := bits / 2 ^ (F.prec - 1 + F.ebits) % 2 = 1
  let sign : Rat := if neg then -1 else 1
  if ex = 2 ^ F.ebits - 1 then if frac = 0 then .inf (decide neg) else .nan
  else if ex = 0 then .fin (sign * frac * pow2 (1 - F.emax - (F.prec - 1)))
  else .fin (sign * (2 ^ (F.prec - 1) + frac : Nat) * pow2 (ex - F.emax - (F.prec - 1)))

/-- The bit pattern of a value (Buffer.cpp:124-138): zero is positive and NaN has one pattern. -/
def Format.encode (F : Format) : Val → Nat
  | .nan => (2 ^ F.ebits - 1) * 2 ^ (F.prec - 1) + 2 ^ (F.prec - 2)
  | .inf neg => (if neg then 2 ^ (F.prec - 1 + F.ebits) else 0) + (2 ^ F.ebits - 1) * 2 ^ (F.prec - 1)
  | .fin x =>
    if x = 0 then 0
    else (if x < 0 then 2 ^ (F.prec - 1 + F.ebits) else 0) +
      ((F.last x + (F.prec - 1) - (1 - F.emax)).toNat * 2 ^ (F.prec - 1) + (x / pow2 (F.last x)).abs.floor.toNat)

end Ieee

namespace ParameterObject

open Ieee

/-- `actualToEngValue` (ParameterObject.cpp:297-304).  `pow` stands for `std::pow(10, _)`. -/
def toEng (pow : Nat → Rat) (o : ParameterObject) (a : Val) : Val :=
  if o.isScalable then
    div (mul (mul (add a (.fin o.scalingOffset.toInt)) (.fin o.scalingMultiplier.toNat)) (.fin o.scalingBase.toNat))
      (mul (.fin o.scalingDivisor.toNat) (.fin (pow o.precision.toNat)))
  else a

/-- `engToActualValue` (ParameterObject.cpp:306-313).  `_scalingMultiplier * _scalingBase` is a
product of two `int`: undefined if it is 2^31 or more. -/
def toActual (pow : Nat → Rat) (o : ParameterObject) (e : Val) : Outcome Val :=
  if o.isScalable then
    if o.scalingMultiplier.toNat * o.scalingBase.toNat < 2 ^ 31 then
      .ok (add (div (mul (mul e (.fin o.scalingDivisor.toNat)) (.fin (pow o.precision.toNat)))
        (.fin (o.scalingMultiplier.toNat * o.scalingBase.toNat : Nat))) (neg (.fin o.scalingOffset.toInt)))
    else .ub
  else .ok e

/-- `static_cast<T>(double)` for an integer type: rounds toward zero; undefined for NaN, for
infinities and if the result is not a value of the type. -/
def castVal (T : IntType) : Val → Outcome Int
  | .nan => .ub
  | .inf _ => .ub
  | .fin q => castInt T q

/-- The types of `getEngValue<T>` and the others (Types.h:13-28). -/
inductive NumType where
  | int (T : IntType)
  | real
  | lreal
deriving Repr, DecidableEq

/-- The value of `encodeValue<T>` (ParameterObject.h:347-353) for `float` and `double`. -/
def readReal (m : Mem) (data : List Byte) : Outcome Val :=
  match Rd.u32.from m data with
  | .ub => .ub | .throw x => .throw x | .ok v => .ok (f32.decode v.toNat)

/-- The value of `encodeValue<T>` (ParameterObject.h:347-353) for `double`. -/
def readLreal (m : Mem) (data : List Byte) : Outcome Val :=
  match Rd.u64.from m data with
  | .ub => .ub | .throw x => .throw x | .ok v => .ok (f64.decode v.toNat)

/-- `static_cast<CipLreal>(encodeValue<T>(_))` (ParameterObject.h:117,140,174,208). -/
def actualOf (m : Mem) (data : List Byte) : NumType → Outcome Val
  | .int T => match encodeValue m T data with
    | .ub => .ub | .throw x => .throw x | .ok v => .ok (f64.round v)
  | .real => match readReal m data with
    | .ub => .ub | .throw x => .throw x | .ok v => .ok (convert f64 v)
  | .lreal => readLreal m data

/-- `getEngValue<T>` and the three for the limits (ParameterObject.h:115-119,138-142,172-176,206-210)
on the stored bytes. -/
def getEng (m : Mem) (pow : Nat → Rat) (N : NumType) (o : ParameterObject) (data : List Byte) : Outcome Val :=
  match actualOf m data N with
  | .ub => .ub | .throw x => .throw x | .ok a => .ok (toEng pow o a)

/-- The bytes that `setEngMinValue<T>` and the others store (ParameterObject.h:149-153,183-187,217-221). -/
def putEng (pow : Nat → Rat) (N : NumType) (o : ParameterObject) (e : Val) : Outcome (List Byte) :=
  match toActual pow o e with
  | .ub => .ub
  | .throw x => .throw x
  | .ok q =>
    match N with
    | .int T => match castVal T q with
      | .ub => .ub | .throw x => .throw x | .ok v => .ok (decodeValue T v)
    | .real => .ok (Buffer.empty.putU32 (BitVec.ofNat 32 (f32.encode (convert f32 q)))).bytes
    | .lreal => .ok (Buffer.empty.putU64 (BitVec.ofNat 64 (f64.encode q))).bytes

end ParameterObject

end Verif
