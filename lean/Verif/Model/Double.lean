import Verif.Base.Outcome

/-!
# The arithmetic of `double`

IEEE 754 binary64 with rounding to nearest, ties to even: the arithmetic of
`ParameterObject.cpp:297-313` on the usual platforms.  Simplification: exponents are
not bounded, so there is no overflow and no loss of precision near zero
(`C104_range` shows that the scaling of parameters meets neither).
-/

namespace Verif

namespace Double

/-- 2 to the power of `e`. -/
def pow2 : Int → Rat
  | .ofNat n => ((2 ^ n : Nat) : Rat)
  | .negSucc n => mkRat 1 (2 ^ (n + 1))

/-- The exponent of a number that is not zero: `2^e ≤ |x| < 2^(e+1)` (the operations of
ParameterObject.cpp:299-301,308-310 normalise their results). -/
def exponent (x : Rat) : Int :=
  let e : Int := (x.num.natAbs.log2 : Int) - (x.den.log2 : Int)
  if pow2 e ≤ x.abs then e else e - 1

/-- To the nearest integer, ties to even. -/
def nearest (x : Rat) : Int :=
  if x - x.floor < mkRat 1 2 then x.floor
  else if mkRat 1 2 < x - x.floor then x.floor + 1
  else if x.floor % 2 = 0 then x.floor
  else x.floor + 1

/-- The rounding of one operation (ParameterObject.cpp:299-301,308-310): 53 significant bits. -/
def binary64 (x : Rat) : Rat :=
  if x = 0 then 0
  else (nearest (x / pow2 (exponent x - 52)) : Rat) * pow2 (exponent x - 52)

end Double

end Verif
