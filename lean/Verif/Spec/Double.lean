import Mathlib.Algebra.Order.Field.Rat
import Mathlib.Algebra.Order.Field.Power

/-!
# Specification: numbers with 53 significant bits
-/

namespace Verif.Spec

/-- A number with at most 53 significant bits. -/
def IsDouble (x : Rat) : Prop := ∃ (k j : Int), |k| ≤ 2 ^ 53 ∧ x = k * (2 : Rat) ^ j

/-- Such a number that is the nearest one to `x`. -/
def IsNearest (x y : Rat) : Prop := IsDouble y ∧ ∀ z, IsDouble z → |y - x| ≤ |z - x|

/-- The last of the 53 bits is zero. -/
def LastBitZero (y : Rat) : Prop := ∃ (k j : Int), |k| ≤ 2 ^ 52 ∧ y = k * (2 : Rat) ^ j

/-- A `double` in the range in which all 53 bits are there: zero, or its magnitude is at least
2^-1022 and less than 2^1023. -/
def InRange (x : Rat) : Prop := x = 0 ∨ (2 : Rat) ^ (-1022 : Int) ≤ |x| ∧ |x| < (2 : Rat) ^ (1023 : Int)

end Verif.Spec
