import Mathlib.Algebra.Order.Field.Rat
import Mathlib.Algebra.Order.Field.Power

/-!
# Specification: the numbers of IEEE 754

`p` is the number of bits of the significand, `b` the largest exponent: 24 and 127 for `float`, 53 and
1023 for `double`.
-/

namespace Verif.Spec

/-- A number of the format: `k · 2^j` with less than `p` bits for `k`, and exponents in range. -/
def IsNumber (p : Nat) (b : Int) (x : Rat) : Prop :=
  ∃ k j : Int, |k| < 2 ^ p ∧ 1 - b - (p - 1) ≤ j ∧ j ≤ b - (p - 1) ∧ x = k * (2 : Rat) ^ j

/-- A number of the format that is nearest to `x`. -/
def IsNearestNumber (p : Nat) (b : Int) (x y : Rat) : Prop :=
  IsNumber p b y ∧ ∀ z, IsNumber p b z → |y - x| ≤ |z - x|

/-- The last bit of the significand is zero. -/
def IsEven (p : Nat) (b : Int) (y : Rat) : Prop :=
  ∃ k j : Int, |k| ≤ 2 ^ (p - 1) ∧ 1 - b - (p - 1) < j ∧ y = k * (2 : Rat) ^ j

/-- Too large: half a unit of the last place beyond the largest number, or more. -/
def TooLarge (p : Nat) (b : Int) (x : Rat) : Prop := (2 : Rat) ^ (b + 1) - (2 : Rat) ^ (b - p) ≤ |x|

end Verif.Spec
