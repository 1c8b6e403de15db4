import Mathlib.Data.Rat.Cast.Order
import Mathlib.Algebra.Order.Field.Rat
import Mathlib.Algebra.Order.Field.Power

/-!
# Specification: double precision numbers

The finite numbers of IEEE 754 binary64, without bounds on the exponent: no overflow and no underflow.
-/

namespace Verif.Double

/-- A number with a mantissa of 53 bits. -/
def IsDouble (x : ℚ) : Prop := ∃ m e : ℤ, |m| ≤ 2 ^ 53 ∧ x = m * 2 ^ e

/-- `y` is the double nearest to `x`. -/
def Nearest (x y : ℚ) : Prop := IsDouble y ∧ ∀ z, IsDouble z → |y - x| ≤ |z - x|

/-- Half the distance from 1 to the next double. -/
def u : ℚ := 1 / 2 ^ 53

/-- Additions of the numbers `xs`, in some order and grouping. -/
inductive Sum
  | one (x : ℚ)
  | add (a b : Sum)

/-- The numbers that are added. -/
def Sum.terms : Sum → List ℚ
  | .one x => [x]
  | .add a b => a.terms ++ b.terms

end Verif.Double
