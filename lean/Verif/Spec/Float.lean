import Mathlib.Data.Real.Basic
import Mathlib.Algebra.Order.Field.Power
/-!
# Specification: double precision numbers (IEEE 754 binary64)

Only what the standard says about the finite numbers and about the rounding of results that do not overflow: the result of a sum, product,
quotient, square root or conversion of an integer is a double that is nearest to the exact value. How ties are resolved is left open, so that
what is proved holds for every rule (the default rule is ties-to-even).
-/
namespace ChaosMagPy.Spec

/-- The finite double precision numbers. -/
def IsDouble (x : ℝ) : Prop := ∃ m e : ℤ, |m| < 2 ^ 53 ∧ -1074 ≤ e ∧ e ≤ 971 ∧ x = m * (2 : ℝ) ^ e

/-- A rounding of real numbers to a nearest double. Numbers beyond `2^1000` (where results may overflow) are not considered. -/
structure Rounding where
  fn : ℝ → ℝ
  nearest : ∀ x, |x| ≤ 2 ^ 1000 → IsDouble (fn x) ∧ ∀ y, IsDouble y → |fn x - x| ≤ |y - x|

instance : CoeFun Rounding fun _ => ℝ → ℝ := ⟨Rounding.fn⟩

end ChaosMagPy.Spec
