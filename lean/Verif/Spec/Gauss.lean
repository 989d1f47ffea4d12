import Mathlib.Data.Int.Notation
import Mathlib.Data.Nat.Notation
/-!
# Specification of the coefficient order (C12)
-/
namespace ChaosMagPy.Spec

/-- Position of the coefficient of degree `n` and order `m` (negative orders are the sine
coefficients) in a full coefficient vector: `n²-1`, `n²+2m-2`, `n²+2|m|-1`. -/
def gaussPos (n : ℕ) (m : ℤ) : ℕ :=
  if m = 0 then n ^ 2 - 1
  else if 0 < m then n ^ 2 + 2 * m.natAbs - 2
  else n ^ 2 + 2 * m.natAbs - 1

end ChaosMagPy.Spec
