import Verif.Spec.Float
/-!
# Specification: ties are rounded to even numbers (IEEE 754, the default)
-/
namespace ChaosMagPy.Spec

/-- The default rule for ties: a positive number halfway between neighbouring doubles (`m` and `m + 1` times `2^e`, with `m` of 53 bits) is rounded to the
one with the even integer. -/
def TiesToEven (R : Rounding) : Prop :=
  ∀ (m : ℕ) (e : ℤ), 2 ^ 52 ≤ m → m < 2 ^ 53 → -1074 ≤ e → e ≤ 900 → R ((m + 1 / 2) * (2 : ℝ) ^ e) = (if Even m then (m : ℝ) else m + 1) * (2 : ℝ) ^ e

end ChaosMagPy.Spec
