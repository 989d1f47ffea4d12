import Verif.Spec.Float
import Mathlib.Analysis.SpecialFunctions.Trigonometric.Inverse
import Mathlib.Analysis.SpecialFunctions.Complex.Arg
/-!
# Specification: inverse cosines and arguments of the platform
-/
namespace ChaosMagPy.Spec

/-- An inverse cosine of the platform: for arguments in `[-1, 1]` a double with an error of at most `2^-51`. -/
structure IsArccos (A : ℝ → ℝ) : Prop where
  double : ∀ x, |x| ≤ 1 → IsDouble (A x)
  err : ∀ x, |x| ≤ 1 → |A x - Real.arccos x| ≤ 2⁻¹ ^ 51

/-- An `arctan2(y, x)` of the platform: a double with an error of at most `2^-51`. The signs of zeros are not modelled. -/
structure IsArctan2 (A : ℝ → ℝ → ℝ) : Prop where
  double : ∀ y x, IsDouble (A y x)
  err : ∀ y x, |A y x - Complex.arg ⟨x, y⟩| ≤ 2⁻¹ ^ 51

/-- The correctly rounded inverse cosine. -/
noncomputable def bestArccos (R : Rounding) (x : ℝ) : ℝ := R (Real.arccos x)

/-- The correctly rounded argument. -/
noncomputable def bestArctan2 (R : Rounding) (y x : ℝ) : ℝ := R (Complex.arg ⟨x, y⟩)

end ChaosMagPy.Spec
