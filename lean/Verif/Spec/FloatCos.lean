import Verif.Spec.Float
import Mathlib.Analysis.SpecialFunctions.Trigonometric.Basic
/-!
# Specification: cosines of the platform
-/
namespace ChaosMagPy.Spec

/-- A cosine of the platform: a double in `[-1, 1]` with an error of at most `2^-52` (two units in the last place of the numbers below one). -/
structure IsCosine (C : ℝ → ℝ) : Prop where
  double : ∀ x, IsDouble (C x)
  le_one : ∀ x, |C x| ≤ 1
  err : ∀ x, |C x - Real.cos x| ≤ 2⁻¹ ^ 52

/-- A sine of the platform. -/
structure IsSine (S : ℝ → ℝ) : Prop where
  double : ∀ x, IsDouble (S x)
  le_one : ∀ x, |S x| ≤ 1
  err : ∀ x, |S x - Real.sin x| ≤ 2⁻¹ ^ 52

/-- The correctly rounded sine. -/
noncomputable def bestSin (R : Rounding) (x : ℝ) : ℝ := R (Real.sin x)

/-- The correctly rounded cosine. -/
noncomputable def bestCos (R : Rounding) (x : ℝ) : ℝ := R (Real.cos x)

end ChaosMagPy.Spec
