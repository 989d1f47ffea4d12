import Mathlib.Data.Real.Basic
import Mathlib.Analysis.SpecialFunctions.Complex.Circle
/-!
# Specification: sums of field vectors, Fourier series, linear interpolation
-/
namespace ChaosMagPy.Spec

/-- Componentwise sum of a list of vectors, NaN (`none`) if one of them is. -/
def total : List (Option (ℝ × ℝ × ℝ)) → Option (ℝ × ℝ × ℝ)
  | [] => some (0, 0, 0)
  | none :: _ => none
  | some v :: l => (total l).map fun w => (v.1 + w.1, v.2.1 + w.2.1, v.2.2 + w.2.2)

/-- The names of the sources of a CHAOS model. -/
def sourceNames : List String := ["tdep", "static", "gsm", "sm"]

/-- Real part of a Fourier series with `k` components at time `t`. -/
noncomputable def fourierSeries (k : ℕ) (freq : ℕ → ℝ) (comp : ℕ → ℂ) (t : ℝ) : ℝ :=
  (∑ q ∈ Finset.range k, comp q * Complex.exp (2 * Real.pi * Complex.I * (freq q * t))).re

/-- The degree used if `nmax` is asked of a model of degree `N`. -/
def usedDegree (N : ℕ) : Option ℕ → ℕ
  | none => N
  | some n => min n N

end ChaosMagPy.Spec
