import Verif.Spec.Gauss
import Verif.Spec.Harmonics
import Mathlib.Analysis.Real.Sqrt
import Mathlib.Algebra.BigOperators.Group.Finset.Basic
import Mathlib.MeasureTheory.Integral.IntervalIntegral.Basic
import Mathlib.Analysis.Calculus.Deriv.Basic
import Mathlib.Analysis.SpecialFunctions.Trigonometric.Basic
/-!
# Specification of the statistics per degree (C47-C49)
-/
namespace ChaosMagPy.Spec

/-- `g_n^m` in a full coefficient vector. -/
def gaussG (c : ℕ → ℝ) (n m : ℕ) : ℝ := c (gaussPos n m)

/-- `h_n^m` in a full coefficient vector (there is no `h_n^0`). -/
def gaussH (c : ℕ → ℝ) (n m : ℕ) : ℝ := if m = 0 then 0 else c (gaussPos n (-(m : ℤ)))

/-- `∑_{m=0}^n (g_n^m g'_n^m + h_n^m h'_n^m)`. -/
def degreeProduct (c d : ℕ → ℝ) (n : ℕ) : ℝ :=
  ∑ m ∈ Finset.range (n + 1), (gaussG c n m * gaussG d n m + gaussH c n m * gaussH d n m)

/-- `∑_{m=0}^n ((g_n^m)² + (h_n^m)²)`. -/
def degreePower (c : ℕ → ℝ) (n : ℕ) : ℝ := ∑ m ∈ Finset.range (n + 1), (gaussG c n m ^ 2 + gaussH c n m ^ 2)

/-- Documented factor of an internal field, `(n+1) (a/r)^(2n+4)`. -/
noncomputable def factorInternal (a r : ℝ) (n : ℕ) : ℝ := (n + 1) * (a / r) ^ (2 * n + 4)

/-- Documented factor of an external field, `n (r/a)^(2n-2)`. -/
noncomputable def factorExternal (a r : ℝ) (n : ℕ) : ℝ := n * (r / a) ^ (2 * n - 2)

/-- Documented factor of a toroidal field, `n(n+1)/(2n+1)`. -/
noncomputable def factorToroidal (n : ℕ) : ℝ := n * (n + 1) / (2 * n + 1)

/-- Squared length of the field `-∇V` in spherical coordinates (radius, colatitude, longitude in radians). -/
noncomputable def gradSq (V : ℝ → ℝ → ℝ → ℝ) (r θ φ : ℝ) : ℝ :=
  deriv (fun r' => V r' θ φ) r ^ 2 + (deriv (fun θ' => V r θ' φ) θ / r) ^ 2 + (deriv (fun φ' => V r θ φ') φ / (r * Real.sin θ)) ^ 2

/-- Scalar of a toroidal field, degrees `1..K` (angles in radians). -/
noncomputable def toroidalScalar (c : ℕ → ℝ) (K : ℕ) (θ φ : ℝ) : ℝ :=
  ∑ n ∈ Finset.Icc 1 K, ∑ m ∈ Finset.range (n + 1), surfaceTerm c 1 K n m θ φ

/-- The coefficients of degree `n`, all others zero. -/
def onlyDegree (n : ℕ) (c : ℕ → ℝ) (i : ℕ) : ℝ := if n ^ 2 ≤ i + 1 ∧ i + 1 < (n + 1) ^ 2 then c i else 0

/-- Squared length of the toroidal field of the scalar `T`, `(0, ∂T/∂φ / sin θ, -∂T/∂θ)`. -/
noncomputable def toroidalSq (T : ℝ → ℝ → ℝ) (θ φ : ℝ) : ℝ :=
  (deriv (fun φ' => T θ φ') φ / Real.sin θ) ^ 2 + (-deriv (fun θ' => T θ' φ) θ) ^ 2

/-- Mean over the sphere, `1/(4π) ∬ f sin θ dθ dφ`. -/
noncomputable def sphereMean (f : ℝ → ℝ → ℝ) : ℝ :=
  1 / (4 * Real.pi) * ∫ θ in (0 : ℝ)..Real.pi, (∫ φ in (0 : ℝ)..2 * Real.pi, f θ φ) * Real.sin θ

end ChaosMagPy.Spec
