import Verif.Spec.Harmonics
import Mathlib.MeasureTheory.Integral.IntervalIntegral.Basic
/-!
# Specification: quadrature and surface expansions (C45, C57)
-/
namespace ChaosMagPy.Spec
open Polynomial

/-- Nodes and weights of a quadrature rule on `[-1, 1]` that integrates all polynomials of degree below `2 n` exactly:
what `np.polynomial.legendre.leggauss(n)` promises. -/
structure GaussRule (n : ℕ) (rule : List (ℝ × ℝ)) : Prop where
  inside : ∀ q ∈ rule, -1 ≤ q.1 ∧ q.1 ≤ 1
  exact : ∀ p : ℝ[X], p.natDegree < 2 * n → (rule.map fun q => q.2 * p.eval q.1).sum = ∫ x in (-1 : ℝ)..1, p.eval x

/-- Surface expansion of degrees `1..K` (all orders) at colatitude and longitude in degrees. -/
noncomputable def expansion (c : ℕ → ℝ) (K : ℕ) (theta phi : ℝ) : ℝ :=
  ∑ n ∈ Finset.Icc 1 K, ∑ m ∈ Finset.range (n + 1), surfaceTerm c 1 n n m (rad theta) (rad phi)

/-- Part of degree `n` (all orders) of the surface expansion, colatitude and longitude in degrees. -/
noncomputable def degreePart (c : ℕ → ℝ) (n : ℕ) (theta phi : ℝ) : ℝ :=
  ∑ m ∈ Finset.range (n + 1), surfaceTerm c 1 n n m (rad theta) (rad phi)

/-- Product of a matrix, given by the list of its columns, and a vector. -/
def matVec (M : List (List ℝ)) (c : ℕ → ℝ) (i : ℕ) : ℝ := ∑ j ∈ Finset.range M.length, (M.getD j []).getD i 0 * c j

end ChaosMagPy.Spec
