import Mathlib.Data.Real.Basic
import Mathlib.Algebra.BigOperators.Group.Finset.Basic
/-!
# Specification: B-splines

The textbook definition (de Boor, "A Practical Guide to Splines"): B-splines of degree 0 are the indicator
functions of the half-open knot intervals; a B-spline of degree `p+1` is the sum of two neighbouring ones of
degree `p` with linear weights, where terms with a vanishing denominator are left out.
-/
namespace ChaosMagPy.Spec

open Classical in
/-- The B-spline number `i` of degree `p` on the knots `t` (division by zero gives zero in Lean). -/
noncomputable def bspline (t : ℕ → ℝ) : ℕ → ℕ → ℝ → ℝ
  | 0, i, x => if t i ≤ x ∧ x < t (i + 1) then 1 else 0
  | p + 1, i, x => (x - t i) / (t (i + (p + 1)) - t i) * bspline t p i x +
      (t (i + 1 + (p + 1)) - x) / (t (i + 1 + (p + 1)) - t (i + 1)) * bspline t p (i + 1) x

/-- The spline with coefficients `c` (`N` of them). -/
noncomputable def splineSum (t : ℕ → ℝ) (p N : ℕ) (c : ℕ → ℝ) (x : ℝ) : ℝ := ∑ i ∈ Finset.range N, c i * bspline t p i x

/-- Knots that fit splines of the given degree: ascending, enough of them, and the last interval of the base
interval `t[degree] .. t[-degree-1]` is not empty. -/
structure GoodKnots (t : List ℝ) (degree : ℕ) : Prop where
  size : 2 * degree + 2 ≤ t.length
  asc : ∀ i j, i ≤ j → j < t.length → t.getD i 0 ≤ t.getD j 0
  lastInterval : t.getD (t.length - degree - 2) 0 < t.getD (t.length - degree - 1) 0

end ChaosMagPy.Spec
