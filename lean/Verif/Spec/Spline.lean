import Mathlib.Analysis.Calculus.IteratedDeriv.Defs
import Mathlib.Data.Real.Basic
/-!
# Specification: piecewise polynomials in time

A piecewise polynomial is given by ascending break points and, on each piece, a polynomial in the time since
the left end of the piece (highest power first).
-/
namespace ChaosMagPy.Spec

/-- The polynomial of order `k` with coefficients `a 0, ..., a (k-1)` (highest power first) in `t - x0`. -/
noncomputable def poly (k : ℕ) (a : ℕ → ℝ) (x0 t : ℝ) : ℝ := ∑ q ∈ Finset.range k, a (k - 1 - q) * (t - x0) ^ q

/-- The Taylor polynomial of order `k` (degree `k-1`) of `f` at `e`. -/
noncomputable def taylor (k : ℕ) (f : ℝ → ℝ) (e t : ℝ) : ℝ :=
  ∑ q ∈ Finset.range k, iteratedDeriv q f e / (q.factorial : ℝ) * (t - e) ^ q

end ChaosMagPy.Spec
