import Mathlib.Algebra.Polynomial.Derivative
import Mathlib.Analysis.SpecialFunctions.Trigonometric.Basic
/-!
# Specification vocabulary for spherical harmonics (C12-C22, C45)

Textbook definitions, independent of the recursions used by the code: Legendre polynomials by
Rodrigues' formula, Schmidt semi-normalised associated Legendre functions (without Condon-Shortley
phase), the scalar potentials of internal and external sources.
-/
namespace ChaosMagPy.Spec
open Polynomial

/-- Rodrigues' formula: `P_n = 1/(2^n n!) d^n/dx^n (x² - 1)^n`. -/
noncomputable def legendre (n : ℕ) : ℝ[X] :=
  C (1 / (2 ^ n * (n.factorial : ℝ))) * derivative^[n] ((X ^ 2 - 1) ^ n)

/-- Schmidt's normalisation: `1` for `m = 0`, `√(2 (n-m)!/(n+m)!)` for `m > 0`. -/
noncomputable def schmidtNorm (n m : ℕ) : ℝ :=
  if m = 0 then 1 else Real.sqrt (2 * ((n - m).factorial : ℝ) / ((n + m).factorial : ℝ))

/-- Schmidt semi-normalised associated Legendre function of the colatitude `θ` (in radians):
`N_{nm} sin(θ)^m P_n^{(m)}(cos θ)` with the `m`-th derivative of the Legendre polynomial. -/
noncomputable def schmidt (n m : ℕ) (θ : ℝ) : ℝ :=
  schmidtNorm n m * Real.sin θ ^ m * (derivative^[m] (legendre n)).eval (Real.cos θ)

/-- Degrees to radians. -/
noncomputable def rad (x : ℝ) : ℝ := x * (Real.pi / 180)

/-- Position of the coefficient `g_n^0` of degree `n` in a coefficient vector that starts at degree
`nmin` and keeps orders up to `mmax`: one coefficient for `m = 0` and two for each `1 ≤ m ≤ min n mmax`
of every earlier degree. -/
def coefStart (nmin mmax n : ℕ) : ℕ := ∑ k ∈ Finset.Ico nmin n, (2 * min k mmax + 1)

/-- Coefficient of `cos mφ` (`g_n^m`) in the vector. -/
def coefG (c : ℕ → ℝ) (nmin mmax n m : ℕ) : ℝ :=
  c (coefStart nmin mmax n + (if m = 0 then 0 else 2 * m - 1))

/-- Coefficient of `sin mφ` (`h_n^m`, `m > 0`) in the vector. -/
def coefH (c : ℕ → ℝ) (nmin mmax n m : ℕ) : ℝ :=
  if m = 0 then 0 else c (coefStart nmin mmax n + 2 * m)

/-- The surface harmonic of degree `n`, order `m` with its two coefficients. -/
noncomputable def surfaceTerm (c : ℕ → ℝ) (nmin mmax n m : ℕ) (θ φ : ℝ) : ℝ :=
  (coefG c nmin mmax n m * Real.cos (m * φ) + coefH c nmin mmax n m * Real.sin (m * φ)) *
    schmidt n m θ

/-- Potential of internal sources, reference radius `a` (`θ`, `φ` in radians). -/
noncomputable def potInt (a : ℝ) (c : ℕ → ℝ) (nmin nmax mmax : ℕ) (r θ φ : ℝ) : ℝ :=
  a * ∑ n ∈ Finset.Icc nmin nmax, ∑ m ∈ Finset.range (min n mmax + 1),
    (a / r) ^ (n + 1) * surfaceTerm c nmin mmax n m θ φ

/-- Potential of external sources. -/
noncomputable def potExt (a : ℝ) (c : ℕ → ℝ) (nmin nmax mmax : ℕ) (r θ φ : ℝ) : ℝ :=
  a * ∑ n ∈ Finset.Icc nmin nmax, ∑ m ∈ Finset.range (min n mmax + 1),
    (r / a) ^ n * surfaceTerm c nmin mmax n m θ φ

end ChaosMagPy.Spec
