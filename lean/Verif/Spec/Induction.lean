import Mathlib.Analysis.SpecialFunctions.Complex.Log
import Mathlib.Analysis.Calculus.Deriv.Basic
import Mathlib.Data.Set.Finite.Basic
/-!
# Specification: electromagnetic induction in a sphere

A time-harmonic field (angular frequency `w`, factor `exp(iwt)`) of spherical harmonic degree `n` in a sphere with
conductivity `sigma(r)`: the poloidal magnetic field is given by a radial function `u`,

  `B_r = n(n+1) u/r^2 Y`, `B_horizontal = u'/r ∇Y` (`∇` on the unit sphere),

which satisfies the induction equation `u'' = (n(n+1)/r^2 + i w mu0 sigma(r)) u` and is bounded at the centre.
-/
namespace ChaosMagPy.Spec

/-- A regular solution `u` with derivative `du` on `(0, r0]`: once continuously differentiable, with the induction
equation everywhere except at finitely many radii (interfaces). -/
structure InductionSolution (n : ℕ) (w mu0 : ℝ) (sigma : ℝ → ℝ) (r0 : ℝ) (u du : ℝ → ℂ) : Prop where
  hasDeriv : ∀ r, 0 < r → r ≤ r0 → HasDerivWithinAt u (du r) (Set.Iic r0) r
  continuous : ContinuousOn du (Set.Ioc 0 r0)
  equation : ∃ S : Set ℝ, S.Finite ∧ ∀ r, 0 < r → r < r0 → r ∉ S →
    HasDerivAt du (((n : ℂ) * (n + 1) / (r : ℂ) ^ 2 + Complex.I * w * mu0 * (sigma r : ℂ)) * u r) r
  bounded : ∃ M d : ℝ, 0 < d ∧ ∀ r, 0 < r → r < d → ‖u r‖ ≤ M

/-- Conductivity of a layered sphere. The layers are (conductivity at the top, radius of the top), outermost first; inside
a layer the conductivity is inversely proportional to the square of the radius. -/
noncomputable def conductivity : List (ℝ × ℝ) → ℝ → ℝ
  | [], _ => 0
  | [(s, a)], r => s * (a / r) ^ 2
  | (s, a) :: (s', a') :: ls, r => if r ≤ a' then conductivity ((s', a') :: ls) r else s * (a / r) ^ 2

/-- Layers with positive, strictly decreasing radii and conductivities that are not negative. -/
structure GoodLayers (ls : List (ℝ × ℝ)) : Prop where
  nonempty : ls ≠ []
  sigma : ∀ l ∈ ls, 0 ≤ l.1
  radius : ∀ l ∈ ls, 0 < l.2
  decreasing : (ls.map Prod.snd).Pairwise (· > ·)

/-- A solution above a perfectly conducting core of radius `rc`, on `[rc, r0]`: the radial field vanishes at the core. -/
structure CoreSolution (n : ℕ) (w mu0 : ℝ) (sigma : ℝ → ℝ) (rc r0 : ℝ) (u du : ℝ → ℂ) : Prop where
  hasDeriv : ∀ r, rc ≤ r → r ≤ r0 → HasDerivWithinAt u (du r) (Set.Icc rc r0) r
  continuous : ContinuousOn du (Set.Icc rc r0)
  equation : ∃ S : Set ℝ, S.Finite ∧ ∀ r, rc < r → r < r0 → r ∉ S →
    HasDerivAt du (((n : ℂ) * (n + 1) / (r : ℂ) ^ 2 + Complex.I * w * mu0 * (sigma r : ℂ)) * u r) r
  core : u rc = 0

/-- `C` (in metres) and `Q` are the responses of the conductor above the core: there is a field that does not vanish at the surface;
`u = C u'` at the surface for all fields; and the potential `r0 (e (r/r0)^n + i (r0/r)^(n+1)) Y` outside the conductor, with an external
(inducing) part `e` and an internal (induced) part `i`, fits continuously (radial and horizontal components) to a field inside if and only
if `i = Q e`. -/
structure CoreResponse (n : ℕ) (w mu0 : ℝ) (sigma : ℝ → ℝ) (rc r0 : ℝ) (C Q : ℂ) : Prop where
  solvable : ∃ u du, CoreSolution n w mu0 sigma rc r0 u du ∧ u r0 ≠ 0 ∧ du r0 ≠ 0
  surface : ∀ u du, CoreSolution n w mu0 sigma rc r0 u du → u r0 = C * du r0
  potential : ∀ e i : ℂ, (∃ u du, CoreSolution n w mu0 sigma rc r0 u du ∧ u r0 = (r0 : ℂ) ^ 2 * (i / n - e / (n + 1)) ∧ du r0 = -(r0 : ℂ) * (e + i)) ↔ i = Q * e

/-- Signs and bounds of the responses of degree `n` of a conductor with surface radius `s`. -/
structure Passive (n : ℕ) (s : ℝ) (C Q : ℂ) : Prop where
  weak : ‖Q‖ < n / (n + 1)
  re : 0 ≤ Q.re
  im : 0 ≤ Q.im
  pos : 0 < C.re
  le : C.re ≤ s / (n + 1)
  lag : C.im ≤ 0

/-- Conductivity of uniform layers (conductivity, radius of the top), outermost first; the innermost one reaches down to the core. -/
noncomputable def uniform : List (ℝ × ℝ) → ℝ → ℝ
  | [], _ => 0
  | [(s, _)], _ => s
  | (s, _) :: (s', a') :: ls, r => if r ≤ a' then uniform ((s', a') :: ls) r else s

/-- Conducting layers with decreasing radii above a core of radius `rc`. -/
structure GoodShells (ls : List (ℝ × ℝ)) (rc : ℝ) : Prop where
  nonempty : ls ≠ []
  sigma : ∀ l ∈ ls, 0 < l.1
  core : 0 < rc
  radius : ∀ l ∈ ls, rc < l.2
  decreasing : (ls.map Prod.snd).Pairwise (· > ·)

/-- The layers, each with the radius of its bottom. -/
def shells (ls : List (ℝ × ℝ)) (rc : ℝ) : List ((ℝ × ℝ) × ℝ) := ls.zip ((ls.map Prod.snd).tail ++ [rc])

end ChaosMagPy.Spec
