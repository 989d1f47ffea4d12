import Mathlib.Analysis.SpecialFunctions.Trigonometric.Basic
import Mathlib.Analysis.SpecialFunctions.Sqrt
/-!
# Specification of geodetic coordinates (C39)

Points of a meridional plane are pairs (distance from the axis, distance from the equatorial plane).
-/
namespace ChaosMagPy.Spec

/-- Radius of curvature in the prime vertical of the ellipsoid with semi-axes `a` and `b`, at a latitude in radians. -/
noncomputable def primeVertical (a b lat : ℝ) : ℝ := a ^ 2 / Real.sqrt (a ^ 2 * Real.cos lat ^ 2 + b ^ 2 * Real.sin lat ^ 2)

/-- The point with geodetic height `h` and latitude `lat`. -/
noncomputable def geodeticPoint (a b h lat : ℝ) : ℝ × ℝ :=
  ((primeVertical a b lat + h) * Real.cos lat, (primeVertical a b lat * (b ^ 2 / a ^ 2) + h) * Real.sin lat)

/-- The point with the given radius and colatitude in degrees. -/
noncomputable def geocentricPoint (radius theta : ℝ) : ℝ × ℝ :=
  (radius * Real.sin (theta * Real.pi / 180), radius * Real.cos (theta * Real.pi / 180))

/-- The vector with northward component `X` and downward component `Z` at a geodetic latitude (radians). -/
noncomputable def northDown (lat X Z : ℝ) : ℝ × ℝ := (-X * Real.sin lat - Z * Real.cos lat, X * Real.cos lat - Z * Real.sin lat)

/-- The vector with upward component `Br` and southward component `Bt` at a colatitude in degrees. -/
noncomputable def upSouth (theta Br Bt : ℝ) : ℝ × ℝ :=
  (Br * Real.sin (theta * Real.pi / 180) + Bt * Real.cos (theta * Real.pi / 180),
    Br * Real.cos (theta * Real.pi / 180) - Bt * Real.sin (theta * Real.pi / 180))

end ChaosMagPy.Spec
