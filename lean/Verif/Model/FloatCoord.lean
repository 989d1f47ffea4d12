import Verif.Model.FloatLegendre
/-!
# Model of `zenith_angle`, `spherical_to_cartesian` and `cartesian_to_spherical` (`chaosmagpy/coordinate_utils.py` 795-881) in double precision

For one point, with the rounding of every operation; the trigonometric functions of the platform are arguments. Simplification: overflow is not
modelled; a square `x**2` is the rounded product.
-/
namespace ChaosMagPy.FloatCoord
open ChaosMagPy.Spec ChaosMagPy.FloatLegendre

variable (R : Rounding)

/-- `np.degrees`: the product with the double `180/π`. -/
noncomputable def degrees (x : ℝ) : ℝ := R (x * R (180 / R Real.pi))

/-- `cos_zeta` of `zenith_angle` (lines 819-825) for a given position of the sun. -/
noncomputable def cosZeta (cosine sin : ℝ → ℝ) (thetaSun phiSun theta phi : ℝ) : ℝ :=
  let colat := radians R thetaSun
  let azim := radians R phiSun
  let theta := radians R theta
  let phi := radians R phi
  R (R (cosine theta * cosine colat) + R (R (sin theta * sin colat) * cosine (R (azim - phi))))

open Classical in
/-- The zenith angle of `zenith_angle` (lines 819-827) for a given position of the sun (line 817); `none` is NaN, which `np.arccos` returns outside
of `[-1, 1]`. -/
noncomputable def zenithAngle (cosine sin arccos : ℝ → ℝ) (thetaSun phiSun theta phi : ℝ) : F :=
  let c := cosZeta R cosine sin thetaSun phiSun theta phi
  if |c| ≤ 1 then some (degrees R (arccos c)) else none

/-- `spherical_to_cartesian(radius, theta, phi)` (lines 850-856). -/
noncomputable def sphericalToCartesian (cosine sin : ℝ → ℝ) (radius theta phi : ℝ) : ℝ × ℝ × ℝ :=
  let theta := radians R theta
  let phi := radians R phi
  (R (R (radius * cosine phi) * sin theta), R (R (radius * sin phi) * sin theta), R (radius * cosine theta))

/-- `cartesian_to_spherical(x, y, z)` (lines 877-881). -/
noncomputable def cartesianToSpherical (arctan2 : ℝ → ℝ → ℝ) (v : ℝ × ℝ × ℝ) : ℝ × ℝ × ℝ :=
  let x := v.1
  let y := v.2.1
  let z := v.2.2
  let radius := R (Real.sqrt (R (R (R (x * x) + R (y * y)) + R (z * z))))
  let theta := arctan2 (R (Real.sqrt (R (R (x * x) + R (y * y))))) z
  let phi := arctan2 y x
  (radius, degrees R theta, degrees R phi)

end ChaosMagPy.FloatCoord
