import Verif.Model.FloatBase
/-!
# Model of `geo_to_base` and `transform_points` (`chaosmagpy/coordinate_utils.py` 1335-1353, 1396-1430) in double precision

For one point, one time and one dipole, with the rounding of every operation. `dipole=None` is the same as the coefficients of the configuration.
-/
namespace ChaosMagPy.FloatBase
open ChaosMagPy.Spec ChaosMagPy.FloatLegendre

variable (R : Rounding)

/-- `a[0]*x + a[1]*y + a[2]*z`, from left to right. -/
noncomputable def row (a0 a1 a2 : F) (x y z : ℝ) : F := fadd R (fadd R (fmul R a0 (some x)) (fmul R a1 (some y))) (fmul R a2 (some z))

/-- `geo_to_base(theta, phi, base_1, base_2, base_3, inverse)` (lines 1335-1353). Simplification: the result is NaN if one of the three rotated coordinates is NaN
(in the code the colatitude is NaN then, the azimuth only if one of the first two is). -/
noncomputable def geoToBase (sin cos : ℝ → ℝ) (arctan2 : ℝ → ℝ → ℝ) (theta phi : ℝ) (base : FVec × FVec × FVec) (inverse : Bool) : F × F :=
  let c := FloatCoord.sphericalToCartesian R cos sin 1 theta phi
  let x := c.1
  let y := c.2.1
  let z := c.2.2
  let b1 := base.1
  let b2 := base.2.1
  let b3 := base.2.2
  let xRef := if inverse then row R (b1 0) (b2 0) (b3 0) x y z else row R (b1 0) (b1 1) (b1 2) x y z
  let yRef := if inverse then row R (b1 1) (b2 1) (b3 1) x y z else row R (b2 0) (b2 1) (b2 2) x y z
  let zRef := if inverse then row R (b1 2) (b2 2) (b3 2) x y z else row R (b3 0) (b3 1) (b3 2) x y z
  match xRef, yRef, zRef with
  | some x, some y, some z =>
    let s := FloatCoord.cartesianToSpherical R arctan2 (x, y, z)
    (some s.2.1, some s.2.2)
  | _, _, _ => (none, none)

/-- The three reference systems of `transform_points` (lines 1404-1420). -/
inductive Reference
  | gsm
  | sm
  | mag

/-- `transform_points(theta, phi, time, reference=..., inverse=..., dipole=(g10, g11, h11))` (lines 1396-1430) for a valid reference. -/
noncomputable def transformPoints (sum3 : F → F → F → F) (p : FloatSun.SunPlatform) (g10 g11 h11 : ℝ) (reference : Reference) (inverse : Bool) (theta phi time : ℝ) : F × F :=
  let vec := dipoleCoeffs R sum3 g10 g11 h11
  let base := match reference with
    | .gsm => baseGsm R sum3 p time vec
    | .sm => baseSm R sum3 p time vec
    | .mag => baseMag R sum3 vec
  geoToBase R p.sin p.cos p.arctan2 theta phi base inverse

end ChaosMagPy.FloatBase
